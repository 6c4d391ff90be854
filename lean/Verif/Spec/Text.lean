import Verif.Model.Text
/-! # Reading numbers in hexadecimal -/
namespace Ellecs.TextSpec

/-- The value of a digit. -/
def digitValue (c : Char) : Option Nat := "0123456789ABCDEF".toList.findIdx? (· == c)

/-- The number written by a list of hexadecimal digits. -/
def readHex (l : List Char) : Option Nat :=
  l.foldl (fun acc c => match acc, digitValue c with
    | some n, some d => some (16 * n + d)
    | _, _ => none) (some 0)

end Ellecs.TextSpec
