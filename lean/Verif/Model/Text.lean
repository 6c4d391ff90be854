import Verif.Model.Entities
/-!
# `Debug` and `Display` of ids

Text is a list of characters.  The formatting machinery of `core::fmt` is taken from its documentation.
-/
namespace Ellecs
namespace EcsId

/-- A digit of `{:X}` (entities.rs:8, 14, 20, 26). -/
def hexDigit (n : Nat) : Char :=
  if n < 10 then Char.ofNat (48 + n) else Char.ofNat (55 + n)

/-- `{:X}` of a number: no leading zeros, at least one digit (entities.rs:8, 14, 20, 26). -/
def upperHex (n : Nat) : List Char :=
  if n < 16 then [hexDigit n] else upperHex (n / 16) ++ [hexDigit (n % 16)]

/-- `{:#010X}`: the prefix `0x` and the digits, filled with zeros (after the prefix) up to ten characters
(entities.rs:8, 14, 20, 26). -/
def hex10 (n : Nat) : List Char :=
  let ds := upperHex n
  ['0', 'x'] ++ List.replicate (10 - (2 + ds.length)) '0' ++ ds

/-- `Debug for EcsIdGen` (entities.rs:6-10). -/
def debugGen (g : BitVec 32) : List Char := "EcsId generation: ".toList ++ hex10 g.toNat
/-- `Display for EcsIdGen` (entities.rs:12-16). -/
def displayGen (g : BitVec 32) : List Char := "Generation ".toList ++ hex10 g.toNat
/-- `Debug for EcsIdIndex` (entities.rs:18-22). -/
def debugIndex (i : BitVec 32) : List Char := "EcsId index: ".toList ++ hex10 i.toNat
/-- `Display for EcsIdIndex` (entities.rs:24-28). -/
def displayIndex (i : BitVec 32) : List Char := "Index ".toList ++ hex10 i.toNat

/-- `Display for EcsId` (entities.rs:33-37). -/
def display (e : EcsId) : List Char := displayGen e.gen ++ ", ".toList ++ displayIndex e.idx

/-- The derived `Debug for EcsId` (entities.rs:30), written with `{:?}`. -/
def debug (e : EcsId) : List Char := "EcsId(".toList ++ debugGen e.gen ++ ", ".toList ++ debugIndex e.idx ++ ")".toList

/-- The derived `Debug for EcsId` written with `{:#?}`: each field on a line of its own, indented by four
(entities.rs:30). -/
def debugPretty (e : EcsId) : List Char :=
  "EcsId(\n    ".toList ++ debugGen e.gen ++ ",\n    ".toList ++ debugIndex e.idx ++ ",\n)".toList

end EcsId
end Ellecs
