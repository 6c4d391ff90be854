import Verif.Model.Unwind
/-!
# Specification vocabulary for destructors that panic
-/
namespace Ellecs

/-- None of the drop calls `l`, made in this order, unwinds. -/
def Panics.Quiet (pan : Panics) (l : List DropEv) : Prop := ∀ pre ev post, l = pre ++ ev :: post → pan pre ev = false

/-- A list of drop calls, cut off after the first one that panics. -/
def cut : Panics → List DropEv → List DropEv
  | _, [] => []
  | pan, x :: xs => if pan [] x then [x] else x :: cut (fun past => pan (x :: past)) xs

/-- The drop calls made between two states of a world. -/
def World.newDrops (w w' : World) : List DropEv := w'.log.drop w.log.length

end Ellecs
