import Verif.Model.ArrayVec
/-! # Specification of `ArrayVec`: lists of bounded length -/
namespace Ellecs.ArraySpec
variable {α : Type}

/-- An `ArrayVec` of capacity `n` built by calls whose effect on a list is `l`. -/
inductive Hist (n : Nat) : ArrayVec α → List α → Prop
  | new : Hist n (.new n) []
  | push {v v' l} (x : α) : Hist n v l → v.push x = (true, v') → Hist n v' (l ++ [x])
  | pushFull {v v' l} (x : α) : Hist n v l → v.push x = (false, v') → Hist n v' l
  | pushStart {v v' l d} (x : α) : Hist n v l → v.pushStart x = .ok (d, v') → Hist n v' ((x :: l).take n)

end Ellecs.ArraySpec
