import Verif.Model.ArrayVecDrop
/-! # The life of an `ArrayVec` whose elements have destructors -/
namespace Ellecs.ArraySpec
variable {α : Type}

/-- None of the destructors of `l`, run in this order, unwinds. -/
def Quiet (pan : List α → α → Bool) (l : List α) : Prop := ∀ pre x post, l = pre ++ x :: post → pan pre x = false

/-- `Life pan n v handed dropped`: an `ArrayVec` of capacity `n` is `v` after some calls, each of which returned or
unwound; `handed` are the values handed to the calls, `dropped` the values whose destructor ran, in order.  The destructor of
`x` unwinds when `pan past x = true`, `past` being the values whose destructor ran before, in any of the calls. -/
inductive Life (pan : List α → α → Bool) (n : Nat) : ArrayVec α → List α → List α → Prop
  | new : Life pan n (.new n) [] []
  | push {v v' hs ds ds' e} (x : α) : Life pan n v hs ds →
      v.pushU (fun past => pan (ds ++ past)) x = (v', ds', e) → e ≠ .aborted →
      Life pan n v' (hs ++ [x]) (ds ++ ds')
  | pushStart {v v' hs ds ds' e} (x : α) : Life pan n v hs ds →
      v.pushStartU (fun past => pan (ds ++ past)) x = .ok (v', ds', e) → e ≠ .aborted →
      Life pan n v' (hs ++ [x]) (ds ++ ds')

end Ellecs.ArraySpec
