import Verif.Spec.History
/-!
# Specification: programs without a bound on recycling

`Reachable` leaves out worlds in which a slot was recycled `2^32` times.  These histories do not.
-/
namespace Ellecs.World

/-- The calls, made one after the other, all return. -/
inductive Returns : World → List Call → World → Prop
  | nil (w : World) : Returns w [] w
  | cons {w w1 w' : World} {c : Call} {cs : List Call} : c.Ok w → c.exec w = .ok () w1 → Returns w1 cs w' → Returns w (c :: cs) w'

/-- Build an entity without components and despawn it, `n` times.  All of them get slot 0 if that slot, with generation
0, is the one on top of the free list. -/
def recycle (n : Nat) : List Call :=
  (List.range n).flatMap fun i => [.spawn .plain [.build], .despawn ⟨BitVec.ofNat 32 (i + 1), 0⟩]

/-- Ask for the id of a type, despawn it, recycle its slot `n` times, and build an entity without components. -/
def revive (t : Ty) (n : Nat) : List Call := [.register t, .despawn ⟨0, 0⟩] ++ recycle n ++ [.spawn .plain [.build]]

end Ellecs.World
