import Verif.Spec.History
/-!
# The most ids that were alive at once

For C84.  Ids are alive from the call that made them to the call that despawned them; this includes the ids of
component types and those of builders that were dropped without `build`.
-/
namespace Ellecs
namespace World

/-- `n` ids are alive. -/
def Census (w : World) (n : Nat) : Prop := ∃ l : List EcsId, l.Nodup ∧ l.length = n ∧ ∀ e, e ∈ l ↔ w.isAlive e = .ok true

/-- A program can get into `w` in such a way that at most `n` ids, and at some time `n` ids, were alive between two calls. -/
inductive Peak : World → Nat → Prop
  | new : Peak World.new 0
  | ok {w w' : World} {n k : Nat} (c : Call) : Peak w n → c.Ok w → c.exec w = .ok () w' → w'.NoFullSlot → Census w' k → Peak w' (max n k)
  | panic {w w' : World} {n k : Nat} (c : Call) (f : Fault) : Peak w n → c.Ok w → c.exec w = .error f w' → ¬ Limit f → f ≠ .deadlock →
      w'.NoFullSlot → Census w' k → Peak w' (max n k)

/-- Number of entities in the tables. -/
def stored (w : World) : Nat := (w.archetypes.map (fun a => a.entities.length)).sum

end World
end Ellecs
