import Verif.Spec.History
/-!
# What tables remember about moves

Every table has a map from components to tables, and a short array of entries of that map (`AddRemoveCache`, world.rs:29-32): where
an entity of this table goes when the component is added or removed.
-/
namespace Ellecs
namespace World

/-- Table `k` has it in its map that adding or removing `c` leads to table `t`. -/
def Knows (w : World) (k : Nat) (c : EcsId) (t : Nat) : Prop := ∃ a, w.archetypes[k]? = some a ∧ a.cache.lookup c = some t

/-- Table `k` has it in its array that adding or removing `c` leads to table `t`. -/
def Recent (w : World) (k : Nat) (c : EcsId) (t : Nat) : Prop :=
  ∃ a l, w.archetypes[k]? = some a ∧ a.cache.cache.asSlice = .ok l ∧ (c, t) ∈ l

/-- `e` is in table `k`. -/
def Sits (w : World) (e : EcsId) (k : Nat) : Prop := ∃ a, w.archetypes[k]? = some a ∧ e ∈ a.entities

/-- Any calls were made, returning or panicking. -/
inductive Since : World → World → Prop
  | refl (w : World) : Since w w
  | ok {w w1 w2 : World} (c : Call) : Since w w1 → c.exec w1 = .ok () w2 → Since w w2
  | panic {w w1 w2 : World} (c : Call) (f : Fault) : Since w w1 → c.exec w1 = .error f w2 → Since w w2

end World
end Ellecs
