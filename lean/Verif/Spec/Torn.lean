import Verif.Spec.World
/-! # What a destructor that panics leaves alone -/
namespace Ellecs.World

/-- `z` is the last entity in the table of `e`. -/
def LastWith (w : World) (e z : EcsId) : Prop :=
  ∃ (k : Nat) (a : Archetype), w.archetypes[k]? = some a ∧ e ∈ a.entities ∧ a.entities.getLast? = some z

/-- Between `w` and `w'` nothing has changed that can be seen through the id of an entity other than `e` and the last entity in
the table of `e`. -/
structure Confined (w w' : World) (e : EcsId) : Prop where
  /-- The same ids are alive, and the same ids will be handed out. -/
  entities : w'.entities = w.entities
  types : w'.typeMap = w.typeMap
  row : ∀ x, x ≠ e → ¬ w.LastWith e x → (w'.Row x ↔ w.Row x)
  has : ∀ x, x ≠ e → ¬ w.LastWith e x → ∀ c bs, w'.Has x c bs ↔ w.Has x c bs
  ptr : ∀ x, x ≠ e → ¬ w.LastWith e x → ∀ c, w'.getComponentMutDynamic x c = w.getComponentMutDynamic x c

end Ellecs.World
