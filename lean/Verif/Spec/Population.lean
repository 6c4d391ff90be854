import Verif.Spec.History
/-!
# Specification: the population of a world

Which entities were built and not despawned in a history of calls, told by the calls and their results alone: nothing here looks at a
table.  An entity enters the population when its builder's `build` returns (entity_builder.rs:229-305) or when it is the entity created
for a Rust type that was never seen before (world.rs:440-455), and it leaves it when a `despawn` of it returns (world.rs:339-357).
-/
namespace Ellecs.WorldSpec
open World

/-- The chain of calls on the builder of `e` gets as far as completing `build`. -/
def Builds (w : World) (kind : SpawnKind) (acts : List BAct) (e : EcsId) : Prop :=
  ∃ w1 b w2 pre post b' w3, spawnId w = .ok e w1 ∧ mkBuilder kind e w1 = .ok b w2 ∧ acts = pre ++ post ∧ .build ∈ pre ∧ b.acts pre w2 = .ok b' w3

/-- How one call changes a set of entities: `despawn` removes, `build` and the registration of types add. -/
def Changes (w w' : World) (c : Call) (returned : Prop) (P P' : EcsId → Prop) : Prop :=
  ∀ x, P' x ↔ (P x ∧ ¬ (c = .despawn x ∧ returned)) ∨ NewTy w w' x ∨ ∃ kind acts, c = .spawn kind acts ∧ Builds w kind acts x

/-- The entities built and not despawned in a history that led to a world. -/
inductive Population : World → (EcsId → Prop) → Prop
  | new : Population World.new (fun _ => False)
  | ok {w w' : World} {P P' : EcsId → Prop} (c : Call) : Population w P → c.Ok w → c.exec w = .ok () w' → w'.NoFullSlot →
      Changes w w' c True P P' → Population w' P'
  | panic {w w' : World} {P P' : EcsId → Prop} (c : Call) (f : Fault) : Population w P → c.Ok w → c.exec w = .error f w' → ¬ Limit f →
      f ≠ .deadlock → w'.NoFullSlot → Changes w w' c False P P' → Population w' P'

end Ellecs.WorldSpec
