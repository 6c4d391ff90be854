import Verif.Proofs.Demo
/-!
# Facts about the concrete world

Used by the examples beside the theorems.
-/
namespace Ellecs.WorldSpec
open World Demo

theorem demo_small : demo.archetypes.length < 2 ^ 32 := by decide +kernel
theorem demo_typeA : demo.typeMap tA = some (ent 1) := by decide +kernel
theorem demo_typeB : demo.typeMap tB = some (ent 2) := by decide +kernel
theorem demo_typeZ : demo.typeMap tZ = some (ent 4) := by decide +kernel

/-- The metadata of `A`, `B` and `Z`. -/
def metaA : ComponentMeta := ⟨some (.generic tA), tA.layout⟩
def metaB : ComponentMeta := ⟨some (.generic tB), tB.layout⟩
def metaZ : ComponentMeta := ⟨some (.generic tZ), tZ.layout⟩
theorem infoA : demo.InfoIs (ent 1) metaA := by decide +kernel
theorem infoB : demo.InfoIs (ent 2) metaB := by decide +kernel
theorem infoZ : demo.InfoIs (ent 4) metaZ := by decide +kernel

theorem table2_some : (demo.archetypes[2]?).isSome = true := by decide +kernel
theorem table4_some : (demo.archetypes[4]?).isSome = true := by decide +kernel
/-- The tables of entities 3 and 0. -/
def table2 : Archetype := (demo.archetypes[2]?).get table2_some
def table4 : Archetype := (demo.archetypes[4]?).get table4_some
theorem table2_at : demo.archetypes[2]? = some table2 := by unfold table2; exact (Option.some_get table2_some).symm
theorem table4_at : demo.archetypes[4]? = some table4 := by unfold table4; exact (Option.some_get table4_some).symm
theorem three_row : table2.entities[0]? = some (ent 3) := by decide +kernel
theorem zero_row : table4.entities[0]? = some (ent 0) := by decide +kernel

theorem not_hasT {w : World} {e c : EcsId} {t : Ty} (ht : w.typeMap t = some c) (h : ¬ w.HasComp e c) (bs : Bytes) : ¬ w.HasT e t bs := by
  rintro ⟨c', h1, h2⟩
  rw [ht] at h1
  injection h1 with h1; subst h1
  exact h ⟨bs, h2⟩

theorem not_hasT_none {w : World} {e : EcsId} {t : Ty} (ht : w.typeMap t = none) (bs : Bytes) : ¬ w.HasT e t bs := by
  rintro ⟨c, h, _⟩
  rw [ht] at h; cases h

instance decPointsAt (w : World) (p : Ptr) (e c : EcsId) : Decidable (w.PointsAt p e c) :=
  match p with
  | ⟨.null, _⟩ => .isFalse (by rintro ⟨_, _, _, _, _, _, _, _, h⟩; cases h)
  | ⟨.entities _, _⟩ => .isFalse (by rintro ⟨_, _, _, _, _, _, _, _, h⟩; cases h)
  | ⟨.storage k j, n⟩ =>
    decidable_of_iff (∃ a ∈ w.archetypes[k]?, ∃ x ∈ a.storages[j]?, x.1 = c ∧ ∃ r < a.entities.length, a.entities[r]? = some e ∧ n = r * x.2.size) (by
      constructor
      · rintro ⟨a, h1, ⟨c', v⟩, h2, h3, r, _, h4, h5⟩
        cases h3
        exact ⟨k, j, r, a, v, h1, h4, h2, by rw [h5]⟩
      · rintro ⟨k', j', r, a, v, h1, h2, h3, h4⟩
        cases h4
        exact ⟨a, h1, (c, v), h3, rfl, r, (List.getElem?_eq_some_iff.1 h2).1, h2, rfl⟩)

theorem six_A : demo.PointsAt ⟨.storage 1 0, 0⟩ (ent 6) (ent 1) := by decide +kernel
theorem six_B : demo.PointsAt ⟨.storage 1 1, 0⟩ (ent 6) (ent 2) := by decide +kernel
theorem three_A : demo.PointsAt ⟨.storage 2 0, 0⟩ (ent 3) (ent 1) := by decide +kernel

end Ellecs.WorldSpec
