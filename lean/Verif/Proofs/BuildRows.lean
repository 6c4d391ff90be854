import Verif.Proofs.Safe
import Verif.Proofs.Shapes
import Verif.Proofs.Alloc
/-!
# How many rows `build` adds

Proved by going through the code, without the invariant of worlds.
-/
namespace Ellecs
open World

/-- In how many places of the tables `x` is. -/
def World.rows (w : World) (x : EcsId) : Nat := (w.archetypes.flatMap Archetype.entities).count x

namespace WorldSpec

theorem count_set {l : List Archetype} {x : EcsId} : ∀ {k : Nat} {a a' : Archetype}, l[k]? = some a →
    ((l.set k a').flatMap Archetype.entities).count x + a.entities.count x = (l.flatMap Archetype.entities).count x + a'.entities.count x := by
  induction l with
  | nil => intro k a a' h; simp at h
  | cons y l ih =>
    intro k a a' h
    cases k with
    | zero =>
      simp only [List.getElem?_cons_zero, Option.some.injEq] at h
      subst h
      simp only [List.set_cons_zero, List.flatMap_cons, List.count_append]
      omega
    | succ k =>
      simp only [List.getElem?_cons_succ] at h
      have := ih (a' := a') h
      simp only [List.set_cons_succ, List.flatMap_cons, List.count_append]
      omega

/-- The ids and the rows of all tables are as before. -/
def RowsStay (w w' : World) : Prop := w'.entities = w.entities ∧ ∀ x, w'.rows x = w.rows x

theorem RowsStay.refl (w : World) : RowsStay w w := ⟨rfl, fun _ => rfl⟩
theorem RowsStay.trans {w w1 w' : World} (h : RowsStay w w1) (h' : RowsStay w1 w') : RowsStay w w' :=
  ⟨h'.1.trans h.1, fun x => (h'.2 x).trans (h.2 x)⟩
theorem RowsStay.of_eq {w w' : World} (h : w'.entities = w.entities) (h' : w'.archetypes = w.archetypes) : RowsStay w w' :=
  ⟨h, fun x => by unfold World.rows; rw [h']⟩

theorem get_bind {β : Type} {f : World → M β} {w w' : World} {b : β} (h : (get >>= f) w = .ok b w') : f w w = .ok b w' := h

theorem liftE_bind {α β : Type} {x : Except Fault α} {f : α → M β} {w w' : World} {b : β} (h : (liftE x >>= f) w = .ok b w') :
    ∃ a, x = .ok a ∧ f a w = .ok b w' := by
  obtain ⟨a, w1, h1, h2⟩ := bind_ok h
  obtain ⟨h3, h4⟩ := liftE_ok h1
  subst h4
  exact ⟨a, h3, h2⟩

theorem pushComps_rows {b : Builder} {k : Nat} (ids : List EcsId) : ∀ {off : Nat} {w w' : World}, b.pushComps k off ids w = .ok () w' → RowsStay w w' := by
  induction ids with
  | nil => intro off w w' h; injection h with _ h; subst h; exact .refl w
  | cons id ids ih =>
    intro off w w' h
    unfold Builder.pushComps at h
    replace h := get_bind h
    obtain ⟨m, h1, h⟩ := liftE_bind h
    obtain ⟨m, h1, h⟩ := liftE_bind h
    obtain ⟨_, w1, h1, h⟩ := bind_ok h
    have hst := step_ok h1
    have key : RowsStay w1 w1 → RowsStay w1 w' := by
      intro _
      replace h := get_bind h
      obtain ⟨_, h2, h⟩ := liftE_bind h
      exact ih h
    refine RowsStay.trans ?_ (key (.refl _))
    split at hst
    · cases hst
    · rename_i a ha
      split at hst
      · cases hst
      · split at hst
        · cases hst
        · split at hst
          · cases hst
          · injection hst with hst; subst hst
            exact ⟨rfl, fun x => by
              have hc := fun st => count_set (x := x) ha (a' := { a with storages := st })
              exact Nat.add_right_cancel (hc _)⟩

theorem setEntityMeta_rows {w w' : World} {e : EcsId} {m : EntityMeta} (h : setEntityMeta w e m = .ok w') : RowsStay w w' := by
  unfold setEntityMeta at h
  split at h
  · cases h
  · injection h with h; subst h; exact .refl w
  · split at h <;> (injection h with h; subst h; exact .of_eq rfl rfl)

theorem ensureLocks_rows (ids : List EcsId) : ∀ w : World, (ids.foldl ensureLock w).entities = w.entities ∧ (ids.foldl ensureLock w).archetypes = w.archetypes := by
  induction ids with
  | nil => exact fun w => ⟨rfl, rfl⟩
  | cons id ids ih =>
    intro w
    have h1 : (ensureLock w id).entities = w.entities ∧ (ensureLock w id).archetypes = w.archetypes := by
      unfold ensureLock; split <;> exact ⟨rfl, rfl⟩
    exact ⟨(ih _).1.trans h1.1, (ih _).2.trans h1.2⟩

theorem createArchetype_rows {b b' : Builder} {a : Archetype} {w w' : World} (h : b.createArchetype w = .ok (b', a) w') :
    w' = w ∧ b'.entity = b.entity ∧ a.entities = [b.entity] := by
  unfold Builder.createArchetype at h
  replace h := get_bind h
  have hf : ∀ {f : Fault} {st : List (EcsId × UVec)}, failDropping (α := Builder × Archetype) f st w ≠ .ok (b', a) w' := by
    intro f st hh
    unfold failDropping at hh
    split at hh <;> cases hh
  cases hst : b.createStorages w 0 b.compIds [] with
  | error p =>
    obtain ⟨f, st⟩ := p
    simp only [hst] at h
    exact absurd h hf
  | ok st =>
    simp only [hst] at h
    cases hl : Builder.checkedLookup (stableSort EcsId.lt b.compIds).zipIdx (fun _ => none) with
    | error f =>
      simp only [hl] at h
      exact absurd h hf
    | ok l =>
      simp only [hl] at h
      split at h
      · injection h with h1 h2
        injection h1 with h1 h3
        subst h1 h2 h3
        exact ⟨rfl, rfl, rfl⟩
      · exact absurd h hf

/-- Every `build` that returns adds one row, for the entity of the builder. -/
theorem build_rows {b b' : Builder} {w w' : World} (h : b.build w = .ok b' w') :
    b'.entity = b.entity ∧ w'.entities = w.entities ∧ ∀ x, w'.rows x = w.rows x + if x = b.entity then 1 else 0 := by
  have one : ∀ x, [b.entity].count x = if x = b.entity then 1 else 0 := by
    intro x
    by_cases hx : x = b.entity
    · subst hx; simp
    · rw [if_neg hx]; exact List.count_eq_zero_of_not_mem (by simpa using hx)
  unfold Builder.build at h
  replace h := get_bind h
  obtain ⟨found, h2, h⟩ := liftE_bind h
  cases found with
  | some k =>
    simp only at h
    obtain ⟨_, w3, h3, h⟩ := bind_ok h
    have hst := step_ok h3
    obtain ⟨_, w4, h4, h⟩ := bind_ok h
    have hp := pushComps_rows _ h4
    replace h := get_bind h
    obtain ⟨a, h6, h⟩ := liftE_bind h
    obtain ⟨_, w7, h7, h⟩ := bind_ok h
    have hs := setEntityMeta_rows (step_ok h7)
    injection h with h1 h2; subst h1 h2
    have hps := hp.trans hs
    split at hst
    · cases hst
    · rename_i a' ha'
      injection hst with hst; subst hst
      refine ⟨rfl, hps.1, fun x => (hps.2 x).trans ?_⟩
      have hc := count_set (x := x) ha' (a' := { a' with entities := a'.entities ++ [b.entity] })
      simp only [List.count_append] at hc
      rw [← one x]
      simp only [World.rows]
      omega
  | none =>
    simp only at h
    obtain ⟨_, w3, h3, h⟩ := bind_ok h
    injection h3 with _ h3
    have e3 := ensureLocks_rows b.compIds w
    rw [show (b.compIds.foldl ensureLock w) = w3 from h3] at e3
    obtain ⟨⟨b1, a⟩, w4, h4, hz⟩ := bind_ok h
    clear h
    obtain ⟨c1, c2, c3⟩ := createArchetype_rows h4
    rw [c1] at hz
    obtain ⟨_, w5, h5, hy⟩ := bind_ok hz
    have hpa := step_ok h5
    replace hy := get_bind hy
    obtain ⟨_, w7, h7, h⟩ := bind_ok hy
    have hs := setEntityMeta_rows (step_ok h7)
    injection h with h1 h2; subst h1 h2
    have hpush : w5.entities = w3.entities ∧ w5.archetypes = w3.archetypes ++ [a] := by
      unfold pushArchetype at hpa
      split at hpa
      · cases hpa
      · split at hpa
        · cases hpa
        · injection hpa with hpa; subst hpa; exact ⟨rfl, rfl⟩
    refine ⟨c2, hs.1.trans (hpush.1.trans e3.1), fun x => (hs.2 x).trans ?_⟩
    unfold World.rows
    rw [hpush.2, e3.2, List.flatMap_append, List.count_append, ← one x, ← c3]
    simp

theorem orDrop_done {α : Type} {b : Builder} {x : M α} {a : α} {w w' : World} (h : b.orDrop x w = .ok a w') : x w = .ok a w' := by
  unfold Builder.orDrop at h
  split at h
  · rename_i hx; injection h with h1 h2; subst h1 h2; exact hx
  · split at h <;> cases h

theorem drop_rows {b : Builder} {w w' : World} (h : b.drop w = .ok () w') : RowsStay w w' := by
  unfold Builder.drop at h
  split at h
  · split at h
    · injection h with _ h; subst h; exact .of_eq rfl rfl
    · split at h
      · injection h with _ h; subst h; exact .refl _
      · cases h
  · injection h with _ h; subst h; exact .refl _

theorem new_rows {e : EcsId} {m : ComponentMeta} {b : Builder} {w w' : World} (h : Builder.new e m w = .ok b w') : b.entity = e ∧ RowsStay w w' := by
  unfold Builder.new at h
  split at h
  · injection h with h1 h2; subst h1 h2; exact ⟨rfl, .of_eq rfl rfl⟩
  · injection h with h1 h2; subst h1 h2; exact ⟨rfl, .refl _⟩

theorem withCapacity_rows {e : EcsId} {m : ComponentMeta} {n : Nat} {b : Builder} {w w' : World} (h : Builder.withCapacity e m n w = .ok b w') :
    b.entity = e ∧ RowsStay w w' := by
  unfold Builder.withCapacity at h
  split at h
  · injection h with h1 h2; subst h1 h2; exact ⟨rfl, .of_eq rfl rfl⟩
  · split at h
    · injection h with h1 h2; subst h1 h2; exact ⟨rfl, .refl _⟩
    · split at h
      · injection h with h1 h2; subst h1 h2; exact ⟨rfl, .refl _⟩
      · cases h

theorem spawnId_rows {w w' : World} {e : EcsId} (hw : w.entities.Wf) (h : spawnId w = .ok e w') :
    w'.entities.Wf ∧ (∀ x, w'.entities.Live x ↔ w.entities.Live x ∨ x = e) ∧ ¬ w.entities.Live e ∧ w'.archetypes = w.archetypes := by
  unfold spawnId at h
  rcases Entities.spawn_spec hw with ⟨s', h1, _⟩ | ⟨e', s', h1, h2, h3, h4, _⟩
  · rw [h1] at h; cases h
  · rw [h1] at h
    injection h with h5 h6; subst h5 h6
    exact ⟨h2, h3, fun hl => h4 e' hl rfl, rfl⟩

theorem getOrCreate_rows {w w' : World} {t : Ty} {c e : EcsId} (hw : w.entities.Wf) (he : w.entities.Live e) (h : getOrCreate t w = .ok c w') :
    w'.entities.Wf ∧ w'.entities.Live e ∧ w'.rows e = w.rows e := by
  unfold getOrCreate at h
  replace h := get_bind h
  cases ht : w.typeMap t with
  | some c' =>
    simp only [ht] at h
    injection h with _ h; subst h; exact ⟨hw, he, rfl⟩
  | none =>
    simp only [ht] at h
    obtain ⟨x, w2, h2, h⟩ := bind_ok h
    obtain ⟨s1, s2, s3, s4⟩ := spawnId_rows hw h2
    obtain ⟨b, w3, h3, h⟩ := bind_ok h
    obtain ⟨n1, n2⟩ := new_rows h3
    obtain ⟨b', w4, h4, h⟩ := bind_ok h
    obtain ⟨b1, b2, b3⟩ := build_rows (orDrop_done h4)
    obtain ⟨_, w5, h5, h⟩ := bind_ok h
    have d1 := drop_rows h5
    obtain ⟨_, w6, h6, h⟩ := bind_ok h
    have hst := step_ok h6
    have d2 : RowsStay w5 w6 := by
      split at hst
      · cases hst
      · cases hst
      · injection hst with hst; subst hst; exact .of_eq rfl rfl
    obtain ⟨_, w7, h7, h⟩ := bind_ok h
    injection h7 with _ h7
    injection h with _ h; subst h
    have d3 : RowsStay w6 w7 := by subst h7; exact .of_eq rfl rfl
    have d := (d1.trans d2).trans d3
    have hent : w7.entities = w2.entities := d.1.trans (b2.trans n2.1)
    have hne : e ≠ x := fun hh => s3 (hh ▸ he)
    refine ⟨hent ▸ s1, by rw [hent]; exact (s2 e).2 (Or.inl he), ?_⟩
    rw [d.2, b3, n2.2, n1, if_neg hne]
    unfold World.rows; rw [s4]; rfl

theorem withData_entity {b b' : Builder} {src : Bytes} {id : EcsId} {w : World} (h : b.withDynamicWithData src id w = .ok b') : b'.entity = b.entity := by
  unfold Builder.withDynamicWithData at h
  split at h
  · cases h
  · cases h
  · simp only at h
    split at h
    · cases h
    · rename_i b1 hr
      have hb : b1.entity = b.entity := by
        split at hr
        · unfold Builder.realloc at hr
          split at hr
          · cases hr
          · split at hr
            · cases hr
            · split at hr
              · injection hr with hr; subst hr; rfl
              · split at hr
                · injection hr with hr; subst hr; rfl
                · cases hr
        · injection hr with hr; subst hr; rfl
      split at h
      · cases h
      · split at h
        · cases h
        · injection h with h; subst h; exact hb

theorem withDyn_entity {b b' : Builder} {id : EcsId} {w : World} (h : b.withDynamic id w = .ok b') : b'.entity = b.entity := by
  unfold Builder.withDynamic at h
  split at h
  · cases h
  · cases h
  · split at h
    · cases h
    · injection h with h; subst h; rfl

/-- The call is `build`. -/
def BAct.isBuild : BAct → Bool
  | .build => true
  | _ => false

theorem act_rows {b b' : Builder} {x : BAct} {w w' : World} (hw : w.entities.Wf) (he : w.entities.Live b.entity) (h : b.act x w = .ok b' w') :
    b'.entity = b.entity ∧ w'.entities.Wf ∧ w'.entities.Live b.entity ∧ w'.rows b.entity = w.rows b.entity + if BAct.isBuild x then 1 else 0 := by
  unfold Builder.act at h
  have h := orDrop_done h
  cases x with
  | «with» t v =>
    obtain ⟨c, w1, h1, h⟩ := bind_ok h
    obtain ⟨g1, g2, g3⟩ := getOrCreate_rows hw he h1
    replace h := get_bind h
    obtain ⟨k1, k2⟩ := liftE_ok h
    subst k2
    exact ⟨withData_entity k1, g1, g2, g3⟩
  | withDynamic c =>
    replace h := get_bind h
    obtain ⟨k1, k2⟩ := liftE_ok h
    subst k2
    exact ⟨withDyn_entity k1, hw, he, rfl⟩
  | withDynamicWithData c v =>
    replace h := get_bind h
    obtain ⟨k1, k2⟩ := liftE_ok h
    subst k2
    exact ⟨withData_entity k1, hw, he, rfl⟩
  | build =>
    obtain ⟨b1, b2, b3⟩ := build_rows h
    exact ⟨b1, b2 ▸ hw, b2 ▸ he, by rw [b3, if_pos rfl]; rfl⟩

theorem acts_rows (xs : List BAct) : ∀ {b b' : Builder} {w w' : World}, w.entities.Wf → w.entities.Live b.entity → b.acts xs w = .ok b' w' →
    w'.rows b.entity = w.rows b.entity + xs.countP BAct.isBuild := by
  induction xs with
  | nil => intro b b' w w' _ _ h; injection h with _ h; subst h; rfl
  | cons x xs ih =>
    intro b b' w w' hw he h
    unfold Builder.acts at h
    obtain ⟨b1, w1, h1, h⟩ := bind_ok h
    obtain ⟨a1, a2, a3, a4⟩ := act_rows hw he h1
    have := ih a2 (by rw [a1]; exact a3) h
    rw [a1] at this
    rw [this, a4, List.countP_cons]
    omega

end WorldSpec
end Ellecs
