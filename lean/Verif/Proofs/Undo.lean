import Verif.Proofs.Split
/-!
# Calls that are undone or overridden
-/
namespace Ellecs
namespace AWorld

theorem same_cell {a : AWorld} {e c : EcsId} {v : Option Bytes} (h : a.cell e c = v) :
    { a with cell := fun x y => if x = e ∧ y = c then v else a.cell x y } = a := by
  refine ext' rfl rfl (fun _ => rfl) ?_ (fun _ => rfl) (fun _ => rfl)
  intro x y
  by_cases hx : x = e ∧ y = c
  · obtain ⟨rfl, rfl⟩ := hx; simp [h]
  · simp [hx]

/-- A write of the value that is there. -/
theorem write_same {a : AWorld} {e c : EcsId} {bs : Bytes} (h : a.cell e c = some bs) : (a.write e c bs).2 = a := by
  unfold write
  split
  · rfl
  · rfl
  · split
    · rfl
    · rfl
    · split
      · rfl
      · rfl
      · exact same_cell h

/-- A component is removed and added again with the value it had. -/
theorem remove_add {a a1 a2 : AWorld} {e c : EcsId} {m : ComponentMeta} {bs : Bytes} (he : a.isAlive e = .ok true) (hc : a.isAlive c = .ok true)
    (hcell : a.cell e c = some bs) (hm : a.info c = some m) (hlen : bs.length = m.layout.size) (hu : a.used c = true) (hl : a.lock c ≠ none)
    (h1 : a.removeDyn e c = (.ok (), a1)) (h2 : a1.addDyn e c bs = (.ok (), a2)) : a2 = a := by
  unfold removeDyn at h1
  rw [he, hc] at h1
  simp only at h1
  cases hie : a.info e with
  | none => rw [hie] at h1; cases h1
  | some me =>
    rw [hie, hcell] at h1
    simp only [Prod.mk.injEq, true_and] at h1
    subst h1
    unfold addDyn at h2
    have he' : AWorld.isAlive { a with cell := fun x y => if x = e ∧ y = c then none else a.cell x y } e = .ok true := he
    have hc' : AWorld.isAlive { a with cell := fun x y => if x = e ∧ y = c then none else a.cell x y } c = .ok true := hc
    rw [he', hc'] at h2
    simp only [hie, hm, and_self, if_true, Prod.mk.injEq, true_and] at h2
    rw [← hlen, List.take_length] at h2
    have h3 : ∀ b : AWorld, b.used = a.used → b.lock = a.lock → (b.use [c]).addLocks [c] = b := fun b q1 q2 =>
      use_used (by rw [q1]; exact hu) (by rw [q2]; exact hl)
    rw [h3 { a with cell := fun x y => if x = e ∧ y = c then some bs else if x = e ∧ y = c then none else a.cell x y } rfl rfl] at h2
    rw [← h2]
    refine ext' rfl rfl (fun _ => rfl) ?_ (fun _ => rfl) (fun _ => rfl)
    intro x y
    by_cases hx : x = e ∧ y = c
    · obtain ⟨rfl, rfl⟩ := hx; simp [hcell]
    · simp [hx]

/-- A write and then a removal. -/
theorem write_remove {a : AWorld} {e c : EcsId} {bs : Bytes} : (a.write e c bs).2.removeDyn e c = a.removeDyn e c := by
  unfold write
  cases he : a.isAlive e with
  | error f => rfl
  | ok b =>
    cases b with
    | false => rfl
    | true =>
      cases hc : a.isAlive c with
      | error f => rfl
      | ok b =>
        cases b with
        | false => rfl
        | true =>
          cases hie : a.info e with
          | none => rfl
          | some m =>
            cases hcell : a.cell e c with
            | none => rfl
            | some b =>
              have he' : AWorld.isAlive { a with cell := fun x' y' => if x' = e ∧ y' = c then some bs else a.cell x' y' } e = .ok true := he
              have hc' : AWorld.isAlive { a with cell := fun x' y' => if x' = e ∧ y' = c then some bs else a.cell x' y' } c = .ok true := hc
              simp only [removeDyn, he, hc, he', hc', hie, hcell, and_self, if_true]
              refine Prod.ext rfl (ext' rfl rfl (fun _ => rfl) ?_ (fun _ => rfl) (fun _ => rfl))
              intro x' y'
              by_cases hx : x' = e ∧ y' = c
              · simp [hx]
              · simp [hx]

/-- Despawning does not look at the values of the entity. -/
theorem despawn_row {a : AWorld} {e : EcsId} {r : EcsId → Option Bytes} :
    ({ a with cell := fun x y => if x = e then r y else a.cell x y }).despawn e = (match a.despawn e with
      | (.ok true, b) => (.ok true, b)
      | (x, _) => (x, { a with cell := fun x y => if x = e then r y else a.cell x y })) := by
  unfold despawn
  have he' : AWorld.isAlive { a with cell := fun x y => if x = e then r y else a.cell x y } e = a.isAlive e := rfl
  rw [he']
  cases he : a.isAlive e with
  | error f => rfl
  | ok b =>
    cases b with
    | false => rfl
    | true =>
      simp only
      cases hu : a.used e with
      | true => simp only [if_true]
      | false =>
        simp only [Bool.false_eq_true, if_false]
        cases hi : a.info e with
        | none => rfl
        | some m =>
          cases hd : a.ents.despawn e with
          | error f => rfl
          | ok p =>
            simp only
            refine Prod.ext rfl (ext' rfl rfl (fun _ => rfl) ?_ (fun _ => rfl) (fun _ => rfl))
            intro x y
            by_cases hx : x = e <;> simp [hx]

/-- What the calls about one entity do to the components in use and the locks. -/
def Marks (l : List EcsId) (E : Eff) : Prop := (∀ c ∈ E.us, c ∈ l) ∧ ∀ c ∈ E.ls, c ∈ l

theorem apply_marked {e : EcsId} {E : Eff} {a : AWorld} {l : List EcsId} (hE : Marks l E) (hl : ∀ c ∈ l, a.used c = true ∧ a.lock c ≠ none) :
    (apply e E a).2 = { a with cell := fun x y => if x = e then E.row y else a.cell x y } := by
  refine ext' rfl rfl (fun _ => rfl) (fun _ _ => rfl) ?_ ?_
  · intro x
    simp only [apply, addLocks, use]
    cases hx : E.us.contains x with
    | false => simp
    | true => simp [(hl x (hE.1 x (List.contains_iff_mem.1 hx))).1]
  · intro x
    simp only [apply, addLocks, use]
    by_cases hx : x ∈ E.ls
    · simp [(hl x (hE.2 x hx)).2]
    · simp [hx]

theorem marks_add (e c : EcsId) (src : Bytes) (r : Reads) : Marks [c] (addEff e c src r) := by
  unfold addEff Marks
  repeat' split
  all_goals simp

theorem marks_zst (e c : EcsId) (r : Reads) : Marks [c] (zstEff e c r) := by
  unfold zstEff
  repeat' split
  all_goals first | exact marks_add e c [] r | simp [Marks]

theorem marks_remove (e c : EcsId) (r : Reads) : Marks [] (removeEff e c r) := by
  unfold removeEff Marks
  repeat' split
  all_goals simp

theorem marks_write (e c : EcsId) (bs : Bytes) (r : Reads) : Marks [] (writeEff e c bs r) := by
  unfold writeEff Marks
  repeat' split
  all_goals simp

/-- The component a call adds. -/
def AddsC (a : AWorld) : World.Call → EcsId → Prop
  | .addComponent _ t _, x => a.types t = some x
  | .addDynamic _ y, x => y = x
  | .addDynamicWithData _ y _, x => y = x
  | _, _ => False

/-- The component a call on a builder names. -/
def Named (a : AWorld) : BAct → EcsId → Prop
  | .with t _, c => a.types t = some c
  | .withDynamic y, c => y = c
  | .withDynamicWithData y _, c => y = c
  | .build, _ => False

/-- A call about an entity and then its despawning. -/
theorem step_despawn {e : EcsId} {c : World.Call} (h : World.Concerns e c) {a : AWorld}
    (hu : ∀ x, AddsC a c x → a.used x = true ∧ a.lock x ≠ none) (ht : ∀ t, typeOf c = some t → a.types t ≠ none) :
    ∃ r : EcsId → Option Bytes, (a.step c).2 = { a with cell := fun x y => if x = e then r y else a.cell x y } := by
  cases c with
  | addComponent x t v =>
    cases h
    obtain ⟨d, hd⟩ := Option.ne_none_iff_exists'.1 (ht t rfl)
    have hm : Marks [d] (addTEff e t v (reads e a)) := by
      unfold addTEff
      simp only [reads, hd]
      split
      · simp [Marks]
      · simp [Marks]
      · rename_i hh; cases hh
      · rename_i hh; cases hh; exact marks_add _ _ _ _
    exact ⟨_, by rw [step, addComponent_eff _ _ _ _ (ht t rfl)]; exact apply_marked hm (fun z hz => by rw [List.mem_singleton] at hz; subst hz; exact hu _ hd)⟩
  | removeComponent x t =>
    cases h
    have hm : Marks [] (removeTEff e t (reads e a)) := by
      unfold removeTEff
      split
      · simp [Marks]
      · simp [Marks]
      · simp [Marks]
      · exact marks_remove _ _ _
    exact ⟨_, by rw [step, removeComponent_eff _ _ _ (ht t rfl)]; exact apply_marked hm (by simp)⟩
  | addDynamic x y =>
    cases h
    exact ⟨_, by rw [step, addZst_eff]; exact apply_marked (marks_zst _ _ _) (fun z hz => by rw [List.mem_singleton] at hz; subst hz; exact hu _ rfl)⟩
  | addDynamicWithData x y src =>
    cases h
    exact ⟨_, by rw [step, addDyn_eff]; exact apply_marked (marks_add _ _ _ _) (fun z hz => by rw [List.mem_singleton] at hz; subst hz; exact hu _ rfl)⟩
  | removeDynamic x y =>
    cases h
    exact ⟨_, by rw [step, removeDyn_eff]; exact apply_marked (marks_remove _ _ _) (by simp)⟩
  | write x y bs =>
    cases h
    exact ⟨_, by rw [step, write_eff]; exact apply_marked (marks_write _ _ _ _) (by simp)⟩
  | spawn _ _ => exact absurd h id
  | despawn _ => exact absurd h id
  | register _ => exact absurd h id
  | query _ _ => exact absurd h id
  | queryDynamic _ _ => exact absurd h id

/-- Many calls about an entity. -/
theorem steps_row {e : EcsId} (cs : List World.Call) : ∀ {a : AWorld}, (∀ c ∈ cs, World.Concerns e c ∧ (∀ x, AddsC a c x → a.used x = true ∧ a.lock x ≠ none) ∧ ∀ t, typeOf c = some t → a.types t ≠ none) →
    ∃ r : EcsId → Option Bytes, (a.answers (cs.map .call)).2 = { a with cell := fun x y => if x = e then r y else a.cell x y } := by
  induction cs with
  | nil =>
    intro a _
    refine ⟨a.cell e, ext' rfl rfl (fun _ => rfl) ?_ (fun _ => rfl) (fun _ => rfl)⟩
    intro x y
    by_cases hx : x = e
    · subst hx; simp [answers]
    · simp [answers, hx]
  | cons c cs ih =>
    intro a h
    obtain ⟨h1, h2, h3⟩ := h c List.mem_cons_self
    obtain ⟨r, hr⟩ := step_despawn h1 h2 h3
    obtain ⟨r', hr'⟩ := ih (a := { a with cell := fun x y => if x = e then r y else a.cell x y }) (fun c hc => h c (List.mem_cons_of_mem _ hc))
    refine ⟨r', ?_⟩
    simp only [List.map_cons, answers, ask, hr, hr']
    refine ext' rfl rfl (fun _ => rfl) ?_ (fun _ => rfl) (fun _ => rfl)
    intro x y
    by_cases hx : x = e <;> simp [hx]

theorem answers_append (xs ys : List World.Ask) (a : AWorld) :
    a.answers (xs ++ ys) = ((a.answers xs).1 ++ ((a.answers xs).2.answers ys).1, ((a.answers xs).2.answers ys).2) := by
  induction xs generalizing a with
  | nil => rfl
  | cons x xs ih => simp only [List.cons_append, answers, ih]

/-- Calls on a builder with components that exist. -/
theorem acts_known (xs : List BAct) : ∀ {d d' : Draft} {a a' : AWorld}, BAct.build ∉ xs → (∀ t v, BAct.with t v ∈ xs → a.types t ≠ none) →
    acts d xs a = (.ok d', a') → a' = a ∧ d'.entity = d.entity ∧ d'.cmeta = d.cmeta ∧ ∀ c ∈ d'.vals.map Prod.fst, c ∈ d.vals.map Prod.fst ∨ ∃ x ∈ xs, Named a x c := by
  induction xs with
  | nil =>
    intro d d' a a' _ _ h
    simp only [acts, Prod.mk.injEq, Except.ok.injEq] at h
    obtain ⟨rfl, rfl⟩ := h
    exact ⟨rfl, rfl, rfl, fun c hc => Or.inl hc⟩
  | cons x xs ih =>
    intro d d' a a' hb ht h
    simp only [List.mem_cons, not_or] at hb
    have key : ∀ d1, a.act d x = (.ok d1, a) → (∃ c v, d1 = { d with vals := d.vals ++ [(c, v)] } ∧ Named a x c) → a' = a ∧ d'.entity = d.entity ∧ d'.cmeta = d.cmeta ∧ ∀ c ∈ d'.vals.map Prod.fst, c ∈ d.vals.map Prod.fst ∨ ∃ x' ∈ x :: xs, Named a x' c := by
      rintro d1 h1 ⟨c, v, rfl, hm⟩
      rw [acts, h1] at h
      obtain ⟨k1, k2, k3, k4⟩ := ih hb.2 (fun t v hh => ht t v (List.mem_cons_of_mem _ hh)) h
      refine ⟨k1, k2, k3, fun y hy => ?_⟩
      rcases k4 y hy with hy | ⟨x', q1, q2⟩
      · simp only [List.map_append, List.mem_append, List.map_cons, List.map_nil, List.mem_singleton] at hy
        rcases hy with hy | rfl
        · exact Or.inl hy
        · exact Or.inr ⟨x, List.mem_cons_self, hm⟩
      · exact Or.inr ⟨x', List.mem_cons_of_mem _ q1, q2⟩
    cases x with
    | build => exact absurd rfl hb.1
    | «with» t v =>
      obtain ⟨c, hc⟩ := Option.ne_none_iff_exists'.1 (ht t v List.mem_cons_self)
      have hr : a.register t = (.ok c, a) := by unfold register; rw [hc]
      cases hg : a.give c v d with
      | mk r a1 =>
        have ha : a.act d (.with t v) = (r, a1) := by simp only [act, hr, hg]
        cases r with
        | error f => rw [acts, ha] at h; simp at h
        | ok d1 =>
          obtain ⟨m, hm, rfl, rfl⟩ := WorldSpec.give_vals hg
          exact key _ ha ⟨c, _, rfl, hc⟩
    | withDynamicWithData c v =>
      cases hg : a.give c v d with
      | mk r a1 =>
        have ha : a.act d (.withDynamicWithData c v) = (r, a1) := hg
        cases r with
        | error f => rw [acts, ha] at h; simp at h
        | ok d1 =>
          obtain ⟨m, hm, rfl, rfl⟩ := WorldSpec.give_vals hg
          exact key _ ha ⟨c, _, rfl, rfl⟩
    | withDynamic c =>
      cases hg : a.act d (.withDynamic c) with
      | mk r a1 =>
        cases r with
        | error f => rw [acts, hg] at h; simp at h
        | ok d1 =>
          have hg' := hg
          simp only [act] at hg'
          split at hg'
          · simp at hg'
          · split at hg'
            · simp at hg'
            · split at hg'
              · simp at hg'
              · simp only [Prod.mk.injEq, Except.ok.injEq] at hg'
                obtain ⟨rfl, rfl⟩ := hg'
                exact key _ hg ⟨c, [], rfl, rfl⟩

/-- Building with components in use leaves the components in use and the locks as they are. -/
theorem finish_known {a : AWorld} {d : Draft} (h : ∀ c ∈ d.vals.map Prod.fst, a.used c = true ∧ a.lock c ≠ none) :
    a.finish d = { a with
      info := fun x => if x = d.entity then some d.cmeta else a.info x
      cell := fun x y => if x = d.entity then d.vals.lookup y else a.cell x y } := by
  refine ext' rfl rfl (fun _ => rfl) (fun _ _ => rfl) ?_ ?_
  · intro x
    simp only [finish, use, addLocks]
    cases hx : (d.vals.map Prod.fst).contains x with
    | false => simp
    | true => simp [(h x (List.contains_iff_mem.1 hx)).1]
  · intro x
    simp only [finish, use, addLocks]
    by_cases hx : x ∈ d.vals.map Prod.fst
    · simp [(h x hx).2]
    · simp only [hx, false_and, if_false]

end AWorld
end Ellecs
