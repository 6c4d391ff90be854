import Verif.Proofs.Move
/-! # Adding and removing components -/
namespace Ellecs
namespace World

/-- `w'` is `w` except that the components of `e` are given by `P` (and tables, locks may have been created). -/
structure Upd (w w' : World) (e : EcsId) (P : EcsId → Bytes → Prop) : Prop where
  inv : Inv w'
  ent : w'.entities = w.entities
  comp : ∀ i, compOf w'.metas i = compOf w.metas i
  typ : w'.typeMap = w.typeMap
  reuse : w'.reuse = w.reuse
  look : ∀ id i, w.lockLookup id = some i → w'.lockLookup id = some i
  locks : ∃ n, w'.locks = w.locks ++ List.replicate n RwLock.new
  row : ∀ x, w'.Row x ↔ w.Row x
  others : ∀ x, x ≠ e → ∀ c bs, w'.Has x c bs ↔ w.Has x c bs
  self : ∀ c bs, w'.Has e c bs ↔ P c bs
  used : ∀ c, w.Used c → w'.Used c
  tight : ∀ c, w'.lockLookup c ≠ none → w.lockLookup c ≠ none ∨ ∃ bs, P c bs
  usedOnly : ∀ c, w'.Used c → w.Used c ∨ ∃ bs, P c bs

theorem has_used {w : World} (h : Inv w) {e c : EcsId} {bs : Bytes} (hh : w.Has e c bs) : w.Used c := by
  obtain ⟨k, r, a, v, h1, _, h3, _⟩ := hh
  have hm := List.mem_of_getElem? h1
  refine ⟨a, hm, ?_⟩
  rw [← (h.shape a hm).ids]
  exact List.mem_map_of_mem (f := Prod.fst) h3

theorem Same.used {w w' : World} (h : Same w w') {c : EcsId} (hc : w.Used c) : w'.Used c := by
  obtain ⟨a, ha, hc⟩ := hc
  obtain ⟨k, hk⟩ := List.mem_iff_getElem?.1 ha
  obtain ⟨cc, h1⟩ := h.keep k a hk
  exact ⟨_, List.mem_of_getElem? h1, hc⟩

theorem used_ids {w w' : World} (h : w'.archetypes.map Archetype.compIds = w.archetypes.map Archetype.compIds) {c : EcsId}
    (hc : w.Used c) : w'.Used c := by
  obtain ⟨a, ha, hc⟩ := hc
  have : a.compIds ∈ w'.archetypes.map Archetype.compIds := by rw [h]; exact List.mem_map_of_mem ha
  obtain ⟨a', ha', e⟩ := List.mem_map.1 this
  exact ⟨a', ha', by rw [e]; exact hc⟩

theorem Moved.upd {w w1 w' : World} {e : EcsId} {f : EcsId → Option Bytes} (h : Moved w1 w' e f) (hi : Inv w)
    (hi1 : Inv w1) (hs : Same w w1)
    (ht : ∀ c, w1.lockLookup c ≠ none → w.lockLookup c ≠ none ∨ ∃ bs, f c = some bs)
    (hu : ∀ c, w1.Used c → w.Used c ∨ ∃ bs, f c = some bs) :
    Upd w w' e (fun c bs => f c = some bs) where
  inv := h.inv
  ent := h.ent.trans hs.ent
  comp := fun i => (h.comp i).trans (by rw [hs.metas])
  typ := h.typ.trans hs.typ
  reuse := h.reuse.trans hs.reuse
  look := fun id i hl => by rw [h.look]; exact hs.look id i hl
  locks := by rw [h.locks]; exact hs.locks
  row := fun x => (h.row x).trans (hs.hasRow x)
  others := fun x hx c bs => (h.others x hx c bs).trans (hs.has hi.shape hi1.shape x c bs)
  self := h.self
  used := fun c hc => used_ids h.ids (hs.used hc)
  tight := fun c hc => ht c (by rw [← h.look]; exact hc)
  usedOnly := fun c hc => hu c ((used_ids_iff h.ids c).1 hc)

/-- Changing the log preserves the invariant. -/
theorem Inv.withLog {w : World} (h : Inv w) (l : List DropEv) : Inv { w with log := l } :=
  ⟨h.ent, h.loc, h.shape, h.col, h.bits, h.cache, h.lock, h.type, h.arch0, h.uniq, h.reuse⟩

theorem Upd.withLog {w w' : World} {e : EcsId} {P : EcsId → Bytes → Prop} (h : Upd w w' e P) (l : List DropEv) :
    Upd w { w' with log := l } e P :=
  ⟨h.inv.withLog l, h.ent, h.comp, h.typ, h.reuse, h.look, h.locks, h.row, h.others, h.self, h.used, h.tight, h.usedOnly⟩

theorem hasComp_at {w : World} (h : Inv w) {e : EcsId} {k r : Nat} {a : Archetype}
    (ha : w.archetypes[k]? = some a) (hr : a.entities[r]? = some e) (c : EcsId) :
    w.HasComp e c ↔ c ∈ a.compIds := by
  have hrow : rowOf w.archetypes k r = some e := by rw [rowOf_eq ha]; exact hr
  have hm := List.mem_of_getElem? ha
  have hlt := (List.getElem?_eq_some_iff.1 hr).1
  unfold HasComp
  simp only [has_at h hrow, cellOf_eq ha]
  rw [← (h.shape a hm).ids]
  constructor
  · rintro ⟨bs, hb⟩
    apply Classical.byContradiction
    intro hc
    rw [elemsOf_eq_none.2 hc] at hb; cases hb
  · intro hc
    cases he : elemsOf a.storages c with
    | none => exact absurd hc (elemsOf_eq_none.1 he)
    | some l =>
      have := col_len (h.col a hm) he
      exact ⟨l[r]'(by rw [this]; exact hlt), by simp⟩

/-- Every answer of `is_alive`. -/
theorem isAlive_answer {w : World} (h : Inv w) (e : EcsId) :
    (w.isAlive e = .error .noGeneration ∧ ¬ w.entities.Live e) ∨
    (w.isAlive e = .ok false ∧ ¬ w.entities.Live e) ∨ (w.isAlive e = .ok true ∧ w.entities.Live e) := by
  unfold World.isAlive
  rcases w.entities.isAlive_cases e with ⟨h1, h2⟩ | ⟨h1, h2, _⟩ | ⟨h1, h2⟩
  · exact Or.inl ⟨h1, fun hl => by have := hl.lt; omega⟩
  · exact Or.inr (Or.inl ⟨h1, h2⟩)
  · exact Or.inr (Or.inr ⟨h1, h2⟩)

/-- What `add_component_dynamic_with_data` does. -/
theorem addDyn_spec {w : World} (h : Inv w) (e c : EcsId) {src : Bytes}
    (hsrc : ∀ m, w.entities.Live c → compOf w.metas c.uindex = some m → m.layout.size ≤ src.length) :
    Tri (addComponentDynamicWithData e c src) w
      (fun _ w' => ((w.isAlive e = .ok false ∨ (w.isAlive e = .ok true ∧ w.isAlive c = .ok false)) ∧ w' = w) ∨
        (w.entities.Live e ∧ w.Row e ∧ w.entities.Live c ∧ ¬ w.HasComp e c ∧ w'.log = w.log ∧
          ∃ m, compOf w.metas c.uindex = some m ∧
          Upd w w' e (fun c' bs => if c' = c then bs = src.take m.layout.size else w.Has e c' bs) ∧
          w'.storedEvs.Perm (w.storedEvs ++ UVec.dropEvs m.info [src.take m.layout.size])))
      (fun f w' => (f = .noGeneration ∧ (w.isAlive e = .error .noGeneration ∨ w.isAlive c = .error .noGeneration) ∧ w' = w) ∨
        (f = .unwrapNone ∧ w.entities.Live e ∧ ¬ w.Row e ∧ w' = w) ∨
        (f = .alreadyPresent ∧ w.Row e ∧ w.entities.Live c ∧ w.HasComp e c ∧ w' = w) ∨
        (f = .unwrapNone ∧ w.Row e ∧ w.entities.Live c ∧ compOf w.metas c.uindex = none ∧ Inv w' ∧ Same w w' ∧
          (∀ x, w'.lockLookup x ≠ none → w.lockLookup x ≠ none ∨ x = c) ∧ w'.lockLookup c ≠ none ∧ (∀ x, w'.Used x → w.Used x) ∧ w'.idLists = w.idLists) ∨
        (Limit f ∧ w.Row e ∧ w.entities.Live c ∧ ¬ w.Roomy ∧ Inv w' ∧ Same w w')) := by
  unfold addComponentDynamicWithData
  simp only [tri_bind, tri_get, tri_liftE]
  rcases isAlive_answer h e with ⟨h1, h2⟩ | ⟨h1, h2⟩ | ⟨h1, h2⟩
  · rw [h1]; exact Or.inl ⟨rfl, Or.inl rfl, trivial⟩
  · rw [h1]; simp only [Bool.not_false, if_true, tri_pure]; exact Or.inl ⟨Or.inl trivial, trivial⟩
  · rw [h1]
    simp only [Bool.not_true, Bool.false_eq_true, if_false, tri_bind, tri_liftE]
    rcases isAlive_answer h c with ⟨h3, h4⟩ | ⟨h3, h4⟩ | ⟨h3, h4⟩
    · rw [h3]; exact Or.inl ⟨rfl, Or.inr rfl, trivial⟩
    · rw [h3]; simp only [Bool.not_false, if_true, tri_pure]; exact Or.inl ⟨Or.inr ⟨trivial, trivial⟩, trivial⟩
    · rw [h3]
      simp only [Bool.not_true, Bool.false_eq_true, if_false, tri_bind, tri_liftE]
      rcases getEntityMeta_spec h e with ⟨g1, g2⟩ | ⟨g1, g2⟩ | ⟨g1, g2, g3, g4⟩ | ⟨im, cm, g1, g2, g3, g4, g5⟩
      · have := h2.lt; omega
      · exact absurd h2 g2
      · rw [g1]; exact Or.inr (Or.inl ⟨rfl, h2, g4, trivial⟩)
      · rw [g1]
        simp only [unwrap]
        obtain ⟨a, a1, a2⟩ := rowOf_some g5
        have hrow : w.Row e := (row_iff e).2 ⟨_, _, g5⟩
        refine (resolveAdd_spec h a1 h4).imp ?_ ?_
        · rintro tar w1 ⟨r1, r2, r3, r4, b, b1, b2⟩
          rw [tri_step]
          obtain ⟨cc, hcc⟩ := r3.keep _ _ a1
          have hcm : ∃ m, compOf w1.metas c.uindex = some m :=
            (r2.live_comp (List.mem_of_getElem? b1) ((b2 c).2 (Or.inr rfl))).2
          obtain ⟨m, hm⟩ := hcm
          have hm' : compOf w.metas c.uindex = some m := by rw [← r3.metas]; exact hm
          rcases moveAddRow_spec r2 hcc b1 a2 r1 b2 hm (hsrc m h4 hm') with ⟨f, m1, m2, m3⟩ | ⟨w', m1, m2, m3⟩
          · rw [m1]
            exact Or.inr (Or.inr (Or.inr (Or.inr ⟨m2, hrow, h4, fun hr => m3 (r3.roomy hr), r2, r3⟩)))
          · rw [m1]
            refine Or.inr ⟨h2, hrow, h4, ?_, m2.log.trans r3.log, m, hm', ?_, ?_⟩
            · rw [hasComp_at h a1 a2]; exact r1
            · have hu := m2.upd h r2 r3 (fun x hx => (r4.1 x hx).imp_right (fun hh => ⟨_, by rw [if_pos hh]⟩))
                (fun x hx => (r4.2.2 x hx).imp_right (fun hh => ⟨_, by rw [if_pos hh]⟩))
              refine ⟨hu.inv, hu.ent, hu.comp, hu.typ, hu.reuse, hu.look, hu.locks, hu.row, hu.others, ?_, hu.used, ?_, ?_⟩
              case refine_2 =>
                intro x hx
                rw [m2.look] at hx
                exact (r4.1 x hx).imp_right (fun hh => ⟨_, by rw [if_pos hh]⟩)
              case refine_3 =>
                intro x hx
                exact (r4.2.2 x ((used_ids_iff m2.ids x).1 hx)).imp_right (fun hh => ⟨_, by rw [if_pos hh]⟩)
              intro c' bs
              rw [hu.self]
              by_cases hc : c' = c
              · rw [if_pos hc, if_pos hc]; simp only [Option.some.injEq]; exact eq_comm
              · rw [if_neg hc, if_neg hc, r3.cell, has_at h g5]
            · rw [← r3.evs]; exact m3
        · rintro f w1 (⟨r1, r2, r3⟩ | ⟨r1, r2, r3, r4, r5, r6⟩)
          · exact Or.inr (Or.inr (Or.inl ⟨r1, hrow, h4, by rw [hasComp_at h a1 a2]; exact r2, r3⟩))
          · exact Or.inr (Or.inr (Or.inr (Or.inl ⟨r1, hrow, h4, r3, r4, r5, r6.1, r6.2.1, fun x hx => (used_ids_iff r6.2.2 x).1 hx, r6.2.2⟩)))

/-- What `remove_component_dynamic` does. -/
theorem removeDyn_spec {w : World} (h : Inv w) (e c : EcsId) :
    Tri (removeComponentDynamic e c) w
      (fun _ w' => ((w.isAlive e = .ok false ∨ (w.isAlive e = .ok true ∧ w.isAlive c = .ok false)) ∧ w' = w) ∨
        (w.entities.Live e ∧ w.Row e ∧ w.entities.Live c ∧ ∃ m bs, compOf w.metas c.uindex = some m ∧ w.Has e c bs ∧
          w'.log = w.log ++ UVec.dropEvs (ComponentMeta.info m) [bs] ∧
          Upd w w' e (fun c' bs => c' ≠ c ∧ w.Has e c' bs) ∧
          (w'.storedEvs ++ UVec.dropEvs m.info [bs]).Perm w.storedEvs))
      (fun f w' => (f = .noGeneration ∧ (w.isAlive e = .error .noGeneration ∨ w.isAlive c = .error .noGeneration) ∧ w' = w) ∨
        (f = .unwrapNone ∧ w.entities.Live e ∧ ¬ w.Row e ∧ w' = w) ∨
        (f = .notPresent ∧ w.Row e ∧ w.entities.Live c ∧ ¬ w.HasComp e c ∧ w' = w) ∨
        (Limit f ∧ w.Row e ∧ w.entities.Live c ∧ ¬ w.Roomy ∧ Inv w' ∧ Same w w')) := by
  unfold removeComponentDynamic
  simp only [tri_bind, tri_get, tri_liftE]
  rcases isAlive_answer h e with ⟨h1, h2⟩ | ⟨h1, h2⟩ | ⟨h1, h2⟩
  · rw [h1]; exact Or.inl ⟨rfl, Or.inl rfl, trivial⟩
  · rw [h1]; simp only [Bool.not_false, if_true, tri_pure]; exact Or.inl ⟨Or.inl trivial, trivial⟩
  · rw [h1]
    simp only [Bool.not_true, Bool.false_eq_true, if_false, tri_bind, tri_liftE]
    rcases isAlive_answer h c with ⟨h3, h4⟩ | ⟨h3, h4⟩ | ⟨h3, h4⟩
    · rw [h3]; exact Or.inl ⟨rfl, Or.inr rfl, trivial⟩
    · rw [h3]; simp only [Bool.not_false, if_true, tri_pure]; exact Or.inl ⟨Or.inr ⟨trivial, trivial⟩, trivial⟩
    · rw [h3]
      simp only [Bool.not_true, Bool.false_eq_true, if_false, tri_bind, tri_liftE]
      rcases getEntityMeta_spec h e with ⟨g1, g2⟩ | ⟨g1, g2⟩ | ⟨g1, g2, g3, g4⟩ | ⟨im, cm, g1, g2, g3, g4, g5⟩
      · have := h2.lt; omega
      · exact absurd h2 g2
      · rw [g1]; exact Or.inr (Or.inl ⟨rfl, h2, g4, trivial⟩)
      · rw [g1]
        simp only [unwrap]
        obtain ⟨a, a1, a2⟩ := rowOf_some g5
        have hrow : w.Row e := (row_iff e).2 ⟨_, _, g5⟩
        refine (resolveRemove_spec h a1 c).imp ?_ ?_
        · rintro tar w1 ⟨r1, r2, r3, r4, b, b1, b2⟩
          rw [tri_step]
          obtain ⟨cc, hcc⟩ := r3.keep _ _ a1
          rcases moveRemoveRow_spec r2 hcc b1 a2 r1 b2 with ⟨f, m1, m2, m3⟩ | ⟨w', m, bs, m1, m2, m3, m4, m5⟩
          · rw [m1]
            exact Or.inr (Or.inr (Or.inr ⟨m2, hrow, h4, fun hr => m3 (r3.roomy hr), r2, r3⟩))
          · rw [m1]
            refine Or.inr ⟨h2, hrow, h4, m, bs, by rw [← r3.metas]; exact m2, ?_, ?_, ?_, ?_⟩
            · rw [has_at h g5, ← r3.cell]; exact m3
            · show w'.log ++ _ = _; rw [m4.log, r3.log]
            · have hu := (m4.upd h r2 r3 (fun x hx => Or.inl (by rw [← r4.1]; exact hx)) (fun x hx => Or.inl (r4.2 x hx))).withLog (w'.log ++ UVec.dropEvs m.info [bs])
              refine ⟨hu.inv, hu.ent, hu.comp, hu.typ, hu.reuse, hu.look, hu.locks, hu.row, hu.others, ?_, hu.used, ?_, ?_⟩
              case refine_2 =>
                intro x hx
                left
                rw [← r4.1, ← m4.look]; exact hx
              case refine_3 =>
                intro x hx
                exact Or.inl (r4.2 x ((used_ids_iff m4.ids x).1 hx))
              intro c' bs
              rw [hu.self]
              by_cases hc : c' = c
              · rw [if_pos hc]; simp [hc]
              · rw [if_neg hc, r3.cell, has_at h g5]; simp [hc]
            · rw [← r3.evs]; exact m5
        · rintro f w1 ⟨r1, r2, r3⟩
          exact Or.inr (Or.inr (Or.inl ⟨r1, hrow, h4, by rw [hasComp_at h a1 a2]; exact r2, r3⟩))

end World
end Ellecs
