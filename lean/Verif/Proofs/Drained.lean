import Verif.Proofs.Unwind
import Verif.Proofs.Access
import Verif.Proofs.Query
import Verif.Proofs.Safe
import Verif.Spec.Drained
/-! # Worlds whose columns may be longer than the lists of entities -/
namespace Ellecs

theorem swapRemoveAllU_wide {pan : Panics} {info : EcsId → Option TypeInfo} {n row : Nat} {st : List (EcsId × UVec)}
    (h : ∀ p ∈ st, UVec.Inv p.2 ∧ n ≤ p.2.count ∧ info p.1 = some p.2.info) (hr : row < n) :
    ∃ st' evs u, swapRemoveAllU row pan st = .ok (st', evs, u) ∧ stIds st' = stIds st ∧
      (∀ p ∈ st', UVec.Inv p.2 ∧ n - 1 ≤ p.2.count ∧ info p.1 = some p.2.info) ∧ (stEvs st).Perm (stEvs st' ++ evs) := by
  induction st generalizing pan with
  | nil => exact ⟨[], [], false, rfl, rfl, by simp, List.Perm.refl _⟩
  | cons p ps ih =>
    obtain ⟨h1, h2, h3⟩ := h p List.mem_cons_self
    have h' : ∀ q ∈ ps, UVec.Inv q.2 ∧ n ≤ q.2.count ∧ info q.1 = some q.2.info := fun q hq => h q (List.mem_cons_of_mem _ hq)
    have hc : row < p.2.count := by omega
    obtain ⟨v', f1, f2, f3, f4, _⟩ := UVec.swapRemove_spec h1 hc
    obtain ⟨id, v⟩ := p
    have hp := dropEvs_perm (info := v.info) (perm_swapRemove (elems_row hc))
    rw [UVec.dropEvs_append, ← f4] at hp
    have hst : ∀ (x : UVec) l, stEvs ((id, x) :: l) = UVec.dropEvs x.info x.elems ++ stEvs l := by
      intro x l; simp [stEvs]
    have hcnt : n - 1 ≤ v'.count := by
      rw [← UVec.length_elems, f4, length_swapRemove, UVec.length_elems]
      have h2' : n ≤ v.count := h2
      show n - 1 ≤ v.count - 1
      omega
    by_cases ha : pan.fires (UVec.dropEvs v.info [v.elem row]) = true
    · refine ⟨(id, v') :: ps, UVec.dropEvs v.info [v.elem row], true, ?_, rfl, ?_, ?_⟩
      · unfold swapRemoveAllU
        simp only [f1]
        rw [if_pos ha]
      · intro q hq
        rcases List.mem_cons.1 hq with e | e
        · subst e; exact ⟨f2, hcnt, by rw [f3]; exact h3⟩
        · obtain ⟨a1, a2, a3⟩ := h' q e
          exact ⟨a1, by omega, a3⟩
      · rw [hst, hst, f3]
        refine (hp.append_right _).trans ?_
        simp only [List.append_assoc]
        exact List.Perm.append_left _ List.perm_append_comm
    · obtain ⟨st', evs, u, e1, e2, e3, e4⟩ := ih (pan := pan.after (UVec.dropEvs v.info [v.elem row])) h'
      refine ⟨(id, v') :: st', UVec.dropEvs v.info [v.elem row] ++ evs, u, ?_, ?_, ?_, ?_⟩
      · unfold swapRemoveAllU
        simp only [f1]
        rw [if_neg ha, e1]
      · simp only [stIds, List.map_cons] at e2 ⊢; rw [e2]
      · intro q hq
        rcases List.mem_cons.1 hq with e | e
        · subst e; exact ⟨f2, hcnt, by rw [f3]; exact h3⟩
        · exact e3 q e
      · rw [hst, hst, f3]
        refine (hp.append e4).trans ?_
        simp only [List.append_assoc]
        refine List.Perm.append_left _ ?_
        rw [← List.append_assoc, ← List.append_assoc]
        exact List.Perm.append_right _ List.perm_append_comm

namespace World

/-- What is left of the invariant when a destructor has panicked in `despawn`: the columns may be too long, and the metadata of an
entity may say another row. -/
structure Loose (w : World) : Prop where
  ent : w.entities.Wf
  wide : Wide w
  row : ∀ k r x, rowOf w.archetypes k r = some x → w.entities.Live x ∧ ∃ im, instOf w.metas x.uindex = some im
  inj : ∀ k r k' r' x, rowOf w.archetypes k r = some x → rowOf w.archetypes k' r' = some x → k = k' ∧ r = r'
  reuse : ∀ ids d c, w.reuse = some (ids, d, c) → 0 < c ∧ d.length = c

theorem Inv.loose {w : World} (h : Inv w) : Loose w :=
  ⟨h.ent, h.wide, fun k r x hx => ⟨(h.loc.ent k r x hx).1, _, (h.loc.ent k r x hx).2⟩, fun _ _ _ _ _ h1 h2 => h.row_inj h1 h2,
    fun ids d c hr => (h.reuse ids d c hr).2⟩

theorem Loose.droppable {w : World} (h : Loose w) : Droppable w :=
  ⟨fun a ha p hp => (h.wide.col a ha p hp).1, h.reuse⟩

theorem Loose.locks {w : World} (h : Loose w) (ls : List RwLock) : Loose { w with locks := ls } :=
  ⟨h.ent, ⟨h.wide.shape, h.wide.col, h.wide.type⟩, h.row, h.inj, h.reuse⟩

/-- Faults that are panics. -/
def PanicOnly (f : Fault) : Prop := (∀ u, f ≠ .ub u) ∧ f ≠ .fuel

theorem despawnU_loose {pan : Panics} {w : World} (h : Loose w) (e : EcsId) :
    Tri (despawnU pan e) w (fun _ w' => Loose w' ∧ (w'.storedEvs ++ w'.log).Perm (w.storedEvs ++ w.log))
      (fun f w' => PanicOnly f ∧ Loose w' ∧ (w'.storedEvs ++ w'.log).Perm (w.storedEvs ++ w.log)) := by
  unfold despawnU
  simp only [tri_bind, tri_get, tri_liftE]
  have hal : w.isAlive e = w.entities.isAlive e := rfl
  have hrefl := List.Perm.refl (w.storedEvs ++ w.log)
  rcases w.entities.isAlive_cases e with ⟨i1, i2⟩ | ⟨i1, i2, _⟩ | ⟨i1, i2⟩
  · rw [hal, i1]; exact ⟨⟨by simp, by simp⟩, h, hrefl⟩
  · rw [hal, i1]; simp only [Bool.not_false, if_true, tri_pure]; exact ⟨h, hrefl⟩
  · rw [hal, i1]
    simp only [Bool.not_true, Bool.false_eq_true, if_false]
    by_cases hany : w.archetypes.any (fun a => (a.compLookup e).isSome) = true
    · rw [if_pos hany]; exact ⟨⟨by simp, by simp⟩, h, hrefl⟩
    · rw [if_neg hany]
      have hun : ∀ a ∈ w.archetypes, e ∉ a.compIds := fun a ha hea =>
        hany (List.any_eq_true.2 ⟨a, ha, (looksUp_mem (h.wide.shape a ha).look e).2 hea⟩)
      simp only [tri_bind, tri_liftE]
      cases hm : w.getEntityMeta e with
      | error f =>
        unfold getEntityMeta at hm
        rw [i1] at hm
        simp only at hm
        split at hm <;> cases hm
      | ok o =>
        cases o with
        | none => exact ⟨⟨by simp, by simp⟩, h, hrefl⟩
        | some m =>
          have hmeta : w.metas[e.uindex]? = some (some m) := by
            unfold getEntityMeta at hm
            rw [i1] at hm
            simp only at hm
            split at hm
            · cases hm
            · rename_i m' hm'; rw [hm']; injection hm with hm; rw [hm]
          have hmlt := (List.getElem?_eq_some_iff.1 hmeta).1
          simp only [unwrap, tri_step, tri_stepU]
          cases hA : w.archetypes[m.inst.archetype]? with
          | none => exact ⟨⟨by simp, by simp⟩, h, hrefl⟩
          | some A =>
            simp only
            generalize m.inst.archetype = k at *
            generalize m.inst.index = row at *
            cases hrow : A.entities[row]? with
            | none =>
              have : A.despawnU pan e row w.metas = .error .indexOob := by unfold Archetype.despawnU; rw [hrow]
              rw [this]; exact ⟨⟨by simp, by simp⟩, h, hrefl⟩
            | some y =>
              by_cases hy : y = e
              · subst hy
                have hAm := List.mem_of_getElem? hA
                have hclt := (List.getElem?_eq_some_iff.1 hA).1
                have hrlt := (List.getElem?_eq_some_iff.1 hrow).1
                have hrow' : rowOf w.archetypes k row = some y := by rw [rowOf_eq hA]; exact hrow
                have huniq : ∀ x z : EcsId, w.entities.Live x → w.entities.Live z → x.uindex = z.uindex → x = z :=
                  fun x z hx hz hu => hx.uniq hz hu
                obtain ⟨st', evs, u, s1, s2, s3, s4⟩ := swapRemoveAllU_wide (pan := pan) (h.wide.col A hAm) hrlt
                obtain ⟨es', d1, d2, d3, d4, d5⟩ := w.entities.despawn_spec h.ent i2
                generalize hA' : ({ A with entities := swapRemove A.entities row, storages := st' } : Archetype) = A'
                have hArow := getElem?_swapRemove A.entities row
                have hrowOf : ∀ k' r, rowOf (w.archetypes.set k A') k' r =
                    if k' = k then (swapRemove A.entities row)[r]? else rowOf w.archetypes k' r := by
                  intro k' r; rw [rowOf_set hclt, ← hA']
                -- where the rows were before
                have hback : ∀ k' r x, rowOf (w.archetypes.set k A') k' r = some x → ∃ r0, rowOf w.archetypes k' r0 = some x ∧
                    ((k' = k ∧ r = row ∧ r0 = A.entities.length - 1 ∧ row < A.entities.length - 1) ∨
                      (r0 = r ∧ (k' = k → r ≠ row ∧ r < A.entities.length - 1))) := by
                  intro k' r x hx
                  rw [hrowOf] at hx
                  by_cases hk : k' = k
                  · subst hk
                    rw [if_pos rfl, hArow r hrlt] at hx
                    split at hx
                    · split at hx
                      · exact ⟨A.entities.length - 1, by rw [rowOf_eq hA]; exact hx, Or.inl ⟨rfl, by omega, rfl, by omega⟩⟩
                      · exact ⟨r, by rw [rowOf_eq hA]; exact hx, Or.inr ⟨rfl, fun _ => ⟨by assumption, by assumption⟩⟩⟩
                    · cases hx
                  · rw [if_neg hk] at hx
                    exact ⟨r, hx, Or.inr ⟨rfl, fun hh => absurd hh hk⟩⟩
                have hinj : ∀ k1 r1 k2 r2 x, rowOf (w.archetypes.set k A') k1 r1 = some x →
                    rowOf (w.archetypes.set k A') k2 r2 = some x → k1 = k2 ∧ r1 = r2 := by
                  intro k1 r1 k2 r2 x h1 h2
                  obtain ⟨p1, a1, b1⟩ := hback k1 r1 x h1
                  obtain ⟨p2, a2, b2⟩ := hback k2 r2 x h2
                  obtain ⟨rfl, rfl⟩ := h.inj _ _ _ _ _ a1 a2
                  refine ⟨rfl, ?_⟩
                  rcases b1 with ⟨b1, b2', b3, b4⟩ | ⟨b1, b2'⟩ <;> rcases b2 with ⟨c1, c2, c3, c4⟩ | ⟨c1, c2⟩
                  · omega
                  · have := c2 b1; omega
                  · have := b2' c1; omega
                  · omega
                have hne : ∀ k' r x, rowOf (w.archetypes.set k A') k' r = some x → x ≠ y := by
                  rintro k' r x hx rfl
                  obtain ⟨p1, a1, b1⟩ := hback k' r x hx
                  obtain ⟨rfl, rfl⟩ := h.inj _ _ _ _ _ a1 hrow'
                  rcases b1 with ⟨b1, b2', b3, b4⟩ | ⟨b1, b2'⟩
                  · omega
                  · exact (b2' rfl).1 b1.symm
                have hshape : ∀ a ∈ w.archetypes.set k A', Shape a := by
                  intro a ha
                  rcases List.mem_or_eq_of_mem_set ha with ha | rfl
                  · exact h.wide.shape a ha
                  · have := h.wide.shape A hAm
                    rw [← hA']
                    exact ⟨this.sorted, s2.trans this.ids, this.look⟩
                have hcol : ∀ a ∈ w.archetypes.set k A', ∀ p ∈ a.storages, UVec.Inv p.2 ∧ a.entities.length ≤ p.2.count ∧
                    infoFn w.entities w.metas p.1 = some p.2.info := by
                  intro a ha
                  rcases List.mem_or_eq_of_mem_set ha with ha | rfl
                  · exact h.wide.col a ha
                  · rw [← hA']
                    intro p hp
                    obtain ⟨c1, c2, c3⟩ := s3 p hp
                    exact ⟨c1, by simpa [length_swapRemove] using c2, c3⟩
                have hperm : ((w.archetypes.set k A').flatMap (fun a => stEvs a.storages) ++ (w.log ++ evs)).Perm
                    (w.storedEvs ++ w.log) := by
                  have p1 := flatMap_set hA A' (fun a => stEvs a.storages)
                  have e1 : A'.storages = st' := by rw [← hA']
                  simp only [e1] at p1
                  unfold storedEvs
                  rw [List.perm_iff_count] at p1 s4 ⊢
                  intro z
                  have a1 := p1 z
                  have a2 := s4 z
                  simp only [List.count_append] at *
                  omega
                cases u with
                | true =>
                  have hd : A.despawnU pan y row w.metas = .ok (A', w.metas, evs, true) := by
                    unfold Archetype.despawnU
                    simp only [hrow, s1, ne_eq, not_true_eq_false, if_false, if_true, hA']
                  simp only [hd]
                  refine ⟨⟨by simp, by simp⟩, ⟨h.ent, ⟨hshape, hcol, h.wide.type⟩, ?_, hinj, h.reuse⟩, hperm⟩
                  intro k' r x hx
                  obtain ⟨p1, a1, _⟩ := hback k' r x hx
                  exact h.row _ _ _ a1
                | false =>
                  generalize hmetas1 : w.metas.set y.uindex none = metas1
                  have hi1 : ∀ i, instOf metas1 i = if i = y.uindex then none else instOf w.metas i := by
                    intro i; rw [← hmetas1, instOf_set hmlt]; rfl
                  have hc1 : ∀ i, i ≠ y.uindex → compOf metas1 i = compOf w.metas i := by
                    intro i hi; rw [← hmetas1, compOf_set hmlt, if_neg hi]
                  have hkeep : ∀ k' r x, rowOf (w.archetypes.set k A') k' r = some x → w.entities.Live x ∧ x ≠ y ∧
                      ∃ im, instOf metas1 x.uindex = some im := by
                    intro k' r x hx
                    have h1 := hne k' r x hx
                    obtain ⟨p1, a1, _⟩ := hback k' r x hx
                    obtain ⟨h2, im, h3⟩ := h.row _ _ _ a1
                    refine ⟨h2, h1, im, ?_⟩
                    rw [hi1, if_neg (fun hh => h1 (huniq _ _ h2 i2 hh))]; exact h3
                  obtain ⟨metas', m1, m2, m3⟩ : ∃ metas', (match (swapRemove A.entities row)[row]? with
                        | none => Except.ok metas1
                        | some swapped => setInstIndex metas1 swapped.uindex row) = .ok metas' ∧
                      (∀ i, i ≠ y.uindex → compOf metas' i = compOf w.metas i) ∧
                      ∀ i, (∃ im, instOf metas1 i = some im) → ∃ im, instOf metas' i = some im := by
                    cases hs : (swapRemove A.entities row)[row]? with
                    | none => exact ⟨metas1, rfl, hc1, fun _ hh => hh⟩
                    | some z =>
                      obtain ⟨_, _, im, him⟩ := hkeep k row z (by rw [hrowOf, if_pos rfl]; exact hs)
                      obtain ⟨metas2, t1, t2, t3, t4⟩ := setInstIndex_spec him row
                      refine ⟨metas2, t1, fun i hi => (t4 i).trans (hc1 i hi), fun i hh => ?_⟩
                      rw [t3]
                      split
                      · exact ⟨_, rfl⟩
                      · exact hh
                  have hd : A.despawnU pan y row w.metas = .ok (A', metas', evs, false) := by
                    unfold Archetype.despawnU
                    simp only [hrow, s1, ne_eq, not_true_eq_false, if_false, Bool.false_eq_true, hA', hmetas1]
                    rw [if_pos hmlt]
                    revert m1
                    cases (swapRemove A.entities row)[row]? with
                    | none => intro m1; injection m1 with m1; subst m1; rfl
                    | some y => intro m1; simp only at m1 ⊢; rw [m1]
                  simp only [hd, d1, tri_pure]
                  refine ⟨⟨d2, ⟨hshape, ?_, ?_⟩, ?_, hinj, h.reuse⟩, hperm⟩
                  · intro a ha p hp
                    obtain ⟨c1, c2, c3⟩ := hcol a ha p hp
                    refine ⟨c1, c2, ?_⟩
                    obtain ⟨hl, m', hm1, hm2⟩ := infoFn_some.1 c3
                    have hpid : p.1 ∈ a.compIds := by
                      rw [← (hshape a ha).ids]; exact List.mem_map.2 ⟨p, hp, rfl⟩
                    have hpne : p.1 ≠ y := by
                      intro hh
                      rcases List.mem_or_eq_of_mem_set ha with ha | rfl
                      · exact hun a ha (hh ▸ hpid)
                      · rw [← hA'] at hpid; exact hun A hAm (hh ▸ hpid)
                    exact infoFn_some.2 ⟨(d3 _).2 ⟨hl, hpne⟩, m', by rw [m2 _ (fun hh => hpne (huniq _ _ hl i2 hh))]; exact hm1, hm2⟩
                  · refine ⟨fun t id ht => d4 _ (h.wide.type.known t id ht), fun t id ht hl => ?_, h.wide.type.inj⟩
                    obtain ⟨hl, hn⟩ := (d3 id).1 hl
                    rw [m2 _ (fun hh => hn (huniq _ _ hl i2 hh))]
                    exact h.wide.type.comp t id ht hl
                  · intro k' r x hx
                    obtain ⟨h1, h2, h3⟩ := hkeep k' r x hx
                    exact ⟨(d3 x).2 ⟨h1, h2⟩, m3 _ h3⟩
              · have : A.despawnU pan e row w.metas = .error .despawnAssert := by
                  unfold Archetype.despawnU; simp only [hrow]; rw [if_pos hy]
                rw [this]; exact ⟨⟨by simp, by simp⟩, h, hrefl⟩

theorem Loose.write {w w' : World} (h : Loose w) {p : Ptr} {bs : Bytes} (hw : w.writePtr p bs = .ok w') : Loose w' := by
  unfold writePtr at hw
  split at hw
  · rename_i k j hcol
    split at hw
    · cases hw
    · rename_i a ha
      split at hw
      · cases hw
      · rename_i s hs
        split at hw
        · cases hw; exact h
        · split at hw
          · rename_i hb
            injection hw with hw; subst hw
            have ham := List.mem_of_getElem? ha
            have hklt := (List.getElem?_eq_some_iff.1 ha).1
            have hsh := h.wide.shape a ham
            have hrow : ∀ k' r, rowOf (w.archetypes.set k { a with storages := a.storages.set j (s.1, { s.2 with mem := writeAt s.2.mem p.off bs }) }) k' r =
                rowOf w.archetypes k' r := by
              intro k' r
              rw [rowOf_set hklt]
              split
              · rename_i hk; rw [hk, rowOf_eq ha]
              · rfl
            have hids : stIds (a.storages.set j (s.1, { s.2 with mem := writeAt s.2.mem p.off bs })) = stIds a.storages :=
              map_set_same hs _ _ rfl
            refine ⟨h.ent, ⟨?_, ?_, h.wide.type⟩, ?_, ?_, h.reuse⟩
            · intro x hx
              rcases List.mem_or_eq_of_mem_set hx with hx | rfl
              · exact h.wide.shape x hx
              · exact ⟨hsh.sorted, hids.trans hsh.ids, hsh.look⟩
            · intro x hx
              rcases List.mem_or_eq_of_mem_set hx with hx | rfl
              · exact h.wide.col x hx
              · intro q hq
                simp only at hq
                rcases List.mem_or_eq_of_mem_set hq with hq | rfl
                · exact h.wide.col a ham q hq
                · obtain ⟨c1, c2, c3⟩ := h.wide.col a ham s (List.mem_of_getElem? hs)
                  refine ⟨⟨c1.zst, c1.mult, c1.le, ?_, c1.block, c1.lay⟩, c2, c3⟩
                  exact (length_writeAt _ _ _ hb.2).trans c1.mem
            · intro k' r x hx
              simp only [hrow] at hx
              exact h.row k' r x hx
            · intro k1 r1 k2 r2 x h1 h2
              simp only [hrow] at h1 h2
              exact h.inj _ _ _ _ _ h1 h2
          · cases hw
  · cases hw

theorem query_locks {w w' : World} {ps : List Param} {r : EStateM.Result Fault World StaticQuery} (h : query ps w = r)
    (hr : (∃ q, r = .ok q w') ∨ ∃ f, r = .error f w') : ∃ ls, w' = { w with locks := ls } := by
  unfold query at h
  split at h
  · subst h; rcases hr with ⟨q, hr⟩ | ⟨f, hr⟩ <;> cases hr; exact ⟨w.locks, rfl⟩
  · split at h
    · subst h; rcases hr with ⟨q, hr⟩ | ⟨f, hr⟩ <;> cases hr; exact ⟨_, rfl⟩
    · subst h; rcases hr with ⟨q, hr⟩ | ⟨f, hr⟩ <;> cases hr; exact ⟨_, rfl⟩

theorem queryDynamic_locks {w w' : World} {fs : List Fetch} {r : EStateM.Result Fault World DynQuery} (h : queryDynamic fs w = r)
    (hr : (∃ q, r = .ok q w') ∨ ∃ f, r = .error f w') : ∃ ls, w' = { w with locks := ls } := by
  unfold queryDynamic at h
  split at h
  · subst h; rcases hr with ⟨q, hr⟩ | ⟨f, hr⟩ <;> cases hr; exact ⟨_, rfl⟩
  · subst h; rcases hr with ⟨q, hr⟩ | ⟨f, hr⟩ <;> cases hr; exact ⟨_, rfl⟩

theorem Loose.drained {w u : World} (h : Loose w) (hd : Drained w u) : Loose u := by
  induction hd with
  | refl => exact h
  | query ps q _ he ih => obtain ⟨ls, rfl⟩ := query_locks he (Or.inl ⟨_, rfl⟩); exact ih.locks ls
  | queryPanic ps f _ he ih => obtain ⟨ls, rfl⟩ := query_locks he (Or.inr ⟨_, rfl⟩); exact ih.locks ls
  | queryDynamic ps q _ he ih => obtain ⟨ls, rfl⟩ := queryDynamic_locks he (Or.inl ⟨_, rfl⟩); exact ih.locks ls
  | queryDynamicPanic ps f _ he ih => obtain ⟨ls, rfl⟩ := queryDynamic_locks he (Or.inr ⟨_, rfl⟩); exact ih.locks ls
  | release b gs _ he ih => cases he; exact ih.locks _
  | write p bs _ he ih => exact ih.write he
  | despawn pan e b _ he ih =>
    have := despawnU_loose (pan := pan) ih e
    unfold Tri at this; rw [he] at this; exact this.1
  | despawnPanic pan e f _ he ih =>
    have := despawnU_loose (pan := pan) ih e
    unfold Tri at this; rw [he] at this; exact this.2.1

/-! ### What pointers into such a world may be used for -/

/-- Element `r` of column `j` of table `k`. -/
theorem cell_wide {w : World} (h : Wide w) {k j r : Nat} {a : Archetype} {c : EcsId} {v : UVec} (h1 : w.archetypes[k]? = some a)
    (h3 : a.storages[j]? = some (c, v)) (hr : r < v.count) :
    infoFn w.entities w.metas c = some v.info ∧ v.elems[r]? = some (v.elem r) ∧
      w.readPtr ⟨.storage k j, r * v.size⟩ v.size = .ok (v.elem r) ∧ (v.elem r).length = v.size ∧
      ∀ bs, bs.length = v.size → ∃ w', w.writePtr ⟨.storage k j, r * v.size⟩ bs = .ok w' := by
  obtain ⟨q1, q2, q3⟩ := h.col a (List.mem_of_getElem? h1) _ (List.mem_of_getElem? h3)
  have hin : v.size ≠ 0 → r * v.size + v.size ≤ v.len ∧ r * v.size + v.size ≤ v.mem.length := by
    intro hz
    have h5 : r * v.size + v.size ≤ v.len := by rw [UVec.len_eq q1 hz]; exact mul_add_le hr
    exact ⟨h5, Nat.le_trans h5 (by rw [q1.mem]; exact q1.le hz)⟩
  refine ⟨q3, elems_row hr, ?_, ?_, fun bs hb => ?_⟩
  · unfold readPtr
    simp only [h1, h3]
    by_cases hz : v.size = 0
    · rw [if_pos hz, UVec.elem_zst hz]
    · rw [if_neg hz, if_pos (hin hz)]; rfl
  · by_cases hz : v.size = 0
    · rw [UVec.elem_zst hz, hz]; rfl
    · have := (hin hz).2
      unfold UVec.elem readAt
      simp only [List.length_take, List.length_drop]
      omega
  · unfold writePtr
    simp only [h1, h3, hb]
    by_cases hz : v.size = 0
    · rw [if_pos hz]; exact ⟨_, rfl⟩
    · rw [if_neg hz, if_pos (hin hz)]; exact ⟨_, rfl⟩

theorem PointsAt.wide {w : World} (h : Wide w) {p : Ptr} {e c : EcsId} (hp : w.PointsAt p e c) :
    ∃ i, infoFn w.entities w.metas c = some i ∧
      (∃ bs, w.readPtr p i.layout.size = .ok bs ∧ w.Has e c bs ∧ bs.length = i.layout.size) ∧
      ∀ bs, bs.length = i.layout.size → ∃ w', w.writePtr p bs = .ok w' := by
  obtain ⟨k, j, r, a, v, h1, h2, h3, rfl⟩ := hp
  obtain ⟨q1, q2, q3⟩ := h.col a (List.mem_of_getElem? h1) _ (List.mem_of_getElem? h3)
  have hr : r < v.count := Nat.lt_of_lt_of_le (List.getElem?_eq_some_iff.1 h2).1 q2
  obtain ⟨e1, e2, e3, e4, e5⟩ := cell_wide h h1 h3 hr
  exact ⟨v.info, e1, ⟨_, e3, ⟨k, r, a, v, h1, h2, List.mem_of_getElem? h3, e2⟩, e4⟩, e5⟩

theorem infoIs_of_fn {w : World} {c : EcsId} {i : TypeInfo} (h : infoFn w.entities w.metas c = some i) :
    ∃ m, w.InfoIs c m ∧ m.info = i := by
  obtain ⟨hl, m, h1, h2⟩ := infoFn_some.1 h
  refine ⟨m, ?_, h2⟩
  unfold InfoIs getEntityMeta
  rw [Entities.isAlive_live hl]
  unfold compOf at h1
  cases hm : w.metas[c.uindex]? with
  | none => rw [hm] at h1; cases h1
  | some o =>
    cases o with
    | none => rw [hm] at h1; cases h1
    | some x =>
      rw [hm] at h1
      simp only [Option.join_some, Option.map_some, Option.some.injEq] at h1
      exact ⟨x.inst, by rw [← h1]⟩

end World
end Ellecs
