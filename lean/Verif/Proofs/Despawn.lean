import Verif.Proofs.Ops
/-! # Despawning an entity -/
namespace Ellecs
namespace World

/-- `w'` is `w` without `e`. -/
structure Gone (w w' : World) (e : EcsId) : Prop where
  inv : Inv w'
  live : ∀ x, w'.entities.Live x ↔ w.entities.Live x ∧ x ≠ e
  known : ∀ x, w.entities.Known x → w'.entities.Known x
  comp : ∀ i, i ≠ e.uindex → compOf w'.metas i = compOf w.metas i
  typ : w'.typeMap = w.typeMap
  reuse : w'.reuse = w.reuse
  look : w'.lockLookup = w.lockLookup
  locks : w'.locks = w.locks
  row : ∀ x, w'.Row x ↔ w.Row x ∧ x ≠ e
  has : ∀ x c bs, w'.Has x c bs ↔ w.Has x c bs ∧ x ≠ e
  ids : w'.archetypes.map Archetype.compIds = w.archetypes.map Archetype.compIds

/-- The drop calls for the components of `e`: one for each. -/
structure DropsOf (w : World) (e : EcsId) (evs : List DropEv) (L : List (EcsId × Bytes × ComponentMeta)) : Prop where
  nodup : (L.map Prod.fst).Nodup
  comp : ∀ p ∈ L, compOf w.metas p.1.uindex = some p.2.2
  has : ∀ c bs, w.Has e c bs ↔ ∃ m, (c, bs, m) ∈ L
  evs : evs = L.flatMap (fun p => UVec.dropEvs p.2.2.info [p.2.1])
  sorted : SortedIds (L.map Prod.fst)

theorem dropsOf_row {w : World} (h : Inv w) {k row : Nat} {A : Archetype} {e : EcsId} (hA : w.archetypes[k]? = some A)
    (hrow : A.entities[row]? = some e) : ∃ L, DropsOf w e (rowEvs A.storages row) L := by
  have hAm := List.mem_of_getElem? hA
  have hlt := (List.getElem?_eq_some_iff.1 hrow).1
  have hr : rowOf w.archetypes k row = some e := by rw [rowOf_eq hA]; exact hrow
  have hs := h.shape A hAm
  have hco := h.col A hAm
  have hm : ∀ p ∈ A.storages, ∃ m, compOf w.metas p.1.uindex = some m ∧ m.info = p.2.info := fun p hp =>
    (infoFn_some.1 (hco p hp).2.2).2
  have hids : (A.storages.map (fun p => (p.1, p.2.elem row, ((compOf w.metas p.1.uindex).getD ComponentMeta.unit)))).map Prod.fst = A.compIds := by
    rw [List.map_map]
    exact hs.ids
  refine ⟨A.storages.map (fun p => (p.1, p.2.elem row, ((compOf w.metas p.1.uindex).getD ComponentMeta.unit))), ?_, ?_, ?_, ?_, ?_⟩
  · rw [hids]; exact hs.sorted.nodup
  · intro p hp
    obtain ⟨q, hq, rfl⟩ := List.mem_map.1 hp
    obtain ⟨m, hm, _⟩ := hm q hq
    simp [hm]
  · intro c bs
    rw [has_at h hr, cellOf_eq hA]
    constructor
    · intro hh
      obtain ⟨l, h1, h2⟩ := Option.bind_eq_some_iff.1 hh
      obtain ⟨v, hv, rfl⟩ := elemsOf_mem h1
      rw [elems_row (by rw [(hco _ hv).2.1]; exact hlt)] at h2
      injection h2 with h2
      exact ⟨_, List.mem_map.2 ⟨(c, v), hv, by rw [h2]⟩⟩
    · rintro ⟨m, hh⟩
      obtain ⟨⟨c', v⟩, hv, heq⟩ := List.mem_map.1 hh
      simp only [Prod.mk.injEq] at heq
      obtain ⟨rfl, rfl, _⟩ := heq
      rw [elemsOf_of_mem (by rw [hs.ids]; exact hs.sorted.nodup) hv, Option.bind_some,
        elems_row (by rw [(hco _ hv).2.1]; exact hlt)]
  · unfold rowEvs
    rw [List.flatMap_map]
    have : ∀ l : List (EcsId × UVec), (∀ p ∈ l, p ∈ A.storages) →
        l.flatMap (fun p => UVec.dropEvs p.2.info [p.2.elem row]) =
        l.flatMap (fun p => UVec.dropEvs ((compOf w.metas p.1.uindex).getD ComponentMeta.unit).info [p.2.elem row]) := by
      intro l
      induction l with
      | nil => intro _; rfl
      | cons p ps ih =>
        intro hp
        obtain ⟨m, h1, h2⟩ := hm p (hp p List.mem_cons_self)
        rw [List.flatMap_cons, List.flatMap_cons, ih (fun q hq => hp q (List.mem_cons_of_mem _ hq)), h1, Option.getD_some, h2]
    exact this _ (fun _ hp => hp)
  · rw [hids]; exact hs.sorted

theorem archDespawn_spec {w : World} (h : Inv w) {k row : Nat} {A : Archetype} {e : EcsId}
    (hA : w.archetypes[k]? = some A) (hrow : A.entities[row]? = some e)
    (hunused : ∀ a ∈ w.archetypes, e ∉ a.compIds) :
    ∃ A' metas' es', A.despawn e row w.metas = .ok (A', metas', rowEvs A.storages row) ∧
      w.entities.despawn e = .ok (true, es') ∧
      Gone w { w with
        archetypes := w.archetypes.set k A'
        metas := metas'
        log := w.log ++ rowEvs A.storages row
        entities := es' } e ∧
      ((w.archetypes.set k A').flatMap (fun a => stEvs a.storages) ++ rowEvs A.storages row).Perm w.storedEvs := by
  have hAm := List.mem_of_getElem? hA
  have hclt := (List.getElem?_eq_some_iff.1 hA).1
  have hrlt := (List.getElem?_eq_some_iff.1 hrow).1
  have hrow' : rowOf w.archetypes k row = some e := by rw [rowOf_eq hA]; exact hrow
  obtain ⟨hlive, hinst⟩ := h.loc.ent _ _ _ hrow'
  have huniq : ∀ x y : EcsId, w.entities.Live x → w.entities.Live y → x.uindex = y.uindex → x = y :=
    fun x y hx hy hu => hx.uniq hy hu
  obtain ⟨cm, hmeta0, _⟩ := metas_of_inst hinst
  have hmlt := (List.getElem?_eq_some_iff.1 hmeta0).1
  obtain ⟨st', s1, s2, s3, s4, s5⟩ := swapRemoveAll_spec (h.col A hAm) hrlt
  obtain ⟨es', d1, d2, d3, d4, d5⟩ := w.entities.despawn_spec h.ent hlive
  generalize hA' : ({ A with entities := swapRemove A.entities row, storages := st' } : Archetype) = A'
  have hArow := getElem?_swapRemove A.entities row
  have hrowOf : ∀ k' r, rowOf (w.archetypes.set k A') k' r =
      if k' = k then (swapRemove A.entities row)[r]? else rowOf w.archetypes k' r := by
    intro k' r; rw [rowOf_set hclt, ← hA']
  have hcellOf : ∀ k' r c, cellOf (w.archetypes.set k A') k' r c =
      if k' = k then (elemsOf st' c).bind (fun l => l[r]?) else cellOf w.archetypes k' r c := by
    intro k' r c; rw [cellOf_set hclt, ← hA']
  generalize hmetas1 : w.metas.set e.uindex none = metas1
  have hi1 : ∀ i, instOf metas1 i = if i = e.uindex then none else instOf w.metas i := by
    intro i; rw [← hmetas1, instOf_set hmlt]; rfl
  have hc1 : ∀ i, i ≠ e.uindex → compOf metas1 i = compOf w.metas i := by
    intro i hi; rw [← hmetas1, compOf_set hmlt, if_neg hi]
  have hmeta : ∃ metas', (match (swapRemove A.entities row)[row]? with
        | none => Except.ok metas1
        | some swapped => setInstIndex metas1 swapped.uindex row) = .ok metas' ∧
      (∀ i, i ≠ e.uindex → compOf metas' i = compOf w.metas i) ∧
      LocOk es'.Live (instOf metas') (rowOf (w.archetypes.set k A')) := by
    by_cases hlast : row = A.entities.length - 1
    · have hnone : (swapRemove A.entities row)[row]? = none := by
        rw [hArow row hrlt, if_neg (by omega)]
      rw [hnone]
      refine ⟨metas1, rfl, hc1, ?_⟩
      have hd := (h.loc.detachLast hrow').kill (e := e) (by simp)
      refine hd.congr d3 hi1 ?_
      intro k' r
      rw [hrowOf]
      by_cases hkc : k' = k
      · subst hkc
        rw [if_pos rfl, hArow r hrlt, rowOf_eq hA]
        by_cases hr : r = row
        · subst hr; simp [hlast]
        · rw [if_neg (show ¬ (k' = k' ∧ r = row) from fun hh => hr hh.2)]
          by_cases hr2 : r < A.entities.length - 1
          · rw [if_pos hr2, if_neg hr]
          · rw [if_neg hr2, List.getElem?_eq_none (by omega)]
      · rw [if_neg hkc, if_neg (fun hh => hkc hh.1)]
    · have hlt2 : A.entities.length - 1 < A.entities.length := by omega
      have hsome : (swapRemove A.entities row)[row]? = some A.entities[A.entities.length - 1] := by
        rw [hArow row hrlt, if_pos (by omega), if_pos rfl, List.getElem?_eq_getElem hlt2]
      generalize he' : A.entities[A.entities.length - 1] = e' at hsome
      have hlast' : rowOf w.archetypes k (A.entities.length - 1) = some e' := by
        rw [rowOf_eq hA, List.getElem?_eq_getElem hlt2, he']
      obtain ⟨hlive', hinst'⟩ := h.loc.ent _ _ _ hlast'
      have hnu : e.uindex ≠ e'.uindex := by
        intro hh; rw [hh, hinst'] at hinst
        injection hinst with hh2; injection hh2 with _ hh3; omega
      have hinst1 : instOf metas1 e'.uindex = some ⟨k, A.entities.length - 1⟩ := by
        rw [hi1, if_neg (fun hh => hnu hh.symm), hinst']
      obtain ⟨metas2, t1, t2, t3, t4⟩ := setInstIndex_spec hinst1 row
      rw [hsome]
      refine ⟨metas2, t1, fun i hi => (t4 i).trans (hc1 i hi), ?_⟩
      have hd := (h.loc.detachSwap huniq hrow' hlast' hlast).kill (e := e) (by rw [if_neg hnu]; simp)
      refine hd.congr d3 ?_ ?_
      · intro i; rw [t3, hi1]
      · intro k' r
        rw [hrowOf]
        by_cases hkc : k' = k
        · subst hkc
          rw [if_pos rfl, hArow r hrlt]
          by_cases hr1 : r = A.entities.length - 1
          · rw [if_neg (show ¬ r < A.entities.length - 1 by omega), if_pos ⟨rfl, hr1⟩]
          · rw [if_neg (show ¬ (k' = k' ∧ r = A.entities.length - 1) from fun hh => hr1 hh.2)]
            by_cases hr : r = row
            · rw [if_pos (show k' = k' ∧ r = row from ⟨rfl, hr⟩), if_pos (by omega), if_pos hr, ← rowOf_eq hA, hlast']
            · rw [if_neg (show ¬ (k' = k' ∧ r = row) from fun hh => hr hh.2), rowOf_eq hA]
              by_cases hr2 : r < A.entities.length - 1
              · rw [if_pos hr2, if_neg hr]
              · rw [if_neg hr2, List.getElem?_eq_none (by omega)]
        · rw [if_neg hkc, if_neg (fun hh => hkc hh.1), if_neg (fun hh => hkc hh.1)]
  obtain ⟨metas', m1, m2, m3⟩ := hmeta
  have hinfo : ∀ a ∈ w.archetypes, ∀ c ∈ a.compIds, infoFn es' metas' c = infoFn w.entities w.metas c := by
    intro a ha c hc
    obtain ⟨hl, m, hm⟩ := h.live_comp ha hc
    have hne : c ≠ e := by rintro rfl; exact hunused a ha hc
    have hu : c.uindex ≠ e.uindex := fun hh => hne (huniq _ _ hl hlive hh)
    rw [infoFn_some.2 ⟨(d3 c).2 ⟨hl, hne⟩, m, by rw [m2 _ hu]; exact hm, rfl⟩, infoFn_some.2 ⟨hl, m, hm, rfl⟩]
  have hskel : (w.archetypes.set k A').map skel = w.archetypes.map skel := by
    rw [map_set_same hA _ _ (by rw [← hA']; rfl)]
  have hinv : Inv { w with
        archetypes := w.archetypes.set k A'
        metas := metas'
        log := w.log ++ rowEvs A.storages row
        entities := es' } := by
    refine h.retable hskel d2 m3 ?_ ?_ ?_ rfl rfl rfl rfl ⟨?_, ?_, h.type.inj⟩ h.reuse
    · intro x hx
      rcases List.mem_or_eq_of_mem_set hx with hx | rfl
      · exact (h.shape x hx).ids
      · rw [← hA']; exact s2.trans (h.shape A hAm).ids
    · intro x hx
      rcases List.mem_or_eq_of_mem_set hx with hx | rfl
      · exact (h.col x hx).congr (fun c hc => hinfo x hx c (by rw [← (h.shape x hx).ids]; exact hc)) (fun _ _ => rfl)
      · rw [← hA']
        refine s3.congr (fun c hc => hinfo A hAm c ?_) (fun c _ => ?_)
        · rw [← (h.shape A hAm).ids, ← s2]; exact hc
        · simp [length_swapRemove]
    · intro x hx
      rcases List.mem_or_eq_of_mem_set hx with hx | rfl
      · exact h.cache x hx
      · rw [← hA']; exact h.cache A hAm
    · intro t id ht; exact d4 _ (h.type.known t id ht)
    · intro t id ht hl
      obtain ⟨hl, hne⟩ := (d3 id).1 hl
      rw [m2 _ (fun hh => hne (huniq _ _ hl hlive hh))]
      exact h.type.comp t id ht hl
  have hcur : ∀ r c, (elemsOf st' c).bind (fun l => l[r]?) =
      if r < A.entities.length - 1 then (if r = row then cellOf w.archetypes k (A.entities.length - 1) c
        else cellOf w.archetypes k r c) else none := by
    intro r c
    rw [s4, cellOf_eq hA, cellOf_eq hA]
    cases he : elemsOf A.storages c with
    | none => simp
    | some l =>
      have hl : l.length = A.entities.length := col_len (h.col A hAm) he
      simp only [Option.map_some, Option.bind_some]
      rw [getElem?_swapRemove l row r (by omega), hl]
  have hplace : ∀ k1 r x, rowOf w.archetypes k1 r = some x → x ≠ e → ∃ k' r', rowOf (w.archetypes.set k A') k' r' = some x ∧
      ∀ c, cellOf (w.archetypes.set k A') k' r' c = cellOf w.archetypes k1 r c := by
    intro k1 r x hx hxe
    by_cases hkc : k1 = k
    · subst hkc
      have hr : r < A.entities.length := by
        rw [rowOf_eq hA] at hx; exact (List.getElem?_eq_some_iff.1 hx).1
      have hrr : r ≠ row := by
        rintro rfl; rw [hrow'] at hx; injection hx with hx; exact hxe hx.symm
      by_cases hr1 : r = A.entities.length - 1
      · refine ⟨k1, row, ?_, ?_⟩
        · rw [hrowOf, if_pos rfl, hArow row hrlt, if_pos (by omega), if_pos rfl, ← hr1, ← rowOf_eq hA, hx]
        · intro c; rw [hcellOf, if_pos rfl, hcur, if_pos (by omega), if_pos rfl, hr1]
      · refine ⟨k1, r, ?_, ?_⟩
        · rw [hrowOf, if_pos rfl, hArow r hrlt, if_pos (by omega), if_neg hrr, ← rowOf_eq hA, hx]
        · intro c; rw [hcellOf, if_pos rfl, hcur, if_pos (by omega), if_neg hrr]
    · refine ⟨k1, r, ?_, ?_⟩
      · rw [hrowOf, if_neg hkc, hx]
      · intro c; rw [hcellOf, if_neg hkc]
  have hback : ∀ k1 r x, rowOf (w.archetypes.set k A') k1 r = some x →
      (∃ k' r', rowOf w.archetypes k' r' = some x) ∧ x ≠ e := by
    intro k1 r x hx
    refine ⟨?_, ?_⟩
    · rw [hrowOf] at hx
      split at hx
      · rw [hArow r hrlt] at hx
        split at hx
        · split at hx
          · exact ⟨k, _, by rw [rowOf_eq hA]; exact hx⟩
          · exact ⟨k, _, by rw [rowOf_eq hA]; exact hx⟩
        · cases hx
      · exact ⟨_, _, hx⟩
    · exact ((d3 x).1 (hinv.loc.ent k1 r x hx).1).2
  refine ⟨A', metas', es', ?_, d1, ⟨hinv, d3, d4, m2, rfl, rfl, rfl, rfl, ?_, ?_, skel_ids hskel⟩, ?_⟩
  · unfold Archetype.despawn
    simp only [hrow, ne_eq, not_true_eq_false, if_false, s1, hA', hmetas1]
    rw [if_pos hmlt]
    revert m1
    cases (swapRemove A.entities row)[row]? with
    | none => intro m1; injection m1 with m1; subst m1; rfl
    | some y => intro m1; simp only at m1 ⊢; rw [m1]
  · intro x
    rw [row_iff, row_iff]
    constructor
    · rintro ⟨k1, r, hx⟩; exact hback k1 r x hx
    · rintro ⟨⟨k1, r, hx⟩, hxe⟩
      obtain ⟨k', r', h1, _⟩ := hplace k1 r x hx hxe
      exact ⟨k', r', h1⟩
  · intro x c bs
    constructor
    · intro hh
      obtain ⟨k', r', h1, _⟩ := (has_iff hinv.shape x c bs).1 hh
      obtain ⟨⟨k1, r, h2⟩, hxe⟩ := hback _ _ _ h1
      obtain ⟨k2, r2, h3, h4⟩ := hplace k1 r x h2 hxe
      rw [has_at hinv h3, h4] at hh
      rw [has_at h h2]; exact ⟨hh, hxe⟩
    · rintro ⟨hh, hxe⟩
      obtain ⟨k1, r, h2, _⟩ := (has_iff h.shape x c bs).1 hh
      obtain ⟨k2, r2, h3, h4⟩ := hplace k1 r x h2 hxe
      rw [has_at h h2] at hh
      rw [has_at hinv h3, h4]; exact hh
  · have p1 := flatMap_set hA A' (fun a => stEvs a.storages)
    have e1 : A'.storages = st' := by rw [← hA']
    simp only [e1] at p1
    unfold storedEvs
    rw [List.perm_iff_count] at p1 s5 ⊢
    intro z
    have a1 := p1 z
    have a2 := s5 z
    simp only [List.count_append] at *
    omega

/-- What `despawn` does. -/
theorem despawn_spec {w : World} (h : Inv w) (e : EcsId) :
    Tri (despawn e) w
      (fun b w' => (b = false ∧ w.isAlive e = .ok false ∧ w' = w) ∨
        (b = true ∧ w.entities.Live e ∧ w.Row e ∧ (∀ a ∈ w.archetypes, e ∉ a.compIds) ∧ Gone w w' e ∧
          ∃ evs L, DropsOf w e evs L ∧ w'.log = w.log ++ evs ∧ (w'.storedEvs ++ evs).Perm w.storedEvs))
      (fun f w' => w' = w ∧ ((f = .noGeneration ∧ w.isAlive e = .error .noGeneration) ∨
        (f = .despawnTodo ∧ w.entities.Live e ∧ ∃ a ∈ w.archetypes, e ∈ a.compIds) ∨
        (f = .unwrapNone ∧ w.entities.Live e ∧ ¬ w.Row e))) := by
  unfold despawn
  simp only [tri_bind, tri_get, tri_liftE]
  rcases isAlive_answer h e with ⟨h1, h2⟩ | ⟨h1, h2⟩ | ⟨h1, h2⟩
  · rw [h1]; exact ⟨trivial, Or.inl ⟨rfl, rfl⟩⟩
  · rw [h1]; simp only [Bool.not_false, if_true, tri_pure]; exact Or.inl ⟨trivial, trivial, trivial⟩
  · rw [h1]
    simp only [Bool.not_true, Bool.false_eq_true, if_false]
    by_cases hany : ∃ a ∈ w.archetypes, e ∈ a.compIds
    · obtain ⟨a, ha, hea⟩ := hany
      rw [if_pos (by
        rw [List.any_eq_true]
        exact ⟨a, ha, (looksUp_mem (h.shape a ha).look e).2 hea⟩)]
      exact ⟨rfl, Or.inr (Or.inl ⟨rfl, h2, a, ha, hea⟩)⟩
    · rw [if_neg (by
        rw [List.any_eq_true]
        rintro ⟨a, ha, hea⟩
        exact hany ⟨a, ha, (looksUp_mem (h.shape a ha).look e).1 hea⟩)]
      have hun : ∀ a ∈ w.archetypes, e ∉ a.compIds := fun a ha hea => hany ⟨a, ha, hea⟩
      simp only [tri_bind, tri_liftE]
      rcases getEntityMeta_spec h e with ⟨g1, g2⟩ | ⟨g1, g2⟩ | ⟨g1, g2, g3, g4⟩ | ⟨im, cm, g1, g2, g3, g4, g5⟩
      · have := h2.lt; omega
      · exact absurd h2 g2
      · rw [g1]; exact ⟨trivial, Or.inr (Or.inr ⟨rfl, h2, g4⟩)⟩
      · rw [g1]
        simp only [unwrap, tri_step]
        obtain ⟨a, a1, a2⟩ := rowOf_some g5
        have hrow : w.Row e := (row_iff e).2 ⟨_, _, g5⟩
        obtain ⟨A', metas', es', q1, q2, q3, q4⟩ := archDespawn_spec h a1 a2 hun
        rw [a1]
        simp only [q1, q2, tri_pure]
        obtain ⟨L, hL⟩ := dropsOf_row h a1 a2
        exact Or.inr ⟨trivial, h2, hrow, hun, q3, _, L, hL, rfl, q4⟩

end World
end Ellecs
