import Verif.Proofs.Resolve
/-! # Moving a row from one table to another -/
namespace Ellecs
namespace World

theorem infoFn_congr {es es' : Entities} {metas metas' : List (Option EntityMeta)} (h1 : es' = es)
    (h2 : ∀ i, compOf metas' i = compOf metas i) (c : EcsId) : infoFn es' metas' c = infoFn es metas c := by
  subst h1; unfold infoFn; rw [h2]

theorem TypeOk.congr {tm : Ty → Option EcsId} {es : Entities} {metas metas' : List (Option EntityMeta)}
    (h : TypeOk tm es metas) (h2 : ∀ i, compOf metas' i = compOf metas i) : TypeOk tm es metas' :=
  ⟨h.known, fun t id ht hl => by rw [h2]; exact h.comp t id ht hl, h.inj⟩

/-- The entities, values and drop obligations after a move of `e`. -/
structure Moved (w w' : World) (e : EcsId) (newCell : EcsId → Option Bytes) : Prop where
  inv : Inv w'
  ent : w'.entities = w.entities
  comp : ∀ i, compOf w'.metas i = compOf w.metas i
  typ : w'.typeMap = w.typeMap
  reuse : w'.reuse = w.reuse
  look : w'.lockLookup = w.lockLookup
  locks : w'.locks = w.locks
  log : w'.log = w.log
  row : ∀ x, w'.Row x ↔ w.Row x
  others : ∀ x, x ≠ e → ∀ c bs, w'.Has x c bs ↔ w.Has x c bs
  self : ∀ c bs, w'.Has e c bs ↔ newCell c = some bs
  ids : w'.archetypes.map Archetype.compIds = w.archetypes.map Archetype.compIds

theorem finishMove_spec {w : World} (h : Inv w) {cur tar row : Nat} {A T : Archetype} {e : EcsId} (hne : cur ≠ tar)
    (hA : w.archetypes[cur]? = some A) (hT : w.archetypes[tar]? = some T) (hrow : A.entities[row]? = some e)
    {curSt tarSt : List (EcsId × UVec)} (hci : stIds curSt = A.compIds) (hti : stIds tarSt = T.compIds)
    (hco : StOk (infoFn w.entities w.metas) (fun _ => A.entities.length - 1) curSt)
    (hto : StOk (infoFn w.entities w.metas) (fun _ => T.entities.length + 1) tarSt)
    (hce : ∀ c, elemsOf curSt c = (elemsOf A.storages c).map (fun l => swapRemove l row))
    (hte : ∀ c r, r < T.entities.length →
      (elemsOf tarSt c).bind (fun l => l[r]?) = (elemsOf T.storages c).bind (fun l => l[r]?)) :
    ∃ w', finishMove w cur tar { A with storages := curSt } { T with storages := tarSt } e row = .ok w' ∧
      Moved w w' e (fun c => (elemsOf tarSt c).bind (fun l => l[T.entities.length]?)) ∧
      (w'.storedEvs ++ (stEvs A.storages ++ stEvs T.storages)).Perm
        (w.storedEvs ++ (stEvs curSt ++ stEvs tarSt)) := by
  have hAm := List.mem_of_getElem? hA
  have hTm := List.mem_of_getElem? hT
  have hclt := (List.getElem?_eq_some_iff.1 hA).1
  have htlt := (List.getElem?_eq_some_iff.1 hT).1
  have hrlt := (List.getElem?_eq_some_iff.1 hrow).1
  have hrow' : rowOf w.archetypes cur row = some e := by rw [rowOf_eq hA]; exact hrow
  obtain ⟨hlive, hinst⟩ := h.loc.ent _ _ _ hrow'
  have huniq : ∀ x y : EcsId, w.entities.Live x → w.entities.Live y → x.uindex = y.uindex → x = y :=
    fun x y hx hy hu => hx.uniq hy hu
  obtain ⟨metas1, s1, s2, s3, s4⟩ := setInst_spec hinst ⟨tar, T.entities.length⟩
  -- the two tables
  generalize hA' : ({ A with storages := curSt, entities := swapRemove A.entities row } : Archetype) = A'
  generalize hT' : ({ T with storages := tarSt, entities := T.entities ++ [e] } : Archetype) = T'
  generalize harchs : (w.archetypes.set cur A').set tar T' = archs
  have hrowOf : ∀ k r, rowOf archs k r = if k = tar then (T.entities ++ [e])[r]? else
      if k = cur then (swapRemove A.entities row)[r]? else rowOf w.archetypes k r := by
    intro k r
    rw [← harchs, rowOf_set (by simpa using htlt), ← hT', rowOf_set hclt, ← hA']
  have hcellOf : ∀ k r c, cellOf archs k r c = if k = tar then (elemsOf tarSt c).bind (fun l => l[r]?) else
      if k = cur then (elemsOf curSt c).bind (fun l => l[r]?) else cellOf w.archetypes k r c := by
    intro k r c
    rw [← harchs, cellOf_set (by simpa using htlt), ← hT', cellOf_set hclt, ← hA']
  have hTrow : ∀ r, (T.entities ++ [e])[r]? = if r = T.entities.length then some e else rowOf w.archetypes tar r := by
    intro r
    rw [rowOf_eq hT]
    by_cases hr : r = T.entities.length
    · subst hr; simp
    · rw [if_neg hr, List.getElem?_append]
      split
      · rfl
      · rw [List.getElem?_eq_none (by simp; omega), List.getElem?_eq_none (by omega)]
  have hTnone : rowOf w.archetypes tar T.entities.length = none := by
    rw [rowOf_eq hT]; simp
  have hArow := getElem?_swapRemove A.entities row
  -- the metadata
  have hmeta : ∃ metas', (match (swapRemove A.entities row)[row]? with
        | none => Except.ok metas1
        | some swapped => setInstIndex metas1 swapped.uindex row) = .ok metas' ∧
      (∀ i, compOf metas' i = compOf w.metas i) ∧
      LocOk w.entities.Live (instOf metas') (rowOf archs) := by
    by_cases hlast : row = A.entities.length - 1
    · have hnone : (swapRemove A.entities row)[row]? = none := by
        rw [hArow row hrlt, if_neg (by omega)]
      rw [hnone]
      refine ⟨metas1, rfl, s4, ?_⟩
      have hd := (h.loc.detachLast hrow').attach huniq hlive (k := tar) (r := T.entities.length) (by simp)
        (by rw [if_neg (fun hh => hne hh.1.symm)]; exact hTnone)
      refine hd.congr (fun _ => Iff.rfl) ?_ ?_
      · intro i; rw [s3]
        by_cases hi : i = e.uindex <;> simp [hi]
      · intro k r
        rw [hrowOf, hTrow]
        by_cases hk : k = tar
        · subst hk
          have hkc : ¬ k = cur := fun hh => hne hh.symm
          by_cases hr : r = T.entities.length <;> simp [hr, hkc]
        · rw [if_neg hk, if_neg (show ¬ (k = tar ∧ r = T.entities.length) from fun hh => hk hh.1)]
          by_cases hkc : k = cur
          · subst hkc
            rw [if_pos rfl, hArow r hrlt, rowOf_eq hA]
            by_cases hr : r = row
            · subst hr; simp [hlast]
            · rw [if_neg (show ¬ (k = k ∧ r = row) from fun hh => hr hh.2)]
              by_cases hr2 : r < A.entities.length - 1
              · rw [if_pos hr2, if_neg hr]
              · rw [if_neg hr2, List.getElem?_eq_none (by omega)]
          · rw [if_neg hkc, if_neg (fun hh => hkc hh.1)]
    · have hlt2 : A.entities.length - 1 < A.entities.length := by omega
      have hsome : (swapRemove A.entities row)[row]? = some A.entities[A.entities.length - 1] := by
        rw [hArow row hrlt, if_pos (by omega), if_pos rfl, List.getElem?_eq_getElem hlt2]
      generalize he' : A.entities[A.entities.length - 1] = e' at hsome
      have hlast' : rowOf w.archetypes cur (A.entities.length - 1) = some e' := by
        rw [rowOf_eq hA, List.getElem?_eq_getElem hlt2, he']
      obtain ⟨hlive', hinst'⟩ := h.loc.ent _ _ _ hlast'
      have hnu : e.uindex ≠ e'.uindex := by
        intro hh; rw [hh, hinst'] at hinst
        injection hinst with hh2; injection hh2 with _ hh3; omega
      have hinst1 : instOf metas1 e'.uindex = some ⟨cur, A.entities.length - 1⟩ := by
        rw [s3, if_neg (fun hh => hnu hh.symm), hinst']
      obtain ⟨metas2, t1, t2, t3, t4⟩ := setInstIndex_spec hinst1 row
      rw [hsome]
      refine ⟨metas2, t1, fun i => (t4 i).trans (s4 i), ?_⟩
      have hd := (h.loc.detachSwap huniq hrow' hlast' hlast).attach huniq hlive (k := tar) (r := T.entities.length)
        (by rw [if_neg hnu]; simp)
        (by rw [if_neg (fun hh => hne hh.1.symm), if_neg (fun hh => hne hh.1.symm)]; exact hTnone)
      refine hd.congr (fun _ => Iff.rfl) ?_ ?_
      · intro i; rw [t3, s3]
        by_cases hi : i = e.uindex
        · subst hi; simp [hnu]
        · simp [hi]
      · intro k r
        rw [hrowOf, hTrow]
        by_cases hk : k = tar
        · subst hk
          have hkc : ¬ k = cur := fun hh => hne hh.symm
          by_cases hr : r = T.entities.length <;> simp [hr, hkc]
        · rw [if_neg hk, if_neg (show ¬ (k = tar ∧ r = T.entities.length) from fun hh => hk hh.1)]
          by_cases hkc : k = cur
          · subst hkc
            rw [if_pos rfl, hArow r hrlt]
            by_cases hr1 : r = A.entities.length - 1
            · rw [if_neg (show ¬ r < A.entities.length - 1 by omega), if_pos ⟨rfl, hr1⟩]
            · rw [if_neg (show ¬ (k = k ∧ r = A.entities.length - 1) from fun hh => hr1 hh.2)]
              by_cases hr : r = row
              · rw [if_pos (show k = k ∧ r = row from ⟨rfl, hr⟩), if_pos (by omega), if_pos hr, ← rowOf_eq hA, hlast']
              · rw [if_neg (show ¬ (k = k ∧ r = row) from fun hh => hr hh.2), rowOf_eq hA]
                by_cases hr2 : r < A.entities.length - 1
                · rw [if_pos hr2, if_neg hr]
                · rw [if_neg hr2, List.getElem?_eq_none (by omega)]
          · rw [if_neg hkc, if_neg (fun hh => hkc hh.1), if_neg (fun hh => hkc hh.1)]
  obtain ⟨metas', m1, m2, m3⟩ := hmeta
  have hinfo : ∀ c, infoFn w.entities metas' c = infoFn w.entities w.metas c := infoFn_congr rfl m2
  have hmem : ∀ x ∈ archs, x = T' ∨ x = A' ∨ x ∈ w.archetypes := by
    intro x hx
    rw [← harchs] at hx
    rcases List.mem_or_eq_of_mem_set hx with hx | hx
    · rcases List.mem_or_eq_of_mem_set hx with hx | hx
      · exact Or.inr (Or.inr hx)
      · exact Or.inr (Or.inl hx)
    · exact Or.inl hx
  have hskel : archs.map skel = w.archetypes.map skel := by
    rw [← harchs, map_set_same (a := T) (by rw [List.getElem?_set, if_neg hne]; exact hT) _ _ (by rw [← hT']; rfl),
      map_set_same hA _ _ (by rw [← hA']; rfl)]
  have hinv : Inv { w with metas := metas', archetypes := archs } := by
    refine h.retable hskel h.ent m3 ?_ ?_ ?_ rfl rfl rfl rfl (TypeOk.congr h.type m2) h.reuse
    · intro x hx
      rcases hmem x hx with rfl | rfl | hx
      · rw [← hT']; exact hti
      · rw [← hA']; exact hci
      · exact (h.shape x hx).ids
    · intro x hx
      rcases hmem x hx with rfl | rfl | hx
      · rw [← hT']
        refine hto.congr (fun c _ => hinfo c) (fun c _ => ?_)
        simp
      · rw [← hA']
        refine hco.congr (fun c _ => hinfo c) (fun c _ => ?_)
        simp [length_swapRemove]
      · exact (h.col x hx).congr (fun c _ => hinfo c) (fun _ _ => rfl)
    · intro x hx
      rcases hmem x hx with rfl | rfl | hx
      · rw [← hT']; exact h.cache T hTm
      · rw [← hA']; exact h.cache A hAm
      · exact h.cache x hx
  -- where the rows went
  have hcol : ∀ c, (elemsOf A.storages c).bind (fun l => some l.length) = (elemsOf A.storages c).map (fun _ => A.entities.length) := by
    intro c
    cases hc : elemsOf A.storages c with
    | none => rfl
    | some l =>
      obtain ⟨v, hv, rfl⟩ := elemsOf_mem hc
      simp only [Option.bind_some, Option.map_some, UVec.length_elems]
      rw [(h.col A hAm _ hv).2.1]
  have hcur : ∀ r c, (elemsOf curSt c).bind (fun l => l[r]?) =
      if r < A.entities.length - 1 then (if r = row then cellOf w.archetypes cur (A.entities.length - 1) c
        else cellOf w.archetypes cur r c) else none := by
    intro r c
    rw [hce, cellOf_eq hA, cellOf_eq hA]
    have hc := hcol c
    cases he : elemsOf A.storages c with
    | none => simp
    | some l =>
      rw [he] at hc
      simp only [Option.bind_some, Option.map_some, Option.some.injEq] at hc
      simp only [Option.map_some, Option.bind_some]
      rw [getElem?_swapRemove l row r (by omega), hc]
  have hplace : ∀ k r x, rowOf w.archetypes k r = some x → x ≠ e → ∃ k' r', rowOf archs k' r' = some x ∧
      ∀ c, cellOf archs k' r' c = cellOf w.archetypes k r c := by
    intro k r x hx hxe
    by_cases hk : k = tar
    · subst hk
      have hr : r < T.entities.length := by
        rw [rowOf_eq hT] at hx; exact (List.getElem?_eq_some_iff.1 hx).1
      refine ⟨k, r, ?_, ?_⟩
      · rw [hrowOf, if_pos rfl, hTrow, if_neg (by omega), hx]
      · intro c; rw [hcellOf, if_pos rfl, hte c r hr, cellOf_eq hT]
    · by_cases hkc : k = cur
      · subst hkc
        have hr : r < A.entities.length := by
          rw [rowOf_eq hA] at hx; exact (List.getElem?_eq_some_iff.1 hx).1
        have hrr : r ≠ row := by
          rintro rfl; rw [hrow'] at hx; injection hx with hx; exact hxe hx.symm
        by_cases hr1 : r = A.entities.length - 1
        · refine ⟨k, row, ?_, ?_⟩
          · rw [hrowOf, if_neg hk, if_pos rfl, hArow row hrlt, if_pos (by omega), if_pos rfl, ← hr1, ← rowOf_eq hA, hx]
          · intro c; rw [hcellOf, if_neg hk, if_pos rfl, hcur, if_pos (by omega), if_pos rfl, hr1]
        · refine ⟨k, r, ?_, ?_⟩
          · rw [hrowOf, if_neg hk, if_pos rfl, hArow r hrlt, if_pos (by omega), if_neg hrr, ← rowOf_eq hA, hx]
          · intro c; rw [hcellOf, if_neg hk, if_pos rfl, hcur, if_pos (by omega), if_neg hrr]
      · refine ⟨k, r, ?_, ?_⟩
        · rw [hrowOf, if_neg hk, if_neg hkc, hx]
        · intro c; rw [hcellOf, if_neg hk, if_neg hkc]
  have hself : rowOf archs tar T.entities.length = some e := by
    rw [hrowOf, if_pos rfl, hTrow, if_pos rfl]
  have hback : ∀ k r x, rowOf archs k r = some x → ∃ k' r', rowOf w.archetypes k' r' = some x := by
    intro k r x hx
    rw [hrowOf, hTrow] at hx
    split at hx
    · split at hx
      · injection hx with hx; subst hx; exact ⟨_, _, hrow'⟩
      · exact ⟨_, _, hx⟩
    · split at hx
      · rw [hArow r hrlt] at hx
        split at hx
        · split at hx
          · exact ⟨cur, _, by rw [rowOf_eq hA]; exact hx⟩
          · exact ⟨cur, _, by rw [rowOf_eq hA]; exact hx⟩
        · cases hx
      · exact ⟨_, _, hx⟩
  have hrowiff : ∀ x, World.Row { w with metas := metas', archetypes := archs } x ↔ w.Row x := by
    intro x
    rw [row_iff, row_iff]
    constructor
    · rintro ⟨k, r, hx⟩; exact hback k r x hx
    · rintro ⟨k, r, hx⟩
      by_cases hxe : x = e
      · subst hxe; exact ⟨_, _, hself⟩
      · obtain ⟨k', r', h1, _⟩ := hplace k r x hx hxe
        exact ⟨k', r', h1⟩
  refine ⟨{ w with metas := metas', archetypes := archs }, ?_, ?_, ?_⟩
  · unfold finishMove
    simp only [List.length_append, List.length_cons, List.length_nil, Nat.add_sub_cancel, s1, hA', hT', harchs]
    rw [if_pos hrlt]
    revert m1
    cases (swapRemove A.entities row)[row]? with
    | none => intro m1; injection m1 with m1; subst m1; rfl
    | some y => intro m1; simp only at m1 ⊢; rw [m1]
  · refine ⟨hinv, rfl, m2, rfl, rfl, rfl, rfl, rfl, hrowiff, ?_, ?_, skel_ids hskel⟩
    · intro x hxe c bs
      constructor
      · intro hh
        obtain ⟨k', r', h1, _⟩ := (has_iff hinv.shape x c bs).1 hh
        obtain ⟨k, r, h2⟩ := hback _ _ _ h1
        obtain ⟨k2, r2, h3, h4⟩ := hplace k r x h2 hxe
        rw [has_at hinv h3, h4] at hh
        rw [has_at h h2]; exact hh
      · intro hh
        obtain ⟨k, r, h2, _⟩ := (has_iff h.shape x c bs).1 hh
        obtain ⟨k2, r2, h3, h4⟩ := hplace k r x h2 hxe
        rw [has_at h h2] at hh
        rw [has_at hinv h3, h4]; exact hh
    · intro c bs
      rw [has_at hinv hself, hcellOf, if_pos rfl]
  · have p1 := flatMap_set hA A' (fun a => stEvs a.storages)
    have p2 := flatMap_set (l := w.archetypes.set cur A') (k := tar) (a := T)
      (by rw [List.getElem?_set, if_neg hne]; exact hT) T' (fun a => stEvs a.storages)
    rw [harchs] at p2
    have e1 : A'.storages = curSt := by rw [← hA']
    have e2 : T'.storages = tarSt := by rw [← hT']
    simp only [e1, e2] at p1 p2
    simp only [storedEvs]
    rw [List.perm_iff_count] at p1 p2 ⊢
    intro z
    have q1 := p1 z
    have q2 := p2 z
    simp only [List.count_append] at *
    omega


theorem col_len {info : EcsId → Option TypeInfo} {n : EcsId → Nat} {st : List (EcsId × UVec)} (h : StOk info n st)
    {c : EcsId} {l : List Bytes} (hc : elemsOf st c = some l) : l.length = n c := by
  obtain ⟨v, hv, rfl⟩ := elemsOf_mem hc
  rw [UVec.length_elems]; exact (h _ hv).2.1

theorem appRow_eq {info : EcsId → Option TypeInfo} {nt nc row : Nat} {T A : List (EcsId × UVec)}
    (hT : StOk info (fun _ => nt) T) (hA : StOk info (fun _ => nc) A) (hr : row < nc) (c : EcsId)
    (hmem : c ∈ stIds T ↔ c ∈ stIds A) (r : Nat) :
    (appRow (elemsOf T c) (elemsOf A c) row).bind (fun l => l[r]?) =
      if r = nt then (elemsOf A c).bind (fun l => l[row]?) else (elemsOf T c).bind (fun l => l[r]?) := by
  cases ht : elemsOf T c with
  | none =>
    have ha : elemsOf A c = none := elemsOf_eq_none.2 (by rw [← hmem]; exact elemsOf_eq_none.1 ht)
    simp [appRow, ha]
  | some l =>
    cases ha : elemsOf A c with
    | none =>
      have := elemsOf_eq_none.2 (by rw [hmem]; exact elemsOf_eq_none.1 ha : c ∉ stIds T)
      rw [ht] at this; cases this
    | some la =>
      have h1 : l.length = nt := col_len hT ht
      have h2 : la.length = nc := col_len hA ha
      have h3 := List.getElem?_eq_getElem (l := la) (i := row) (by omega)
      simp only [appRow, Option.bind_some, h3, Option.map_some]
      by_cases hrn : r = nt
      · rw [if_pos hrn, hrn, ← h1]; simp
      · rw [if_neg hrn, List.getElem?_append]
        split
        · rfl
        · rw [List.getElem?_eq_none (by simp; omega), List.getElem?_eq_none (by omega)]

theorem stEvs_set {st : List (EcsId × UVec)} {n : Nat} {p : EcsId × UVec} (h : st[n]? = some p) (q : EcsId × UVec) :
    (stEvs (st.set n q) ++ UVec.dropEvs p.2.info p.2.elems).Perm (stEvs st ++ UVec.dropEvs q.2.info q.2.elems) :=
  flatMap_set h q (fun p => UVec.dropEvs p.2.info p.2.elems)

theorem moveAddRow_spec {w : World} (h : Inv w) {cur tar row : Nat} {A T : Archetype} {e compId : EcsId}
    (hA : w.archetypes[cur]? = some A) (hT : w.archetypes[tar]? = some T) (hrow : A.entities[row]? = some e)
    (hid : compId ∉ A.compIds) (hids : ∀ x, x ∈ T.compIds ↔ x ∈ A.compIds ∨ x = compId) {m : ComponentMeta}
    (hm : compOf w.metas compId.uindex = some m) {src : Bytes} (hsrc : m.layout.size ≤ src.length) :
    (∃ f, moveAddRow cur tar e row compId src w = .error f ∧ Limit f ∧ ¬ w.Roomy) ∨
    (∃ w', moveAddRow cur tar e row compId src w = .ok w' ∧
      Moved w w' e (fun c => if c = compId then some (src.take m.layout.size) else cellOf w.archetypes cur row c) ∧
      w'.storedEvs.Perm (w.storedEvs ++ UVec.dropEvs m.info [src.take m.layout.size])) := by
  have hAm := List.mem_of_getElem? hA
  have hTm := List.mem_of_getElem? hT
  have hrlt := (List.getElem?_eq_some_iff.1 hrow).1
  have hTid : compId ∈ T.compIds := (hids _).2 (Or.inr rfl)
  have hne : cur ≠ tar := by
    rintro rfl; rw [hA] at hT; injection hT with hT; subst hT; exact hid hTid
  have sA := h.shape A hAm
  have sT := h.shape T hTm
  have cA := h.col A hAm
  have cT := h.col T hTm
  have hTn : (stIds T.storages).Nodup := by rw [sT.ids]; exact sT.sorted.nodup
  have hfilter : stIds A.storages = (stIds T.storages).filter (fun i => i ≠ compId) := by
    rw [sA.ids, sT.ids]
    refine sA.sorted.ext (sT.sorted.filter _) ?_
    intro x
    simp only [List.mem_filter, hids, ne_eq, decide_not, Bool.not_eq_eq_eq_not, Bool.not_true, decide_eq_false_iff_not]
    constructor
    · intro hx; exact ⟨Or.inl hx, by rintro rfl; exact hid hx⟩
    · rintro ⟨hx | hx, hy⟩
      · exact hx
      · exact absurd hx hy
  unfold moveAddRow
  rw [ArraySpec.C47_index_twice w.archetypes cur tar A T hne hA hT]
  simp only
  rcases moveAdd_spec (compId := compId) (row := row) 0 none hTn hfilter cA cT hrlt (fun _ => rfl) with
    ⟨f, m1, m2, m3⟩ | ⟨curSt, tarSt, sk, m1, m2, m3, m4, m5, m6, m7, m8, m9, m10, m11⟩
  · left
    rw [m1]
    exact ⟨f, rfl, m2, fun hr => m3 (hr.1 T hTm)⟩
  · rw [m1]
    simp only
    have hTid' : compId ∈ stIds T.storages := by rw [sT.ids]; exact hTid
    -- the position of the new component
    have hn : ∃ n, addSlot sk T.compIds tarSt.length compId = .ok n ∧ (stIds tarSt)[n]? = some compId := by
      rw [m3]
      cases sk with
      | some n =>
        refine ⟨n, rfl, ?_⟩
        rcases m9 n rfl with hh | ⟨j, hj, hh⟩
        · cases hh
        · rw [hj, Nat.zero_add]; exact hh
      | none =>
        have hl := m10 rfl hTid'
        rw [sT.ids] at hl
        refine ⟨tarSt.length - 1, ?_, ?_⟩
        · simp [addSlot, hl]
        · have hlen : tarSt.length = T.compIds.length := by
            have := congrArg List.length m3
            rw [sT.ids] at this; simpa [stIds] using this
          rw [hlen, sT.ids, ← List.getLast?_eq_getElem?]; exact hl
    obtain ⟨n, n1, n2⟩ := hn
    rw [n1]
    simp only
    obtain ⟨⟨pid, pv⟩, p1, p2⟩ : ∃ p, tarSt[n]? = some p ∧ p.1 = compId := by
      unfold stIds at n2
      rw [List.getElem?_map] at n2
      cases hh : tarSt[n]? with
      | none => rw [hh] at n2; cases n2
      | some p => rw [hh] at n2; injection n2 with n2; exact ⟨p, rfl, n2⟩
    simp only at p2
    subst p2
    rw [p1]
    simp only
    obtain ⟨v1, v2, v3⟩ := m5 _ (List.mem_of_getElem? p1)
    simp only [if_true] at v2
    have hinfo : pv.info = m.info := by
      obtain ⟨_, m', e1, e2⟩ := infoFn_some.1 v3
      rw [hm] at e1; injection e1 with e1; subst e1; exact e2.symm
    have hsize : pv.size = m.layout.size := congrArg (fun i => i.layout.size) hinfo
    have htarn : (stIds tarSt).Nodup := by rw [m3]; exact hTn
    rcases UVec.pushRaw_spec v1 src (by rw [hsize]; exact hsrc) with ⟨f, q1, q2, q3⟩ | ⟨v', q1, q2, q3, q4, _⟩
    · left
      rw [q1]
      exact ⟨f, rfl, q2, fun hr => q3 (m11 (hr.1 T hTm) _ (List.mem_of_getElem? p1) rfl)⟩
    · right
      rw [q1]
      simp only
      replace q4 : v'.elems = pv.elems ++ [src.take pv.size] := q4
      have hpel : elemsOf tarSt pid = some pv.elems := elemsOf_getElem? htarn p1
      have hv'c : v'.count = T.entities.length + 1 := by
        rw [← UVec.length_elems, q4, List.length_append, UVec.length_elems, v2]; rfl
      have hel := elemsOf_set htarn p1 v'
      simp only at hel
      have hmemTA : ∀ c, c ≠ pid → (c ∈ stIds T.storages ↔ c ∈ stIds A.storages) := by
        intro c hc
        rw [sT.ids, sA.ids, hids]
        exact ⟨fun hh => hh.resolve_right hc, Or.inl⟩
      have hcell : ∀ c r, (elemsOf (tarSt.set n (pid, v')) c).bind (fun l => l[r]?) =
          if r = T.entities.length then (if c = pid then some (src.take m.layout.size) else cellOf w.archetypes cur row c)
          else (elemsOf T.storages c).bind (fun l => l[r]?) := by
        intro c r
        rw [hel]
        by_cases hc : c = pid
        · subst hc
          rw [if_pos rfl, if_pos rfl]
          have h7 := m7 c
          rw [if_pos rfl, hpel] at h7
          rw [← h7]
          simp only [Option.bind_some]
          rw [q4, hsize]
          have hl : pv.elems.length = T.entities.length := by rw [UVec.length_elems, v2]
          by_cases hr : r = T.entities.length
          · rw [if_pos hr, hr, ← hl]; simp
          · rw [if_neg hr]
            by_cases hlt : r < pv.elems.length
            · rw [List.getElem?_append_left hlt]
            · rw [List.getElem?_eq_none (by rw [List.length_append, List.length_singleton]; omega),
                List.getElem?_eq_none (by omega)]
        · rw [if_neg hc, m7, if_neg hc, appRow_eq cT cA hrlt c (hmemTA c hc), if_neg hc, cellOf_eq hA]
      obtain ⟨w', f1, f2, f3⟩ := finishMove_spec h (e := e) hne hA hT hrow (curSt := curSt)
        (tarSt := tarSt.set n (pid, v')) (by rw [m2, sA.ids]) (by rw [stIds_set p1, m3, sT.ids]) m4
        (stOk_set htarn m5 p1 (p := (pid, pv)) q2 q3 hv'c (by intro c hc; simp only at hc; simp only [if_neg hc]))
        m6 (by intro c r hr; rw [hcell, if_neg (by omega)])
      refine ⟨w', f1, ?_, ?_⟩
      · have hfun : (fun c => (elemsOf (tarSt.set n (pid, v')) c).bind (fun l => l[T.entities.length]?)) =
            (fun c => if c = pid then some (src.take m.layout.size) else cellOf w.archetypes cur row c) := by
          funext c; rw [hcell, if_pos rfl]
        rw [hfun] at f2; exact f2
      · have h1 := stEvs_set p1 (pid, v')
        simp only at h1
        rw [q3, q4, UVec.dropEvs_append, hinfo, hsize] at h1
        rw [List.perm_iff_count] at f3 m8 h1 ⊢
        intro z
        have a1 := f3 z
        have a2 := m8 z
        have a3 := h1 z
        simp only [List.count_append] at *
        omega

theorem moveRemoveRow_spec {w : World} (h : Inv w) {cur tar row : Nat} {A T : Archetype} {e compId : EcsId}
    (hA : w.archetypes[cur]? = some A) (hT : w.archetypes[tar]? = some T) (hrow : A.entities[row]? = some e)
    (hid : compId ∈ A.compIds) (hids : ∀ x, x ∈ T.compIds ↔ x ∈ A.compIds ∧ x ≠ compId) :
    (∃ f, moveRemoveRow cur tar e row compId w = .error f ∧ Limit f ∧ ¬ w.Roomy) ∨
    (∃ w' m bs, moveRemoveRow cur tar e row compId w = .ok { w' with log := w'.log ++ UVec.dropEvs (ComponentMeta.info m) [bs] } ∧
      compOf w.metas compId.uindex = some m ∧ cellOf w.archetypes cur row compId = some bs ∧
      Moved w w' e (fun c => if c = compId then none else cellOf w.archetypes cur row c) ∧
      (w'.storedEvs ++ UVec.dropEvs m.info [bs]).Perm w.storedEvs) := by
  have hAm := List.mem_of_getElem? hA
  have hTm := List.mem_of_getElem? hT
  have hrlt := (List.getElem?_eq_some_iff.1 hrow).1
  have hTid : compId ∉ T.compIds := fun hh => ((hids _).1 hh).2 rfl
  have hne : cur ≠ tar := by
    rintro rfl; rw [hA] at hT; injection hT with hT; subst hT; exact hTid hid
  have sA := h.shape A hAm
  have sT := h.shape T hTm
  have cA := h.col A hAm
  have cT := h.col T hTm
  have hAn : (stIds A.storages).Nodup := by rw [sA.ids]; exact sA.sorted.nodup
  have hfilter : stIds T.storages = (stIds A.storages).filter (fun i => i ≠ compId) := by
    rw [sA.ids, sT.ids]
    refine sT.sorted.ext (sA.sorted.filter _) ?_
    intro x
    simp [List.mem_filter, hids]
  unfold moveRemoveRow
  rw [ArraySpec.C47_index_twice w.archetypes cur tar A T hne hA hT]
  simp only
  rcases moveRemove_spec (compId := compId) (row := row) 0 none hAn hfilter cA cT hrlt (fun _ => rfl) with
    ⟨f, m1, m2, m3⟩ | ⟨curSt, tarSt, sk, m1, m2, m3, m4, m5, m6, m7, m8, m9⟩
  · left
    rw [m1]
    exact ⟨f, rfl, m2, fun hr => m3 (hr.1 T hTm)⟩
  · right
    rw [m1]
    simp only
    have hAid' : compId ∈ stIds A.storages := by rw [sA.ids]; exact hid
    rw [if_pos hAid'] at m9
    obtain ⟨n, n1, n2⟩ := m9
    rw [Nat.zero_add] at n1
    rw [n1]
    simp only
    rw [← m2] at n2
    obtain ⟨⟨pid, pv⟩, p1, p2⟩ : ∃ p, curSt[n]? = some p ∧ p.1 = compId := by
      unfold stIds at n2
      rw [List.getElem?_map] at n2
      cases hh : curSt[n]? with
      | none => rw [hh] at n2; cases n2
      | some p => rw [hh] at n2; injection n2 with n2; exact ⟨p, rfl, n2⟩
    simp only at p2
    subst p2
    rw [p1]
    simp only
    obtain ⟨v1, v2, v3⟩ := m4 _ (List.mem_of_getElem? p1)
    simp only [if_true] at v2
    obtain ⟨_, m, hm, hinfo⟩ := infoFn_some.1 v3
    simp only at hinfo
    have hcurn : (stIds curSt).Nodup := by rw [m2]; exact hAn
    obtain ⟨v', q1, q2, q3, q4, _⟩ := UVec.swapRemove_spec v1 (i := row) (by rw [v2]; exact hrlt)
    rw [q1]
    simp only
    have hpel : elemsOf curSt pid = some pv.elems := elemsOf_getElem? hcurn p1
    have h6 := m6 pid
    rw [if_pos rfl, hpel] at h6
    have hbs : cellOf w.archetypes cur row pid = some (pv.elem row) := by
      rw [cellOf_eq hA, ← h6, Option.bind_some, elems_row (by rw [v2]; exact hrlt)]
    have hv'c : v'.count = A.entities.length - 1 := by
      rw [← UVec.length_elems, q4, length_swapRemove, UVec.length_elems, v2]
    have hel := elemsOf_set hcurn p1 v'
    simp only at hel
    have hmemTA : ∀ c, c ≠ pid → (c ∈ stIds T.storages ↔ c ∈ stIds A.storages) := by
      intro c hc
      rw [sT.ids, sA.ids, hids]
      exact ⟨And.left, fun hh => ⟨hh, hc⟩⟩
    have hTnone : elemsOf T.storages pid = none := elemsOf_eq_none.2 (by rw [sT.ids]; exact hTid)
    have hcell : ∀ c r, (elemsOf tarSt c).bind (fun l => l[r]?) =
        if r = T.entities.length then (if c = pid then none else cellOf w.archetypes cur row c)
        else (elemsOf T.storages c).bind (fun l => l[r]?) := by
      intro c r
      rw [m7]
      by_cases hc : c = pid
      · subst hc; rw [hTnone, appRow_none_left]; simp
      · rw [appRow_eq cT cA hrlt c (hmemTA c hc), if_neg hc, cellOf_eq hA]
    obtain ⟨w', f1, f2, f3⟩ := finishMove_spec h (e := e) hne hA hT hrow (curSt := curSt.set n (pid, v'))
      (tarSt := tarSt) (by rw [stIds_set p1, m2, sA.ids]) (by rw [m3, sT.ids])
      (stOk_set hcurn m4 p1 (p := (pid, pv)) q2 q3 hv'c (by intro c hc; simp only at hc; simp only [if_neg hc]))
      m5 (by
        intro c
        rw [hel]
        by_cases hc : c = pid
        · subst hc; rw [if_pos rfl, ← h6, q4]; rfl
        · rw [if_neg hc, m6, if_neg hc])
      (by intro c r hr; rw [hcell, if_neg (by omega)])
    rw [f1]
    refine ⟨w', m, pv.elem row, ?_, hm, hbs, ?_, ?_⟩
    · rw [hinfo]
    · have hfun : (fun c => (elemsOf tarSt c).bind (fun l => l[T.entities.length]?)) =
          (fun c => if c = pid then none else cellOf w.archetypes cur row c) := by
        funext c; rw [hcell, if_pos rfl]
      rw [hfun] at f2; exact f2
    · have h1 := stEvs_set p1 (pid, v')
      have h2 := dropEvs_perm (info := pv.info) (perm_swapRemove (elems_row (v := pv) (r := row) (by rw [v2]; exact hrlt)))
      simp only at h1
      rw [UVec.dropEvs_append, ← q4, hinfo.symm] at h2
      rw [q3, hinfo.symm] at h1
      rw [List.perm_iff_count] at f3 m8 h1 h2 ⊢
      intro z
      have a1 := f3 z
      have a2 := m8 z
      have a3 := h1 z
      have a4 := h2 z
      simp only [List.count_append] at *
      omega

end World
end Ellecs
