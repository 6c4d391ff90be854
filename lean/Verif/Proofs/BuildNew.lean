import Verif.Proofs.Build
/-! # Building an entity in a new archetype -/
namespace Ellecs

/-- The drop calls made when columns are dropped: none for columns of size 0. -/
def nzEvs (st : List (EcsId × UVec)) : List DropEv :=
  st.flatMap (fun p => if p.2.size = 0 then [] else UVec.dropEvs p.2.info p.2.elems.reverse)

theorem dropStorages_spec {st : List (EcsId × UVec)} (h : ∀ p ∈ st, UVec.Inv p.2) : dropStorages st = .ok (nzEvs st) := by
  induction st with
  | nil => rfl
  | cons p ps ih =>
    obtain ⟨id, v⟩ := p
    have hv : UVec.Inv v := h _ List.mem_cons_self
    have hps := ih (fun q hq => h q (List.mem_cons_of_mem _ hq))
    unfold dropStorages nzEvs
    rw [List.flatMap_cons]
    by_cases hz : v.size = 0
    · rw [UVec.drop_zst hv hz]
      have hd : v.data = none := by
        rcases hv.block with ⟨_, hh⟩ | ⟨hh, _⟩
        · exact hh
        · have := hv.zst hz; omega
      simp only [hd, if_true, hps, hz, List.nil_append]
      rfl
    · rw [UVec.drop_spec hv hz]
      simp only [if_true, hps, hz, if_false]
      rfl

theorem nzEvs_perm {st st' : List (EcsId × UVec)} (h : st.Perm st') : (nzEvs st).Perm (nzEvs st') := h.flatMap_right _

namespace World

/-- The drop calls for values that are dropped in columns of their own: none for values of size 0. -/
def nzVals (w : World) (vals : List (EcsId × Bytes)) : List DropEv :=
  vals.flatMap (fun p => match compOf w.metas p.1.uindex with
    | some m => if m.layout.size = 0 then [] else UVec.dropEvs m.info [p.2]
    | none => [])

theorem nzEvs_vals {w : World} {st : List (EcsId × UVec)} {vals : List (EcsId × Bytes)} {cnt : EcsId → Nat}
    (h : st.map (fun p => (p.1, p.2.elems)) = vals.map (fun p => (p.1, [p.2]))) (hst : StOk (infoFn w.entities w.metas) cnt st) :
    nzEvs st = nzVals w vals := by
  induction st generalizing vals with
  | nil =>
    cases vals with
    | nil => rfl
    | cons q vals => cases h
  | cons p st ih =>
    cases vals with
    | nil => cases h
    | cons q vals =>
      simp only [List.map_cons, List.cons.injEq, Prod.mk.injEq] at h
      obtain ⟨⟨h1, h2⟩, h3⟩ := h
      obtain ⟨⟨_, _, c3⟩, c4⟩ := StOk.cons.1 hst
      have := ih h3 c4
      unfold nzEvs nzVals at *
      rw [List.flatMap_cons, List.flatMap_cons, this]
      obtain ⟨_, m, hm, hmi⟩ := infoFn_some.1 c3
      rw [← h1, hm, h2]
      simp only [List.reverse_cons, List.reverse_nil, List.nil_append]
      have hs : p.2.size = m.layout.size := by unfold UVec.size; rw [← hmi]; rfl
      rw [hs, ← hmi]

theorem createStorages_spec {w : World} (h : Inv w) (b : Builder) (rest : List (EcsId × Bytes)) :
    ∀ (off : Nat) (acc : List (EcsId × UVec)), b.dataFrom off = (rest.map Prod.snd).flatten → ValsOk w rest →
    (∃ f acc', Builder.createStorages b w off (rest.map Prod.fst) acc = .error (f, acc ++ acc') ∧ rest ≠ [] ∧ Limit f ∧ ¬ w.Roomy ∧
      ∀ p ∈ acc', UVec.Inv p.2) ∨
    (∃ st, Builder.createStorages b w off (rest.map Prod.fst) acc = .ok (acc ++ st) ∧
      st.map (fun p => (p.1, p.2.elems)) = rest.map (fun p => (p.1, [p.2])) ∧
      StOk (infoFn w.entities w.metas) (fun _ => 1) st ∧ stEvs st = valEvs w rest) := by
  induction rest with
  | nil => intro off acc _ _; right; exact ⟨[], by simp [Builder.createStorages], rfl, by simp [StOk], rfl⟩
  | cons p rest ih =>
    intro off acc hdata hvals
    obtain ⟨im, m, v1, v2, v3, v4, v5, _, v6⟩ := hvals.info h List.mem_cons_self
    have hd : b.dataFrom off = p.2 ++ (rest.map Prod.snd).flatten := by rw [hdata]; rfl
    have hsz : (UVec.newFromRaw m.info).size = m.layout.size := rfl
    rw [List.map_cons, Builder.createStorages, v1]
    simp only
    rcases UVec.pushRaw_spec (UVec.inv_newFromRaw m.info) (b.dataFrom off)
      (by rw [hd, hsz, List.length_append]; omega) with ⟨f, q1, q2, q3⟩ | ⟨v', q1, q2, q3, q4, _⟩
    · left
      rw [q1]
      refine ⟨f, [], by simp, by simp, q2, ?_, by simp⟩
      intro hr
      apply q3
      obtain ⟨c', hc', hcc⟩ := metas_of_inst v6
      rw [v3] at hcc; injection hcc with hcc; subst hcc
      exact ⟨hr.2 _ (List.mem_of_getElem? hc'), by simp [UVec.newFromRaw, isizeMax]⟩
    · rw [q1]
      simp only
      replace q3 : v'.info = m.info := q3
      replace q4 : v'.elems = [p.2] := by
        rw [q4, UVec.elems_newFromRaw, hsz, hd, ← v2, List.take_left, List.nil_append]
      rcases ih (off + m.layout.size) (acc ++ [(p.1, v')])
        (by
          unfold Builder.dataFrom at hd ⊢
          rw [← List.drop_drop, hd, ← v2, List.drop_left])
        (fun q hq => hvals q (List.mem_cons_of_mem _ hq)) with ⟨f, acc', r1, _, r2, r3, r4⟩ | ⟨st, r1, r2, r3, r4⟩
      · left
        refine ⟨f, (p.1, v') :: acc', by rw [r1]; simp, by simp, r2, r3, ?_⟩
        intro q hq
        rcases List.mem_cons.1 hq with rfl | hq
        · exact q2
        · exact r4 q hq
      · right
        refine ⟨(p.1, v') :: st, by rw [r1]; simp, ?_, ?_, ?_⟩
        · rw [List.map_cons, List.map_cons, r2, q4]
        · refine StOk.cons.2 ⟨⟨q2, ?_, ?_⟩, r3⟩
          · simp only; rw [← UVec.length_elems, q4]; rfl
          · simp only; rw [v5, q3]
        · unfold stEvs valEvs at *
          rw [List.flatMap_cons, List.flatMap_cons, r4, v3, q3, q4]

/-- Creating an archetype for one row. -/
theorem createArchetype_spec {w : World} (h : Inv w) {b : Builder} {vals : List (EcsId × Bytes)} (hb : Packed b vals)
    (hv : ValsOk w vals) :
    Tri (Builder.createArchetype b) w
      (fun r w' => w' = w ∧ (vals.map Prod.fst).Nodup ∧ r.1 = { b with compIds := [] } ∧ Shape r.2 ∧
        r.2.entities = [b.entity] ∧ r.2.cache = AddRemoveCache.new ∧
        StOk (infoFn w.entities w.metas) (fun _ => 1) r.2.storages ∧ (∀ x, x ∈ r.2.compIds ↔ x ∈ b.compIds) ∧
        (∀ c bs, (elemsOf r.2.storages c).bind (fun l => l[0]?) = some bs ↔ (c, bs) ∈ vals) ∧
        (stEvs r.2.storages).Perm (valEvs w vals))
      (fun f w' => (vals ≠ [] ∧ Limit f ∧ ¬ w.Roomy) ∨
        (f = .duplicateComponent ∧ ¬ (vals.map Prod.fst).Nodup ∧
          ∃ evs, evs.Perm (nzVals w vals) ∧ w' = { w with log := w.log ++ evs })) := by
  unfold Builder.createArchetype
  simp only [tri_bind, tri_get]
  rcases createStorages_spec h b vals 0 [] (by unfold Builder.dataFrom; rw [List.drop_zero]; exact hb.data) hv with
    ⟨f, acc', r1, r0, r2, r3, r4⟩ | ⟨st, r1, r2, r3, r4⟩
  · rw [hb.ids, r1]
    simp only
    unfold failDropping Tri
    simp only [List.nil_append, dropStorages_spec r4]
    exact Or.inl ⟨r0, r2, r3⟩
  · have hids : st.map Prod.fst = b.compIds := by
      have := congrArg (List.map Prod.fst) r2
      rw [List.map_map, List.map_map] at this
      rw [hb.ids]; exact this
    rw [hb.ids, r1, ← hb.ids]
    simp only [List.nil_append]
    have hinv : ∀ p ∈ stableSort storageLt st, UVec.Inv p.2 := fun p hp => (r3 p ((mem_stableSort _ _).1 hp)).1
    by_cases hn : b.compIds.Nodup
    · have hsorted := sorted_stableSort hn
      rw [checkedLookup_nodup hsorted.nodup]
      simp only
      have hst : stIds (stableSort storageLt st) = stableSort EcsId.lt b.compIds := by
        rw [stIds, map_fst_stableSort, hids]
      rw [if_pos (idsAgree_self (by rw [map_fst_stableSort, hids]))]
      refine ⟨rfl, hn, rfl, ⟨hsorted, hst, looksUp_lookupOf hsorted.nodup⟩, rfl, rfl,
        ?_, fun x => mem_stableSort _ _, ?_, ?_⟩
      · intro p hp; exact r3 p ((mem_stableSort _ _).1 hp)
      · intro c bs
        have hmem : ∀ c (v : UVec), (c, v) ∈ st → ∃ bs, v.elems = [bs] ∧ (c, bs) ∈ vals := by
          intro c v hcv
          have : (c, v.elems) ∈ vals.map (fun p => (p.1, [p.2])) := by
            rw [← r2]; exact List.mem_map.2 ⟨(c, v), hcv, rfl⟩
          obtain ⟨q, hq, hqe⟩ := List.mem_map.1 this
          simp only [Prod.mk.injEq] at hqe
          exact ⟨q.2, hqe.2.symm, by rw [← hqe.1]; exact hq⟩
        have hmem' : (c, bs) ∈ vals → ∃ v : UVec, (c, v) ∈ st ∧ v.elems = [bs] := by
          intro hcb
          have : (c, [bs]) ∈ st.map (fun p => (p.1, p.2.elems)) := by
            rw [r2]; exact List.mem_map.2 ⟨(c, bs), hcb, rfl⟩
          obtain ⟨q, hq, hqe⟩ := List.mem_map.1 this
          simp only [Prod.mk.injEq] at hqe
          exact ⟨q.2, by rw [← hqe.1]; exact hq, hqe.2⟩
        constructor
        · intro hh
          obtain ⟨l, h1, h2⟩ := Option.bind_eq_some_iff.1 hh
          obtain ⟨v, hv1, rfl⟩ := elemsOf_mem h1
          obtain ⟨bs', e1, e2⟩ := hmem c v ((mem_stableSort _ _).1 hv1)
          rw [e1] at h2
          simp only [List.getElem?_cons_zero, Option.some.injEq] at h2
          rw [← h2]; exact e2
        · intro hcb
          obtain ⟨v, e1, e2⟩ := hmem' hcb
          rw [elemsOf_of_mem (by rw [hst]; exact hsorted.nodup) ((mem_stableSort _ _).2 e1), Option.bind_some, e2]
          rfl
      · rw [← r4]
        exact (perm_stableSort (lt := storageLt) st).flatMap_right _
    · rw [checkedLookup_dup (fun hh => hn ((perm_stableSort b.compIds).nodup_iff.1 hh))]
      simp only
      unfold failDropping Tri
      rw [dropStorages_spec hinv]
      refine Or.inr ⟨rfl, hn, _, ?_, rfl⟩
      rw [← nzEvs_vals r2 r3]
      exact nzEvs_perm (perm_stableSort st)


/-- A new table with one row. -/
theorem pushBuilt_spec {w : World} (h : Inv w) {e : EcsId} {vals : List (EcsId × Bytes)} {cm : ComponentMeta}
    {n : Archetype} (hl : w.entities.Live e) (hi : instOf w.metas e.uindex = none) (hshape : Shape n)
    (hent : n.entities = [e]) (hcol : StOk (infoFn w.entities w.metas) (fun _ => 1) n.storages)
    (hcache : n.cache = AddRemoveCache.new) (hlock : ∀ id ∈ n.compIds, w.lockLookup id ≠ none)
    (h0 : w.archetypes = [] → n.compIds = [])
    (hu : w.archetypes.length + 1 ≤ 2 ^ 32 → n.compIds ∉ w.archetypes.map Archetype.compIds)
    (hcell : ∀ c bs, (elemsOf n.storages c).bind (fun l => l[0]?) = some bs ↔ (c, bs) ∈ vals)
    (hevs : (stEvs n.storages).Perm (valEvs w vals)) (hids : ∀ c, c ∈ n.compIds ↔ c ∈ vals.map Prod.fst) :
    ∃ w1 w', pushArchetype w n = .ok w1 ∧ w1.archetypes.length = w.archetypes.length + 1 ∧
      w1.setEntityMeta e ⟨⟨w1.archetypes.length - 1, 0⟩, cm⟩ = .ok w' ∧ Built w w' e vals cm := by
  obtain ⟨bs, eb, e1, e2⟩ := pushArchetype_eq h n
  have huniq : ∀ x y : EcsId, w.entities.Live x → w.entities.Live y → x.uindex = y.uindex → x = y :=
    fun x y hx hy hu => hx.uniq hy hu
  obtain ⟨metas', s1, s2, s3, s4⟩ := setEntityMeta_spec
    (w := { w with bitset := bs, entBits := eb, archetypes := w.archetypes ++ [n] }) (e := e) hl
    ⟨⟨(w.archetypes ++ [n]).length - 1, 0⟩, cm⟩
  have hlen : (w.archetypes ++ [n]).length - 1 = w.archetypes.length := by simp
  simp only at s2 s3 s4
  rw [hlen] at s2
  refine ⟨_, _, e1, by simp, s1, ?_⟩
  have hrowOf : ∀ k' r, rowOf (w.archetypes ++ [n]) k' r =
      if k' = w.archetypes.length ∧ r = 0 then some e else rowOf w.archetypes k' r := by
    intro k' r
    rw [rowOf_append]
    by_cases hk : k' = w.archetypes.length
    · subst hk
      rw [if_pos rfl, hent]
      cases r with
      | zero => simp
      | succ r => simp [rowOf]
    · rw [if_neg hk, if_neg (fun hh => hk hh.1)]
  have hcellOld : ∀ k' r c, ¬ (k' = w.archetypes.length ∧ r = 0) →
      cellOf (w.archetypes ++ [n]) k' r c = cellOf w.archetypes k' r c := by
    intro k' r c hkr
    rw [cellOf_append]
    by_cases hk : k' = w.archetypes.length
    · subst hk
      rw [if_pos rfl, elemsOf_row_none hcol (by have : r ≠ 0 := fun hh => hkr ⟨rfl, hh⟩; omega)]
      simp [cellOf]
    · rw [if_neg hk]
  have hcomp : ∀ c : EcsId, w.entities.Live c → ∀ m, compOf w.metas c.uindex = some m → c.uindex ≠ e.uindex := by
    intro c hlc m hm hh
    have := huniq _ _ hlc hl hh; subst this
    rw [inst_none_iff_comp.1 hi] at hm; cases hm
  have hinfo : ∀ c i, infoFn w.entities w.metas c = some i → infoFn w.entities metas' c = some i := by
    intro c i hc
    obtain ⟨hlc, m, hm, hmi⟩ := infoFn_some.1 hc
    exact infoFn_some.2 ⟨hlc, m, by rw [s3, if_neg (hcomp c hlc m hm)]; exact hm, hmi⟩
  have hinv : Inv { w with bitset := bs, entBits := eb, archetypes := w.archetypes ++ [n], metas := metas' } := by
    refine h.push e2 hshape ?_ ?_ ?_ ⟨h.type.known, ?_, h.type.inj⟩ hcache hlock h0 hu
    · refine (h.loc.attach huniq hl hi (k := w.archetypes.length) (r := 0) (by simp [rowOf])).congr
        (fun _ => Iff.rfl) s2 hrowOf
    · intro a ha c hc
      obtain ⟨hlc, m, hm⟩ := h.live_comp ha hc
      have := infoFn_some.2 ⟨hlc, m, hm, rfl⟩
      rw [this]; exact hinfo c _ this
    · intro p hp
      obtain ⟨q1, q2, q3⟩ := hcol p hp
      exact ⟨q1, by rw [hent]; exact q2, hinfo _ _ q3⟩
    · intro t id ht hlid
      have := h.type.comp t id ht hlid
      rw [s3, if_neg (hcomp id hlid _ this), this]
  have hnew : rowOf (w.archetypes ++ [n]) w.archetypes.length 0 = some e := by
    rw [hrowOf, if_pos ⟨rfl, rfl⟩]
  have hold : ∀ k' r x, rowOf w.archetypes k' r = some x → ¬ (k' = w.archetypes.length ∧ r = 0) := by
    rintro k' r x hx ⟨rfl, rfl⟩
    simp [rowOf] at hx
  refine ⟨hinv, rfl, s3, rfl, rfl, rfl, fun _ _ hh => hh, ⟨0, by simp⟩, ?_, ?_, ?_, ?_, ?_, ?_, ?_⟩
  · intro x
    rw [row_iff, row_iff]
    constructor
    · rintro ⟨k', r, hx⟩
      rw [hrowOf] at hx
      split at hx
      · injection hx with hx; exact Or.inr hx.symm
      · exact Or.inl ⟨_, _, hx⟩
    · rintro (⟨k', r, hx⟩ | rfl)
      · exact ⟨k', r, by rw [hrowOf, if_neg (hold _ _ _ hx), hx]⟩
      · exact ⟨_, _, hnew⟩
  · intro x hxe c bs
    rw [has_iff hinv.shape, has_iff h.shape]
    constructor
    · rintro ⟨k', r, h1, h2⟩
      rw [hrowOf] at h1
      split at h1
      · injection h1 with h1; exact absurd h1.symm hxe
      · rename_i hkr
        exact ⟨k', r, h1, by rw [← hcellOld k' r c hkr]; exact h2⟩
    · rintro ⟨k', r, h1, h2⟩
      have := hold _ _ _ h1
      exact ⟨k', r, by rw [hrowOf, if_neg this, h1], by rw [hcellOld _ _ _ this]; exact h2⟩
  · intro c bs
    rw [has_at hinv hnew, cellOf_append, if_pos rfl, hcell]
  · unfold storedEvs
    simp only [List.flatMap_append, List.flatMap_cons, List.flatMap_nil, List.append_nil]
    exact List.Perm.append_left _ hevs
  · intro hv0 hcm hr
    subst hv0
    refine ⟨?_, ?_⟩
    · intro x hx
      rcases List.mem_append.1 hx with hx | hx
      · exact hr.1 x hx
      · simp only [List.mem_singleton] at hx
        subst hx
        intro p hp
        exfalso
        have hlen : p.2.count = 1 := (hcol p hp).2.1
        have := (hcell p.1 (p.2.elem 0)).1 (by
          rw [elemsOf_of_mem (by rw [hshape.ids]; exact hshape.sorted.nodup) hp, Option.bind_some, elems_row (by omega)])
        cases this
    · intro m' hm'
      rcases s4 m' hm' with rfl | hm'
      · exact hcm
      · exact hr.2 m' hm'
  · intro c
    unfold Used
    simp only [List.mem_append, List.mem_singleton]
    constructor
    · rintro ⟨a, ha | rfl, hc⟩
      · exact Or.inl ⟨a, ha, hc⟩
      · exact Or.inr ((hids c).1 hc)
    · rintro (⟨a, ha, hc⟩ | hc)
      · exact ⟨a, Or.inl ha, hc⟩
      · exact ⟨n, Or.inr rfl, (hids c).2 hc⟩
  · exact fun _ hc => Or.inl hc

theorem Built.ofSame {w w1 w' : World} {e : EcsId} {vals : List (EcsId × Bytes)} {cm : ComponentMeta}
    (h : Built w1 w' e vals cm) (hi : Inv w) (hi1 : Inv w1) (hs : Same w w1)
    (hu : w1.archetypes = w.archetypes) (ht : ∀ c, w1.lockLookup c ≠ none → w.lockLookup c ≠ none ∨ c ∈ vals.map Prod.fst) :
    Built w w' e vals cm where
  inv := h.inv
  ent := h.ent.trans hs.ent
  comp := fun i => by rw [h.comp, hs.metas]
  typ := h.typ.trans hs.typ
  reuse := h.reuse.trans hs.reuse
  log := h.log.trans hs.log
  look := fun id i hl => h.look id i (hs.look id i hl)
  locks := by
    obtain ⟨n, hn⟩ := hs.locks
    obtain ⟨m, hm⟩ := h.locks
    exact ⟨n + m, by rw [hm, hn, List.append_assoc, List.replicate_append_replicate]⟩
  row := fun x => by rw [h.row, hs.hasRow]
  others := fun x hx c bs => by rw [h.others x hx, hs.has hi.shape hi1.shape]
  self := h.self
  evs := by
    have := h.evs
    rw [hs.evs, valEvs_congr (w := w) (by intro p _; rw [hs.metas])] at this
    exact this
  roomy := fun h1 h2 hr => h.roomy h1 h2 (hs.roomy hr)
  used := fun c => by rw [h.used]; unfold Used; rw [hu]
  tight := fun c hc => by
    rcases h.tight c hc with hc | hc
    · exact ht c hc
    · exact Or.inr hc

theorem ensureLocks_archs (ids : List EcsId) (w : World) : (ids.foldl ensureLock w).archetypes = w.archetypes := by
  induction ids generalizing w with
  | nil => rfl
  | cons id ids ih => rw [List.foldl_cons, ih, ensureLock_archs]

/-- What `build` does when no component was given twice. -/
theorem build_spec {w : World} (h : Inv w) {b : Builder} {vals : List (EcsId × Bytes)} (hb : Packed b vals)
    (hv : ValsOk w vals) (hn : (vals.map Prod.fst).Nodup) (hl : w.entities.Live b.entity)
    (hi : instOf w.metas b.entity.uindex = none) :
    Tri b.build w
      (fun b' w' => (b' = b ∨ b' = { b with compIds := [] }) ∧ Built w w' b.entity vals b.cmeta)
      (fun f _ => vals ≠ [] ∧ Limit f ∧ ¬ w.Roomy) := by
  have hlive : ∀ x ∈ b.compIds, w.entities.Live x := by
    intro x hx
    rw [hb.ids] at hx
    obtain ⟨p, hp, rfl⟩ := List.mem_map.1 hx
    obtain ⟨_, _, _, _, _, hlx, _⟩ := hv.info h hp
    exact hlx
  obtain ⟨r, f1, f2, f3⟩ := findArchetype_spec h (by rw [hb.ids]; exact hn) hlive
  unfold Builder.build
  simp only [tri_bind (x := get), tri_get]
  rw [tri_bind, tri_liftE, f1]
  cases r with
  | some k =>
    obtain ⟨A, hA, hset⟩ := f2 k rfl
    simp only
    refine (buildExisting_spec h hb hv hn hl hi hA hset).imp ?_ (fun _ _ hh => hh)
    rintro b' w' ⟨rfl, hh⟩
    exact ⟨Or.inl rfl, hh⟩
  | none =>
    obtain ⟨l1, l2, l3⟩ := ensureLocks_spec h b.compIds
    have hnone := f3 rfl
    simp only [tri_bind, tri_modify]
    have harch := ensureLocks_archs b.compIds w
    have htight : ∀ c, (b.compIds.foldl ensureLock w).lockLookup c ≠ none → w.lockLookup c ≠ none ∨ c ∈ vals.map Prod.fst := by
      intro c hc
      rw [← hb.ids]; exact ensureLocks_tight hc
    generalize hw1 : b.compIds.foldl ensureLock w = w1 at *
    have hv1 : ValsOk w1 vals := by
      intro p hp
      rw [getEntityMeta_congr l2.ent l2.metas]; exact hv p hp
    refine (createArchetype_spec l1 hb hv1).imp ?_ ?_
    · rintro ⟨b', a⟩ w2 ⟨rfl, c1, c2, c3, c4, c5, c6, c7, c8, c9⟩
      simp only at c2 c3 c4 c5 c6 c7 c8 c9
      subst c2
      obtain ⟨w3, w4, p1, p2, p3, p4⟩ := pushBuilt_spec l1 (vals := vals) (cm := b.cmeta) ((l2.live _).2 hl)
        (by rw [l2.metas]; exact hi) c3 c4 c6 c5
        (fun id hid => l3 id ((c7 id).1 hid))
        (by
          intro h0
          apply List.eq_nil_iff_forall_not_mem.2
          intro x hx
          rw [c7, hb.ids] at hx
          obtain ⟨p, hp, rfl⟩ := List.mem_map.1 hx
          obtain ⟨_, _, _, _, _, _, _, ⟨k, r, a', ha', _⟩, _⟩ := hv1.info l1 hp
          rw [h0] at ha'; simp at ha')
        (by
          intro hlen hmem
          obtain ⟨x, hx, hxe⟩ := List.mem_map.1 hmem
          obtain ⟨k, hk⟩ := List.mem_iff_getElem?.1 hx
          have hklt := (List.getElem?_eq_some_iff.1 hk).1
          rw [harch] at hk
          exact hnone k x (by omega) hk (by rw [hxe]; exact c7))
        c8 c9 (fun c => by rw [c7, hb.ids])
      simp only [tri_step, p1, tri_get, p3, tri_pure]
      exact ⟨Or.inr trivial, p4.ofSame h l1 l2 harch htight⟩
    · rintro f w2 (⟨c0, c1, c2⟩ | ⟨_, c2, _⟩)
      · exact ⟨c0, c1, fun hr => c2 (l2.roomy hr)⟩
      · exact absurd hn c2

end World
end Ellecs
