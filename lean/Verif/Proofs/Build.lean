import Verif.Proofs.Despawn
/-! # Building an entity -/
namespace Ellecs
namespace World

theorem setEntityMeta_spec {w : World} {e : EcsId} (hl : w.entities.Live e) (m : EntityMeta) :
    ∃ metas', w.setEntityMeta e m = .ok { w with metas := metas' } ∧
      (∀ i, instOf metas' i = if i = e.uindex then some m.inst else instOf w.metas i) ∧
      (∀ i, compOf metas' i = if i = e.uindex then some m.comp else compOf w.metas i) ∧
      (∀ m', some m' ∈ metas' → m' = m ∨ some m' ∈ w.metas) := by
  unfold setEntityMeta
  rw [Entities.isAlive_live hl]
  simp only
  by_cases hlt : e.uindex < w.metas.length
  · rw [if_pos hlt]
    refine ⟨_, rfl, fun i => instOf_set hlt _ _, fun i => compOf_set hlt _ _, ?_⟩
    intro m' hm'
    rcases List.mem_or_eq_of_mem_set hm' with hm' | hm'
    · exact Or.inr hm'
    · injection hm' with hm'; exact Or.inl hm'
  · rw [if_neg hlt]
    have key : ∀ i, (w.metas ++ List.replicate (e.uindex - w.metas.length) none ++ [some m])[i]?.join =
        if i = e.uindex then some m else (w.metas[i]?).join := by
      intro i
      by_cases hi : i = e.uindex
      · rw [if_pos hi, List.getElem?_append_right (by simp; omega)]
        simp [show i - (w.metas.length + (e.uindex - w.metas.length)) = 0 by omega]
      · rw [if_neg hi]
        by_cases hi2 : i < e.uindex
        · rw [List.getElem?_append_left (by simp; omega)]
          by_cases hi3 : i < w.metas.length
          · rw [List.getElem?_append_left hi3]
          · rw [List.getElem?_append_right (by omega), List.getElem?_replicate, if_pos (by omega),
              List.getElem?_eq_none (by omega)]; rfl
        · rw [List.getElem?_eq_none (by simp; omega), List.getElem?_eq_none (by omega)]
    refine ⟨_, rfl, ?_, ?_, ?_⟩
    · intro i; unfold instOf; rw [key]; split <;> rfl
    · intro i; unfold compOf; rw [key]; split <;> rfl
    · intro m' hm'
      simp only [List.append_assoc, List.mem_append, List.mem_replicate, List.mem_singleton, Option.some.injEq] at hm'
      rcases hm' with hm' | ⟨_, hm'⟩ | hm'
      · exact Or.inr hm'
      · cases hm'
      · exact Or.inl hm'

/-- The drop calls owed for a list of values. -/
def valEvs (w : World) (vals : List (EcsId × Bytes)) : List DropEv :=
  vals.flatMap (fun p => match compOf w.metas p.1.uindex with
    | some m => UVec.dropEvs m.info [p.2]
    | none => [])

/-- The components named by a builder exist and the values have their sizes. -/
def ValsOk (w : World) (vals : List (EcsId × Bytes)) : Prop :=
  ∀ p ∈ vals, ∃ im m, w.getEntityMeta p.1 = .ok (some ⟨im, m⟩) ∧ p.2.length = m.layout.size

theorem ValsOk.info {w : World} (h : Inv w) {vals : List (EcsId × Bytes)} (hv : ValsOk w vals) {p : EcsId × Bytes}
    (hp : p ∈ vals) : ∃ im m, w.getEntityMeta p.1 = .ok (some ⟨im, m⟩) ∧ p.2.length = m.layout.size ∧
      compOf w.metas p.1.uindex = some m ∧ w.entities.Live p.1 ∧ infoFn w.entities w.metas p.1 = some m.info ∧ w.Row p.1 ∧
      instOf w.metas p.1.uindex = some im := by
  obtain ⟨im, m, h1, h2⟩ := hv p hp
  refine ⟨im, m, h1, h2, ?_⟩
  rcases getEntityMeta_spec h p.1 with ⟨g1, g2⟩ | ⟨g1, g2⟩ | ⟨g1, g2, g3, g4⟩ | ⟨im', cm, g1, g2, g3, g4, g5⟩
  · rw [h1] at g1; cases g1
  · rw [h1] at g1; simp at g1
  · rw [h1] at g1; simp at g1
  · rw [h1] at g1
    simp only [Except.ok.injEq, Option.some.injEq, EntityMeta.mk.injEq] at g1
    obtain ⟨rfl, rfl⟩ := g1
    exact ⟨g4, g2, infoFn_some.2 ⟨g2, _, g4, rfl⟩, (row_iff _).2 ⟨_, _, g5⟩, g3⟩

/-- The buffer of a builder holds the values. -/
structure Packed (b : Builder) (vals : List (EcsId × Bytes)) : Prop where
  block : b.data.length = b.cap
  len : b.len ≤ b.cap
  data : b.data.take b.len = (vals.map Prod.snd).flatten
  ids : b.compIds = vals.map Prod.fst

theorem getEntityMeta_congr {w w' : World} (h1 : w'.entities = w.entities) (h2 : w'.metas = w.metas) (id : EcsId) :
    w'.getEntityMeta id = w.getEntityMeta id := by
  unfold getEntityMeta; rw [h1, h2]

/-- The loop of `build` over the columns of an existing table. -/
theorem pushComps_spec {w0 : World} (h0 : Inv w0) (b : Builder) (k n : Nat) (rest : List (EcsId × Bytes)) :
    ∀ (w : World) (off : Nat) (a : Archetype), w.entities = w0.entities → w.metas = w0.metas →
    w.archetypes[k]? = some a → LooksUp a.compLookup (stIds a.storages) → (stIds a.storages).Nodup →
    StOk (infoFn w0.entities w0.metas) (fun c => if c ∈ rest.map Prod.fst then n else n + 1) a.storages →
    (∀ c ∈ rest.map Prod.fst, c ∈ stIds a.storages) → (rest.map Prod.fst).Nodup → a.entities.length = n + 1 →
    b.dataFrom off = (rest.map Prod.snd).flatten → ValsOk w0 rest →
    Tri (Builder.pushComps b k off (rest.map Prod.fst)) w
      (fun _ w' => ∃ st', w' = { w with archetypes := w.archetypes.set k { a with storages := st' } } ∧
        stIds st' = stIds a.storages ∧ StOk (infoFn w0.entities w0.metas) (fun _ => n + 1) st' ∧
        (∀ p ∈ rest, elemsOf st' p.1 = (elemsOf a.storages p.1).map (fun l => l ++ [p.2])) ∧
        (∀ c, c ∉ rest.map Prod.fst → elemsOf st' c = elemsOf a.storages c) ∧
        (stEvs st').Perm (stEvs a.storages ++ valEvs w0 rest))
      (fun f _ => Limit f ∧ ¬ (∀ p ∈ a.storages, p.1 ∈ rest.map Prod.fst → UVec.Roomy p.2)) := by
  induction rest with
  | nil =>
    intro w off a he hm ha hlook hnd hst _ _ _ _ _
    refine ⟨a.storages, ?_, rfl, ?_, by simp, fun _ _ => rfl, by simp [valEvs]⟩
    · have : w.archetypes.set k a = w.archetypes := by
        apply List.ext_getElem?
        intro i
        rw [List.getElem?_set]
        split
        · rename_i hh; subst hh; rw [if_pos (List.getElem?_eq_some_iff.1 ha).1, ha]
        · rfl
      show w = { w with archetypes := w.archetypes.set k a }
      rw [this]
    · simpa using hst
  | cons p rest ih =>
    intro w off a he hm ha hlook hnd hst hsub hrn hlen hdata hvals
    have hklt := (List.getElem?_eq_some_iff.1 ha).1
    obtain ⟨im, m, v1, v2, v3, v4, v5, _⟩ := hvals.info h0 List.mem_cons_self
    have hpm : p.1 ∈ stIds a.storages := hsub _ (by simp)
    obtain ⟨i, hi⟩ := List.mem_iff_getElem?.1 hpm
    have hlk := (hlook p.1 i).2 hi
    obtain ⟨⟨pid, pv⟩, p1, p2⟩ : ∃ q, a.storages[i]? = some q ∧ q.1 = p.1 := by
      unfold stIds at hi
      rw [List.getElem?_map] at hi
      cases hh : a.storages[i]? with
      | none => rw [hh] at hi; cases hi
      | some q => rw [hh] at hi; injection hi with hi; exact ⟨q, rfl, hi⟩
    simp only at p2
    subst p2
    obtain ⟨c1, c2, c3⟩ := hst _ (List.mem_of_getElem? p1)
    simp only [List.map_cons, List.mem_cons, true_or, if_true] at c2
    rw [v5] at c3
    injection c3 with c3
    have hsize : pv.size = m.layout.size := congrArg (fun i : TypeInfo => i.layout.size) c3.symm
    have hd : b.dataFrom off = p.2 ++ (rest.map Prod.snd).flatten := by rw [hdata]; rfl
    rw [List.map_cons, Builder.pushComps]
    simp only [tri_bind, tri_get, tri_liftE, getEntityMeta_congr he hm, v1, unwrap, tri_step, ha, hlk, p1]
    rcases UVec.pushRaw_spec c1 (b.dataFrom off) (by rw [hd, hsize, List.length_append]; omega) with
      ⟨f, q1, q2, q3⟩ | ⟨v', q1, q2, q3, q4, _⟩
    · rw [q1]
      exact ⟨q2, fun hr => q3 (hr _ (List.mem_of_getElem? p1) (by simp))⟩
    · rw [q1]
      replace q4 : v'.elems = pv.elems ++ [p.2] := by
        rw [q4]
        show pv.elems ++ [(b.dataFrom off).take pv.size] = _
        rw [hd, hsize, ← v2, List.take_left]
      have hv'c : v'.count = n + 1 := by
        rw [← UVec.length_elems, q4, List.length_append, UVec.length_elems, c2]; rfl
      have hilt := (List.getElem?_eq_some_iff.1 p1).1
      simp only [List.getElem?_set, if_true, hklt, hlk, hilt, UVec.lenElems_eq q2, hv'c, hlen]
      have hn' := List.nodup_cons.1 hrn
      have hel := elemsOf_set hnd p1 v'
      simp only at hel
      have hpel : elemsOf a.storages p.1 = some pv.elems := elemsOf_getElem? hnd p1
      have hids : stIds (a.storages.set i (p.1, v')) = stIds a.storages := stIds_set p1 v'
      have := ih { w with archetypes := w.archetypes.set k { a with storages := a.storages.set i (p.1, v') } }
        (off + m.layout.size) { a with storages := a.storages.set i (p.1, v') } he hm
        (by simp [hklt]) (by rw [hids]; exact hlook) (by rw [hids]; exact hnd)
        (stOk_set (cnt' := fun c => if c ∈ rest.map Prod.fst then n else n + 1) hnd hst p1 (p := (p.1, pv)) q2 q3
          (by rw [if_neg hn'.1]; exact hv'c) (by
          intro c hc
          have hc' : c ≠ p.1 := hc
          show (if c ∈ rest.map Prod.fst then n else n + 1) = if c ∈ p.1 :: rest.map Prod.fst then n else n + 1
          by_cases hcr : c ∈ rest.map Prod.fst
          · rw [if_pos hcr, if_pos (List.mem_cons_of_mem _ hcr)]
          · rw [if_neg hcr, if_neg (fun hh => (List.mem_cons.1 hh).elim hc' hcr)]))
        (by intro c hc; rw [hids]; exact hsub c (by simp only [List.map_cons, List.mem_cons]; exact Or.inr hc))
        hn'.2 hlen
        (by
          unfold Builder.dataFrom at hd ⊢
          rw [← List.drop_drop, hd, ← v2, List.drop_left])
        (fun q hq => hvals q (List.mem_cons_of_mem _ hq))
      refine Tri.imp this ?_ ?_
      · rintro _ w' ⟨st', r1, r2, r3, r4, r5, r6⟩
        refine ⟨st', ?_, r2.trans hids, r3, ?_, ?_, ?_⟩
        · rw [r1]; simp [List.set_set]
        · intro q hq
          rcases List.mem_cons.1 hq with rfl | hq
          · rw [r5 _ hn'.1, hel, if_pos rfl, hpel, q4]; rfl
          · have hne : q.1 ≠ p.1 := fun hh => hn'.1 (hh ▸ List.mem_map_of_mem (f := Prod.fst) hq)
            rw [r4 q hq, hel, if_neg hne]
        · intro c hc
          simp only [List.mem_cons, not_or] at hc
          rw [r5 c hc.2, hel, if_neg hc.1]
        · have e1 := stEvs_set p1 (p.1, v')
          simp only at e1
          rw [q3, q4, UVec.dropEvs_append] at e1
          have e2 : valEvs w0 (p :: rest) = UVec.dropEvs pv.info [p.2] ++ valEvs w0 rest := by
            unfold valEvs; rw [List.flatMap_cons, v3]; show UVec.dropEvs m.info [p.2] ++ _ = _; rw [c3]
          rw [e2]
          rw [List.perm_iff_count] at r6 e1 ⊢
          intro z
          have a1 := r6 z
          have a2 := e1 z
          simp only [List.count_append] at *
          omega
      · rintro f w' ⟨r1, r2⟩
        refine ⟨r1, fun hr => r2 ?_⟩
        intro q hq hqr
        rcases List.mem_or_eq_of_mem_set hq with hq | rfl
        · exact hr q hq (by simp only [List.mem_cons]; exact Or.inr hqr)
        · exact absurd hqr hn'.1


/-- `w'` is `w` with a row for `e` that holds `vals`. -/
structure Built (w w' : World) (e : EcsId) (vals : List (EcsId × Bytes)) (cm : ComponentMeta) : Prop where
  inv : Inv w'
  ent : w'.entities = w.entities
  comp : ∀ i, compOf w'.metas i = if i = e.uindex then some cm else compOf w.metas i
  typ : w'.typeMap = w.typeMap
  reuse : w'.reuse = w.reuse
  log : w'.log = w.log
  look : ∀ id i, w.lockLookup id = some i → w'.lockLookup id = some i
  locks : ∃ n, w'.locks = w.locks ++ List.replicate n RwLock.new
  row : ∀ x, w'.Row x ↔ w.Row x ∨ x = e
  others : ∀ x, x ≠ e → ∀ c bs, w'.Has x c bs ↔ w.Has x c bs
  self : ∀ c bs, w'.Has e c bs ↔ (c, bs) ∈ vals
  evs : w'.storedEvs.Perm (w.storedEvs ++ valEvs w vals)
  roomy : vals = [] → cm.layout.size * 4 < isizeMax → w.Roomy → w'.Roomy
  used : ∀ c, w'.Used c ↔ w.Used c ∨ c ∈ vals.map Prod.fst
  tight : ∀ c, w'.lockLookup c ≠ none → w.lockLookup c ≠ none ∨ c ∈ vals.map Prod.fst

theorem findArchetype_spec {w : World} (h : Inv w) {L : List EcsId} (hn : L.Nodup)
    (hlive : ∀ x ∈ L, w.entities.Live x) :
    ∃ r, w.findArchetype L = .ok r ∧
      (∀ k, r = some k → ∃ b, w.archetypes[k]? = some b ∧ ∀ x, x ∈ b.compIds ↔ x ∈ L) ∧
      (r = none → ∀ (k : Nat) (b : Archetype), k < 2 ^ 32 - 1 → w.archetypes[k]? = some b → ¬ ∀ x, x ∈ b.compIds ↔ x ∈ L) := by
  unfold findArchetype
  by_cases hL : L = []
  · subst hL
    cases ha : w.archetypes with
    | nil =>
      rw [if_neg (by simp)]
      obtain ⟨r, e1, e2, _⟩ := findByBits_spec h.bits [] 0
      refine ⟨r, e1, ?_, ?_⟩
      · intro k hk
        obtain ⟨b, hb, _⟩ := e2 k hk
        rw [ha] at hb; simp at hb
      · intro _ k b _ hb; simp at hb
    | cons a as =>
      have h0 := h.arch0 a (by rw [ha]; rfl)
      rw [if_pos (by simp)]
      simp only [List.getElem?_cons_zero, h0, List.length_nil, if_true]
      refine ⟨some 0, rfl, ?_, by simp⟩
      intro k hk
      injection hk with hk; subst hk
      exact ⟨a, rfl, fun x => by rw [h0]⟩
  · rw [if_neg (by intro hh; exact hL (List.length_eq_zero_iff.1 hh.2))]
    exact findByBits_set h hn hL hlive

theorem valEvs_congr {w w' : World} {vals : List (EcsId × Bytes)}
    (h : ∀ p ∈ vals, compOf w'.metas p.1.uindex = compOf w.metas p.1.uindex) : valEvs w' vals = valEvs w vals := by
  induction vals with
  | nil => rfl
  | cons p ps ih =>
    unfold valEvs at *
    rw [List.flatMap_cons, List.flatMap_cons, h p List.mem_cons_self, ih (fun q hq => h q (List.mem_cons_of_mem _ hq))]

/-- Appending a row to an existing table. -/
theorem buildExisting_spec {w : World} (h : Inv w) {b : Builder} {vals : List (EcsId × Bytes)} (hb : Packed b vals)
    (hv : ValsOk w vals) (hn : (vals.map Prod.fst).Nodup) (hl : w.entities.Live b.entity)
    (hi : instOf w.metas b.entity.uindex = none) {k : Nat} {A : Archetype} (hA : w.archetypes[k]? = some A)
    (hset : ∀ x, x ∈ A.compIds ↔ x ∈ b.compIds) :
    Tri (do
      World.step (fun w =>
        match w.archetypes[k]? with
        | none => .error .indexOob
        | some a => .ok { w with archetypes := w.archetypes.set k { a with entities := a.entities ++ [b.entity] } })
      Builder.pushComps b k 0 b.compIds
      let w ← get
      let a ← liftE (idx w.archetypes k)
      World.step (fun w => w.setEntityMeta b.entity ⟨⟨k, a.entities.length - 1⟩, b.cmeta⟩)
      return b) w
      (fun b' w' => b' = b ∧ Built w w' b.entity vals b.cmeta)
      (fun f _ => vals ≠ [] ∧ Limit f ∧ ¬ w.Roomy) := by
  have hAm := List.mem_of_getElem? hA
  have hklt := (List.getElem?_eq_some_iff.1 hA).1
  have sA := h.shape A hAm
  have huniq : ∀ x y : EcsId, w.entities.Live x → w.entities.Live y → x.uindex = y.uindex → x = y :=
    fun x y hx hy hu => hx.uniq hy hu
  have hAn : (stIds A.storages).Nodup := by rw [sA.ids]; exact sA.sorted.nodup
  have hmemv : ∀ c, c ∈ stIds A.storages ↔ c ∈ vals.map Prod.fst := by
    intro c; rw [sA.ids, hset, hb.ids]
  simp only [tri_bind, tri_step, hA]
  have hpc := pushComps_spec h b k A.entities.length vals
    { w with archetypes := w.archetypes.set k { A with entities := A.entities ++ [b.entity] } } 0
    { A with entities := A.entities ++ [b.entity] } rfl rfl (by simp [hklt]) (by simp only; rw [sA.ids]; exact sA.look) hAn
    (by
      refine (h.col A hAm).congr (fun _ _ => rfl) ?_
      intro c hc
      rw [if_pos ((hmemv c).1 hc)])
    (fun c hc => (hmemv c).2 hc) hn (by simp) (by unfold Builder.dataFrom; rw [List.drop_zero]; exact hb.data) hv
  rw [← hb.ids] at hpc
  refine Tri.imp hpc ?_ ?_
  · rintro _ w1 ⟨st', r1, r2, r3, r4, r5, r6⟩
    simp only at r1 r2 r4 r5 r6
    rw [hb.ids] at r5
    rw [List.set_set] at r1
    generalize hA' : ({ A with entities := A.entities ++ [b.entity], storages := st' } : Archetype) = A' at r1
    have hidx : w1.archetypes[k]? = some A' := by rw [r1]; simp [hklt]
    simp only [tri_get, tri_liftE, idx, hidx, tri_bind, tri_step, tri_pure]
    have hl1 : w1.entities.Live b.entity := by rw [r1]; exact hl
    have hent' : A'.entities = A.entities ++ [b.entity] := by rw [← hA']
    have hst' : A'.storages = st' := by rw [← hA']
    have hlen' : A'.entities.length - 1 = A.entities.length := by rw [hent']; simp
    obtain ⟨metas', s1, s2, s3, s4⟩ := setEntityMeta_spec hl1 ⟨⟨k, A'.entities.length - 1⟩, b.cmeta⟩
    rw [s1]
    simp only
    rw [hlen'] at s2
    simp only [r1] at s2 s3 s4 ⊢
    refine ⟨trivial, ?_⟩
    -- rows and cells
    have hrowOf : ∀ k' r, rowOf (w.archetypes.set k A') k' r =
        if k' = k ∧ r = A.entities.length then some b.entity else rowOf w.archetypes k' r := by
      intro k' r
      rw [rowOf_set hklt, hent']
      by_cases hk : k' = k
      · subst hk
        rw [if_pos rfl, rowOf_eq hA]
        by_cases hr : r = A.entities.length
        · subst hr; simp
        · rw [if_neg (show ¬ (k' = k' ∧ r = A.entities.length) from fun hh => hr hh.2), List.getElem?_append]
          split
          · rfl
          · rw [List.getElem?_eq_none (by simp; omega), List.getElem?_eq_none (by omega)]
      · rw [if_neg hk, if_neg (fun hh => hk hh.1)]
    have hcnone : ∀ c, c ∉ vals.map Prod.fst → elemsOf A.storages c = none := fun c hc =>
      elemsOf_eq_none.2 (fun hh => hc ((hmemv c).1 hh))
    have hcellOld : ∀ k' r c, ¬ (k' = k ∧ r = A.entities.length) →
        cellOf (w.archetypes.set k A') k' r c = cellOf w.archetypes k' r c := by
      intro k' r c hkr
      rw [cellOf_set hklt, hst']
      by_cases hk : k' = k
      · subst hk
        rw [if_pos rfl, cellOf_eq hA]
        by_cases hc : c ∈ vals.map Prod.fst
        · obtain ⟨p, hp, rfl⟩ := List.mem_map.1 hc
          rw [r4 p hp]
          cases he : elemsOf A.storages p.1 with
          | none => rfl
          | some l =>
            have hll : l.length = A.entities.length := col_len (h.col A hAm) he
            simp only [Option.map_some, Option.bind_some]
            by_cases hr : r < l.length
            · rw [List.getElem?_append_left hr]
            · have hr2 : r ≠ A.entities.length := fun hh => hkr ⟨rfl, hh⟩
              rw [List.getElem?_eq_none (by rw [List.length_append, List.length_singleton]; omega),
                List.getElem?_eq_none (by omega)]
        · rw [r5 c hc]
      · rw [if_neg hk]
    have hcellNew : ∀ c bs, cellOf (w.archetypes.set k A') k A.entities.length c = some bs ↔ (c, bs) ∈ vals := by
      intro c bs
      rw [cellOf_set hklt, hst', if_pos rfl]
      by_cases hc : c ∈ vals.map Prod.fst
      · obtain ⟨p, hp, rfl⟩ := List.mem_map.1 hc
        rw [r4 p hp]
        cases he : elemsOf A.storages p.1 with
        | none => exact absurd ((hmemv p.1).2 hc) (elemsOf_eq_none.1 he)
        | some l =>
          have hll : l.length = A.entities.length := col_len (h.col A hAm) he
          simp only [Option.map_some, Option.bind_some]
          rw [← hll]
          simp only [List.getElem?_concat_length, Option.some.injEq]
          constructor
          · rintro rfl; exact hp
          · intro hh
            obtain ⟨i1, j1⟩ := List.mem_iff_getElem?.1 hp
            obtain ⟨i2, j2⟩ := List.mem_iff_getElem?.1 hh
            have := getElem?_inj_nodup hn (i := i1) (j := i2) (x := p.1) (by simp [j1]) (by simp [j2])
            subst this
            rw [j1] at j2
            injection j2 with j2
            rw [j2]
      · rw [r5 c hc, hcnone c hc]
        simp only [Option.bind_none, reduceCtorEq, false_iff]
        intro hh; exact hc (List.mem_map_of_mem (f := Prod.fst) hh)
    have hinfo : ∀ a ∈ w.archetypes, ∀ c ∈ a.compIds, infoFn w.entities metas' c = infoFn w.entities w.metas c := by
      intro a ha c hc
      obtain ⟨hlc, m, hm⟩ := h.live_comp ha hc
      have hu : c.uindex ≠ b.entity.uindex := by
        intro hh
        have := huniq _ _ hlc hl hh; subst this
        rw [inst_none_iff_comp.1 hi] at hm; cases hm
      rw [infoFn_some.2 ⟨hlc, m, by rw [s3, if_neg hu]; exact hm, rfl⟩, infoFn_some.2 ⟨hlc, m, hm, rfl⟩]
    have hskel : (w.archetypes.set k A').map skel = w.archetypes.map skel := by
      rw [map_set_same hA _ _ (by rw [← hA']; rfl)]
    have hinv : Inv { w with archetypes := w.archetypes.set k A', metas := metas' } := by
      refine h.retable hskel h.ent ?_ ?_ ?_ ?_ rfl rfl rfl rfl ⟨h.type.known, ?_, h.type.inj⟩ h.reuse
      · refine (h.loc.attach huniq hl hi (k := k) (r := A.entities.length) (by rw [rowOf_eq hA]; simp)).congr
          (fun _ => Iff.rfl) s2 hrowOf
      · intro x hx
        rcases List.mem_or_eq_of_mem_set hx with hx | rfl
        · exact (h.shape x hx).ids
        · rw [← hA']; exact r2.trans sA.ids
      · intro x hx
        rcases List.mem_or_eq_of_mem_set hx with hx | rfl
        · exact (h.col x hx).congr (fun c hc => hinfo x hx c (by rw [← (h.shape x hx).ids]; exact hc)) (fun _ _ => rfl)
        · rw [hst', hent']
          refine r3.congr (fun c hc => hinfo A hAm c ?_) (fun c _ => by simp)
          rw [← sA.ids, ← r2]; exact hc
      · intro x hx
        rcases List.mem_or_eq_of_mem_set hx with hx | rfl
        · exact h.cache x hx
        · rw [← hA']; exact h.cache A hAm
      · intro t id ht hlid
        have := h.type.comp t id ht hlid
        rw [s3, if_neg, this]
        intro hu
        have := huniq _ _ hlid hl hu; subst this
        rw [inst_none_iff_comp.1 hi] at this; cases this
    have hnew : rowOf (w.archetypes.set k A') k A.entities.length = some b.entity := by
      rw [hrowOf, if_pos ⟨rfl, rfl⟩]
    have hold : ∀ k' r x, rowOf w.archetypes k' r = some x → ¬ (k' = k ∧ r = A.entities.length) := by
      rintro k' r x hx ⟨rfl, rfl⟩
      rw [rowOf_eq hA] at hx; simp at hx
    refine ⟨hinv, rfl, s3, rfl, rfl, rfl, fun _ _ hh => hh, ⟨0, by simp⟩, ?_, ?_, ?_, ?_, ?_, ?_, ?_⟩
    · intro x
      rw [row_iff, row_iff]
      constructor
      · rintro ⟨k', r, hx⟩
        rw [hrowOf] at hx
        split at hx
        · injection hx with hx; exact Or.inr hx.symm
        · exact Or.inl ⟨_, _, hx⟩
      · rintro (⟨k', r, hx⟩ | rfl)
        · exact ⟨k', r, by rw [hrowOf, if_neg (hold _ _ _ hx), hx]⟩
        · exact ⟨_, _, hnew⟩
    · intro x hxe c bs
      rw [has_iff hinv.shape, has_iff h.shape]
      constructor
      · rintro ⟨k', r, h1, h2⟩
        rw [hrowOf] at h1
        split at h1
        · injection h1 with h1; exact absurd h1.symm hxe
        · rename_i hkr
          exact ⟨k', r, h1, by rw [← hcellOld k' r c hkr]; exact h2⟩
      · rintro ⟨k', r, h1, h2⟩
        have := hold _ _ _ h1
        exact ⟨k', r, by rw [hrowOf, if_neg this, h1], by rw [hcellOld _ _ _ this]; exact h2⟩
    · intro c bs
      rw [has_at hinv hnew, hcellNew]
    · have p1 := flatMap_set hA A' (fun a => stEvs a.storages)
      simp only [hst'] at p1
      unfold storedEvs
      rw [List.perm_iff_count] at p1 r6 ⊢
      intro z
      have a1 := p1 z
      have a2 := r6 z
      simp only [List.count_append] at *
      omega
    · intro hv0 hcm hr
      have hst0 : st' = [] := by
        have : stIds st' = [] := by
          rw [r2]
          apply List.eq_nil_iff_forall_not_mem.2
          intro c hc
          have := (hmemv c).1 hc
          rw [hv0] at this; cases this
        exact List.map_eq_nil_iff.1 this
      refine ⟨?_, ?_⟩
      · intro x hx
        rcases List.mem_or_eq_of_mem_set hx with hx | rfl
        · exact hr.1 x hx
        · rw [hst', hst0]; intro p hp; cases hp
      · intro m' hm'
        rcases s4 m' hm' with rfl | hm'
        · exact hcm
        · exact hr.2 m' hm'
    · intro c
      rw [used_skel hskel]
      constructor
      · exact Or.inl
      · rintro (hc | hc)
        · exact hc
        · exact ⟨A, hAm, by rw [← sA.ids]; exact (hmemv c).2 hc⟩
    · exact fun _ hc => Or.inl hc
  · rintro f w1 ⟨r1, r2⟩
    refine ⟨?_, r1, fun hr => r2 (fun p hp _ => hr.1 A hAm p hp)⟩
    rintro rfl
    exact r2 (fun p _ hp => by rw [hb.ids] at hp; cases hp)

end World
end Ellecs
