import Verif.Proofs.Typed
/-! # Looking up, reading and writing single components -/
namespace Ellecs
namespace World

/-- Everything about the place a pointer to `e`'s component `c` denotes. -/
theorem PointsAt.cell {w : World} (h : Inv w) {p : Ptr} {e c : EcsId} (hp : w.PointsAt p e c) :
    ∃ (k j r : Nat) (a : Archetype) (v : UVec), w.archetypes[k]? = some a ∧ a.entities[r]? = some e ∧
      a.storages[j]? = some (c, v) ∧ p = ⟨.storage k j, r * v.size⟩ ∧ UVec.Inv v ∧ v.count = a.entities.length ∧ r < v.count ∧
      infoFn w.entities w.metas c = some v.info ∧ w.Has e c (v.elem r) := by
  obtain ⟨k, j, r, a, v, h1, h2, h3, h4⟩ := hp
  have hm := List.mem_of_getElem? h1
  obtain ⟨q1, q2, q3⟩ := h.col a hm _ (List.mem_of_getElem? h3)
  have hr : r < v.count := by
    have : v.count = a.entities.length := q2
    rw [this]; exact (List.getElem?_eq_some_iff.1 h2).1
  exact ⟨k, j, r, a, v, h1, h2, h3, h4, q1, q2, hr, q3, k, r, a, v, h1, h2, List.mem_of_getElem? h3, elems_row hr⟩

/-- There is at most one pointer to a component of an entity. -/
theorem PointsAt.uniq {w : World} (h : Inv w) {p p' : Ptr} {e c : EcsId} (hp : w.PointsAt p e c) (hp' : w.PointsAt p' e c) : p = p' := by
  obtain ⟨k, j, r, a, v, h1, h2, h3, h4⟩ := hp
  obtain ⟨k', j', r', a', v', h1', h2', h3', h4'⟩ := hp'
  obtain ⟨rfl, rfl⟩ := h.row_inj (by rw [rowOf_eq h1]; exact h2) (by rw [rowOf_eq h1']; exact h2')
  rw [h1] at h1'; injection h1' with h1'; subst h1'
  have hs := h.shape a (List.mem_of_getElem? h1)
  have hnd : (stIds a.storages).Nodup := by rw [hs.ids]; exact hs.sorted.nodup
  have hj : j = j' := by
    have e1 : (stIds a.storages)[j]? = some c := by rw [List.getElem?_map, h3]; rfl
    have e2 : (stIds a.storages)[j']? = some c := by rw [List.getElem?_map, h3']; rfl
    have := (List.getElem?_inj (List.getElem?_eq_some_iff.1 e1).1 hnd).1 (e1.trans e2.symm)
    exact this
  subst hj
  rw [h3] at h3'; injection h3' with h3'; injection h3' with _ h3'; subst h3'
  rw [h4, h4']

theorem has_points {w : World} {e c : EcsId} {bs : Bytes} (hh : w.Has e c bs) : ∃ p, w.PointsAt p e c := by
  obtain ⟨k, r, a, v, h1, h2, h3, _⟩ := hh
  obtain ⟨j, hj⟩ := List.mem_iff_getElem?.1 h3
  exact ⟨_, k, j, r, a, v, h1, h2, hj, rfl⟩

theorem has_uniq {w : World} (h : Inv w) {e c : EcsId} {bs bs' : Bytes} (h1 : w.Has e c bs) (h2 : w.Has e c bs') : bs = bs' := by
  obtain ⟨k, r, hr⟩ := (row_iff e).1 (h.has_live h1)
  rw [has_at h hr] at h1 h2
  rw [h1] at h2; injection h2

/-- Every answer of `get_component_mut_dynamic`. -/
theorem getComponentMut_spec {w : World} (h : Inv w) (e c : EcsId) :
    (w.getComponentMutDynamic e c = .error .noGeneration ∧ (w.isAlive e = .error .noGeneration ∨ w.isAlive c = .error .noGeneration)) ∨
    (w.getComponentMutDynamic e c = .ok none ∧ (¬ w.Alive e ∨ ¬ w.Alive c ∨ ¬ w.Row e)) ∨
    (w.getComponentMutDynamic e c = .error .indexOob ∧ w.Row e ∧ w.Alive c ∧ ¬ w.HasComp e c) ∨
    (∃ p, w.getComponentMutDynamic e c = .ok (some p) ∧ w.PointsAt p e c) := by
  unfold getComponentMutDynamic
  rcases isAlive_answer h e with ⟨h1, h2⟩ | ⟨h1, h2⟩ | ⟨h1, h2⟩
  · rw [h1]; exact Or.inl ⟨rfl, Or.inl rfl⟩
  · rw [h1]; exact Or.inr (Or.inl ⟨rfl, Or.inl (fun hh => h2 (alive_iff.1 hh))⟩)
  · rw [h1]
    rcases isAlive_answer h c with ⟨h3, h4⟩ | ⟨h3, h4⟩ | ⟨h3, h4⟩
    · rw [h3]; exact Or.inl ⟨rfl, Or.inr rfl⟩
    · rw [h3]; exact Or.inr (Or.inl ⟨rfl, Or.inr (Or.inl (fun hh => h4 (alive_iff.1 hh)))⟩)
    · rw [h3]
      rcases getEntityMeta_spec h e with ⟨g1, g2⟩ | ⟨g1, g2⟩ | ⟨g1, g2, g3, g4⟩ | ⟨im, cm, g1, g2, g3, g4, g5⟩
      · have := h2.lt; omega
      · exact absurd h2 g2
      · rw [g1]; exact Or.inr (Or.inl ⟨rfl, Or.inr (Or.inr g4)⟩)
      · rw [g1]
        obtain ⟨a, a1, a2⟩ := rowOf_some g5
        have hm := List.mem_of_getElem? a1
        have hs := h.shape a hm
        simp only [a1]
        cases hl : a.compLookup c with
        | none =>
          refine Or.inr (Or.inr (Or.inl ⟨rfl, (row_iff e).2 ⟨_, _, g5⟩, alive_iff.2 h4, ?_⟩))
          rw [hasComp_at h a1 a2, ← looksUp_mem hs.look, hl]; simp
        | some n =>
          have hn := (hs.look c n).1 hl
          rw [← hs.ids, List.getElem?_map] at hn
          cases hst : a.storages[n]? with
          | none => rw [hst] at hn; cases hn
          | some s =>
            rw [hst] at hn
            simp only [Option.map_some, Option.some.injEq] at hn
            obtain ⟨q1, q2, q3⟩ := h.col a hm s (List.mem_of_getElem? hst)
            have hr : im.index < s.2.count := by rw [q2]; exact (List.getElem?_eq_some_iff.1 a2).1
            simp only [hst, UVec.getRaw_eq q1, if_pos hr]
            refine Or.inr (Or.inr (Or.inr ⟨_, rfl, _, _, _, a, s.2, a1, a2, ?_, rfl⟩))
            rw [hst, ← hn]

/-- What `has_component` answers. -/
theorem hasComponent_spec {w : World} (h : Inv w) (t : Ty) (e : EcsId) :
    (w.hasComponent t e = .error .noGeneration ∧ w.isAlive e = .error .noGeneration ∧ w.typeMap t ≠ none) ∨
    (∃ b, w.hasComponent t e = .ok b ∧ (b = true ↔ ∃ c, w.typeMap t = some c ∧ w.HasComp e c)) := by
  unfold hasComponent
  cases ht : w.typeMap t with
  | none =>
    refine Or.inr ⟨false, rfl, ?_⟩
    simp
  | some c =>
    simp only
    have hnr : ¬ w.Row e → ¬ w.HasComp e c := fun hr ⟨bs, hh⟩ => hr (h.has_live hh)
    have hfalse : ¬ w.Row e → ((false = true) ↔ ∃ c', some c = some c' ∧ w.HasComp e c') := by
      intro hr
      constructor
      · intro hh; cases hh
      · rintro ⟨c', hc, hh⟩
        injection hc with hc; subst hc
        exact absurd hh (hnr hr)
    rcases getEntityMeta_spec h e with ⟨g1, g2⟩ | ⟨g1, g2⟩ | ⟨g1, g2, g3, g4⟩ | ⟨im, cm, g1, g2, g3, g4, g5⟩
    · rw [g1]
      refine Or.inl ⟨rfl, ?_, by simp⟩
      unfold World.isAlive Entities.isAlive
      rw [List.getElem?_eq_none g2]
    · rw [g1]; exact Or.inr ⟨false, rfl, hfalse (fun hr => g2 (h.row_live hr))⟩
    · rw [g1]; exact Or.inr ⟨false, rfl, hfalse g4⟩
    · rw [g1]
      obtain ⟨a, a1, a2⟩ := rowOf_some g5
      have hm := List.mem_of_getElem? a1
      have hs := h.shape a hm
      simp only [a1]
      refine Or.inr ⟨_, rfl, ?_⟩
      rw [looksUp_mem hs.look, ← hasComp_at h a1 a2]
      constructor
      · intro hh; exact ⟨c, rfl, hh⟩
      · rintro ⟨c', hc, hh⟩
        injection hc with hc; subst hc; exact hh

/-- Reading through a pointer. -/
theorem readPtr_spec {w : World} (h : Inv w) {p : Ptr} {e c : EcsId} (hp : w.PointsAt p e c) {m : ComponentMeta} (hm : w.InfoIs c m) :
    ∃ bs, w.readPtr p m.layout.size = .ok bs ∧ w.Has e c bs := by
  obtain ⟨k, j, r, a, v, h1, h2, h3, h4, q1, q2, hr, q3, hh⟩ := hp.cell h
  have hsz : m.layout.size = v.size := by
    obtain ⟨_, hc⟩ := (infoIs_iff h).1 hm
    obtain ⟨_, m', hc', hi⟩ := infoFn_some.1 q3
    rw [hc] at hc'; injection hc' with hc'; subst hc'
    unfold UVec.size; rw [← hi]; rfl
  refine ⟨v.elem r, ?_, hh⟩
  rw [h4, hsz]
  unfold readPtr
  simp only [h1, h3]
  by_cases hz : v.size = 0
  · rw [if_pos hz, UVec.elem_zst hz]
  · rw [if_neg hz, if_pos]
    · rfl
    · have h5 : r * v.size + v.size ≤ v.len := by rw [UVec.len_eq q1 hz]; exact mul_add_le hr
      exact ⟨h5, Nat.le_trans h5 (by rw [q1.mem]; exact q1.le hz)⟩

/-- `w'` is `w` with the component `c` of `e` changed from `old` to `new`. -/
structure Wrote (w w' : World) (e c : EcsId) (new : Bytes) : Prop where
  inv : Inv w'
  ent : w'.entities = w.entities
  metas : w'.metas = w.metas
  typ : w'.typeMap = w.typeMap
  reuse : w'.reuse = w.reuse
  look : w'.lockLookup = w.lockLookup
  locks : w'.locks = w.locks
  log : w'.log = w.log
  ids : w'.archetypes.map Archetype.compIds = w.archetypes.map Archetype.compIds
  rows : ∀ k r, rowOf w'.archetypes k r = rowOf w.archetypes k r
  row : ∀ x, w'.Row x ↔ w.Row x
  others : ∀ x d, (x ≠ e ∨ d ≠ c) → ∀ bs, w'.Has x d bs ↔ w.Has x d bs
  self : ∀ bs, w'.Has e c bs ↔ bs = new
  points : ∀ q x d, w'.PointsAt q x d ↔ w.PointsAt q x d
  evs : ∀ old m, w.Has e c old → w.InfoIs c m →
    (w'.storedEvs ++ UVec.dropEvs m.info [old]).Perm (w.storedEvs ++ UVec.dropEvs m.info [new])

theorem dropEvs_set {info : TypeInfo} {l : List Bytes} {i : Nat} {x : Bytes} (h : l[i]? = some x) (y : Bytes) :
    (UVec.dropEvs info (l.set i y) ++ UVec.dropEvs info [x]).Perm (UVec.dropEvs info l ++ UVec.dropEvs info [y]) := by
  unfold UVec.dropEvs
  cases info.dropFn with
  | none => exact List.Perm.refl _
  | some f =>
    simp only
    have := flatMap_set h y (fun b => [DropEv.mk f b])
    simpa [← List.map_eq_flatMap] using this

theorem perm_cancel {a b c d e f : List DropEv} (h1 : (a ++ b).Perm (c ++ d)) (h2 : (d ++ e).Perm (b ++ f)) :
    (a ++ e).Perm (c ++ f) := by
  rw [List.perm_iff_count] at *
  intro z
  have := h1 z; have := h2 z
  simp only [List.count_append] at *
  omega

/-- Writing through a pointer. -/
theorem writePtr_spec {w : World} (h : Inv w) {p : Ptr} {e c : EcsId} (hp : w.PointsAt p e c) {m : ComponentMeta} (hm : w.InfoIs c m)
    {bs : Bytes} (hb : bs.length = m.layout.size) : ∃ w', w.writePtr p bs = .ok w' ∧ Wrote w w' e c bs := by
  obtain ⟨k, j, r, a, v, h1, h2, h3, h4, q1, q2, hr, q3, hh⟩ := hp.cell h
  have hinfo : m.info = v.info := by
    obtain ⟨_, hc⟩ := (infoIs_iff h).1 hm
    obtain ⟨_, m', hc', hi⟩ := infoFn_some.1 q3
    rw [hc] at hc'; injection hc' with hc'; subst hc'
    exact hi
  have hsz : m.layout.size = v.size := by unfold UVec.size; rw [← hinfo]; rfl
  have hself : ∀ x, w.Has e c x ↔ x = v.elem r := fun x => ⟨fun hx => has_uniq h hx hh, fun hx => hx ▸ hh⟩
  by_cases hz : v.size = 0
  · have hnil : bs = [] := List.eq_nil_of_length_eq_zero (by rw [hb, hsz, hz])
    subst hnil
    refine ⟨w, ?_, ?_⟩
    · rw [h4]; unfold writePtr; simp only [h1, h3]; rfl
    · refine ⟨h, rfl, rfl, rfl, rfl, rfl, rfl, rfl, rfl, fun _ _ => rfl, fun _ => Iff.rfl, fun _ _ _ _ => Iff.rfl, ?_,
        fun _ _ _ => Iff.rfl, ?_⟩
      · intro x; rw [hself, UVec.elem_zst hz]
      · intro old m' ho _
        rw [(hself old).1 ho, UVec.elem_zst hz]
  · have hoff : r * v.size + bs.length ≤ v.len := by rw [UVec.len_eq q1 hz, hb, hsz]; exact mul_add_le hr
    have hb' : bs.length = v.size := by rw [hb, hsz]
    obtain ⟨w1, w2⟩ := UVec.write_spec q1 hr bs hb'
    generalize hv' : ({ v with mem := writeAt v.mem (r * v.size) bs } : UVec) = v' at w1 w2
    have hsz' : v'.size = v.size := by rw [← hv']
    have hinf' : v'.info = v.info := by rw [← hv']
    have hcnt' : v'.count = v.count := by rw [← UVec.length_elems, w2, List.length_set, UVec.length_elems]
    have hm := List.mem_of_getElem? h1
    have hs := h.shape a hm
    have hnd : (stIds a.storages).Nodup := by rw [hs.ids]; exact hs.sorted.nodup
    have hk := (List.getElem?_eq_some_iff.1 h1).1
    have heq : w.writePtr p bs = .ok { w with archetypes := w.archetypes.set k { a with storages := a.storages.set j (c, v') } } := by
      rw [h4]; unfold writePtr
      simp only [h1, h3]
      rw [if_neg (by omega), if_pos ⟨hoff, Nat.le_trans hoff (by rw [q1.mem]; exact q1.le hz)⟩, hv']
    refine ⟨_, heq, ?_⟩
    have hskel : (w.archetypes.set k { a with storages := a.storages.set j (c, v') }).map skel = w.archetypes.map skel :=
      map_set_same h1 _ _ rfl
    have hrow : ∀ k' r', rowOf (w.archetypes.set k { a with storages := a.storages.set j (c, v') }) k' r' = rowOf w.archetypes k' r' := by
      intro k' r'
      unfold rowOf
      rw [List.getElem?_set]
      by_cases hkk : k = k'
      · subst hkk; rw [if_pos rfl, if_pos hk, h1]; rfl
      · rw [if_neg hkk]
    have hcell : ∀ k' r' d, cellOf (w.archetypes.set k { a with storages := a.storages.set j (c, v') }) k' r' d =
        if k' = k ∧ r' = r ∧ d = c then some bs else cellOf w.archetypes k' r' d := by
      intro k' r' d
      rw [cellOf_set hk]
      by_cases hkk : k' = k
      · subst hkk
        rw [if_pos rfl, cellOf_eq h1]
        have := elemsOf_set hnd h3 v' d
        simp only at this
        rw [this]
        by_cases hd : d = c
        · subst hd
          have e1 := elemsOf_getElem? hnd h3
          simp only at e1
          rw [if_pos rfl, e1]
          simp only [Option.bind_some, true_and, and_true]
          rw [w2, List.getElem?_set]
          by_cases hrr : r = r'
          · subst hrr; simp [hr]
          · rw [if_neg hrr, if_neg (fun hh => hrr hh.symm)]
        · rw [if_neg hd, if_neg (fun hh => hd hh.2.2)]
      · rw [if_neg hkk, if_neg (fun hh => hkk hh.1)]
    have hinv : Inv { w with archetypes := w.archetypes.set k { a with storages := a.storages.set j (c, v') } } := by
      refine h.retable hskel h.ent (h.loc.congr (fun _ => Iff.rfl) (fun _ => rfl) hrow) ?_ ?_ ?_ rfl rfl rfl rfl h.type h.reuse
      · intro x hx
        rcases List.mem_or_eq_of_mem_set hx with hx | rfl
        · exact (h.shape x hx).ids
        · have := stIds_set h3 v'
          simp only at this
          rw [this]; exact hs.ids
      · intro x hx
        rcases List.mem_or_eq_of_mem_set hx with hx | rfl
        · exact h.col x hx
        · exact stOk_set hnd (h.col a hm) h3 w1 hinf' (by rw [hcnt']; exact q2) (fun _ _ => rfl)
      · intro x hx
        rcases List.mem_or_eq_of_mem_set hx with hx | rfl
        · exact h.cache x hx
        · exact h.cache a hm
    have hre : rowOf w.archetypes k r = some e := by rw [rowOf_eq h1]; exact h2
    refine ⟨hinv, rfl, rfl, rfl, rfl, rfl, rfl, rfl, skel_ids hskel, hrow, ?_, ?_, ?_, ?_, ?_⟩
    · intro x; rw [row_iff, row_iff]; simp only [hrow]
    · intro x d hxd bs'
      rw [has_iff hinv.shape, has_iff h.shape]
      simp only [hrow, hcell]
      constructor
      · rintro ⟨k', r', g1, g2⟩
        rw [if_neg] at g2
        · exact ⟨k', r', g1, g2⟩
        · rintro ⟨rfl, rfl, rfl⟩
          rw [hre] at g1; injection g1 with g1
          rcases hxd with hh | hh
          · exact hh g1.symm
          · exact hh rfl
      · rintro ⟨k', r', g1, g2⟩
        refine ⟨k', r', g1, ?_⟩
        rw [if_neg]
        · exact g2
        · rintro ⟨rfl, rfl, rfl⟩
          rw [hre] at g1; injection g1 with g1
          rcases hxd with hh | hh
          · exact hh g1.symm
          · exact hh rfl
    · intro bs'
      have : rowOf (w.archetypes.set k { a with storages := a.storages.set j (c, v') }) k r = some e := by rw [hrow]; exact hre
      rw [has_at hinv this]
      simp only [hcell]
      simp [eq_comm]
    · intro q x d
      unfold PointsAt
      constructor
      · rintro ⟨k', j', r', a', u, g1, g2, g3, g4⟩
        simp only [List.getElem?_set] at g1
        by_cases hkk : k = k'
        · subst hkk
          rw [if_pos rfl, if_pos hk] at g1
          injection g1 with g1; subst g1
          simp only [List.getElem?_set] at g3
          by_cases hjj : j = j'
          · subst hjj
            rw [if_pos rfl, if_pos (List.getElem?_eq_some_iff.1 h3).1] at g3
            injection g3 with g3; injection g3 with g3 g5; subst g3; subst g5
            exact ⟨k, j, r', a, v, h1, g2, h3, by rw [g4, hsz']⟩
          · rw [if_neg hjj] at g3
            exact ⟨k, j', r', a, u, h1, g2, g3, g4⟩
        · rw [if_neg hkk] at g1
          exact ⟨k', j', r', a', u, g1, g2, g3, g4⟩
      · rintro ⟨k', j', r', a', u, g1, g2, g3, g4⟩
        by_cases hkk : k = k'
        · subst hkk
          rw [h1] at g1; injection g1 with g1; subst g1
          by_cases hjj : j = j'
          · subst hjj
            rw [h3] at g3
            injection g3 with g3; injection g3 with g3 g5; subst g3; subst g5
            refine ⟨k, j, r', { a with storages := a.storages.set j (c, v') }, v', ?_, g2, ?_, by rw [g4, hsz']⟩
            · simp only [List.getElem?_set, if_pos hk, if_true]
            · simp only [List.getElem?_set, if_pos (List.getElem?_eq_some_iff.1 h3).1, if_true]
          · refine ⟨k, j', r', { a with storages := a.storages.set j (c, v') }, u, ?_, g2, ?_, g4⟩
            · simp only [List.getElem?_set, if_pos hk, if_true]
            · simp only [List.getElem?_set, if_neg hjj]; exact g3
        · refine ⟨k', j', r', a', u, ?_, g2, g3, g4⟩
          simp only [List.getElem?_set, if_neg hkk]; exact g1
    · intro old m' ho hm'
      have hmm : m' = m := hm'.uniq (by assumption)
      subst hmm
      rw [(hself old).1 ho]
      have p1 := flatMap_set h1 { a with storages := a.storages.set j (c, v') } (fun a => stEvs a.storages)
      have p2 := stEvs_set h3 (c, v')
      have p3 := dropEvs_set (info := v.info) (elems_row hr) bs
      rw [← w2, ← hinf'] at p3
      simp only at p1 p2
      rw [hinfo]
      rw [hinf'] at p2 p3
      refine perm_cancel p1 (perm_cancel p2 p3) 
end World
end Ellecs
