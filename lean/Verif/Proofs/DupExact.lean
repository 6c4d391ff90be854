import Verif.Proofs.Duplicates
import Verif.Proofs.History
/-! # What `build` with a component given twice leaves behind -/
namespace Ellecs
namespace World

theorem perm_of_subset {l m : List EcsId} (hl : l.Nodup) (hs : ∀ x ∈ l, x ∈ m) (hlen : m.length ≤ l.length) : m.Perm l := by
  induction l generalizing m with
  | nil => rw [List.eq_nil_of_length_eq_zero (by simpa using hlen : m.length = 0)]
  | cons x l ih =>
    have hx : x ∈ m := hs x List.mem_cons_self
    have hn := List.nodup_cons.1 hl
    refine (List.perm_cons_erase hx).trans (List.Perm.cons x (ih hn.2 ?_ ?_))
    · intro y hy
      exact (List.mem_erase_of_ne (by rintro rfl; exact hn.1 hy)).2 (hs y (List.mem_cons_of_mem _ hy))
    · rw [List.length_erase_of_mem hx]
      simp only [List.length_cons] at hlen
      omega

theorem nodup_of_subset_length {l m : List EcsId} (hl : l.Nodup) (hs : ∀ x ∈ l, x ∈ m) (hlen : m.length ≤ l.length) : m.Nodup :=
  (perm_of_subset hl hs hlen).nodup_iff.2 hl

/-- The search for a table when components may be named twice. -/
theorem findArchetype_any {w : World} (h : Inv w) {L : List EcsId} (hne : L ≠ []) (hlive : ∀ x ∈ L, w.entities.Live x) :
    ∃ r, w.findArchetype L = .ok r ∧
      (∀ k, r = some k → ∃ a, w.archetypes[k]? = some a ∧ a.compIds.length = L.length ∧ ∀ x ∈ L, x ∈ a.compIds) ∧
      (r = none → ∀ (k : Nat) (a : Archetype), k < 2 ^ 32 - 1 → w.archetypes[k]? = some a →
        ¬ (a.compIds.length = L.length ∧ ∀ x ∈ L, x ∈ a.compIds)) := by
  unfold findArchetype
  rw [if_neg (by intro hh; exact hne (List.length_eq_zero_iff.1 hh.2))]
  obtain ⟨r, e1, e2, e3⟩ := findByBits_spec h.bits L L.length
  refine ⟨r, e1, ?_, ?_⟩
  · intro k hk
    obtain ⟨a, f1, f2, f3⟩ := e2 k hk
    refine ⟨a, f1, f2, ?_⟩
    intro x hx
    obtain ⟨y, hy, hyu⟩ := f3 x hx
    exact live_uindex_mem h (List.mem_of_getElem? f1) (hlive x hx) hy hyu
  · rintro hr k a hk ha ⟨h1, h2⟩
    exact e3 hr hne k a hk ha h1 (fun id hid => ⟨id, h2 id hid, rfl⟩)

/-- The loop over the columns of a table never touches a column that was not named. -/
theorem pushComps_frame {w0 : World} (h0 : Inv w0) (b : Builder) (k : Nat) (rest : List (EcsId × Bytes)) :
    ∀ (w : World) (off : Nat) (a : Archetype), w.entities = w0.entities → w.metas = w0.metas →
    w.archetypes[k]? = some a → LooksUp a.compLookup (stIds a.storages) →
    (∀ p ∈ a.storages, UVec.Inv p.2 ∧ infoFn w0.entities w0.metas p.1 = some p.2.info) →
    (∀ c ∈ rest.map Prod.fst, c ∈ stIds a.storages) →
    b.dataFrom off = (rest.map Prod.snd).flatten → ValsOk w0 rest →
    Tri (Builder.pushComps b k off (rest.map Prod.fst)) w (fun _ _ => True)
      (fun f w' => (f = .buildLenAssert ∨ Limit f) ∧ ∃ a', w'.archetypes[k]? = some a' ∧ a'.entities = a.entities ∧
        ∀ c v, c ∉ rest.map Prod.fst → (c, v) ∈ a.storages → (c, v) ∈ a'.storages) := by
  induction rest with
  | nil => intro w off a _ _ _ _ _ _ _ _; trivial
  | cons p rest ih =>
    intro w off a he hm ha hlook hst hsub hdata hvals
    have hklt := (List.getElem?_eq_some_iff.1 ha).1
    obtain ⟨im, m, v1, v2, v3, v4, v5, _⟩ := hvals.info h0 List.mem_cons_self
    have hpm : p.1 ∈ stIds a.storages := hsub _ (by simp)
    obtain ⟨i, hi⟩ := List.mem_iff_getElem?.1 hpm
    have hlk := (hlook p.1 i).2 hi
    obtain ⟨⟨pid, pv⟩, p1, p2⟩ : ∃ q, a.storages[i]? = some q ∧ q.1 = p.1 := by
      unfold stIds at hi
      rw [List.getElem?_map] at hi
      cases hh : a.storages[i]? with
      | none => rw [hh] at hi; cases hi
      | some q => rw [hh] at hi; injection hi with hi; exact ⟨q, rfl, hi⟩
    simp only at p2
    subst p2
    obtain ⟨c1, c3⟩ := hst _ (List.mem_of_getElem? p1)
    rw [v5] at c3
    injection c3 with c3
    have hsize : pv.size = m.layout.size := congrArg (fun i : TypeInfo => i.layout.size) c3.symm
    have hd : b.dataFrom off = p.2 ++ (rest.map Prod.snd).flatten := by rw [hdata]; rfl
    rw [List.map_cons, Builder.pushComps]
    simp only [tri_bind, tri_get, tri_liftE, getEntityMeta_congr he hm, v1, unwrap, tri_step, ha, hlk, p1]
    rcases UVec.pushRaw_spec c1 (b.dataFrom off) (by rw [hd, hsize, List.length_append]; omega) with
      ⟨f, q1, q2, q3⟩ | ⟨v', q1, q2, q3, q4, _⟩
    · rw [q1]
      exact ⟨Or.inr q2, a, rfl, rfl, fun _ _ _ hh => hh⟩
    · rw [q1]
      have hilt := (List.getElem?_eq_some_iff.1 p1).1
      simp only [List.getElem?_set, if_true, hklt, hlk, hilt, UVec.lenElems_eq q2]
      have hkeep : ∀ c v, c ≠ p.1 → (c, v) ∈ a.storages → (c, v) ∈ a.storages.set i (p.1, v') := by
        intro c v hc hcv
        obtain ⟨j, hj⟩ := List.mem_iff_getElem?.1 hcv
        refine List.mem_iff_getElem?.2 ⟨j, ?_⟩
        rw [List.getElem?_set_ne]
        · exact hj
        · rintro rfl
          rw [p1] at hj; injection hj with hj; injection hj with hj; exact hc hj.symm
      have hids : stIds (a.storages.set i (p.1, v')) = stIds a.storages := stIds_set p1 v'
      by_cases hc : v'.count = a.entities.length
      · rw [if_pos hc]
        refine (ih { w with archetypes := w.archetypes.set k { a with storages := a.storages.set i (p.1, v') } }
          (off + m.layout.size) { a with storages := a.storages.set i (p.1, v') } he hm (by simp [hklt])
          (by rw [hids]; exact hlook) ?_ ?_ ?_ (fun q hq => hvals q (List.mem_cons_of_mem _ hq))).imp (fun _ _ _ => trivial) ?_
        · intro q hq
          rcases List.mem_or_eq_of_mem_set hq with hq | rfl
          · exact hst q hq
          · exact ⟨q2, by rw [v5, c3]; exact congrArg some q3.symm⟩
        · intro c hc'; rw [hids]; exact hsub c (by simp only [List.map_cons, List.mem_cons]; exact Or.inr hc')
        · unfold Builder.dataFrom at hd ⊢
          rw [← List.drop_drop, hd, ← v2, List.drop_left]
        · rintro f w' ⟨r1, a', r2, r3, r4⟩
          refine ⟨r1, a', r2, r3, ?_⟩
          intro c v hc' hcv
          simp only [List.mem_cons, not_or] at hc'
          exact r4 c v hc'.2 (hkeep c v hc'.1 hcv)
      · rw [if_neg hc]
        refine ⟨Or.inl rfl, { a with storages := a.storages.set i (p.1, v') }, by simp [hklt], rfl, ?_⟩
        intro c v hc' hcv
        simp only [List.mem_cons, not_or] at hc'
        exact hkeep c v hc'.1 hcv

/-- `build` with a component given twice. -/
theorem build_dup_exact {w : World} (h : Inv w) {b : Builder} {vals : List (EcsId × Bytes)} (hb : Packed b vals)
    (hv : ValsOk w vals) (hn : ¬ (vals.map Prod.fst).Nodup) :
    Tri b.build w (fun _ _ => False) (fun f w' =>
      ((¬ ∃ (k : Nat) (a : Archetype), k < 2 ^ 32 - 1 ∧ w.archetypes[k]? = some a ∧ a.compIds.length = b.compIds.length ∧ ∀ x ∈ b.compIds, x ∈ a.compIds) ∧
        ((Limit f ∧ ¬ w.Roomy) ∨ (f = .duplicateComponent ∧ ∃ evs, evs.Perm (nzVals w vals) ∧
          w' = { b.compIds.foldl ensureLock w with log := w.log ++ evs }))) ∨
      ((f = .buildLenAssert ∨ Limit f) ∧ ∃ (k : Nat) (a a' : Archetype) (c : EcsId) (v : UVec), w.archetypes[k]? = some a ∧ a.compIds.length = b.compIds.length ∧
        (∀ x ∈ b.compIds, x ∈ a.compIds) ∧ w'.archetypes[k]? = some a' ∧ a'.entities = a.entities ++ [b.entity] ∧
        (c, v) ∈ a'.storages ∧ v.elems.length = a.entities.length)) := by
  have hne : b.compIds ≠ [] := by
    intro hh; rw [hb.ids] at hh; rw [hh] at hn; exact hn List.nodup_nil
  have hlive : ∀ x ∈ b.compIds, w.entities.Live x := by
    intro x hx
    rw [hb.ids] at hx
    obtain ⟨p, hp, rfl⟩ := List.mem_map.1 hx
    obtain ⟨_, _, _, _, _, hlx, _⟩ := hv.info h hp
    exact hlx
  obtain ⟨r, f1, f2, f3⟩ := findArchetype_any h hne hlive
  refine (build_dup h hb hv hn).with_eq.imp (fun _ _ hh => hh.2) ?_
  rintro f w' ⟨hx, _⟩
  revert hx
  suffices hs : Tri b.build w (fun _ _ => True) (fun f w' =>
      ((¬ ∃ (k : Nat) (a : Archetype), k < 2 ^ 32 - 1 ∧ w.archetypes[k]? = some a ∧ a.compIds.length = b.compIds.length ∧ ∀ x ∈ b.compIds, x ∈ a.compIds) ∧
        ((Limit f ∧ ¬ w.Roomy) ∨ (f = .duplicateComponent ∧ ∃ evs, evs.Perm (nzVals w vals) ∧
          w' = { b.compIds.foldl ensureLock w with log := w.log ++ evs }))) ∨
      ((f = .buildLenAssert ∨ Limit f) ∧ ∃ (k : Nat) (a a' : Archetype) (c : EcsId) (v : UVec), w.archetypes[k]? = some a ∧ a.compIds.length = b.compIds.length ∧
        (∀ x ∈ b.compIds, x ∈ a.compIds) ∧ w'.archetypes[k]? = some a' ∧ a'.entities = a.entities ++ [b.entity] ∧
        (c, v) ∈ a'.storages ∧ v.elems.length = a.entities.length)) from fun hx => hs.error hx
  have hdup := build_dup h hb hv hn
  unfold Builder.build at hdup ⊢
  simp only [tri_bind, tri_get] at hdup ⊢
  rw [tri_liftE, f1] at hdup ⊢
  simp only at hdup ⊢
  cases r with
  | some k =>
    obtain ⟨A, hA, hlen, hsub⟩ := f2 k rfl
    have hAm := List.mem_of_getElem? hA
    have hklt := (List.getElem?_eq_some_iff.1 hA).1
    have sA := h.shape A hAm
    simp only [tri_bind, tri_step, hA] at hdup ⊢
    -- a column that was not named
    obtain ⟨c, hcA, hcn⟩ : ∃ c ∈ A.compIds, c ∉ b.compIds := by
      apply Classical.byContradiction
      intro hno
      have hall : ∀ c ∈ A.compIds, c ∈ b.compIds := fun c hc => Classical.byContradiction (fun hh => hno ⟨c, hc, hh⟩)
      apply hn
      rw [← hb.ids]
      exact nodup_of_subset_length sA.sorted.nodup hall (by omega)
    obtain ⟨⟨c', v⟩, hcv, rfl⟩ : ∃ q ∈ A.storages, q.1 = c := by
      rw [← sA.ids] at hcA
      exact List.mem_map.1 hcA
    have hcnt : v.elems.length = A.entities.length := by
      rw [UVec.length_elems]; exact (h.col A hAm _ hcv).2.1
    have hpc := pushComps_frame h b k vals
      { w with archetypes := w.archetypes.set k { A with entities := A.entities ++ [b.entity] } } 0
      { A with entities := A.entities ++ [b.entity] } rfl rfl (by simp [hklt]) (by simp only; rw [sA.ids]; exact sA.look)
      (fun p hp => ⟨(h.col A hAm p hp).1, (h.col A hAm p hp).2.2⟩)
      (fun c hc => by simp only; rw [sA.ids]; exact hsub c (by rw [hb.ids]; exact hc))
      (by unfold Builder.dataFrom; rw [List.drop_zero]; exact hb.data) hv
    rw [← hb.ids] at hpc
    have hpd := Dup.pushComps_dup b k b.compIds 0 { w with archetypes := w.archetypes.set k { A with entities := A.entities ++ [b.entity] } } (by
      intro a' ha' p hp
      simp only [List.getElem?_set, if_true, hklt] at ha'
      injection ha' with ha'; subst ha'
      exact (h.col A hAm p hp).1) (by rw [hb.ids]; exact hn)
    refine tri_of (fun _ _ hx => (hpd.ok hx).elim) ?_
    intro f w' hx
    obtain ⟨r1, a', r2, r3, r4⟩ := hpc.error hx
    exact Or.inr ⟨r1, k, A, a', _, v, hA, hlen, hsub, r2, r3, r4 _ v hcn hcv, hcnt⟩
  | none =>
    obtain ⟨l1, l2, l3⟩ := ensureLocks_spec h b.compIds
    simp only [tri_bind, tri_modify]
    have hno : ¬ ∃ (k : Nat) (a : Archetype), k < 2 ^ 32 - 1 ∧ w.archetypes[k]? = some a ∧ a.compIds.length = b.compIds.length ∧ ∀ x ∈ b.compIds, x ∈ a.compIds := by
      rintro ⟨k, a, h1, h2, h3⟩
      exact f3 rfl k a h1 h2 h3
    generalize hw1 : b.compIds.foldl ensureLock w = w1 at *
    have hv1 : ValsOk w1 vals := by
      intro p hp
      rw [getEntityMeta_congr l2.ent l2.metas]; exact hv p hp
    refine (createArchetype_spec l1 hb hv1).imp ?_ ?_
    · rintro ⟨b', a⟩ w2 ⟨_, c1, _⟩
      exact absurd c1 hn
    · rintro f w2 (⟨_, c1, c2⟩ | ⟨rfl, _, evs, c2, rfl⟩)
      · exact Or.inl ⟨hno, Or.inl ⟨c1, fun hr => c2 (l2.roomy hr)⟩⟩
      · refine Or.inl ⟨hno, Or.inr ⟨rfl, evs, ?_, by rw [l2.log]⟩⟩
        have : nzVals w1 vals = nzVals w vals := by unfold nzVals; rw [l2.metas]
        rw [← this]; exact c2

theorem spawnWith_ok {w w' : World} {kind : SpawnKind} {acts : List BAct} {e : EcsId} (h : spawnWith kind acts w = .ok e w') :
    ∃ w1 b w2 b3 w3, spawnId w = .ok e w1 ∧ mkBuilder kind e w1 = .ok b w2 ∧ b.acts acts w2 = .ok b3 w3 ∧ b3.drop w3 = .ok () w' := by
  rw [spawnWith_eq] at h
  change EStateM.bind spawnId _ w = _ at h
  unfold EStateM.bind at h
  cases h1 : spawnId w with
  | error f w1 => rw [h1] at h; cases h
  | ok e1 w1 =>
    rw [h1] at h
    change EStateM.bind (mkBuilder kind e1) _ w1 = _ at h
    unfold EStateM.bind at h
    cases h2 : mkBuilder kind e1 w1 with
    | error f w1 => rw [h2] at h; cases h
    | ok b w2 =>
      rw [h2] at h
      change EStateM.bind (b.acts acts) _ w2 = _ at h
      unfold EStateM.bind at h
      cases h3 : b.acts acts w2 with
      | error f w1 => rw [h3] at h; cases h
      | ok b3 w3 =>
        rw [h3] at h
        change EStateM.bind b3.drop _ w3 = _ at h
        unfold EStateM.bind at h
        cases h4 : b3.drop w3 with
        | error f w1 => rw [h4] at h; cases h
        | ok u w4 =>
          rw [h4] at h
          injection h with he hw
          subst he
          have hw' : w4 = w' := hw
          subst hw'
          exact ⟨w1, b, w2, b3, w3, rfl, h2, h3, h4⟩

theorem actsOweSized_iff {w : World} (h : Inv w) {as : List BAct} {vals : List (EcsId × Bytes)} (ha : ActVals w as vals) (hv : ValsOk w vals) :
    ActsOweSized w as (nzVals w vals) := by
  induction as generalizing vals with
  | nil =>
    cases ha
    rfl
  | cons a as ih =>
    obtain ⟨id, v, vs', rfl, h2, h3⟩ := ha
    obtain ⟨m, hm, hlen⟩ := (valsOk_iff.1 hv) (id, v) List.mem_cons_self
    have hv' : ValsOk w vs' := fun p hp => hv p (List.mem_cons_of_mem _ hp)
    have hcomp := ((infoIs_iff h).1 hm).2
    have heq : nzVals w ((id, v) :: vs') = (if m.layout.size = 0 then [] else UVec.dropEvs m.info [v]) ++ nzVals w vs' := by
      unfold nzVals; rw [List.flatMap_cons, hcomp]
    refine ⟨_, _, ?_, ih h3 hv', heq⟩
    have hsz : Sized w a ↔ m.layout.size ≠ 0 := by
      cases a with
      | «with» t u =>
        have := h.type_info h2.1 (h.row_live ((infoIs_iff h).1 hm).1)
        have := hm.uniq this
        subst this
        exact Iff.rfl
      | withDynamic i =>
        obtain ⟨rfl, rfl⟩ := h2
        simp only [List.length_nil] at hlen
        exact ⟨False.elim, fun hh => hh hlen.symm⟩
      | withDynamicWithData i u =>
        obtain ⟨rfl, m', hm', _⟩ := h2
        constructor
        · rintro ⟨m'', hm'', hh⟩
          have := hm.uniq hm''; subst this; exact hh
        · intro hh; exact ⟨m, hm, hh⟩
      | build => exact h2.elim
    by_cases hs : m.layout.size = 0
    · rw [if_pos hs]; exact Or.inr ⟨fun hh => hsz.1 hh hs, rfl⟩
    · rw [if_neg hs]; exact Or.inl ⟨hsz.2 hs, (actOwes_iff h h2 hm _).2 rfl⟩

theorem ActVals.names {w : World} {as : List BAct} {vals : List (EcsId × Bytes)} (ha : ActVals w as vals) :
    (vals.map Prod.fst).length = as.length ∧ ∀ c, c ∈ vals.map Prod.fst ↔ ∃ x ∈ as, Names w x c := by
  induction as generalizing vals with
  | nil => cases ha; simp
  | cons a as ih =>
    obtain ⟨id, v, vs', rfl, h2, h3⟩ := ha
    obtain ⟨i1, i2⟩ := ih h3
    refine ⟨by simp only [List.map_cons, List.length_cons, i1], ?_⟩
    have hn : ∀ c, Names w a c ↔ c = id := by
      intro c
      cases a with
      | «with» t u =>
        constructor
        · intro hh
          have h4 : w.typeMap t = some id := h2.1
          have h5 : w.typeMap t = some c := hh
          rw [h4] at h5; injection h5 with h5; exact h5.symm
        · rintro rfl; exact h2.1
      | withDynamic i => rw [h2.1]; exact Iff.rfl
      | withDynamicWithData i u => rw [h2.1]; exact Iff.rfl
      | build => exact h2.elim
    intro c
    simp only [List.map_cons, List.mem_cons, i2]
    constructor
    · rintro (rfl | ⟨x, h4, h5⟩)
      · exact ⟨a, Or.inl rfl, (hn _).2 rfl⟩
      · exact ⟨x, Or.inr h4, h5⟩
    · rintro ⟨x, rfl | h4, h5⟩
      · exact Or.inl ((hn c).1 h5)
      · exact Or.inr ⟨x, h4, h5⟩

theorem ActVals.named {w : World} {as : List BAct} {vals : List (EcsId × Bytes)} (ha : ActVals w as vals) {x : BAct} (hx : x ∈ as) :
    ∃ c, Names w x c := by
  induction as generalizing vals with
  | nil => cases hx
  | cons a as ih =>
    obtain ⟨id, v, vs', rfl, h2, h3⟩ := ha
    rcases List.mem_cons.1 hx with rfl | hx
    · cases x with
      | «with» t u => exact ⟨id, h2.1⟩
      | withDynamic i => exact ⟨i, rfl⟩
      | withDynamicWithData i u => exact ⟨i, rfl⟩
      | build => exact h2.elim
    · exact ih h3 hx

theorem names_uniq {w : World} {x : BAct} {c c' : EcsId} (h : Names w x c) (h' : Names w x c') : c = c' := by
  cases x with
  | «with» t u =>
    have h1 : w.typeMap t = some c := h
    have h2 : w.typeMap t = some c' := h'
    rw [h1] at h2; injection h2
  | withDynamic i => exact Eq.trans h (Eq.symm h')
  | withDynamicWithData i u => exact Eq.trans h (Eq.symm h')
  | build => exact h.elim

theorem foldl_ensureLock (ids : List EcsId) (w : World) :
    ids.foldl ensureLock w = { w with lockLookup := (ids.foldl ensureLock w).lockLookup, locks := (ids.foldl ensureLock w).locks } ∧
    (∀ c i, w.lockLookup c = some i → (ids.foldl ensureLock w).lockLookup c = some i) ∧
    (∃ n, (ids.foldl ensureLock w).locks = w.locks ++ List.replicate n RwLock.new) ∧
    ∀ c, (ids.foldl ensureLock w).lockLookup c ≠ none ↔ w.lockLookup c ≠ none ∨ c ∈ ids := by
  induction ids generalizing w with
  | nil => exact ⟨rfl, fun _ _ h => h, ⟨0, by simp⟩, by simp⟩
  | cons x xs ih =>
    obtain ⟨i1, i2, ⟨n, i3⟩, i4⟩ := ih (ensureLock w x)
    rw [List.foldl_cons]
    have hx : ensureLock w x = { w with lockLookup := (ensureLock w x).lockLookup, locks := (ensureLock w x).locks } ∧
        (∀ c i, w.lockLookup c = some i → (ensureLock w x).lockLookup c = some i) ∧
        (∃ n, (ensureLock w x).locks = w.locks ++ List.replicate n RwLock.new) ∧
        ∀ c, (ensureLock w x).lockLookup c ≠ none ↔ w.lockLookup c ≠ none ∨ c = x := by
      unfold ensureLock
      cases hl : w.lockLookup x with
      | some i =>
        refine ⟨rfl, fun _ _ h => h, ⟨0, by simp⟩, fun c => ⟨Or.inl, ?_⟩⟩
        rintro (hh | rfl)
        · exact hh
        · simp [hl]
      | none =>
        refine ⟨rfl, ?_, ⟨1, rfl⟩, ?_⟩
        · intro c i hc
          have : c ≠ x := by rintro rfl; rw [hl] at hc; cases hc
          simp [mapInsert, this, hc]
        · intro c
          by_cases hc : c = x <;> simp [mapInsert, hc]
    obtain ⟨j1, j2, ⟨m, j3⟩, j4⟩ := hx
    refine ⟨?_, fun c i hc => i2 c i (j2 c i hc), ⟨m + n, by rw [i3, j3, List.append_assoc, List.replicate_append_replicate]⟩, ?_⟩
    · refine i1.trans ?_
      have hj : ∀ (w1 : World), w1 = { w with lockLookup := w1.lockLookup, locks := w1.locks } → ∀ l k,
          { w1 with lockLookup := l, locks := k } = { w with lockLookup := l, locks := k } := by
        intro w1 h1 l k; rw [h1]
      exact hj _ j1 _ _
    · intro c
      rw [i4, j4, List.mem_cons, or_assoc]

/-- A chain that supplies a component twice, and ends with `build`, compared with the chain without `build`. -/
theorem chain_dup_exact {w : World} (h : Inv w) (hn : w.Ready) {kind : SpawnKind} {as : List BAct}
    (hv : ∀ a ∈ as, ActValid w a) (hd : ¬ Distinct w as) {e : EcsId} {u : World} (hu : spawnWith kind as w = .ok e u) :
    ∃ f w', spawnWith kind (as ++ [.build]) w = .error f w' ∧
      (((u.archetypes.length < 2 ^ 32 → ¬ TableFits u as) ∧ ((Limit f ∧ ¬ u.Roomy) ∨ (f = .duplicateComponent ∧
          (∃ evs, w'.log = u.log ++ evs ∧ ∃ g, evs.Perm g ∧ ActsOweSized u as g) ∧
          w' = { u with lockLookup := w'.lockLookup, locks := w'.locks, log := w'.log } ∧
          (∀ c i, u.lockLookup c = some i → w'.lockLookup c = some i) ∧ (∃ n, w'.locks = u.locks ++ List.replicate n RwLock.new) ∧
          (∀ c, w'.lockLookup c ≠ none ↔ u.lockLookup c ≠ none ∨ ∃ x ∈ as, Names u x c) ∧
          LockOk w'.lockLookup w'.locks.length w'.archetypes))) ∨
      (TableFits u as ∧ (f = .buildLenAssert ∨ Limit f) ∧ ∃ (k : Nat) (a a' : Archetype) (c : EcsId) (v : UVec), u.archetypes[k]? = some a ∧
        w'.archetypes[k]? = some a' ∧ a'.entities = a.entities ++ [e] ∧ (c, v) ∈ a'.storages ∧ v.elems.length = a.entities.length)) := by
  obtain ⟨w1, b, w2, b1, w3, x1, x2, x3, x4⟩ := spawnWith_ok hu
  obtain ⟨i2, n2, p1, p2, le, nr, _, ht, hv2⟩ := chain_start h hn x1 x2 hv
  have hcalls := callsOk_valid as i2 n2 p1.blk hv2
  have hd2 : ¬ Distinct w2 as := by
    intro hd2
    apply hd
    refine List.Pairwise.imp ?_ hd2
    intro a b hab hc
    apply hab
    rcases hc with hc | ⟨c, h1, h2⟩
    · exact Or.inl hc
    · refine Or.inr ⟨c, ?_, ?_⟩
      · cases a <;> simpa [Names, ht] using h1
      · cases b <;> simpa [Names, ht] using h2
  have hnb : .build ∉ as := fun hb => (hv _ hb).ne rfl
  obtain ⟨g, _, vals, v1, v2, v3⟩ := (acts_spec as i2 n2 p1.blk hcalls (Or.inr hnb)).ok x3
  have hp := v2.packed p1
  rw [List.nil_append] at hp
  have hent : b1.entity = e := v2.entity.trans p2
  obtain ⟨r, d1, d2⟩ := Builder.drop_spec v2.blk g.inv
  rw [d1] at x4
  have hu' : u = { w3 with reuse := r } := by injection x4 with _ x4; exact x4.symm
  -- dropping the builder leaves the same buffer whatever happened to the rest of the world
  have hdrop : ∀ w4 : World, w4.reuse = w3.reuse → b1.drop w4 = .ok () { w4 with reuse := r } := by
    intro w4 hr4
    unfold Builder.drop at d1 ⊢
    rw [hr4]
    split
    · rename_i hc
      rw [if_pos hc] at d1
      cases hr : w3.reuse with
      | none =>
        rw [hr] at d1
        simp only at d1 ⊢
        injection d1 with _ d1
        have := congrArg World.reuse d1
        simp only at this
        rw [this]
      | some x =>
        rw [hr] at d1
        simp only [hp.block, if_true] at d1 ⊢
        injection d1 with _ d1
        have := congrArg World.reuse d1
        simp only [hr] at this
        have hw4 : w4 = { w4 with reuse := r } := by rw [← this, ← hr, ← hr4]
        rw [← hw4]
    · rename_i hc
      rw [if_neg hc] at d1
      injection d1 with _ d1
      have := congrArg World.reuse d1
      simp only at this
      have hw4 : w4 = { w4 with reuse := r } := by rw [← this, ← hr4]
      rw [← hw4]
  have hns := v1.names
  have hnm : ∀ x c, Names u x c ↔ Names w3 x c := by intro x c; rw [hu']; cases x <;> exact Iff.rfl
  have hdupn := dup_of_clash g hd2 v1
  have hbe := build_dup_exact g.inv hp v3 hdupn
  have hval3 : ∀ x, u.InfoIs x = w3.InfoIs x := by intro x; rw [hu']; rfl
  have hsame : ∀ l g, ActsOweSized w3 l g → ActsOweSized u l g := by
    intro l
    induction l with
    | nil => intro g hg; exact hg
    | cons a l ih =>
      rintro g ⟨g1, g2, q1, q2, q3⟩
      refine ⟨g1, g2, ?_, ih g2 q2, q3⟩
      rw [hu']
      cases a <;> exact q1
  obtain ⟨f, w4, hx⟩ : ∃ f w4, b1.build w3 = .error f w4 := by
    cases hx : b1.build w3 with
    | ok b' w' => unfold Tri at hbe; rw [hx] at hbe; exact hbe.elim
    | error f w4 => exact ⟨f, w4, rfl⟩
  have hE := hbe.error hx
  obtain ⟨w5, hd5⟩ : ∃ w5, b1.drop w4 = .ok () w5 := by
    unfold Builder.drop
    split
    · cases w4.reuse with
      | none => exact ⟨_, rfl⟩
      | some x => exact ⟨w4, by simp only [hp.block, if_true]⟩
    · exact ⟨_, rfl⟩
  have harch5 : w5.archetypes = w4.archetypes := by
    unfold Builder.drop at hd5
    split at hd5
    · split at hd5
      · injection hd5 with _ hd5; rw [← hd5]
      · split at hd5
        · injection hd5 with _ hd5; rw [← hd5]
        · cases hd5
    · injection hd5 with _ hd5; rw [← hd5]
  refine ⟨f, w5, ?_, ?_⟩
  · rw [spawnWith_eq]
    show EStateM.bind spawnId _ w = _
    unfold EStateM.bind
    rw [x1]
    show EStateM.bind (mkBuilder kind e) _ w1 = _
    unfold EStateM.bind
    rw [x2]
    show EStateM.bind (b.acts (as ++ [.build])) _ w2 = _
    unfold EStateM.bind
    rw [acts_append, x3]
    have : b1.acts [.build] w3 = .error f w5 := by
      show EStateM.bind (b1.act .build) _ w3 = _
      unfold EStateM.bind Builder.act Builder.orDrop
      simp only [hx, hd5]
    simp only [this]
  · rcases hE with ⟨hno, hE⟩ | ⟨hf, k, a, a', c, v, q1, q2, q3, q4, q5, q6, q7⟩
    · left
      refine ⟨?_, ?_⟩
      · rintro hlen ⟨a, ha, hl, hall⟩
        rw [hu'] at ha hlen
        obtain ⟨k, hk⟩ := List.mem_iff_getElem?.1 ha
        have hklt := (List.getElem?_eq_some_iff.1 hk).1
        refine hno ⟨k, a, by simp only at hlen hklt; omega, hk, by rw [hl, hp.ids]; exact hns.1.symm, ?_⟩
        intro c hc
        rw [hp.ids] at hc
        obtain ⟨x, hx1, hx2⟩ := (hns.2 c).1 hc
        obtain ⟨c', hc1, hc2⟩ := hall x hx1
        rwa [names_uniq ((hnm x c').1 hc2) hx2] at hc1
      · rcases hE with ⟨hl, hr⟩ | ⟨rfl, evs, hev, rfl⟩
        · left
          refine ⟨hl, ?_⟩
          rw [hu']; exact hr
        · right
          obtain ⟨j1, j2, j3, j4⟩ := foldl_ensureLock b1.compIds w3
          have hd6 := hdrop { b1.compIds.foldl ensureLock w3 with log := w3.log ++ evs } (by rw [j1])
          rw [hd5] at hd6
          injection hd6 with _ hd6
          subst hd6
          refine ⟨rfl, ⟨evs, by rw [hu'], _, hev, hsame _ _ (actsOweSized_iff g.inv v1 v3)⟩, ?_, by rw [hu']; exact j2, by rw [hu']; exact j3, ?_,
            (ensureLocks_spec g.inv b1.compIds).1.lock⟩
          · rw [hu']
            simp only
            rw [j1]
          · intro c
            rw [hu']
            refine (j4 c).trans (or_congr Iff.rfl ?_)
            rw [hp.ids, hns.2 c]
            exact exists_congr fun x => and_congr Iff.rfl (by rw [← hnm x c, hu'])
    · right
      refine ⟨⟨a, by rw [hu']; exact List.mem_of_getElem? q1, ?_, ?_⟩, hf, k, a, a', c, v, by rw [hu']; exact q1, by rw [harch5]; exact q4, by rw [q5, hent], q6, q7⟩
      · rw [q2, hp.ids]; exact hns.1
      · intro x hx
        obtain ⟨c, hc⟩ := v1.named hx
        exact ⟨c, q3 c (by rw [hp.ids]; exact (hns.2 c).2 ⟨x, hx, hc⟩), (hnm x c).2 hc⟩

end World
end Ellecs
