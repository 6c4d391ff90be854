import Verif.Proofs.Struct
/-! # Which table an entity moves to -/
namespace Ellecs
namespace World

theorem infoFn_none_of {w : World} {id : EcsId} (hl : w.entities.Live id) (h : infoFn w.entities w.metas id = none) :
    compOf w.metas id.uindex = none := by
  cases hc : compOf w.metas id.uindex with
  | none => rfl
  | some m =>
    have := infoFn_some.2 ⟨hl, m, hc, rfl⟩
    rw [h] at this; cases this

theorem inst_none_iff_comp {metas : List (Option EntityMeta)} {i : Nat} : instOf metas i = none ↔ compOf metas i = none := by
  simp [instOf, compOf]

theorem live_uindex_mem {w : World} (h : Inv w) {a : Archetype} (ha : a ∈ w.archetypes) {id x : EcsId}
    (hl : w.entities.Live id) (hx : x ∈ a.compIds) (hu : x.uindex = id.uindex) : id ∈ a.compIds := by
  have := (h.live_comp ha hx).1.uniq hl hu
  rw [← this]; exact hx

theorem used_ids_iff {w w' : World} (h : w'.idLists = w.idLists) (c : EcsId) : w'.Used c ↔ w.Used c := by
  have : ∀ w : World, w.Used c ↔ ∃ l ∈ w.idLists, c ∈ l := by
    intro w
    unfold Used idLists
    simp only [List.mem_map]
    constructor
    · rintro ⟨a, h1, h2⟩; exact ⟨_, ⟨a, h1, rfl⟩, h2⟩
    · rintro ⟨_, ⟨a, h1, rfl⟩, h2⟩; exact ⟨a, h1, h2⟩
  rw [this, this, h]

theorem used_push {w w' : World} {n : Archetype} (h : w'.archetypes = w.archetypes ++ [n]) (c : EcsId) :
    w'.Used c ↔ w.Used c ∨ c ∈ n.compIds := by
  unfold Used
  rw [h]
  simp only [List.mem_append, List.mem_singleton, or_and_right, exists_or, exists_eq_left]

theorem used_at {w : World} {k : Nat} {a : Archetype} (ha : w.archetypes[k]? = some a) {c : EcsId} (hc : c ∈ a.compIds) : w.Used c :=
  ⟨a, List.mem_of_getElem? ha, hc⟩

theorem createPlus_spec {w : World} (h : Inv w) {cur : Nat} {a : Archetype} (ha : w.archetypes[cur]? = some a)
    {id : EcsId} (hl : w.entities.Live id) (hid : id ∉ a.compIds)
    (hnew : ∀ (k : Nat) (b : Archetype), k < 2 ^ 32 - 1 → w.archetypes[k]? = some b →
      ¬ ∀ x, x ∈ b.compIds ↔ x ∈ a.compIds ∨ x = id) :
    Tri (createPlus cur id) w
      (fun t w' => Inv w' ∧ Same w w' ∧ ((∀ x, w'.lockLookup x ≠ none → w.lockLookup x ≠ none ∨ x = id) ∧ w'.lockLookup id ≠ none ∧ ∀ x, w'.Used x → w.Used x ∨ x = id) ∧
        ∃ b, w'.archetypes[t]? = some b ∧ ∀ x, x ∈ b.compIds ↔ x ∈ a.compIds ∨ x = id)
      (fun f w' => f = .unwrapNone ∧ compOf w.metas id.uindex = none ∧ Inv w' ∧ Same w w' ∧
        ((∀ x, w'.lockLookup x ≠ none → w.lockLookup x ≠ none ∨ x = id) ∧ w'.lockLookup id ≠ none ∧ w'.idLists = w.idLists)) := by
  obtain ⟨i1, i2, i3⟩ := ensureLock_spec h id
  unfold createPlus
  simp only [tri_bind, tri_modify, tri_get, tri_liftE, tri_step, tri_pure]
  generalize hw1 : ensureLock w id = w1 at *
  have hl1 : w1.entities.Live id := (i2.live id).2 hl
  rcases getEntityMeta_spec i1 id with ⟨_, m2⟩ | ⟨_, m2⟩ | ⟨m1, _, m2, _⟩ | ⟨im, c, m1, _, m2, m3, _⟩
  · have := hl1.lt; omega
  · exact absurd hl1 m2
  · rw [m1]
    simp only [unwrap]
    refine ⟨trivial, ?_, i1, i2, ?_, i3, ?_⟩
    · rw [← i2.metas]; exact inst_none_iff_comp.1 m2
    · intro x hx
      rw [← hw1] at hx
      exact ensureLock_tight hx
    · unfold idLists
      rw [← hw1, ensureLock_archs]
  · rw [m1]
    simp only [unwrap]
    have ha1 : w1.archetypes[cur]? = some a := by rw [← hw1, ensureLock_archs]; exact ha
    have hm1 := List.mem_of_getElem? ha1
    have hinfo : infoFn w1.entities w1.metas id = some c.info := infoFn_some.2 ⟨hl1, c, m3, rfl⟩
    obtain ⟨n, n1, n2, n3, n4, n5, n6, n7⟩ := fromArchetypeWith_spec i1 hm1 hid hinfo
    simp only [idx, ha1, n1]
    obtain ⟨w2, p1, p2, p3, p4, p5⟩ := pushEmpty_spec i1 n2 n3 n5 n4 (by
        intro x hx
        rcases (n6 x).1 hx with hx | hx
        · exact i1.lock.used a hm1 x hx
        · rw [hx]; exact i3)
      (by intro h0; rw [h0] at ha1; simp at ha1)
      (by
        intro hlen hmem
        obtain ⟨b, hb, hbe⟩ := List.mem_map.1 hmem
        obtain ⟨k, hk⟩ := List.mem_iff_getElem?.1 hb
        have hklt := (List.getElem?_eq_some_iff.1 hk).1
        rw [← hw1, ensureLock_archs] at hk
        exact hnew k b (by omega) hk (by rw [hbe]; exact n6))
      (by
        intro hr
        refine n7 (hr.1 a hm1) ?_
        obtain ⟨c', hc', hcc⟩ := metas_of_inst m2
        rw [m3] at hcc; injection hcc with hcc; subst hcc
        exact hr.2 _ (List.mem_of_getElem? hc'))
    simp only [p1]
    have ha2 : w2.archetypes[cur]? = some a := by
      rw [p4, List.getElem?_append_left (List.getElem?_eq_some_iff.1 ha1).1]; exact ha1
    have hlen2 : w2.archetypes.length - 1 = w1.archetypes.length := by rw [p4]; simp
    have hn2 : w2.archetypes[w2.archetypes.length - 1]? = some n := by rw [hlen2, p4]; simp
    have htgt : Tgt (w2.archetypes.map Archetype.compIds) a.compIds id (w2.archetypes.length - 1) := by
      refine ⟨n.compIds, by rw [List.getElem?_map, hn2]; rfl, ?_⟩
      intro x
      rw [n6]
      constructor
      · rintro (hx | hx)
        · exact Or.inl ⟨hx, by rintro rfl; exact hid hx⟩
        · exact Or.inr ⟨hx, hid⟩
      · rintro (hx | hx)
        · exact Or.inl hx.1
        · exact Or.inr hx.1
    obtain ⟨w3, q1, q2, q3, q4, q5⟩ := insertCache_spec p2 ha2 htgt
    simp only [q1]
    refine ⟨q2, (i2.trans p3).trans q3, ⟨?_, ?_, ?_⟩, ?_⟩
    · intro x hx
      rw [q4, p5, ← hw1] at hx
      exact ensureLock_tight hx
    · rw [q4, p5]; exact i3
    · intro x hx
      rcases (used_push p4 x).1 ((used_ids_iff q5 x).1 hx) with hx | hx
      · left
        refine (used_ids_iff ?_ x).1 hx
        unfold idLists
        rw [← hw1, ensureLock_archs]
      · exact ((n6 x).1 hx).imp_left (used_at ha)
    obtain ⟨c', hc'⟩ := q3.keep _ _ hn2
    exact ⟨_, hc', n6⟩

theorem tgt_add {w : World} {own : List EcsId} {id : EcsId} {t : Nat}
    (h : Tgt (w.archetypes.map Archetype.compIds) own id t) (hid : id ∉ own) :
    ∃ b, w.archetypes[t]? = some b ∧ ∀ x, x ∈ b.compIds ↔ x ∈ own ∨ x = id := by
  obtain ⟨l, h1, h2⟩ := h
  rw [List.getElem?_map] at h1
  cases hb : w.archetypes[t]? with
  | none => rw [hb] at h1; cases h1
  | some b =>
    rw [hb] at h1
    simp only [Option.map_some, Option.some.injEq] at h1
    subst h1
    refine ⟨b, rfl, ?_⟩
    intro x
    rw [h2]
    constructor
    · rintro (⟨h, _⟩ | ⟨h, _⟩)
      · exact Or.inl h
      · exact Or.inr h
    · rintro (h | h)
      · exact Or.inl ⟨h, by rintro rfl; exact hid h⟩
      · exact Or.inr ⟨h, hid⟩

theorem tgt_remove {w : World} {own : List EcsId} {id : EcsId} {t : Nat}
    (h : Tgt (w.archetypes.map Archetype.compIds) own id t) (hid : id ∈ own) :
    ∃ b, w.archetypes[t]? = some b ∧ ∀ x, x ∈ b.compIds ↔ x ∈ own ∧ x ≠ id := by
  obtain ⟨l, h1, h2⟩ := h
  rw [List.getElem?_map] at h1
  cases hb : w.archetypes[t]? with
  | none => rw [hb] at h1; cases h1
  | some b =>
    rw [hb] at h1
    simp only [Option.map_some, Option.some.injEq] at h1
    subst h1
    refine ⟨b, rfl, ?_⟩
    intro x
    rw [h2]
    constructor
    · rintro (h | ⟨_, h⟩)
      · exact h
      · exact absurd hid h
    · exact Or.inl

/-- The search for a table with a given set of components. -/
theorem findByBits_set {w : World} (h : Inv w) {L : List EcsId} (hn : L.Nodup) (hne : L ≠ [])
    (hlive : ∀ x ∈ L, w.entities.Live x) :
    ∃ r, w.findByBits L L.length = .ok r ∧
      (∀ k, r = some k → ∃ b, w.archetypes[k]? = some b ∧ ∀ x, x ∈ b.compIds ↔ x ∈ L) ∧
      (r = none → ∀ (k : Nat) (b : Archetype), k < 2 ^ 32 - 1 → w.archetypes[k]? = some b → ¬ ∀ x, x ∈ b.compIds ↔ x ∈ L) := by
  obtain ⟨r, e1, e2, e3⟩ := findByBits_spec h.bits L L.length
  refine ⟨r, e1, ?_, ?_⟩
  · intro k hk
    obtain ⟨b, f1, f2, f3⟩ := e2 k hk
    have hm := List.mem_of_getElem? f1
    have hsub : ∀ x ∈ L, x ∈ b.compIds := by
      intro x hx
      obtain ⟨y, hy, hyu⟩ := f3 x hx
      exact live_uindex_mem h hm (hlive x hx) hy hyu
    exact ⟨b, f1, fun x => ⟨fun hx => subset_of_length_le hn hsub (by omega) x hx, hsub x⟩⟩
  · intro hr k b hk hb hall
    have hm := List.mem_of_getElem? hb
    refine e3 hr hne k b hk hb ?_ ?_
    · have hnb := (h.shape b hm).sorted.nodup
      refine Nat.le_antisymm ?_ ?_
      · have : b.compIds.length ≤ L.length := by
          by_cases hlt : b.compIds.length ≤ L.length
          · exact hlt
          · exfalso
            have := subset_of_length_le (l := b.compIds) (m := L) hnb (fun x hx => (hall x).1 hx) (by omega)
            have h1 := (List.perm_ext_iff_of_nodup hnb hn).2 hall
            have := h1.length_eq
            omega
        exact this
      · have h1 := (List.perm_ext_iff_of_nodup hnb hn).2 hall
        have := h1.length_eq
        omega
    · intro x hx; exact ⟨x, (hall x).2 hx, rfl⟩

theorem resolveAdd_spec {w : World} (h : Inv w) {cur : Nat} {a : Archetype} (ha : w.archetypes[cur]? = some a)
    {id : EcsId} (hl : w.entities.Live id) :
    Tri (resolveAdd cur id) w
      (fun t w' => id ∉ a.compIds ∧ Inv w' ∧ Same w w' ∧ ((∀ x, w'.lockLookup x ≠ none → w.lockLookup x ≠ none ∨ x = id) ∧ w'.lockLookup id ≠ none ∧ ∀ x, w'.Used x → w.Used x ∨ x = id) ∧
        ∃ b, w'.archetypes[t]? = some b ∧ ∀ x, x ∈ b.compIds ↔ x ∈ a.compIds ∨ x = id)
      (fun f w' => (f = .alreadyPresent ∧ id ∈ a.compIds ∧ w' = w) ∨
        (f = .unwrapNone ∧ id ∉ a.compIds ∧ compOf w.metas id.uindex = none ∧ Inv w' ∧ Same w w' ∧
          ((∀ x, w'.lockLookup x ≠ none → w.lockLookup x ≠ none ∨ x = id) ∧ w'.lockLookup id ≠ none ∧ w'.idLists = w.idLists))) := by
  have hm := List.mem_of_getElem? ha
  unfold resolveAdd
  simp only [tri_bind, tri_get, tri_liftE, idx, ha]
  by_cases hid : id ∈ a.compIds
  · simp only [List.contains_eq_mem, hid, decide_true, if_true, tri_throw, tri_bind]
    exact Or.inl ⟨trivial, trivial, trivial⟩
  · simp only [List.contains_eq_mem, hid, decide_false, Bool.false_eq_true, if_false, tri_bind, tri_liftE]
    obtain ⟨r, w1, t1, t2, t3, t4, t5, t6, t7⟩ := tryFindNext_spec h ha id
    simp only [t1, tri_set]
    obtain ⟨c1, hc1⟩ := t3.keep _ _ ha
    cases r with
    | some t =>
      simp only [tri_pure]
      have := t7 t rfl
      rw [← t4] at this
      have := tgt_add this hid
      refine ⟨not_false, t2, t3, ⟨fun x hx => Or.inl (by rw [← t6]; exact hx), ?_, fun x hx => Or.inl ((used_ids_iff t4 x).1 hx)⟩, this⟩
      obtain ⟨b, b1, b2⟩ := this
      exact t2.lock.used b (List.mem_of_getElem? b1) id ((b2 id).2 (Or.inr rfl))
    | none =>
      simp only [tri_bind, tri_liftE]
      have hnd : (a.compIds ++ [id]).Nodup := by
        rw [List.nodup_append]
        refine ⟨(h.shape a hm).sorted.nodup, by simp, ?_⟩
        intro x hx y hy; simp at hy; subst hy; rintro rfl; exact hid hx
      have hlive : ∀ x ∈ a.compIds ++ [id], w1.entities.Live x := by
        intro x hx
        rw [t3.ent]
        rcases List.mem_append.1 hx with hx | hx
        · exact (h.live_comp hm hx).1
        · simp at hx; subst hx; exact hl
      obtain ⟨r, e1, e2, e3⟩ := findByBits_set t2 hnd (by simp) hlive
      have e1' : w1.findArchetypePlus a.compIds id = .ok r := by
        unfold findArchetypePlus
        rw [← e1, List.length_append]; rfl
      have hmem : ∀ x, x ∈ a.compIds ++ [id] ↔ x ∈ a.compIds ∨ x = id := by simp
      simp only [hmem] at e2 e3
      rw [e1']
      cases r with
      | some k =>
        simp only [tri_bind, tri_step, tri_pure]
        obtain ⟨b, hb, hbm⟩ := e2 k rfl
        have htgt : Tgt (w1.archetypes.map Archetype.compIds) a.compIds id k := by
          refine ⟨b.compIds, by rw [List.getElem?_map, hb]; rfl, ?_⟩
          intro x
          rw [hbm]
          constructor
          · rintro (hx | hx)
            · exact Or.inl ⟨hx, by rintro rfl; exact hid hx⟩
            · exact Or.inr ⟨hx, hid⟩
          · rintro (hx | hx)
            · exact Or.inl hx.1
            · exact Or.inr hx.1
        obtain ⟨w2, q1, q2, q3, q4, q5⟩ := insertCache_spec t2 hc1 htgt
        simp only [q1]
        obtain ⟨c2, hc2⟩ := q3.keep _ _ hb
        exact ⟨not_false, q2, t3.trans q3, ⟨fun x hx => Or.inl (by rw [← t6, ← q4]; exact hx),
          q2.lock.used _ (List.mem_of_getElem? hc2) id ((hbm id).2 (Or.inr rfl)),
          fun x hx => Or.inl ((used_ids_iff t4 x).1 ((used_ids_iff q5 x).1 hx))⟩, _, hc2, hbm⟩
      | none =>
        refine (createPlus_spec t2 hc1 ((t3.live id).2 hl) hid (e3 rfl)).imp ?_ ?_
        · rintro t w' ⟨g1, g2, g4, g3⟩
          exact ⟨not_false, g1, t3.trans g2, ⟨by rw [t6] at g4; exact g4.1, g4.2.1, fun x hx => (g4.2.2 x hx).imp_left (used_ids_iff t4 x).1⟩, g3⟩
        · rintro f w' ⟨g1, g2, g3, g4, g5⟩
          exact Or.inr ⟨g1, not_false, by rw [← t3.metas]; exact g2, g3, t3.trans g4, by rw [t6] at g5; exact g5.1, g5.2.1,
            g5.2.2.trans t4⟩

theorem createMinus_spec {w : World} (h : Inv w) {cur : Nat} {a : Archetype} (ha : w.archetypes[cur]? = some a)
    {id : EcsId} (hid : id ∈ a.compIds)
    (hnew : ∀ (k : Nat) (b : Archetype), k < 2 ^ 32 - 1 → w.archetypes[k]? = some b →
      ¬ ∀ x, x ∈ b.compIds ↔ x ∈ a.compIds ∧ x ≠ id) :
    Tri (createMinus cur id) w
      (fun t w' => Inv w' ∧ Same w w' ∧ (w'.lockLookup = w.lockLookup ∧ ∀ x, w'.Used x → w.Used x) ∧
        ∃ b, w'.archetypes[t]? = some b ∧ ∀ x, x ∈ b.compIds ↔ x ∈ a.compIds ∧ x ≠ id)
      (fun _ _ => False) := by
  have hm := List.mem_of_getElem? ha
  unfold createMinus
  simp only [tri_bind, tri_get, tri_liftE, tri_step, tri_pure, idx, ha]
  obtain ⟨n, n1, n2, n3, n4, n5, n6, n7⟩ := fromArchetypeWithout_spec h hm hid
  simp only [n1]
  obtain ⟨w2, p1, p2, p3, p4, p5⟩ := pushEmpty_spec h n2 n3 n5 n4 (by
      intro x hx
      exact h.lock.used a hm x ((n6 x).1 hx).1)
    (by intro h0; rw [h0] at ha; simp at ha)
    (by
      intro hlen hmem
      obtain ⟨b, hb, hbe⟩ := List.mem_map.1 hmem
      obtain ⟨k, hk⟩ := List.mem_iff_getElem?.1 hb
      have hklt := (List.getElem?_eq_some_iff.1 hk).1
      exact hnew k b (by omega) hk (by rw [hbe]; exact n6))
    (fun hr => n7 (hr.1 a hm))
  simp only [p1]
  have ha2 : w2.archetypes[cur]? = some a := by
    rw [p4, List.getElem?_append_left (List.getElem?_eq_some_iff.1 ha).1]; exact ha
  have hlen2 : w2.archetypes.length - 1 = w.archetypes.length := by rw [p4]; simp
  have hn2 : w2.archetypes[w2.archetypes.length - 1]? = some n := by rw [hlen2, p4]; simp
  have htgt : Tgt (w2.archetypes.map Archetype.compIds) a.compIds id (w2.archetypes.length - 1) := by
    refine ⟨n.compIds, by rw [List.getElem?_map, hn2]; rfl, ?_⟩
    intro x
    rw [n6]
    constructor
    · exact Or.inl
    · rintro (hx | hx)
      · exact hx
      · exact absurd hid hx.2
  obtain ⟨w3, q1, q2, q3, q4, q5⟩ := insertCache_spec p2 ha2 htgt
  simp only [q1]
  obtain ⟨c', hc'⟩ := q3.keep _ _ hn2
  refine ⟨q2, p3.trans q3, ⟨q4.trans p5, ?_⟩, _, hc', n6⟩
  intro x hx
  rcases (used_push p4 x).1 ((used_ids_iff q5 x).1 hx) with hx | hx
  · exact hx
  · exact used_at ha ((n6 x).1 hx).1

theorem resolveRemove_spec {w : World} (h : Inv w) {cur : Nat} {a : Archetype} (ha : w.archetypes[cur]? = some a)
    (id : EcsId) :
    Tri (resolveRemove cur id) w
      (fun t w' => id ∈ a.compIds ∧ Inv w' ∧ Same w w' ∧ (w'.lockLookup = w.lockLookup ∧ ∀ x, w'.Used x → w.Used x) ∧
        ∃ b, w'.archetypes[t]? = some b ∧ ∀ x, x ∈ b.compIds ↔ x ∈ a.compIds ∧ x ≠ id)
      (fun f w' => f = .notPresent ∧ id ∉ a.compIds ∧ w' = w) := by
  have hm := List.mem_of_getElem? ha
  unfold resolveRemove
  simp only [tri_bind, tri_get, tri_liftE, idx, ha]
  by_cases hid : id ∈ a.compIds
  · simp only [List.contains_eq_mem, hid, decide_true, Bool.not_true, Bool.false_eq_true, if_false, tri_bind, tri_liftE]
    obtain ⟨r, w1, t1, t2, t3, t4, t5, t6, t7⟩ := tryFindNext_spec h ha id
    simp only [t1, tri_set]
    obtain ⟨c1, hc1⟩ := t3.keep _ _ ha
    cases r with
    | some t =>
      simp only [tri_pure]
      refine ⟨trivial, t2, t3, ⟨t6, fun x hx => (used_ids_iff t4 x).1 hx⟩, ?_⟩
      have := t7 t rfl
      rw [← t4] at this
      exact tgt_remove this hid
    | none =>
      simp only [tri_bind, tri_liftE]
      have hfound : ∃ r, w1.findArchetypeMinus a.compIds id = .ok r ∧
          (∀ k, r = some k → ∃ b, w1.archetypes[k]? = some b ∧ ∀ x, x ∈ b.compIds ↔ x ∈ a.compIds ∧ x ≠ id) ∧
          (r = none → ∀ (k : Nat) (b : Archetype), k < 2 ^ 32 - 1 → w1.archetypes[k]? = some b →
            ¬ ∀ x, x ∈ b.compIds ↔ x ∈ a.compIds ∧ x ≠ id) := by
        have hpos : w1.archetypes.length > 0 := by
          have := (List.getElem?_eq_some_iff.1 hc1).1; omega
        unfold findArchetypeMinus
        by_cases h1 : a.compIds.length = 1
        · rw [if_pos ⟨hpos, h1⟩]
          have h0 := List.getElem?_eq_getElem hpos
          have h00 := t2.arch0 _ h0
          rw [h0]
          simp only [h00, List.length_nil, if_true]
          refine ⟨_, rfl, ?_, by intro hh; cases hh⟩
          intro k hk
          injection hk with hk; subst hk
          refine ⟨_, h0, ?_⟩
          intro x
          rw [h00]
          obtain ⟨y, hy⟩ := List.length_eq_one_iff.1 h1
          rw [hy] at hid ⊢
          simp only [List.mem_singleton] at hid ⊢
          subst hid
          simp
        · rw [if_neg (fun hh => h1 hh.2), ← length_filter_ne (h.shape a hm).sorted.nodup hid]
          have hmem : ∀ x, x ∈ a.compIds.filter (fun i => i ≠ id) ↔ x ∈ a.compIds ∧ x ≠ id := by
            intro x; simp [List.mem_filter]
          have := findByBits_set t2 (L := a.compIds.filter (fun i => i ≠ id))
            ((h.shape a hm).sorted.nodup.filter _) (by
              intro hh
              have := length_filter_ne (h.shape a hm).sorted.nodup hid
              rw [hh] at this
              have hp := List.length_pos_of_mem hid
              simp at this; omega) (by
              intro x hx
              rw [t3.ent]
              exact (h.live_comp hm ((hmem x).1 hx).1).1)
          simp only [hmem] at this
          exact this
      obtain ⟨r, e1, e2, e3⟩ := hfound
      rw [e1]
      cases r with
      | some k =>
        simp only [tri_bind, tri_step, tri_pure]
        obtain ⟨b, hb, hbm⟩ := e2 k rfl
        have htgt : Tgt (w1.archetypes.map Archetype.compIds) a.compIds id k := by
          refine ⟨b.compIds, by rw [List.getElem?_map, hb]; rfl, ?_⟩
          intro x
          rw [hbm]
          constructor
          · exact Or.inl
          · rintro (hx | hx)
            · exact hx
            · exact absurd hid hx.2
        obtain ⟨w2, q1, q2, q3, q4, q5⟩ := insertCache_spec t2 hc1 htgt
        simp only [q1]
        obtain ⟨c2, hc2⟩ := q3.keep _ _ hb
        exact ⟨trivial, q2, t3.trans q3, ⟨q4.trans t6, fun x hx => (used_ids_iff t4 x).1 ((used_ids_iff q5 x).1 hx)⟩, _, hc2, hbm⟩
      | none =>
        refine (createMinus_spec t2 hc1 hid (e3 rfl)).imp ?_ ?_
        · rintro t w' ⟨g1, g2, g4, g3⟩
          exact ⟨trivial, g1, t3.trans g2, ⟨g4.1.trans t6, fun x hx => (used_ids_iff t4 x).1 (g4.2 x hx)⟩, g3⟩
        · intro f w' hf; exact hf.elim
  · simp only [List.contains_eq_mem, hid, decide_false, Bool.not_false, if_true, tri_throw, tri_bind]
    exact ⟨trivial, not_false, trivial⟩

end World
end Ellecs
