import Verif.Proofs.WorldInv
/-! # Operations that change no row and no value: locks, caches, new tables -/
namespace Ellecs

/-- Sorted lists with all members of a sublist and the same length are equal as sets. -/
theorem subset_of_length_le {l m : List EcsId} (hl : l.Nodup) (hs : ∀ x ∈ l, x ∈ m) (hlen : m.length ≤ l.length) :
    ∀ x ∈ m, x ∈ l := by
  induction l generalizing m with
  | nil =>
    intro x hx
    have : m = [] := List.eq_nil_of_length_eq_zero (by simpa using hlen)
    rw [this] at hx; exact hx
  | cons y ys ih =>
    intro x hx
    have hn := List.nodup_cons.1 hl
    have hy : y ∈ m := hs y List.mem_cons_self
    by_cases hxy : x = y
    · subst hxy; exact List.mem_cons_self
    · have := ih (m := m.erase y) hn.2 (by
        intro z hz
        have hzy : z ≠ y := by rintro rfl; exact hn.1 hz
        exact (List.mem_erase_of_ne hzy).2 (hs z (List.mem_cons_of_mem _ hz)))
        (by rw [List.length_erase_of_mem hy]; simp at hlen; omega) x ((List.mem_erase_of_ne hxy).2 hx)
      exact List.mem_cons_of_mem _ this

theorem length_filter_ne {l : List EcsId} (hl : l.Nodup) {x : EcsId} (hx : x ∈ l) :
    (l.filter (fun i => i ≠ x)).length = l.length - 1 := by
  rw [← List.length_erase_of_mem hx, hl.erase_eq_filter]
  congr 2
  funext i
  by_cases h : i = x <;> simp [h]

theorem elems_nil {v : UVec} (h : v.count = 0) : v.elems = [] :=
  List.eq_nil_of_length_eq_zero (by rw [UVec.length_elems, h])

theorem stEvs_empty {info : EcsId → Option TypeInfo} {st : List (EcsId × UVec)} (h : StOk info (fun _ => 0) st) :
    stEvs st = [] := by
  unfold stEvs
  rw [List.flatMap_eq_nil_iff]
  intro p hp
  rw [elems_nil (h p hp).2.1]
  unfold UVec.dropEvs
  split <;> rfl

theorem elemsOf_row_none {info : EcsId → Option TypeInfo} {n : Nat} {st : List (EcsId × UVec)}
    (h : StOk info (fun _ => n) st) {r : Nat} (hr : n ≤ r) (c : EcsId) :
    (elemsOf st c).bind (fun l => l[r]?) = none := by
  cases he : elemsOf st c with
  | none => rfl
  | some l =>
    obtain ⟨v, hv, rfl⟩ := elemsOf_mem he
    have h2 : v.count = n := (h _ hv).2.1
    simp only [Option.bind_some]
    rw [List.getElem?_eq_none (by rw [UVec.length_elems, h2]; exact hr)]

namespace World

/-- `w'` has the rows, values, entities and type ids of `w`. -/
structure Same (w w' : World) : Prop where
  ent : w'.entities = w.entities
  metas : w'.metas = w.metas
  typ : w'.typeMap = w.typeMap
  reuse : w'.reuse = w.reuse
  log : w'.log = w.log
  row : ∀ k r, rowOf w'.archetypes k r = rowOf w.archetypes k r
  cell : ∀ k r c, cellOf w'.archetypes k r c = cellOf w.archetypes k r c
  evs : w'.storedEvs = w.storedEvs
  keep : ∀ (k : Nat) (a : Archetype), w.archetypes[k]? = some a → ∃ c, w'.archetypes[k]? = some { a with cache := c }
  look : ∀ id i, w.lockLookup id = some i → w'.lockLookup id = some i
  locks : ∃ n, w'.locks = w.locks ++ List.replicate n RwLock.new
  roomy : w.Roomy → w'.Roomy

theorem Same.refl (w : World) : Same w w :=
  ⟨rfl, rfl, rfl, rfl, rfl, fun _ _ => rfl, fun _ _ _ => rfl, rfl, fun _ a h => ⟨a.cache, h⟩, fun _ _ h => h,
    ⟨0, by simp⟩, id⟩

theorem Same.trans {w w' w'' : World} (h : Same w w') (h' : Same w' w'') : Same w w'' := by
  refine ⟨h'.ent.trans h.ent, h'.metas.trans h.metas, h'.typ.trans h.typ, h'.reuse.trans h.reuse, h'.log.trans h.log,
    fun k r => (h'.row k r).trans (h.row k r), fun k r c => (h'.cell k r c).trans (h.cell k r c),
    h'.evs.trans h.evs, ?_, fun id i hi => h'.look id i (h.look id i hi), ?_, fun hr => h'.roomy (h.roomy hr)⟩
  · intro k a ha
    obtain ⟨c, hc⟩ := h.keep k a ha
    obtain ⟨c', hc'⟩ := h'.keep k _ hc
    exact ⟨c', hc'⟩
  · obtain ⟨n, hn⟩ := h.locks
    obtain ⟨m, hm⟩ := h'.locks
    exact ⟨n + m, by rw [hm, hn, List.append_assoc, List.replicate_append_replicate]⟩

theorem Same.has {w w' : World} (h : Same w w') (hs : ∀ a ∈ w.archetypes, Shape a) (hs' : ∀ a ∈ w'.archetypes, Shape a)
    (e c : EcsId) (bs : Bytes) : w'.Has e c bs ↔ w.Has e c bs := by
  rw [has_iff hs, has_iff hs']
  simp only [h.row, h.cell]

theorem Same.hasRow {w w' : World} (h : Same w w') (e : EcsId) : w'.Row e ↔ w.Row e := by
  rw [row_iff, row_iff]; simp only [h.row]

theorem Same.live {w w' : World} (h : Same w w') (e : EcsId) : w'.entities.Live e ↔ w.entities.Live e := by rw [h.ent]

/-! ### locks -/

theorem ensureLock_spec {w : World} (h : Inv w) (id : EcsId) :
    Inv (ensureLock w id) ∧ Same w (ensureLock w id) ∧ (ensureLock w id).lockLookup id ≠ none := by
  unfold ensureLock
  cases hl : w.lockLookup id with
  | some i => exact ⟨h, Same.refl w, by rw [hl]; simp⟩
  | none =>
    refine ⟨⟨h.ent, h.loc, h.shape, h.col, h.bits, h.cache, ⟨?_, ?_, ?_, ?_⟩, h.type, h.arch0, h.uniq, h.reuse⟩,
      ⟨rfl, rfl, rfl, rfl, rfl, fun _ _ => rfl, fun _ _ _ => rfl, rfl, fun _ a ha => ⟨a.cache, ha⟩, ?_, ⟨1, rfl⟩, fun hr => hr⟩, ?_⟩
    · intro x i hx
      simp only [mapInsert] at hx
      simp only [List.length_append, List.length_cons, List.length_nil]
      split at hx
      · injection hx with hx; omega
      · have := h.lock.range x i hx; omega
    · intro x y i hx hy
      simp only [mapInsert] at hx hy
      split at hx <;> split at hy
      · rename_i a b; rw [a, b]
      · injection hx with hx; have := h.lock.range _ _ hy; omega
      · injection hy with hy; have := h.lock.range _ _ hx; omega
      · exact h.lock.inj x y i hx hy
    · intro a ha x hx
      simp only [mapInsert]
      split
      · simp
      · exact h.lock.used a ha x hx
    · intro i hi
      simp only [List.length_append, List.length_cons, List.length_nil] at hi
      by_cases hlt : i < w.locks.length
      · obtain ⟨x, hx⟩ := h.lock.surj i hlt
        refine ⟨x, ?_⟩
        simp only [mapInsert]
        rw [if_neg, hx]
        rintro rfl; rw [hl] at hx; cases hx
      · exact ⟨id, by simp only [mapInsert, if_true]; congr 1; omega⟩
    · intro x i hx
      simp only [mapInsert]
      rw [if_neg, hx]
      rintro rfl; rw [hl] at hx; cases hx
    · simp [mapInsert]

theorem ensureLocks_spec {w : World} (h : Inv w) (ids : List EcsId) :
    Inv (ids.foldl ensureLock w) ∧ Same w (ids.foldl ensureLock w) ∧
      ∀ id ∈ ids, (ids.foldl ensureLock w).lockLookup id ≠ none := by
  induction ids generalizing w with
  | nil => exact ⟨h, Same.refl w, by simp⟩
  | cons x xs ih =>
    obtain ⟨h1, h2, h3⟩ := ensureLock_spec h x
    obtain ⟨g1, g2, g3⟩ := ih h1
    refine ⟨g1, h2.trans g2, ?_⟩
    intro id hid
    rcases List.mem_cons.1 hid with e | e
    · subst e
      cases hl : (ensureLock w id).lockLookup id with
      | none => exact absurd hl h3
      | some i =>
        rw [List.foldl_cons, g2.look id i hl]; simp
    · exact g3 id e

theorem ensureLock_tight {w : World} {id c : EcsId} (h : (ensureLock w id).lockLookup c ≠ none) :
    w.lockLookup c ≠ none ∨ c = id := by
  unfold ensureLock at h
  cases hl : w.lockLookup id with
  | some i => rw [hl] at h; exact Or.inl h
  | none =>
    rw [hl] at h
    by_cases hc : c = id
    · exact Or.inr hc
    · left
      simpa [mapInsert, hc] using h

theorem ensureLocks_tight {w : World} {ids : List EcsId} {c : EcsId} (h : (ids.foldl ensureLock w).lockLookup c ≠ none) :
    w.lockLookup c ≠ none ∨ c ∈ ids := by
  induction ids generalizing w with
  | nil => exact Or.inl h
  | cons x xs ih =>
    rcases ih h with h | h
    · rcases ensureLock_tight h with h | h
      · exact Or.inl h
      · exact Or.inr (by simp [h])
    · exact Or.inr (List.mem_cons_of_mem _ h)

theorem ensureLock_archs (w : World) (id : EcsId) : (ensureLock w id).archetypes = w.archetypes := by
  unfold ensureLock; split <;> rfl

/-! ### caches -/

theorem setCache_spec {w : World} (h : Inv w) {k : Nat} {a : Archetype} (ha : w.archetypes[k]? = some a)
    {c : AddRemoveCache} (hc : CacheOk (w.archetypes.map Archetype.compIds) a.compIds c) :
    Inv { w with archetypes := w.archetypes.set k { a with cache := c } } ∧
    Same w { w with archetypes := w.archetypes.set k { a with cache := c } } := by
  have hlt := (List.getElem?_eq_some_iff.1 ha).1
  have hmem := List.mem_of_getElem? ha
  have hall : ∀ x ∈ w.archetypes.set k { a with cache := c }, ∃ y ∈ w.archetypes, x.compIds = y.compIds ∧
      x.storages = y.storages ∧ x.entities = y.entities ∧
      CacheOk (w.archetypes.map Archetype.compIds) x.compIds x.cache := by
    intro x hx
    rcases List.mem_or_eq_of_mem_set hx with hx | hx
    · exact ⟨x, hx, rfl, rfl, rfl, h.cache x hx⟩
    · subst hx; exact ⟨a, hmem, rfl, rfl, rfl, hc⟩
  have hrow : ∀ k' r, rowOf (w.archetypes.set k { a with cache := c }) k' r = rowOf w.archetypes k' r := by
    intro k' r
    rw [rowOf_set hlt]
    split
    · rename_i hk; subst hk; rw [rowOf_eq ha]
    · rfl
  constructor
  · refine h.retable (map_set_same ha _ _ rfl) h.ent (h.loc.congr (fun _ => Iff.rfl) (fun _ => rfl) hrow) ?_ ?_ ?_ rfl rfl
      rfl rfl h.type h.reuse
    · intro x hx
      obtain ⟨y, hy, e1, e2, e3, _⟩ := hall x hx
      rw [e1, e2]; exact (h.shape y hy).ids
    · intro x hx
      obtain ⟨y, hy, e1, e2, e3, _⟩ := hall x hx
      rw [e2, e3]; exact h.col y hy
    · intro x hx
      obtain ⟨y, hy, e1, e2, e3, e4⟩ := hall x hx
      exact e4
  · refine ⟨rfl, rfl, rfl, rfl, rfl, hrow, ?_, ?_, ?_, fun _ _ hh => hh, ⟨0, by simp⟩, ?_⟩
    · intro k' r x
      rw [cellOf_set hlt]
      split
      · rename_i hk; subst hk; rw [cellOf_eq ha]
      · rfl
    · unfold storedEvs
      rw [List.flatMap_def, List.flatMap_def]
      exact congrArg List.flatten (map_set_same ha _ (fun a => stEvs a.storages) rfl)
    · intro k' x hx
      simp only [List.getElem?_set]
      by_cases hk : k = k'
      · subst hk
        rw [ha] at hx; injection hx with hx; subst hx
        rw [if_pos rfl, if_pos hlt]; exact ⟨c, rfl⟩
      · rw [if_neg hk]; exact ⟨x.cache, hx⟩
    · rintro ⟨r1, r2⟩
      refine ⟨?_, r2⟩
      intro x hx
      obtain ⟨y, hy, _, e2, _⟩ := hall x hx
      rw [e2]; exact r1 y hy

theorem insertCache_spec {w : World} (h : Inv w) {k : Nat} {a : Archetype} (ha : w.archetypes[k]? = some a)
    {id : EcsId} {t : Nat} (ht : Tgt (w.archetypes.map Archetype.compIds) a.compIds id t) :
    ∃ w', insertCache w k id t = .ok w' ∧ Inv w' ∧ Same w w' ∧ w'.lockLookup = w.lockLookup ∧ w'.idLists = w.idLists := by
  obtain ⟨l, hl, h1, h2⟩ := h.cache a (List.mem_of_getElem? ha)
  obtain ⟨v', e1, e2⟩ := hl.pushStart (by decide : 0 < CACHE_SIZE) (id, t)
  have hc : CacheOk (w.archetypes.map Archetype.compIds) a.compIds ⟨v', mapInsert a.cache.lookup id t⟩ := by
    refine ⟨_, e2, ?_, ?_⟩
    · intro p hp
      have := List.mem_of_mem_take hp
      rcases List.mem_cons.1 this with e | e
      · subst e; exact ht
      · exact h1 p e
    · intro x y hx
      simp only [mapInsert] at hx
      split at hx
      · rename_i hh; subst hh; injection hx with hx; subst hx; exact ht
      · exact h2 x y hx
  obtain ⟨g1, g2⟩ := setCache_spec h ha hc
  refine ⟨_, ?_, g1, g2, by simp, map_set_same ha _ _ rfl⟩
  unfold insertCache AddRemoveCache.insertId
  simp only [ha, e1]

theorem tryFindNext_spec {w : World} (h : Inv w) {k : Nat} {a : Archetype} (ha : w.archetypes[k]? = some a)
    (id : EcsId) :
    ∃ r w', tryFindNext w k id = .ok (r, w') ∧ Inv w' ∧ Same w w' ∧
      w'.archetypes.map Archetype.compIds = w.archetypes.map Archetype.compIds ∧ w'.bitset = w.bitset ∧
      w'.lockLookup = w.lockLookup ∧
      (∀ t, r = some t → Tgt (w.archetypes.map Archetype.compIds) a.compIds id t) := by
  have hcache := h.cache a (List.mem_of_getElem? ha)
  obtain ⟨l, hl, h1, h2⟩ := hcache
  have hmap : ∀ c, ((w.archetypes.set k { a with cache := c }).map Archetype.compIds) = w.archetypes.map Archetype.compIds :=
    fun c => map_set_same ha _ _ rfl
  unfold tryFindNext AddRemoveCache.lookupId
  simp only [ha, hl.asSlice]
  cases hf : l.find? (fun p => decide (p.1 = id)) with
  | some p =>
    obtain ⟨g1, g2⟩ := setCache_spec h ha ⟨l, hl, h1, h2⟩
    refine ⟨_, _, rfl, g1, g2, hmap _, rfl, rfl, ?_⟩
    intro t ht
    injection ht with ht
    have hp : p.1 = id := by simpa using List.find?_some hf
    rw [← ht, ← hp]; exact h1 p (List.mem_of_find?_eq_some hf)
  | none =>
    simp only
    cases hk : a.cache.lookup id with
    | none =>
      obtain ⟨g1, g2⟩ := setCache_spec h ha ⟨l, hl, h1, h2⟩
      exact ⟨_, _, rfl, g1, g2, hmap _, rfl, rfl, by intro t ht; cases ht⟩
    | some t =>
      obtain ⟨v', e1, e2⟩ := hl.pushStart (by decide : 0 < CACHE_SIZE) (id, t)
      have ht := h2 id t hk
      have hc : CacheOk (w.archetypes.map Archetype.compIds) a.compIds { a.cache with cache := v' } := by
        refine ⟨_, e2, ?_, h2⟩
        intro p hp
        have := List.mem_of_mem_take hp
        rcases List.mem_cons.1 this with e | e
        · subst e; exact ht
        · exact h1 p e
      obtain ⟨g1, g2⟩ := setCache_spec h ha hc
      simp only [e1]
      refine ⟨_, _, rfl, g1, g2, hmap _, rfl, rfl, ?_⟩
      intro t' ht'; injection ht' with ht'; subst ht'; exact ht

/-! ### new tables -/

theorem Tgt.append {ids : List (List EcsId)} {own : List EcsId} {id : EcsId} {t : Nat} (h : Tgt ids own id t)
    (x : List EcsId) : Tgt (ids ++ [x]) own id t := by
  obtain ⟨b, h1, h2⟩ := h
  exact ⟨b, by rw [List.getElem?_append_left (List.getElem?_eq_some_iff.1 h1).1]; exact h1, h2⟩

theorem CacheOk.append {ids : List (List EcsId)} {own : List EcsId} {c : AddRemoveCache} (h : CacheOk ids own c)
    (x : List EcsId) : CacheOk (ids ++ [x]) own c := by
  obtain ⟨l, h1, h2, h3⟩ := h
  exact ⟨l, h1, fun p hp => Tgt.append (h2 p hp) x, fun id t ht => Tgt.append (h3 id t ht) x⟩

theorem cacheOk_new (ids : List (List EcsId)) (own : List EcsId) : CacheOk ids own AddRemoveCache.new :=
  ⟨[], ArraySpec.Slots.new _, by simp, by intro id t ht; cases ht⟩

theorem pushArchetype_eq {w : World} (h : Inv w) (n : Archetype) :
    ∃ bs eb, pushArchetype w n = .ok { w with bitset := bs, entBits := eb, archetypes := w.archetypes ++ [n] } ∧
      BitOk bs eb (w.archetypes.map Archetype.compIds ++ [n.compIds]) := by
  obtain ⟨bs, eb, e1, e2, e3⟩ := h.bits.push n.compIds
  refine ⟨bs, eb, ?_, e3⟩
  rw [List.length_map] at e1
  unfold pushArchetype
  simp only [e1, e2]

/-- A new table, possibly with rows for which the metadata was set. -/
theorem Inv.push {w : World} (h : Inv w) {n : Archetype} {bs : Bitsets} {eb : Bitvec}
    {metas' : List (Option EntityMeta)}
    (hb : BitOk bs eb (w.archetypes.map Archetype.compIds ++ [n.compIds])) (hshape : Shape n)
    (hloc : LocOk w.entities.Live (instOf metas') (rowOf (w.archetypes ++ [n])))
    (hinfo : ∀ a ∈ w.archetypes, ∀ c ∈ a.compIds, infoFn w.entities metas' c = infoFn w.entities w.metas c)
    (hcol : StOk (infoFn w.entities metas') (fun _ => n.entities.length) n.storages)
    (htype : TypeOk w.typeMap w.entities metas') (hcache : n.cache = AddRemoveCache.new)
    (hlock : ∀ id ∈ n.compIds, w.lockLookup id ≠ none) (h0 : w.archetypes = [] → n.compIds = [])
    (hu : w.archetypes.length + 1 ≤ 2 ^ 32 → n.compIds ∉ w.archetypes.map Archetype.compIds) :
    Inv { w with bitset := bs, entBits := eb, archetypes := w.archetypes ++ [n], metas := metas' } := by
  have hcase : ∀ a, a ∈ w.archetypes ++ [n] → a ∈ w.archetypes ∨ a = n := by
    intro a ha
    rcases List.mem_append.1 ha with h | h
    · exact Or.inl h
    · exact Or.inr (by simpa using h)
  refine ⟨h.ent, hloc, ?_, ?_, ?_, ?_, ⟨h.lock.range, h.lock.inj, ?_, h.lock.surj⟩, htype, ?_, ?_, h.reuse⟩
  · intro a ha
    rcases hcase a ha with h' | rfl
    · exact h.shape a h'
    · exact hshape
  · intro a ha
    rcases hcase a ha with h' | rfl
    · refine (h.col a h').congr ?_ (fun _ _ => rfl)
      intro c hc
      rw [(h.shape a h').ids] at hc
      exact hinfo a h' c hc
    · exact hcol
  · simpa using hb
  · intro a ha
    rw [List.map_append, List.map_singleton]
    rcases hcase a ha with h' | rfl
    · exact CacheOk.append (h.cache a h') _
    · rw [hcache]; exact cacheOk_new _ _
  · intro a ha id hid
    rcases hcase a ha with h' | rfl
    · exact h.lock.used a h' id hid
    · exact hlock id hid
  · intro a ha
    cases ha' : w.archetypes with
    | nil =>
      simp only [ha', List.nil_append, List.getElem?_cons_zero, Option.some.injEq] at ha
      subst ha; exact h0 ha'
    | cons x xs =>
      simp only [ha', List.cons_append, List.getElem?_cons_zero, Option.some.injEq] at ha
      subst ha; exact h.arch0 x (by rw [ha']; rfl)
  · intro i j l hij hj h1 h2
    simp only [World.idLists, List.map_append, List.map_singleton] at h1 h2
    have hlen : (w.archetypes.map Archetype.compIds).length = w.archetypes.length := List.length_map _
    by_cases hjl : j < w.archetypes.length
    · rw [List.getElem?_append_left (by omega)] at h1 h2
      exact h.uniq i j l hij hj h1 h2
    · rw [List.getElem?_append_right (by omega)] at h2
      have hjn : j - (w.archetypes.map Archetype.compIds).length = 0 := by
        have := (List.getElem?_eq_some_iff.1 h2).1
        simp only [List.length_singleton] at this
        omega
      rw [hjn] at h2
      injection h2 with h2
      rw [List.getElem?_append_left (by omega)] at h1
      exact hu (by omega) (by rw [h2]; exact List.mem_of_getElem? h1)

/-- A new table without rows. -/
theorem pushEmpty_spec {w : World} (h : Inv w) {n : Archetype} (hshape : Shape n) (hent : n.entities = [])
    (hcol : StOk (infoFn w.entities w.metas) (fun _ => 0) n.storages) (hcache : n.cache = AddRemoveCache.new)
    (hlock : ∀ id ∈ n.compIds, w.lockLookup id ≠ none) (h0 : w.archetypes = [] → n.compIds = [])
    (hu : w.archetypes.length + 1 ≤ 2 ^ 32 → n.compIds ∉ w.archetypes.map Archetype.compIds)
    (hroom : w.Roomy → StRoomy n.storages) :
    ∃ w', pushArchetype w n = .ok w' ∧ Inv w' ∧ Same w w' ∧ w'.archetypes = w.archetypes ++ [n] ∧
      w'.lockLookup = w.lockLookup := by
  obtain ⟨bs, eb, e1, e2⟩ := pushArchetype_eq h n
  have hrow : ∀ k r, rowOf (w.archetypes ++ [n]) k r = rowOf w.archetypes k r := by
    intro k r
    rw [rowOf_append]
    split
    · rename_i hk; subst hk
      rw [hent]; simp [rowOf]
    · rfl
  refine ⟨_, e1, ?_, ?_, rfl, rfl⟩
  · exact h.push (metas' := w.metas) e2 hshape (h.loc.congr (fun _ => Iff.rfl) (fun _ => rfl) hrow) (fun _ _ _ _ => rfl)
      (by rw [hent]; exact hcol) h.type hcache hlock h0 hu
  · refine ⟨rfl, rfl, rfl, rfl, rfl, hrow, ?_, ?_, ?_, fun _ _ hh => hh, ⟨0, by simp⟩, ?_⟩
    · intro k r c
      rw [cellOf_append]
      split
      · rename_i hk; subst hk
        rw [elemsOf_row_none hcol (Nat.zero_le _)]; simp [cellOf]
      · rfl
    · simp only [storedEvs, List.flatMap_append, List.flatMap_cons, List.flatMap_nil, List.append_nil,
        stEvs_empty hcol]
    · intro k a ha
      refine ⟨a.cache, ?_⟩
      simp only
      rw [List.getElem?_append_left (List.getElem?_eq_some_iff.1 ha).1]; exact ha
    · intro hr
      refine ⟨?_, hr.2⟩
      intro a ha
      rcases List.mem_append.1 ha with h' | h'
      · exact hr.1 a h'
      · simp at h'; subst h'; exact hroom hr

theorem stOk_from {info : EcsId → Option TypeInfo} {n : Nat} {st : List (EcsId × UVec)}
    (h : StOk info (fun _ => n) st) :
    StOk info (fun _ => 0) (st.map (fun s => (s.1, s.2.newFromUntypedVec))) := by
  intro p hp
  obtain ⟨q, hq, rfl⟩ := List.mem_map.1 hp
  obtain ⟨_, _, h3⟩ := h q hq
  refine ⟨UVec.inv_newFromRaw _, ?_, h3⟩
  rw [← UVec.length_elems]
  show (UVec.newFromRaw q.2.info).elems.length = 0
  rw [UVec.elems_newFromRaw]; rfl

theorem stRoomy_from {st : List (EcsId × UVec)} (h : StRoomy st) :
    StRoomy (st.map (fun s => (s.1, s.2.newFromUntypedVec))) := by
  intro p hp
  obtain ⟨q, hq, rfl⟩ := List.mem_map.1 hp
  exact ⟨(h q hq).1, by show 0 * 2 < isizeMax; decide⟩

theorem fromArchetypeWith_spec {w : World} (h : Inv w) {a : Archetype} (ha : a ∈ w.archetypes) {id : EcsId}
    (hid : id ∉ a.compIds) {info : TypeInfo} (hinfo : infoFn w.entities w.metas id = some info) :
    ∃ n, a.fromArchetypeWith info id = .ok n ∧ Shape n ∧ n.entities = [] ∧ n.cache = AddRemoveCache.new ∧
      StOk (infoFn w.entities w.metas) (fun _ => 0) n.storages ∧
      (∀ x, x ∈ n.compIds ↔ x ∈ a.compIds ∨ x = id) ∧ (StRoomy a.storages → info.layout.size * 4 < isizeMax → StRoomy n.storages) := by
  have hs := h.shape a ha
  have hnd : (a.compIds ++ [id]).Nodup := by
    rw [List.nodup_append]
    refine ⟨hs.sorted.nodup, by simp, ?_⟩
    intro x hx y hy; simp at hy; subst hy; rintro rfl; exact hid hx
  have hst : ((a.storages.map (fun s => (s.1, s.2.newFromUntypedVec)) ++ [(id, UVec.newFromRaw info)]).map Prod.fst)
      = a.compIds ++ [id] := by
    rw [List.map_append, List.map_map, ← hs.ids]; rfl
  have hlook : ¬ (a.compLookup id).isSome = true := by rw [looksUp_mem hs.look]; exact hid
  have heq : a.fromArchetypeWith info id = .ok
      { compLookup := lookupOf (stableSort EcsId.lt (a.compIds ++ [id]))
        entities := []
        storages := stableSort storageLt (a.storages.map (fun s => (s.1, s.2.newFromUntypedVec)) ++ [(id, UVec.newFromRaw info)])
        compIds := stableSort EcsId.lt (a.compIds ++ [id])
        cache := AddRemoveCache.new } := by
    show (if (a.compLookup id).isSome = true then Except.error Fault.withAssert else
      if idsAgree (stableSort EcsId.lt (a.compIds ++ [id])) (stableSort storageLt
        (a.storages.map (fun s => (s.1, s.2.newFromUntypedVec)) ++ [(id, UVec.newFromRaw info)])) = true then
      Except.ok _ else Except.error Fault.orderAssert) = _
    rw [if_neg hlook, if_pos (idsAgree_self (by rw [map_fst_stableSort, hst]))]
    rfl
  rw [heq]
  have hsorted := sorted_stableSort hnd
  refine ⟨_, rfl, ⟨hsorted, by rw [stIds, map_fst_stableSort, hst], looksUp_lookupOf hsorted.nodup⟩, rfl, rfl, ?_, ?_, ?_⟩
  · intro p hp
    rw [mem_stableSort] at hp
    rcases List.mem_append.1 hp with hp | hp
    · exact stOk_from (h.col a ha) p hp
    · simp only [List.mem_singleton] at hp
      subst hp
      refine ⟨UVec.inv_newFromRaw _, ?_, hinfo⟩
      simp only; rw [← UVec.length_elems, UVec.elems_newFromRaw]; rfl
  · intro x; rw [mem_stableSort]; simp
  · intro hr hsz p hp
    rw [mem_stableSort] at hp
    rcases List.mem_append.1 hp with hp | hp
    · exact stRoomy_from hr p hp
    · simp only [List.mem_singleton] at hp
      subst hp
      exact ⟨hsz, by show 0 * 2 < isizeMax; decide⟩

theorem map_eraseIdx {α β : Type} (f : α → β) (l : List α) (i : Nat) :
    (l.eraseIdx i).map f = (l.map f).eraseIdx i := by
  induction l generalizing i with
  | nil => rfl
  | cons x xs ih => cases i with
    | zero => rfl
    | succ i => simp [List.eraseIdx_cons_succ, ih]

theorem mem_eraseIdx_nodup {l : List EcsId} (hn : l.Nodup) {i : Nat} {id : EcsId} (hi : l[i]? = some id) (x : EcsId) :
    x ∈ l.eraseIdx i ↔ x ∈ l ∧ x ≠ id := by
  rw [List.mem_eraseIdx_iff_getElem?]
  constructor
  · rintro ⟨j, hj, hx⟩
    refine ⟨List.mem_of_getElem? hx, ?_⟩
    rintro rfl
    exact hj (getElem?_inj_nodup hn hx hi)
  · rintro ⟨h1, h2⟩
    obtain ⟨j, hj⟩ := List.mem_iff_getElem?.1 h1
    exact ⟨j, by rintro rfl; rw [hi] at hj; injection hj with hj; exact h2 hj.symm, hj⟩

theorem fromArchetypeWithout_spec {w : World} (h : Inv w) {a : Archetype} (ha : a ∈ w.archetypes) {id : EcsId}
    (hid : id ∈ a.compIds) :
    ∃ n, a.fromArchetypeWithout id = .ok n ∧ Shape n ∧ n.entities = [] ∧ n.cache = AddRemoveCache.new ∧
      StOk (infoFn w.entities w.metas) (fun _ => 0) n.storages ∧
      (∀ x, x ∈ n.compIds ↔ x ∈ a.compIds ∧ x ≠ id) ∧ (StRoomy a.storages → StRoomy n.storages) := by
  have hs := h.shape a ha
  obtain ⟨i, hi⟩ := Option.isSome_iff_exists.1 ((looksUp_mem hs.look id).2 hid)
  have hidx := (hs.look id i).1 hi
  have hlt := (List.getElem?_eq_some_iff.1 hidx).1
  have hnd : (a.compIds.eraseIdx i).Nodup := hs.sorted.nodup.sublist (List.eraseIdx_sublist _ _)
  have hst : ((a.storages.map (fun s => (s.1, s.2.newFromUntypedVec))).eraseIdx i).map Prod.fst
      = a.compIds.eraseIdx i := by
    rw [map_eraseIdx, List.map_map, ← hs.ids]; rfl
  have hlt2 : i < a.storages.length := by
    have := congrArg List.length hs.ids; simp [stIds] at this; omega
  have heq : a.fromArchetypeWithout id = .ok
      { compLookup := lookupOf (stableSort EcsId.lt (a.compIds.eraseIdx i))
        entities := []
        storages := stableSort storageLt ((a.storages.map (fun s => (s.1, s.2.newFromUntypedVec))).eraseIdx i)
        compIds := stableSort EcsId.lt (a.compIds.eraseIdx i)
        cache := AddRemoveCache.new } := by
    unfold Archetype.fromArchetypeWithout
    show (match a.compLookup id with
      | none => Except.error Fault.withoutAssert
      | some i =>
        if i < a.compIds.length ∧ i < (a.storages.map (fun s : EcsId × UVec => (s.1, s.2.newFromUntypedVec))).length then
          if idsAgree (stableSort EcsId.lt (a.compIds.eraseIdx i)) (stableSort storageLt
            ((a.storages.map (fun s : EcsId × UVec => (s.1, s.2.newFromUntypedVec))).eraseIdx i)) = true then
          Except.ok _ else Except.error Fault.orderAssert
        else Except.error Fault.indexOob) = _
    rw [hi]
    simp only
    rw [if_pos ⟨hlt, by simpa using hlt2⟩, if_pos (idsAgree_self (by rw [map_fst_stableSort, hst]))]
    rfl
  rw [heq]
  have hsorted := sorted_stableSort hnd
  refine ⟨_, rfl, ⟨hsorted, by rw [stIds, map_fst_stableSort, hst], looksUp_lookupOf hsorted.nodup⟩, rfl, rfl, ?_, ?_, ?_⟩
  · intro p hp
    rw [mem_stableSort] at hp
    exact stOk_from (h.col a ha) p (List.mem_of_mem_eraseIdx hp)
  · intro x
    rw [mem_stableSort]
    exact mem_eraseIdx_nodup hs.sorted.nodup hidx x
  · intro hr p hp
    rw [mem_stableSort] at hp
    exact stRoomy_from hr p (List.mem_of_mem_eraseIdx hp)

end World
end Ellecs
