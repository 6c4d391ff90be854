import Verif.Proofs.Bitset
import Verif.Proofs.Sort
import Verif.Model.Builder
/-! # The archetype bitset and the search for an archetype -/
namespace Ellecs

/-- Bit `k` of the bit vector with number `i`. -/
def bitAt (bs : Bitsets) (i k : Nat) : Bool :=
  match bs[i]? with
  | some bv => bv.rawBit k
  | none => false

/-- The bitset says which archetypes have which components. -/
structure BitOk (bs : Bitsets) (eb : Bitvec) (ids : List (List EcsId)) : Prop where
  inv : ∀ bv ∈ bs, Bitvec.Inv bv
  len : ∀ bv ∈ bs, bv.len ≤ ids.length
  bit : ∀ i k, bitAt bs i k = true ↔ ∃ l, ids[k]? = some l ∧ ∃ id ∈ l, id.uindex = i
  ebInv : Bitvec.Inv eb
  ebLen : eb.len = ids.length
  ebBit : ∀ k, eb.rawBit k = true ↔ k < ids.length

theorem bitOk_new : BitOk [] Bitvec.new [] := by
  refine ⟨by simp, by simp, ?_, Bitvec.inv_new, rfl, ?_⟩
  · intro i k; simp [bitAt]
  · intro k; simp [Bitvec.new, Bitvec.rawBit]

theorem bitsets_setBit_spec {bs : Bitsets} (hi : ∀ bv ∈ bs, Bitvec.Inv bv) (id : EcsId) (k N : Nat)
    (hl : ∀ bv ∈ bs, bv.len ≤ N) (hk : k < N) :
    ∃ bs', Bitsets.setBit bs id k true = .ok bs' ∧ (∀ bv ∈ bs', Bitvec.Inv bv) ∧ (∀ bv ∈ bs', bv.len ≤ N) ∧
      (∀ i j, bitAt bs' i j = true ↔ bitAt bs i j = true ∨ (i = id.uindex ∧ j = k)) := by
  have grown : ∃ s1 : Bitsets, (if id.uindex ≥ bs.length then Bitsets.insertBitvec bs id else .ok bs) = .ok s1 ∧
      id.uindex < s1.length ∧ (∀ bv ∈ s1, Bitvec.Inv bv) ∧ (∀ bv ∈ s1, bv.len ≤ N) ∧
      (∀ i j, bitAt s1 i j = bitAt bs i j) := by
    by_cases hge : id.uindex ≥ bs.length
    · rw [if_pos hge]
      unfold Bitsets.insertBitvec
      rw [List.getElem?_eq_none hge]
      refine ⟨_, rfl, by simp; omega, ?_, ?_, ?_⟩
      · intro bv hb
        rcases List.mem_append.1 hb with h | h
        · exact hi _ h
        · rw [List.eq_of_mem_replicate h]; exact Bitvec.inv_new
      · intro bv hb
        rcases List.mem_append.1 hb with h | h
        · exact hl _ h
        · rw [List.eq_of_mem_replicate h]; exact Nat.zero_le _
      · intro i j
        unfold bitAt
        by_cases hlt : i < bs.length
        · rw [List.getElem?_append_left hlt]
        · rw [List.getElem?_eq_none (l := bs) (by omega), List.getElem?_append_right (by omega),
            List.getElem?_replicate]
          split
          · rename_i h
            split at h
            · injection h with h; subst h; simp [Bitvec.new, Bitvec.rawBit]
            · cases h
          · rfl
    · rw [if_neg hge]
      exact ⟨bs, rfl, by omega, hi, hl, fun _ _ => rfl⟩
  obtain ⟨s1, h1, h2, h3, h4, h5⟩ := grown
  have hget := List.getElem?_eq_getElem h2
  have hmem := List.mem_of_getElem? hget
  obtain ⟨b', e1, e2, e3, e4⟩ := Bitvec.setBit_spec (h3 _ hmem) k true
  refine ⟨s1.set id.uindex b', ?_, ?_, ?_, ?_⟩
  · unfold Bitsets.setBit
    rw [h1]
    show (match s1[id.uindex]? with
      | none => Except.error Fault.indexOob
      | some bv => (bv.setBit k true >>= fun bv' => Except.ok (s1.set id.uindex bv'))) = _
    rw [hget]
    simp only [e1]
    rfl
  · intro bv hb
    rcases List.mem_or_eq_of_mem_set hb with h | h
    · exact h3 _ h
    · rw [h]; exact e2
  · intro bv hb
    rcases List.mem_or_eq_of_mem_set hb with h | h
    · exact h4 _ h
    · rw [h, e3]; have := h4 _ hmem; omega
  · intro i j
    rw [← h5 i j]
    unfold bitAt
    rw [List.getElem?_set]
    by_cases hi' : id.uindex = i
    · subst hi'
      rw [if_pos rfl, if_pos h2, hget]
      simp only [e4]
      by_cases hj : j = k
      · simp [hj]
      · simp [hj]
    · rw [if_neg hi']
      constructor
      · exact Or.inl
      · rintro (h | h)
        · exact h
        · exact absurd h.1.symm hi'

theorem setBits_spec {bs : Bitsets} (hi : ∀ bv ∈ bs, Bitvec.Inv bv) (k N : Nat)
    (hl : ∀ bv ∈ bs, bv.len ≤ N) (hk : k < N) (ids : List EcsId) :
    ∃ bs', World.setBits bs k ids = .ok bs' ∧ (∀ bv ∈ bs', Bitvec.Inv bv) ∧ (∀ bv ∈ bs', bv.len ≤ N) ∧
      (∀ i j, bitAt bs' i j = true ↔ bitAt bs i j = true ∨ (j = k ∧ ∃ id ∈ ids, id.uindex = i)) := by
  induction ids generalizing bs with
  | nil => exact ⟨bs, rfl, hi, hl, by simp⟩
  | cons id ids ih =>
    obtain ⟨bs1, e1, e2, e3, e4⟩ := bitsets_setBit_spec hi id k N hl hk
    obtain ⟨bs2, f1, f2, f3, f4⟩ := ih e2 e3
    refine ⟨bs2, by unfold World.setBits; simp only [e1, f1], f2, f3, ?_⟩
    intro i j
    rw [f4, e4]
    constructor
    · rintro ((h | ⟨h1, h2⟩) | ⟨h1, x, h2, h3⟩)
      · exact Or.inl h
      · exact Or.inr ⟨h2, id, List.mem_cons_self, h1.symm⟩
      · exact Or.inr ⟨h1, x, List.mem_cons_of_mem _ h2, h3⟩
    · rintro (h | ⟨h1, x, h2, h3⟩)
      · exact Or.inl (Or.inl h)
      · rcases List.mem_cons.1 h2 with e | e
        · subst e; exact Or.inl (Or.inr ⟨h3.symm, h1⟩)
        · exact Or.inr ⟨h1, x, e, h3⟩

/-- Registering a new archetype keeps the bitset correct. -/
theorem BitOk.push {bs : Bitsets} {eb : Bitvec} {ids : List (List EcsId)} (h : BitOk bs eb ids) (l : List EcsId) :
    ∃ bs' eb', World.setBits bs ids.length l = .ok bs' ∧ eb.pushBit true = .ok eb' ∧ BitOk bs' eb' (ids ++ [l]) := by
  obtain ⟨bs', e1, e2, e3, e4⟩ := setBits_spec h.inv ids.length (ids.length + 1)
    (fun bv hb => Nat.le_succ_of_le (h.len bv hb)) (Nat.lt_succ_self _) l
  obtain ⟨eb', f1, f2, f3, f4⟩ := Bitvec.setBit_spec h.ebInv eb.len true
  refine ⟨bs', eb', e1, f1, e2, ?_, ?_, f2, ?_, ?_⟩
  · intro bv hb; simpa using e3 bv hb
  · intro i k
    rw [e4, h.bit]
    constructor
    · rintro (⟨l', h1, h2⟩ | ⟨h1, h2⟩)
      · refine ⟨l', ?_, h2⟩
        rw [List.getElem?_append_left (List.getElem?_eq_some_iff.1 h1).1]; exact h1
      · exact ⟨l, by simp [h1], h2⟩
    · rintro ⟨l', h1, h2⟩
      rw [List.getElem?_append] at h1
      split at h1
      · exact Or.inl ⟨l', h1, h2⟩
      · right
        have hk : k = ids.length := by
          have := (List.getElem?_eq_some_iff.1 h1).1
          simp at this; omega
        subst hk
        simp at h1
        subst h1
        exact ⟨rfl, h2⟩
  · rw [f3, h.ebLen]; simp
  · intro k
    rw [f4, h.ebLen]
    simp only [List.length_append, List.length_cons, List.length_nil]
    by_cases hk : k = ids.length
    · simp [hk]
    · rw [if_neg hk, h.ebBit]; omega

theorem sorted_length_le {l : List Nat} {N : Nat} (hs : l.Pairwise (· < ·)) (hb : ∀ x ∈ l, x < N) : l.length ≤ N := by
  have key : ∀ (ys : List Nat) (lo : Nat), ys.Pairwise (· < ·) → (∀ y ∈ ys, lo ≤ y ∧ y < N) →
      ys = [] ∨ ys.length + lo ≤ N := by
    intro ys
    induction ys with
    | nil => intro _ _ _; exact Or.inl rfl
    | cons y ys ih =>
      intro lo hp hr
      right
      have hp' := List.pairwise_cons.1 hp
      have hy := hr y List.mem_cons_self
      rcases ih (y + 1) hp'.2 (fun z hz => ⟨hp'.1 z hz, (hr z (List.mem_cons_of_mem _ hz)).2⟩) with e | e
      · subst e; simp; omega
      · simp; omega
  rcases key l 0 hs (fun y hy => ⟨Nat.zero_le _, hb y hy⟩) with e | e
  · subst e; exact Nat.zero_le _
  · omega

theorem length_pend_new (its : List WordIter) (bl : Nat) (it : WordIter) (rest : List WordIter)
    (h : its = it :: rest) : (BitsetIter.pend (BitsetIter.new its bl)).length ≤ 64 * it.words.length := by
  apply sorted_length_le (BitsetIter.pend_new_sorted its bl)
  intro x hx
  obtain ⟨_, _, h3⟩ := (BitsetIter.mem_pend_new its bl x).1 hx
  obtain ⟨w, hw, _⟩ := h3 it (by rw [h]; exact List.mem_cons_self)
  have := (List.getElem?_eq_some_iff.1 hw).1
  omega

theorem pend_new_nil (bl : Nat) : BitsetIter.pend (BitsetIter.new [] bl) = [] := by
  rcases List.eq_nil_or_concat (BitsetIter.pend (BitsetIter.new [] bl)) with h | ⟨l, x, h⟩
  · exact h
  · have : x ∈ BitsetIter.pend (BitsetIter.new [] bl) := by rw [h]; simp
    exact absurd rfl ((BitsetIter.mem_pend_new [] bl x).1 this).2.1

theorem length_pend_lt_fuel (its : List WordIter) (bl : Nat) :
    (BitsetIter.pend (BitsetIter.new its bl)).length < World.yieldFuel (BitsetIter.new its bl) := by
  cases its with
  | nil => rw [pend_new_nil]; simp [World.yieldFuel, BitsetIter.new]
  | cons it rest =>
    have := length_pend_new (it :: rest) bl it rest rfl
    simp only [World.yieldFuel, BitsetIter.new] at *
    omega

theorem findFirst_spec (archs : List Archetype) (n : Nat) (fuel : Nat) (it : BitsetIter) (hi : BitsetIter.Inv it)
    (hf : it.pend.length < fuel) (hk : ∀ k ∈ it.pend, k < archs.length) :
    World.findFirst archs n fuel it =
      .ok (it.pend.find? (fun k => decide (((archs[k]?).map (fun a => a.compIds.length)) = some n))) := by
  induction fuel generalizing it with
  | zero => omega
  | succ fuel ih =>
    obtain ⟨h1, h2, h3⟩ := BitsetIter.next_spec it hi
    unfold World.findFirst
    cases hp : it.pend with
    | nil =>
      rw [hp] at h1
      have : it.next = (none, it.next.2) := Prod.ext h1 rfl
      rw [this]; rfl
    | cons k ks =>
      rw [hp] at h1 h2 hf
      have hn : it.next = (some k, it.next.2) := Prod.ext h1 rfl
      rw [hn]
      have hlt := hk k (by rw [hp]; exact List.mem_cons_self)
      have hg := List.getElem?_eq_getElem hlt
      simp only [hg]
      by_cases hc : (archs[k]).compIds.length = n
      · simp [hc, hg]
      · rw [if_neg hc]
        rw [ih it.next.2 h3 (by rw [h2]; simp at hf ⊢; omega) (by
          rw [h2]; intro j hj; apply hk; rw [hp]; exact List.mem_cons_of_mem _ hj), h2]
        rw [List.find?_cons_of_neg (by simp [hg, hc])]
        rfl

/-- The outcome of a search: the first table below the limit that has all the bits and the right number of
components. -/
theorem findByBits_spec {w : World} (hb : BitOk w.bitset w.entBits (w.archetypes.map Archetype.compIds))
    (L : List EcsId) (n : Nat) :
    ∃ r, w.findByBits L n = .ok r ∧
      (∀ k, r = some k → ∃ a, w.archetypes[k]? = some a ∧ a.compIds.length = n ∧
        ∀ id ∈ L, ∃ x ∈ a.compIds, x.uindex = id.uindex) ∧
      (r = none → L ≠ [] → ∀ k a, k < 2 ^ 32 - 1 → w.archetypes[k]? = some a → a.compIds.length = n →
        ¬ ∀ id ∈ L, ∃ x ∈ a.compIds, x.uindex = id.uindex) := by
  unfold World.findByBits
  -- the bit length and the iterators
  have hmin : ∀ (L : List EcsId) (acc : Nat),
      (World.minLen w.bitset L acc = none ∧ ∃ id ∈ L, w.bitset[id.uindex]? = none) ∨
      (∃ m, World.minLen w.bitset L acc = some m ∧ m ≤ acc ∧
        (∀ id ∈ L, ∃ bv, w.bitset[id.uindex]? = some bv ∧ m ≤ bv.len) ∧
        (∀ x, x < acc → (∀ id ∈ L, ∀ bv, w.bitset[id.uindex]? = some bv → x < bv.len) → x < m)) := by
    intro L
    induction L with
    | nil => intro acc; right; exact ⟨acc, rfl, Nat.le_refl _, by simp, fun x hx _ => hx⟩
    | cons id ids ih =>
      intro acc
      simp only [World.minLen, Bitsets.getBitvec]
      cases hg : w.bitset[id.uindex]? with
      | none => left; exact ⟨rfl, id, List.mem_cons_self, hg⟩
      | some bv =>
        simp only
        rcases ih (if bv.len < acc then bv.len else acc) with ⟨h1, x, h2, h3⟩ | ⟨m, h1, h2, h3, h4⟩
        · left; exact ⟨h1, x, List.mem_cons_of_mem _ h2, h3⟩
        · right
          refine ⟨m, h1, ?_, ?_, ?_⟩
          · split at h2 <;> omega
          · intro x hx
            rcases List.mem_cons.1 hx with e | e
            · subst e; exact ⟨bv, hg, by split at h2 <;> omega⟩
            · exact h3 x e
          · intro x hx hall
            apply h4
            · have := hall id List.mem_cons_self bv hg
              split <;> omega
            · intro y hy; exact hall y (List.mem_cons_of_mem _ hy)
  have hits : ∀ (L : List EcsId), (∀ id ∈ L, ∃ bv, w.bitset[id.uindex]? = some bv) →
      ∃ its, World.idIters w.bitset L = .ok its ∧ (its = [] ↔ L = []) ∧
        (∀ i, (∀ it ∈ its, ∃ wd, it.words[i / 64]? = some wd ∧ (it.map wd).getLsbD (i % 64) = true) ↔
          ∀ id ∈ L, bitAt w.bitset id.uindex i = true) := by
    intro L
    induction L with
    | nil => intro _; exact ⟨[], rfl, by simp, by simp⟩
    | cons id ids ih =>
      intro hall
      obtain ⟨bv, hbv⟩ := hall id List.mem_cons_self
      obtain ⟨its, h1, h2, h3⟩ := ih (fun x hx => hall x (List.mem_cons_of_mem _ hx))
      refine ⟨⟨bv.data, fun x => x⟩ :: its, ?_, by simp, ?_⟩
      · simp only [World.idIters, Bitsets.getBitvec, hbv, h1]
      · intro i
        simp only [List.forall_mem_cons, h3 i]
        apply and_congr_left
        intro _
        simp only [bitAt, hbv, Bitvec.rawBit]
        cases bv.data[i / 64]? with
        | none => simp
        | some wd => simp
  rcases hmin L (2 ^ 32 - 1) with ⟨h1, x, h2, h3⟩ | ⟨m, h1, h2, h3, h4⟩
  · rw [h1]
    refine ⟨none, rfl, by simp, ?_⟩
    intro _ _ k a _ hka _ hall
    obtain ⟨y, hy, hyu⟩ := hall x h2
    have : bitAt w.bitset x.uindex k = true :=
      (hb.bit _ _).2 ⟨a.compIds, by simp [hka], y, hy, hyu⟩
    simp [bitAt, h3] at this
  · rw [h1]
    obtain ⟨its, i1, i2, i3⟩ := hits L (fun id hid => by obtain ⟨bv, hbv, _⟩ := h3 id hid; exact ⟨bv, hbv⟩)
    rw [i1]
    simp only
    have hmem : ∀ k, k ∈ (BitsetIter.new its m).pend ↔ k < m ∧ L ≠ [] ∧ ∀ id ∈ L, bitAt w.bitset id.uindex k = true := by
      intro k
      rw [BitsetIter.mem_pend_new, i3]
      simp only [ne_eq, i2]
    have hb' : ∀ k, (∃ id ∈ L, bitAt w.bitset id.uindex k = true) → k < w.archetypes.length := by
      rintro k ⟨id, _, h⟩
      obtain ⟨l, hl, _⟩ := (hb.bit _ _).1 h
      have := (List.getElem?_eq_some_iff.1 hl).1
      simpa using this
    have hlt : ∀ k ∈ (BitsetIter.new its m).pend, k < w.archetypes.length := by
      intro k hk
      obtain ⟨_, hne, h⟩ := (hmem k).1 hk
      obtain ⟨id, hid⟩ := List.exists_mem_of_ne_nil L hne
      exact hb' k ⟨id, hid, h id hid⟩
    rw [findFirst_spec _ _ _ _ (BitsetIter.inv_new its m) (length_pend_lt_fuel its m) hlt]
    refine ⟨_, rfl, ?_, ?_⟩
    · intro k hk
      have hp := List.find?_some hk
      have hm := List.mem_of_find?_eq_some hk
      have hka := List.getElem?_eq_getElem (hlt k hm)
      simp only [hka, Option.map_some, Option.some.injEq, decide_eq_true_eq] at hp
      refine ⟨_, hka, hp, ?_⟩
      intro id hid
      obtain ⟨l, hl, x, hx, hxu⟩ := (hb.bit _ _).1 (((hmem k).1 hm).2.2 id hid)
      rw [List.getElem?_map, hka] at hl
      simp only [Option.map_some, Option.some.injEq] at hl
      subst hl
      exact ⟨x, hx, hxu⟩
    · intro hnone hne k a hklt hka hlen hall
      have hbits : ∀ id ∈ L, bitAt w.bitset id.uindex k = true := by
        intro id hid
        obtain ⟨x, hx, hxu⟩ := hall id hid
        exact (hb.bit _ _).2 ⟨a.compIds, by simp [hka], x, hx, hxu⟩
      have hkm : k < m := by
        apply h4 k hklt
        intro id hid bv hbv
        have h := hbits id hid
        simp only [bitAt, hbv] at h
        have hinv := hb.inv bv (List.mem_of_getElem? hbv)
        by_cases hlt : k < bv.len
        · exact hlt
        · rw [hinv.clean k (by omega)] at h; cases h
      have := List.find?_eq_none.1 hnone k ((hmem k).2 ⟨hkm, hne, hbits⟩)
      simp [hka, hlen] at this

end Ellecs
