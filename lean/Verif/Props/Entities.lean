import Verif.Proofs.Entities
/-! # C01-C05: the id allocator -/
namespace Ellecs.Alloc

/-! ## C01 -/

theorem uses_eq (h : List (Op × Out)) (i : BitVec 32) : uses h i = (gensOf h i).length := by
  simp [uses, gensOf]

/-- C01: no id is handed out twice while no slot has been recycled 2^32 times. -/
theorem C01_ids_unique {h : List (Op × Out)} {s : Entities} (hh : Hist h s) (hw : NoWrap h) :
    (handedOut h).Nodup := by
  have hi := hist_inv hh
  rw [List.nodup_iff_count]
  intro e
  have h1 : List.count e (handedOut h) = List.count e ((handedOut h).filter (fun x => x.idx = e.idx)) := by
    rw [List.count_filter]; simp
  have h2 : List.count e ((handedOut h).filter (fun x => x.idx = e.idx)) ≤ List.count e.gen (gensOf h e.idx) :=
    List.count_le_count_map ..
  have h3 : (gensOf h e.idx).Nodup := by
    have hg := hi.gens e.idx
    have hu := hw e.idx
    rw [uses_eq] at hu
    split at hg
    · obtain ⟨n, hn, _⟩ := hg
      rw [hn] at hu ⊢
      simp only [List.length_map, List.length_range] at hu
      rw [List.Nodup, List.pairwise_map]
      refine List.Pairwise.imp_of_mem ?_ (List.nodup_range (n := n + 1))
      intro a b ha hb hne hab
      rw [List.mem_range] at ha hb
      have := congrArg BitVec.toNat hab
      rw [ofNat_toNat_lt (by omega), ofNat_toNat_lt (by omega)] at this
      exact hne this
    · rw [hg]; exact List.nodup_nil
  have h4 := List.nodup_iff_count.1 h3 e.gen
  omega

/-- The history of one spawn and `n` cycles `despawn; spawn` of the same slot. -/
def cycles : Nat → List (Op × Out)
  | 0 => [(.spawn, .spawned ⟨0, 0⟩)]
  | n + 1 => cycles n ++ [(.despawn ⟨BitVec.ofNat 32 n, 0⟩, .ret true)] ++
      [(.spawn, .spawned ⟨BitVec.ofNat 32 (n + 1), 0⟩)]

theorem cycles_hist (n : Nat) : Hist (cycles n) ⟨[(true, BitVec.ofNat 32 n)], []⟩ := by
  induction n with
  | zero => exact Hist.snoc .spawn Hist.nil
  | succ n ih =>
    have h1 := Hist.snoc (.despawn ⟨BitVec.ofNat 32 n, 0⟩) ih
    have hs : step ⟨[(true, BitVec.ofNat 32 n)], []⟩ (.despawn ⟨BitVec.ofNat 32 n, 0⟩) =
        (.ret true, ⟨[(false, BitVec.ofNat 32 n)], [0]⟩) := by
      simp [step, Entities.despawn, Entities.isAlive, EcsId.uindex]
    rw [hs] at h1
    have h2 := Hist.snoc .spawn h1
    have hs2 : step ⟨[(false, BitVec.ofNat 32 n)], [0]⟩ .spawn =
        (.spawned ⟨BitVec.ofNat 32 (n + 1), 0⟩, ⟨[(true, BitVec.ofNat 32 (n + 1))], []⟩) := by
      rw [← ofNat_succ]; rfl
    rw [hs2] at h2
    exact h2

theorem cycles_uses (n : Nat) (i : BitVec 32) : uses (cycles n) i ≤ n + 1 := by
  unfold uses
  refine Nat.le_trans (List.length_filter_le _ _) ?_
  induction n with
  | zero => simp [cycles, handedOut, idOf]
  | succ n ih =>
    have : (handedOut (cycles (n + 1))).length = (handedOut (cycles n)).length + 1 := by
      rw [cycles, handedOut_snoc, handedOut_snoc]; simp [idOf]
    omega

theorem cycles_mem_first (n : Nat) : (⟨0, 0⟩ : EcsId) ∈ handedOut (cycles n) := by
  induction n with
  | zero => simp [cycles, handedOut, idOf]
  | succ n ih =>
    rw [cycles, handedOut_snoc, handedOut_snoc]
    exact List.mem_append_left _ (List.mem_append_left _ ih)

theorem cycles_despawned (n : Nat) : (Op.despawn ⟨0, 0⟩, Out.ret true) ∈ cycles (n + 1) := by
  induction n with
  | zero => simp [cycles]
  | succ n ih => rw [cycles]; exact List.mem_append_left _ (List.mem_append_left _ ih)

/-- C01, the bound is exact: after 2^32 cycles of one slot (each slot handed out at most 2^32 + 1 times) an id that
was handed out and despawned is handed out again, and the stale handle is alive. -/
theorem C01_bound_exact :
    ∃ (h : List (Op × Out)) (op : Op) (e : EcsId) (s : Entities),
      Hist (h ++ [(op, .spawned e)]) s ∧ e ∈ handedOut h ∧ (.despawn e, .ret true) ∈ h ∧
      s.isAlive e = .ok true ∧ ∀ i, uses (h ++ [(op, .spawned e)]) i ≤ 2 ^ 32 + 1 := by
  have hc := cycles_hist (2 ^ 32 - 1 + 1)
  have hu := cycles_uses (2 ^ 32 - 1 + 1)
  rw [cycles] at hc hu
  have hz : BitVec.ofNat 32 (2 ^ 32 - 1 + 1) = 0 := by decide
  rw [hz] at hc hu
  refine ⟨_, _, _, _, hc, ?_, ?_, ?_, hu⟩
  · rw [handedOut_snoc]; exact List.mem_append_left _ (cycles_mem_first _)
  · refine List.mem_append_left _ ?_
    have : (2 ^ 32 - 1 : Nat) = (2 ^ 32 - 2) + 1 := by decide
    rw [this]; exact cycles_despawned _
  · rfl

/-- C01 is not vacuous: a history with recycling that satisfies the hypothesis. -/
example : Hist (cycles 2) ⟨[(true, 2)], []⟩ ∧ NoWrap (cycles 2) ∧ (handedOut (cycles 2)).length = 3 :=
  ⟨cycles_hist 2, fun i => Nat.le_trans (cycles_uses 2 i) (by decide), by decide⟩

example : (handedOut (cycles 2)).Nodup := C01_ids_unique (cycles_hist 2) fun i => Nat.le_trans (cycles_uses 2 i) (by decide)

/-! ## C02 -/

/-- C02: in every history (even with wrap-around) `is_alive(e)` is true iff `e` was handed out and the last thing
that happened to it was not a despawn. -/
theorem C02_is_alive_exact {h : List (Op × Out)} {s : Entities} (hh : Hist h s) (e : EcsId) :
    s.isAlive e = .ok true ↔ liveSpec h e = true := by
  have hi := (hist_inv hh).live e
  unfold Entities.isAlive
  rw [hi]
  cases hg : s.generations[e.uindex]? with
  | none => simp
  | some p => simp

/-- An id that was ever handed out has an in-range slot: `is_alive` does not panic on it. -/
theorem C02_is_alive_total {h : List (Op × Out)} {s : Entities} (hh : Hist h s) (e : EcsId)
    (he : e ∈ handedOut h) : s.isAlive e = .ok (liveSpec h e) := by
  have hi := (hist_inv hh).live e
  have hg := (hist_inv hh).gens e.idx
  unfold Entities.isAlive
  rw [hi]
  cases hx : s.generations[e.uindex]? with
  | some p => rfl
  | none =>
    change s.generations[e.idx.toNat]? = none at hx
    rw [hx] at hg
    have : e.gen ∈ gensOf h e.idx := by
      simp only [gensOf, List.mem_map, List.mem_filter]
      exact ⟨e, ⟨he, by simp⟩, rfl⟩
    rw [hg] at this; cases this

/-- The slot was used three times: the first id is dead, the third one alive, and an id never handed out is not alive either. -/
example : liveSpec (cycles 2) ⟨0, 0⟩ = false ∧ liveSpec (cycles 2) ⟨2, 0⟩ = true ∧ liveSpec (cycles 2) ⟨3, 0⟩ = false := by decide
example := C02_is_alive_exact (cycles_hist 2) ⟨2, 0⟩
example : (⟨[(true, 2)], []⟩ : Entities).isAlive ⟨0, 0⟩ = .ok (liveSpec (cycles 2) ⟨0, 0⟩) := C02_is_alive_total (cycles_hist 2) ⟨0, 0⟩ (cycles_mem_first 2)

theorem liveSpec_foldl_dead {e : EcsId} {h : List (Op × Out)} (a : Bool)
    (h1 : ∀ op, (op, Out.spawned e) ∉ h) (h2 : ∃ b, (Op.despawn e, Out.ret b) ∈ h) :
    h.foldl (liveUpd e) a = false := by
  induction h generalizing a with
  | nil => obtain ⟨b, hb⟩ := h2; cases hb
  | cons ev h ih =>
    rw [List.foldl_cons]
    by_cases hx : ∃ b, (Op.despawn e, Out.ret b) ∈ h
    · exact ih _ (fun op hm => h1 op (List.mem_cons_of_mem _ hm)) hx
    · obtain ⟨b, hb⟩ := h2
      have hev : ev = (.despawn e, .ret b) := by
        rcases List.mem_cons.1 hb with h | h
        · exact h.symm
        · exact absurd ⟨b, h⟩ hx
      subst hev
      have : liveUpd e a (.despawn e, .ret b) = false := by simp [liveUpd]
      rw [this]
      clear ih hb
      have h1' : ∀ op, (op, Out.spawned e) ∉ h := fun op hm => h1 op (List.mem_cons_of_mem _ hm)
      clear h1 this
      induction h with
      | nil => rfl
      | cons ev h ih =>
        rw [List.foldl_cons]
        have : liveUpd e false ev = false := by
          rcases ev with ⟨op, out⟩
          cases out with
          | spawned e' =>
            simp only [liveUpd]
            rw [if_neg]; rintro rfl; exact h1' op List.mem_cons_self
          | ret b => cases op <;> simp [liveUpd]
          | panic f => cases op <;> rfl
        rw [this]
        exact ih (fun hx' => hx (hx'.imp fun _ => List.mem_cons_of_mem _))
          (fun op hm => h1' op (List.mem_cons_of_mem _ hm))

theorem liveSpec_foldl_keep {e : EcsId} {h : List (Op × Out)}
    (h2 : ∀ b, (Op.despawn e, Out.ret b) ∉ h) : h.foldl (liveUpd e) true = true := by
  induction h with
  | nil => rfl
  | cons ev h ih =>
    rw [List.foldl_cons]
    have : liveUpd e true ev = true := by
      rcases ev with ⟨op, out⟩
      cases out with
      | spawned e' => simp [liveUpd]
      | ret b =>
        cases op with
        | spawn => rfl
        | despawn e' =>
          simp only [liveUpd]
          rw [if_neg]; rintro rfl; exact h2 b List.mem_cons_self
      | panic f => cases op <;> rfl
    rw [this]; exact ih (fun b hm => h2 b (List.mem_cons_of_mem _ hm))

/-- C02: a handle obtained at some point of a history without wrap-around is alive at the end iff it was not
despawned after that point. -/
theorem C02_handle_alive_until_despawned {h₁ h₂ : List (Op × Out)} {op : Op} {e : EcsId} {s : Entities}
    (hh : Hist (h₁ ++ (op, .spawned e) :: h₂) s) (hw : NoWrap (h₁ ++ (op, .spawned e) :: h₂)) :
    s.isAlive e = .ok true ↔ ∀ b, (Op.despawn e, Out.ret b) ∉ h₂ := by
  have hu := C01_ids_unique hh hw
  have hno : ∀ op, (op, Out.spawned e) ∉ h₂ := by
    intro op' hm
    rw [handedOut, List.filterMap_append, List.filterMap_cons] at hu
    simp only [idOf] at hu
    rw [List.nodup_append] at hu
    have := (List.nodup_cons.1 hu.2.1).1
    exact this (List.mem_filterMap.2 ⟨_, hm, rfl⟩)
  rw [C02_is_alive_exact hh, liveSpec, List.foldl_append, List.foldl_cons]
  have : ∀ a, liveUpd e a (op, .spawned e) = true := by intro a; simp [liveUpd]
  rw [this]
  constructor
  · intro ht b hb
    rw [liveSpec_foldl_dead true hno ⟨b, hb⟩] at ht; cases ht
  · exact fun hb => liveSpec_foldl_keep hb

example : (⟨[(true, 2)], []⟩ : Entities).isAlive ⟨2, 0⟩ = .ok true ∧
    (⟨[(true, 2)], []⟩ : Entities).isAlive ⟨1, 0⟩ = .ok false ∧ Hist (cycles 2) ⟨[(true, 2)], []⟩ :=
  ⟨rfl, rfl, cycles_hist 2⟩

/-! ## C03 -/

/-- C03: `despawn(e)` returns whether `e` was alive; afterwards `e` is dead and a second despawn returns false and
changes nothing; the liveness of every other id is unchanged.  (For every state, reachable or not.) -/
theorem C03_despawn_once (s : Entities) (e : EcsId) (b : Bool) (hb : s.isAlive e = .ok b) :
    ∃ s', s.despawn e = .ok (b, s') ∧ s'.isAlive e = .ok false ∧ s'.despawn e = .ok (false, s') ∧
      (∀ e', e' ≠ e → s'.isAlive e' = s.isAlive e') ∧ (b = false → s' = s) := by
  cases b with
  | false => exact ⟨s, by simp [Entities.despawn, hb], hb, by simp [Entities.despawn, hb], fun _ _ => rfl, fun _ => rfl⟩
  | true =>
    have hb' := hb
    unfold Entities.isAlive at hb'
    cases hg : s.generations[e.uindex]? with
    | none => rw [hg] at hb'; cases hb'
    | some p =>
      obtain ⟨a, g⟩ := p
      rw [hg] at hb'
      simp only [Except.ok.injEq, Bool.and_eq_true, beq_iff_eq] at hb'
      obtain ⟨ha, hge⟩ := hb'
      subst ha hge
      have hlen : e.uindex < s.generations.length := (List.getElem?_eq_some_iff.1 hg).1
      have hdead : (⟨s.generations.set e.uindex (false, e.gen), e.uindex :: s.despawned⟩ : Entities).isAlive e
          = .ok false := by
        simp [Entities.isAlive, hlen]
      refine ⟨⟨s.generations.set e.uindex (false, e.gen), e.uindex :: s.despawned⟩, ?_, hdead, ?_, ?_, ?_⟩
      · simp [Entities.despawn, hb, hg]
      · simp [Entities.despawn, hdead]
      · intro e' hne
        simp only [Entities.isAlive, List.getElem?_set]
        by_cases hu : e.uindex = e'.uindex
        · have hgen : ¬ e'.gen = e.gen := by
            intro hx; apply hne
            have : e.idx = e'.idx := toNat_inj32.1 hu
            cases e; cases e'; simp_all
          rw [if_pos hu, if_pos hlen, ← hu, hg]
          simp [hgen]
        · rw [if_neg hu]
      · intro h; cases h

example : (⟨[(true, 2)], []⟩ : Entities).isAlive ⟨2, 0⟩ = .ok true := rfl

/-! ## C04 -/

/-- C04: what `spawn` does, as a function of the history only.  It reuses the most recently freed slot if there is
one, and creates a new slot otherwise; the generation is the number of times the slot was handed out; no live id
has the slot that is handed out; the only possible panic is running out of the 2^32 slots. -/
theorem C04_spawn_recycles {h : List (Op × Out)} {s : Entities} (hh : Hist h s) :
    (∃ e, (step s .spawn).1 = .spawned e ∧ e.gen = BitVec.ofNat 32 (uses h e.idx) ∧
      (∀ e', liveSpec h e' = true → e'.idx ≠ e.idx) ∧
      (match Alloc.freeSpec h with
        | i :: _ => e.idx = i
        | [] => uses h e.idx = 0 ∧ ∀ j : BitVec 32, j.toNat < e.idx.toNat → ∃ e', liveSpec h e' = true ∧ e'.idx = j)) ∨
    ((step s .spawn).1 = .panic .outOfIds ∧ Alloc.freeSpec h = [] ∧
      ∀ j : BitVec 32, ∃ e', liveSpec h e' = true ∧ e'.idx = j) := by
  have hi := hist_inv hh
  have hall : s.despawned = [] → ∀ j : BitVec 32, j.toNat < s.generations.length →
      ∃ e', liveSpec h e' = true ∧ e'.idx = j := by
    intro hd j hj
    obtain ⟨⟨a, g⟩, hg⟩ : ∃ p, s.generations[j.toNat]? = some p :=
      ⟨_, List.getElem?_eq_getElem hj⟩
    have ha : a = true := by
      cases a with
      | true => rfl
      | false =>
        have := (hi.freeIff j.toNat).2 ⟨j.isLt, g, hg⟩
        rw [hd] at this; cases this
    refine ⟨⟨g, j⟩, ?_, rfl⟩
    have := hi.live ⟨g, j⟩
    change _ = match s.generations[j.toNat]? with
      | some (a, g') => a && (g == g')
      | none => false at this
    rw [hg, ha] at this
    rw [this]; simp
  rcases spawn_cases hi with ⟨i, rest, g, hd, hg, h32, hs⟩ | ⟨hd, h32, hs⟩ | ⟨hd, h32, hs⟩
  · left
    refine ⟨_, by rw [hs], ?_, ?_, ?_⟩
    · have := hi.gens (BitVec.ofNat 32 i)
      rw [ofNat_toNat_lt h32, hg] at this
      obtain ⟨n, h1, h2⟩ := this
      rw [uses_eq, h1, h2, List.length_map, List.length_range, ofNat_succ]
    · intro e' hl he'
      have := hi.live e'
      have hidx : e'.uindex = i := by
        change e'.idx.toNat = i
        rw [he', ofNat_toNat_lt h32]
      rw [hidx, hg, hl] at this
      simp at this
    · rw [hi.freeSpec, hd]; rfl
  · left
    have hg : gensOf h (BitVec.ofNat 32 s.generations.length) = [] := by
      have := hi.gens (BitVec.ofNat 32 s.generations.length)
      rw [ofNat_toNat_lt h32, List.getElem?_eq_none (Nat.le_refl _)] at this
      exact this
    refine ⟨_, by rw [hs], ?_, ?_, ?_⟩
    · rw [uses_eq, hg]; rfl
    · intro e' hl he'
      have := hi.live e'
      have hidx : e'.uindex = s.generations.length := by
        change e'.idx.toNat = _
        rw [he', ofNat_toNat_lt h32]
      rw [hidx, List.getElem?_eq_none (Nat.le_refl _), hl] at this
      simp at this
    · rw [hi.freeSpec, hd]
      refine ⟨by rw [uses_eq, hg]; rfl, ?_⟩
      intro j hj
      rw [ofNat_toNat_lt h32] at hj
      exact hall hd j hj
  · right
    refine ⟨by rw [hs], by rw [hi.freeSpec, hd]; rfl, ?_⟩
    intro j
    exact hall hd j (by have := j.isLt; omega)

/-- C04, example: with slots 0 and 1 freed in this order, slot 1 comes back first with generation 1. -/
example : let s : Entities := ⟨[(false, 0), (false, 0)], [1, 0]⟩
    (step s .spawn).1 = .spawned ⟨1, 1⟩ := rfl

/-! ## C05 -/

theorem asU64_toNat (a : EcsId) : a.asU64.toNat = a.gen.toNat * 2 ^ 32 + a.idx.toNat := by
  unfold EcsId.asU64
  have h1 := a.gen.isLt
  have h2 := a.idx.isLt
  rw [BitVec.toNat_or, BitVec.toNat_shiftLeft, BitVec.toNat_setWidth, BitVec.toNat_setWidth, Nat.mod_eq_of_lt (by omega), Nat.mod_eq_of_lt (by omega)]
  rw [Nat.shiftLeft_eq, Nat.mod_eq_of_lt (by omega), ← Nat.shiftLeft_eq,
    ← Nat.shiftLeft_add_eq_or_of_lt h2]

/-- C05: the code's `==` (equality of the hashing key) is equality of index and generation. -/
theorem C05_eq_iff (a b : EcsId) : (EcsId.eq a b = true ↔ a = b) ∧ (a.asU64 = b.asU64 ↔ a = b) := by
  have key : a.asU64 = b.asU64 ↔ a = b := by
    constructor
    · intro h
      have h := congrArg BitVec.toNat h
      rw [asU64_toNat, asU64_toNat] at h
      have h1 := a.gen.isLt; have h2 := a.idx.isLt; have h3 := b.gen.isLt; have h4 := b.idx.isLt
      have hg : a.gen.toNat = b.gen.toNat := by omega
      have hx : a.idx.toNat = b.idx.toNat := by omega
      cases a; cases b
      simp only [EcsId.mk.injEq]
      exact ⟨BitVec.eq_of_toNat_eq hg, BitVec.eq_of_toNat_eq hx⟩
    · rintro rfl; rfl
  exact ⟨by rw [EcsId.eq, beq_iff_eq, key], key⟩

/-- C05: the derived order is the order of the `u64` keys. -/
theorem C05_lt_iff (a b : EcsId) : EcsId.lt a b = true ↔ a.asU64.toNat < b.asU64.toNat := by
  rw [asU64_toNat, asU64_toNat]
  have h1 := a.gen.isLt; have h2 := a.idx.isLt; have h3 := b.gen.isLt; have h4 := b.idx.isLt
  simp only [EcsId.lt, Bool.or_eq_true, Bool.and_eq_true, beq_iff_eq, decide_eq_true_eq, BitVec.lt_def,
    ← BitVec.toNat_inj]
  omega

/-- C05: the derived order is a strict total order. -/
theorem C05_total_order (a b c : EcsId) :
    (¬ EcsId.lt a a = true) ∧ (EcsId.lt a b = true → EcsId.lt b c = true → EcsId.lt a c = true) ∧
    (EcsId.lt a b = true ∨ a = b ∨ EcsId.lt b a = true) := by
  simp only [C05_lt_iff]
  refine ⟨by omega, by omega, ?_⟩
  rcases Nat.lt_trichotomy a.asU64.toNat b.asU64.toNat with h | h | h
  · exact .inl h
  · exact .inr (.inl ((C05_eq_iff a b).2.1 (BitVec.eq_of_toNat_eq h)))
  · exact .inr (.inr h)

example : EcsId.lt ⟨0, 5⟩ ⟨1, 3⟩ = true ∧ EcsId.eq ⟨1, 3⟩ ⟨1, 4⟩ = false := by decide

example := C05_eq_iff ⟨1, 3⟩ ⟨1, 4⟩
example := C05_lt_iff ⟨0, 5⟩ ⟨1, 3⟩
example := C05_total_order ⟨0, 5⟩ ⟨1, 3⟩ ⟨2, 0⟩

end Ellecs.Alloc
