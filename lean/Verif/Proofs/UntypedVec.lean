import Verif.Model.UntypedVec
import Verif.Spec.UntypedVec
import Verif.Proofs.Bytes
/-! # Lemmas about `UntypedVec`: the byte-level vec refines a list of values -/
namespace Ellecs
namespace UVec

/-- The invariant of every vec the operations produce. -/
structure Inv (v : UVec) : Prop where
  zst : v.size = 0 → v.cap = 0
  mult : v.size ≠ 0 → v.size ∣ v.len
  le : v.size ≠ 0 → v.len ≤ v.cap
  mem : v.mem.length = v.cap
  block : (v.cap = 0 ∧ v.data = none) ∨ (v.size ≠ 0 ∧ v.data = some ⟨v.cap, v.alignLog⟩ ∧ ∃ k, v.cap = v.size * 4 * 2 ^ k)
  lay : v.cap = 0 ∨ layoutOk v.cap v.alignLog = true

@[simp] theorem length_elems (v : UVec) : v.elems.length = v.count := by simp [elems]

theorem getElem?_elems (v : UVec) (i : Nat) : v.elems[i]? = if i < v.count then some (v.elem i) else none := by
  unfold elems
  rw [List.getElem?_map]
  by_cases h : i < v.count
  · rw [List.getElem?_range h, if_pos h]; rfl
  · rw [List.getElem?_eq_none (by simp; omega), if_neg h]; rfl

theorem inv_newFromRaw (info : TypeInfo) : Inv (newFromRaw info) :=
  ⟨fun _ => rfl, fun _ => by simp [newFromRaw], fun _ => by simp [newFromRaw], rfl, .inl ⟨rfl, rfl⟩, .inl rfl⟩

theorem elems_newFromRaw (info : TypeInfo) : (newFromRaw info).elems = [] := by
  unfold elems count newFromRaw; simp

theorem len_eq {v : UVec} (hi : Inv v) (h : v.size ≠ 0) : v.len = v.count * v.size := by
  obtain ⟨n, hn⟩ := hi.mult h
  unfold count
  rw [if_neg h, hn, Nat.mul_div_cancel_left _ (Nat.pos_of_ne_zero h), Nat.mul_comm]

theorem count_zst {v : UVec} (h : v.size = 0) : v.count = v.len := by unfold count; rw [if_pos h]

theorem mem_zst {v : UVec} (hi : Inv v) (h : v.size = 0) : v.mem = [] := by
  have := hi.mem; rw [hi.zst h] at this; exact List.eq_nil_of_length_eq_zero this

theorem elem_zst {v : UVec} (h : v.size = 0) (i : Nat) : v.elem i = [] := by
  unfold elem; rw [h, readAt_zero]

theorem elem_bound {v : UVec} (hi : Inv v) {i : Nat} (h : i < v.count) : i * v.size + v.size ≤ v.mem.length := by
  by_cases hs : v.size = 0
  · rw [hs]; simp
  · rw [hi.mem]
    have := hi.le hs
    rw [len_eq hi hs] at this
    exact Nat.le_trans (mul_add_le h) this

theorem length_elem {v : UVec} (hi : Inv v) {i : Nat} (h : i < v.count) : (v.elem i).length = v.size :=
  length_readAt _ _ _ (elem_bound hi h)

theorem lenElems_eq {v : UVec} (hi : Inv v) : v.lenElems = .ok v.count := by
  unfold lenElems count
  by_cases h : v.size = 0
  · simp [h]
  · rw [if_neg h, if_neg h, if_pos (Nat.mod_eq_zero_of_dvd (hi.mult h))]

theorem isEmpty_eq {v : UVec} (hi : Inv v) : v.isEmpty = decide (v.count = 0) := by
  unfold isEmpty
  by_cases h : v.size = 0
  · rw [count_zst h]; rfl
  · rw [len_eq hi h]
    have : (v.count * v.size == 0) = decide (v.count = 0) := by
      rw [Bool.eq_iff_iff]; simp only [beq_iff_eq, decide_eq_true_eq, Nat.mul_eq_zero]
      exact ⟨fun hx => hx.resolve_right h, .inl⟩
    exact this

theorem getRaw_eq {v : UVec} (hi : Inv v) (i : Nat) :
    v.getRaw i = .ok (if i < v.count then some (i * v.size) else none) := by
  unfold getRaw
  by_cases h : v.size = 0
  · rw [count_zst h, h]
    by_cases h0 : v.len = 0
    · rw [if_pos h0, h0]; simp
    · rw [if_neg h0, if_pos rfl]; simp
  · by_cases h0 : v.len = 0
    · have : v.count = 0 := by unfold count; rw [if_neg h, h0, Nat.zero_div]
      rw [if_pos h0, this]; simp
    · rw [if_neg h0, if_neg h, if_pos (Nat.mod_eq_zero_of_dvd (hi.mult h))]
      unfold count
      rw [if_neg h]

theorem read_elem {v : UVec} (hi : Inv v) {i : Nat} (h : i < v.count) :
    v.read (i * v.size) v.size = .ok (v.elem i) := by
  unfold read
  rw [if_pos (elem_bound hi h)]; rfl

/-! ### realloc -/

theorem isize_layout {c : Nat} (a : Fin 64) (h : c < isizeMax) : layoutOk c a = true := by
  unfold layoutOk
  have h2 : 2 ^ a.val ≤ 2 ^ 63 := Nat.pow_le_pow_right (by omega) (by omega)
  have : c + (2 ^ a.val - 1) ≤ usizeMax := by
    unfold isizeMax at h; unfold usizeMax
    generalize 2 ^ a.val = x at *
    omega
  exact decide_eq_true this

/-- `realloc` of a full vec: either a limit panic, or a bigger block with the same content. -/
theorem realloc_spec {v : UVec} (hi : Inv v) (h : v.size ≠ 0) :
    (∃ f, v.realloc = .error f ∧ (f = .arith ∨ f = .layoutErr ∨ f = .capAssert) ∧ ¬ Roomy v) ∨
    (∃ v', v.realloc = .ok v' ∧ Inv v' ∧ v'.info = v.info ∧ v'.len = v.len ∧
      (∃ x, v'.mem = v.mem ++ x) ∧ v'.cap ≥ v.cap + v.size ∧
      v'.cap = if v.cap = 0 then v.size * 4 else v.cap * 2) := by
  unfold realloc
  rw [if_neg h]
  by_cases hc : v.cap = 0
  · simp only [if_pos hc]
    by_cases h1 : v.size * 4 > usizeMax
    · rw [if_pos h1]
      exact .inl ⟨_, rfl, .inl rfl, fun hr => by
        have := hr.1; unfold isizeMax at this; unfold usizeMax at h1; omega⟩
    · rw [if_neg h1]
      by_cases h2 : layoutOk (v.size * 4) v.alignLog = true
      · rw [if_pos h2]
        right
        have hm : v.mem = [] := List.eq_nil_of_length_eq_zero (by rw [hi.mem, hc])
        refine ⟨_, rfl, ⟨fun hz => absurd hz h, hi.mult, fun hz => ?_, by simp, .inr ⟨h, rfl, 0, by simp⟩, .inr h2⟩,
          rfl, rfl, ⟨_, by rw [hm]; rfl⟩, by simp only; omega, rfl⟩
        have := hi.le hz; simp only; omega
      · rw [if_neg h2]
        exact .inl ⟨_, rfl, .inr (.inl rfl), fun hr => h2 (isize_layout _ hr.1)⟩
  · simp only [if_neg hc]
    by_cases h1 : v.cap * 2 > usizeMax
    · rw [if_pos h1]
      exact .inl ⟨_, rfl, .inl rfl, fun hr => by
        have := hr.2; unfold isizeMax at this; unfold usizeMax at h1; omega⟩
    · rw [if_neg h1]
      by_cases h2 : v.cap * 2 < isizeMax
      · have hl : layoutOk v.cap v.alignLog = true := by
          rcases hi.lay with h' | h'
          · exact absurd h' hc
          · exact h'
        have hd : v.data = some ⟨v.cap, v.alignLog⟩ := by
          rcases hi.block with h' | h'
          · exact absurd h'.1 hc
          · exact h'.2.1
        rw [if_pos h2, if_pos hl, if_pos hd]
        right
        have hk : ∃ k, v.cap = v.size * 4 * 2 ^ k := by
          rcases hi.block with h' | h'
          · exact absurd h'.1 hc
          · exact h'.2.2
        obtain ⟨k, hk⟩ := hk
        have hsz : v.size ≤ v.cap := by
          rw [hk]
          calc v.size ≤ v.size * 4 := by omega
            _ ≤ v.size * 4 * 2 ^ k := Nat.le_mul_of_pos_right _ (Nat.two_pow_pos k)
        refine ⟨_, rfl, ⟨fun hz => absurd hz h, hi.mult, fun hz => ?_, ?_, .inr ⟨h, rfl, k + 1, ?_⟩, .inr ?_⟩,
          rfl, rfl, ⟨_, rfl⟩, by simp only; omega, rfl⟩
        · have := hi.le hz; simp only; omega
        · simp only [List.length_append, List.length_replicate, hi.mem]; omega
        · simp only; rw [hk, Nat.pow_succ, Nat.mul_assoc (v.size * 4)]
        · exact isize_layout _ h2
      · rw [if_neg h2]
        exact .inl ⟨_, rfl, .inr (.inr rfl), fun hr => h2 hr.2⟩

theorem realloc_zst {v : UVec} (h : v.size = 0) : v.realloc = .error .reallocZst := by
  unfold realloc; rw [if_pos h]

theorem elems_extended {v v' : UVec} (hi : Inv v) (h1 : v'.info = v.info) (h2 : v'.len = v.len) (h3 : ∃ x, v'.mem = v.mem ++ x) :
    v'.elems = v.elems := by
  have hs : v'.size = v.size := by unfold size; rw [h1]
  have hc : v'.count = v.count := by unfold count; rw [hs, h2]
  apply List.ext_getElem?
  intro j
  rw [getElem?_elems, getElem?_elems, hc]
  by_cases hj : j < v.count
  · rw [if_pos hj, if_pos hj]
    obtain ⟨x, h3⟩ := h3
    unfold elem
    rw [hs, h3, readAt_append _ _ _ _ (elem_bound hi hj)]
  · rw [if_neg hj, if_neg hj]

/-! ### push -/

/-- How the capacity evolves in one push. -/
def CapStep (v v' : UVec) : Prop :=
  v'.cap = v.cap ∨ (v.cap < (v.count + 1) * v.size ∧ v'.cap = if v.cap = 0 then v.size * 4 else v.cap * 2)

theorem pushRaw_spec {v : UVec} (hi : Inv v) (src : Bytes) (hs : v.size ≤ src.length) :
    (∃ f, v.pushRaw src = .error f ∧ (f = .arith ∨ f = .layoutErr ∨ f = .capAssert) ∧ ¬ Roomy v) ∨
    (∃ v', v.pushRaw src = .ok v' ∧ Inv v' ∧ v'.info = v.info ∧
      v'.elems = v.elems ++ [src.take v.size] ∧ CapStep v v') := by
  unfold pushRaw
  by_cases h : v.size = 0
  · rw [if_pos h]
    right
    refine ⟨_, rfl, ⟨hi.zst, fun hz => absurd h hz, fun hz => absurd h hz, hi.mem, hi.block, hi.lay⟩, rfl, ?_, .inl rfl⟩
    apply List.ext_getElem?
    intro j
    rw [getElem?_elems]
    have hc : count { v with len := v.len + 1 } = v.count + 1 := by
      rw [count_zst h, count_zst (v := { v with len := v.len + 1 }) h]
    rw [hc]
    by_cases hj : j < v.count
    · rw [if_pos (by omega), List.getElem?_append_left (by simpa using hj), getElem?_elems, if_pos hj]; rfl
    · rw [List.getElem?_append_right (by simp; omega)]
      by_cases hj' : j = v.count
      · subst hj'
        rw [if_pos (by omega)]
        simp only [length_elems, Nat.sub_self, List.getElem?_cons_zero]
        rw [elem_zst (by exact h), h]; rfl
      · rw [if_neg (by omega), List.getElem?_eq_none (by simp; omega)]
  · rw [if_neg h]
    -- the state after the optional realloc
    have hr : (∃ f, (if v.len + v.size > v.cap then v.realloc else .ok v) = .error f ∧
          (f = .arith ∨ f = .layoutErr ∨ f = .capAssert) ∧ ¬ Roomy v) ∨
        (∃ v1, (if v.len + v.size > v.cap then v.realloc else .ok v) = .ok v1 ∧ Inv v1 ∧ v1.info = v.info ∧
          v1.len = v.len ∧ (∃ x, v1.mem = v.mem ++ x) ∧ v.len + v.size ≤ v1.cap ∧ CapStep v v1) := by
      by_cases hg : v.len + v.size > v.cap
      · rw [if_pos hg]
        rcases realloc_spec hi h with h' | ⟨v1, e, i1, e1, e2, e3, e4, e5⟩
        · exact .inl h'
        · refine .inr ⟨v1, e, i1, e1, e2, e3, ?_, .inr ⟨?_, e5⟩⟩
          · have := hi.le h; omega
          · rw [len_eq hi h] at hg; rw [Nat.add_mul]; omega
      · rw [if_neg hg]
        exact .inr ⟨v, rfl, hi, rfl, rfl, ⟨[], by simp⟩, by omega, .inl rfl⟩
    rcases hr with ⟨f, e, hf⟩ | ⟨v1, e, i1, e1, e2, ⟨x, e3⟩, e4, e5⟩
    · left; refine ⟨f, ?_, hf⟩; simp only [e]
    · right
      simp only [e]
      have hsz : v1.size = v.size := by unfold size; rw [e1]
      rw [if_neg (by rw [hsz]; omega), if_neg (by rw [hsz, e2, i1.mem]; omega)]
      have hlen1 : v1.len = v.count * v.size := by rw [e2, len_eq hi h]
      have hw : (src.take v1.size).length = v1.size := by rw [List.length_take, hsz]; omega
      have hcap : v1.len + v1.size ≤ v1.mem.length := by rw [hsz, e2, i1.mem]; exact e4
      refine ⟨_, rfl, ⟨i1.zst, fun hz => ?_, fun hz => ?_, ?_, i1.block, i1.lay⟩, e1, ?_, e5⟩
      · exact Nat.dvd_add (i1.mult hz) (Nat.dvd_refl _)
      · show v1.len + v1.size ≤ v1.cap
        rw [← i1.mem]; exact hcap
      · rw [length_writeAt _ _ _ (by rw [hw]; exact hcap)]; exact i1.mem
      · apply List.ext_getElem?
        intro j
        rw [getElem?_elems]
        have hc : count { v1 with mem := writeAt v1.mem v1.len (src.take v1.size), len := v1.len + v1.size }
            = v.count + 1 := by
          unfold count
          show (if v1.size = 0 then _ else (v1.len + v1.size) / v1.size) = _
          rw [hsz, if_neg h, hlen1, ← Nat.succ_mul, Nat.mul_div_cancel _ (Nat.pos_of_ne_zero h)]
          rw [len_eq hi h, if_neg h, Nat.mul_div_cancel _ (Nat.pos_of_ne_zero h)]
        rw [hc]
        have hel : ∀ j, elem { v1 with mem := writeAt v1.mem v1.len (src.take v1.size), len := v1.len + v1.size } j
            = readAt (writeAt v1.mem v1.len (src.take v1.size)) (j * v.size) v.size := by
          intro j; unfold elem; simp only [size] at hsz ⊢; rw [hsz]
        by_cases hj : j < v.count
        · rw [if_pos (by omega), List.getElem?_append_left (by simpa using hj), getElem?_elems, if_pos hj, hel]
          rw [readAt_writeAt_disj _ _ _ _ _ (by omega) (.inl (by rw [hlen1]; exact mul_add_le hj)), e3,
            readAt_append _ _ _ _ (elem_bound hi hj)]
          rfl
        · rw [List.getElem?_append_right (by simp; omega)]
          by_cases hj' : j = v.count
          · subst hj'
            rw [if_pos (by omega), hel]
            simp only [length_elems, Nat.sub_self, List.getElem?_cons_zero]
            rw [← hlen1, ← hsz]
            have := readAt_writeAt_same v1.mem v1.len (src.take v1.size) (by omega)
            rw [hw] at this
            rw [this]
          · rw [if_neg (by omega), List.getElem?_eq_none (by simp; omega)]

theorem pushRaw_ok {v : UVec} (hi : Inv v) (src : Bytes) (hs : v.size ≤ src.length) (hr : Roomy v) :
    ∃ v', v.pushRaw src = .ok v' ∧ Inv v' ∧ v'.info = v.info ∧ v'.elems = v.elems ++ [src.take v.size] ∧
      CapStep v v' := by
  rcases pushRaw_spec hi src hs with ⟨_, _, _, h⟩ | h
  · exact absurd hr h
  · exact h

/-! ### pop -/

theorem callDrop_eq {v : UVec} {off : Nat} (h : off + v.size ≤ v.mem.length) :
    v.callDrop off = .ok (dropEvs v.info [readAt v.mem off v.size]) := by
  unfold callDrop dropEvs
  cases v.info.dropFn with
  | none => rfl
  | some f => simp only [read, if_pos h]; rfl

/-- The vec without its last element. -/
def popped (v : UVec) : UVec := { v with len := if v.size = 0 then v.len - 1 else v.len - v.size }

theorem popped_inv {v : UVec} (hi : Inv v) : Inv v.popped := by
  refine ⟨hi.zst, fun hz => ?_, fun hz => ?_, hi.mem, hi.block, hi.lay⟩
  · have hz' : v.size ≠ 0 := hz
    show v.size ∣ (if v.size = 0 then _ else v.len - v.size)
    rw [if_neg hz']
    exact Nat.dvd_sub (hi.mult hz') (Nat.dvd_refl _)
  · have hz' : v.size ≠ 0 := hz
    show (if v.size = 0 then _ else v.len - v.size) ≤ v.cap
    rw [if_neg hz']
    have := hi.le hz'; omega

theorem popped_count {v : UVec} (hi : Inv v) : v.popped.count = v.count - 1 := by
  by_cases h : v.size = 0
  · rw [count_zst (v := v.popped) h, count_zst h]; unfold popped; simp [h]
  · unfold count
    show (if v.size = 0 then _ else v.popped.len / v.size) = _
    rw [if_neg h, if_neg h]
    unfold popped
    simp only [if_neg h]
    rw [len_eq hi h, Nat.mul_div_cancel _ (Nat.pos_of_ne_zero h)]
    cases hc : v.count with
    | zero => simp
    | succ n => rw [Nat.succ_mul, Nat.add_sub_cancel, Nat.mul_div_cancel _ (Nat.pos_of_ne_zero h)]; rfl

theorem popped_elems {v : UVec} (hi : Inv v) : v.popped.elems = v.elems.dropLast := by
  apply List.ext_getElem?
  intro j
  rw [getElem?_elems, popped_count hi, List.getElem?_dropLast, length_elems, getElem?_elems]
  by_cases hj : j < v.count - 1
  · rw [if_pos hj, if_pos hj, if_pos (by omega)]; rfl
  · rw [if_neg hj, if_neg hj]

theorem pop_spec {v : UVec} (hi : Inv v) {x : Bytes} (hx : v.elems.getLast? = some x) :
    v.pop = .ok (true, v.popped, dropEvs v.info [x]) := by
  rw [List.getLast?_eq_getElem?, length_elems, getElem?_elems] at hx
  have hpos : 0 < v.count := by
    by_cases h : 0 < v.count
    · exact h
    · rw [if_neg (by omega)] at hx; cases hx
  rw [if_pos (by omega)] at hx
  cases hx
  unfold pop
  by_cases h : v.size = 0
  · have hl : v.len > 0 := by rw [count_zst h] at hpos; exact hpos
    rw [if_pos ⟨h, hl⟩]
    simp only
    rw [callDrop_eq (v := { v with len := v.len - 1 }) (by show 0 + v.size ≤ _; rw [h]; omega)]
    simp only
    unfold popped
    rw [if_pos h]
    have e1 : readAt v.mem 0 v.size = v.elem (v.count - 1) := by
      rw [elem_zst h, h, readAt_zero]
    rw [e1]
  · rw [if_neg (by intro h'; exact h h'.1)]
    have hle : v.size ≤ v.len := by
      rw [len_eq hi h]; exact Nat.le_mul_of_pos_left _ hpos
    rw [if_pos hle]
    simp only
    have hoff : v.len - v.size = (v.count - 1) * v.size := by
      rw [len_eq hi h, Nat.sub_mul, Nat.one_mul]
    rw [callDrop_eq (v := { v with len := v.len - v.size })
      (by show v.len - v.size + v.size ≤ _; rw [hoff]; exact elem_bound hi (by omega))]
    simp only
    unfold popped
    rw [if_neg h]
    have : readAt v.mem (v.len - v.size) v.size = v.elem (v.count - 1) := by unfold elem; rw [hoff]
    rw [this]

theorem pop_empty {v : UVec} (hi : Inv v) (h : v.size ≠ 0) (he : v.elems = []) : v.pop = .ok (false, v, []) := by
  have hc : v.count = 0 := by rw [← length_elems, he]; rfl
  have hl : v.len = 0 := by rw [len_eq hi h, hc, Nat.zero_mul]
  unfold pop
  rw [if_neg (by intro h'; exact h h'.1), if_neg (by omega)]

/-! ### swap of two elements -/

theorem swapRanges_elem {v : UVec} (hi : Inv v) {i j : Nat} (hij : i ≠ j) (hi' : i < v.count) (hj' : j < v.count)
    (k : Nat) :
    readAt (swapRanges v.mem (i * v.size) (j * v.size) v.size) (k * v.size) v.size =
      if k = j then v.elem i else if k = i then v.elem j else v.elem k := by
  have bi := elem_bound hi hi'
  have bj := elem_bound hi hj'
  have li := length_elem hi hi'
  have lj := length_elem hi hj'
  unfold swapRanges
  have e1 : readAt v.mem (j * v.size) v.size = v.elem j := rfl
  have e2 : readAt v.mem (i * v.size) v.size = v.elem i := rfl
  rw [e1, e2]
  have hlen : (writeAt v.mem (i * v.size) (v.elem j)).length = v.mem.length :=
    length_writeAt _ _ _ (by rw [lj]; exact bi)
  by_cases h1 : k = j
  · rw [if_pos h1]
    subst h1
    have := readAt_writeAt_same (writeAt v.mem (i * v.size) (v.elem k)) (k * v.size) (v.elem i) (by omega)
    rw [li] at this
    exact this
  · rw [if_neg h1]
    rw [readAt_writeAt_disj _ _ _ _ _ (by omega) (by rw [li]; exact mul_disjoint h1)]
    by_cases h2 : k = i
    · rw [if_pos h2]
      subst h2
      have := readAt_writeAt_same v.mem (k * v.size) (v.elem j) (by omega)
      rw [lj] at this
      exact this
    · rw [if_neg h2, readAt_writeAt_disj _ _ _ _ _ (by omega) (by rw [lj]; exact mul_disjoint h2)]
      rfl

theorem length_swapRanges {v : UVec} (hi : Inv v) {i j : Nat} (hi' : i < v.count) (hj' : j < v.count) :
    (swapRanges v.mem (i * v.size) (j * v.size) v.size).length = v.mem.length := by
  have bi := elem_bound hi hi'
  have bj := elem_bound hi hj'
  unfold swapRanges
  have h1 := length_writeAt v.mem (i * v.size) (readAt v.mem (j * v.size) v.size)
    (by rw [length_readAt _ _ _ bj]; exact bi)
  rw [length_writeAt _ _ _ (by rw [length_readAt _ _ _ bi, h1]; exact bj), h1]

/-- The vec after swapping element `i` with the last one. -/
def swapped (v : UVec) (i : Nat) : UVec :=
  { v with mem := swapRanges v.mem (i * v.size) (v.len - v.size) v.size }

theorem swapped_off {v : UVec} (hi : Inv v) (h : v.size ≠ 0) : v.len - v.size = (v.count - 1) * v.size := by
  rw [len_eq hi h, Nat.sub_mul, Nat.one_mul]

theorem swapped_apart {v : UVec} (hi : Inv v) (h : v.size ≠ 0) {i : Nat} (hc : i < v.count) (hl : ¬ i = v.count - 1) :
    Apart (i * v.size) (v.len - v.size) v.size := by
  rw [swapped_off hi h]
  exact mul_disjoint hl

theorem swapped_inv {v : UVec} (hi : Inv v) (h : v.size ≠ 0) {i : Nat} (hc : i < v.count) :
    Inv (v.swapped i) := by
  refine ⟨hi.zst, hi.mult, hi.le, ?_, hi.block, hi.lay⟩
  show (swapRanges v.mem (i * v.size) (v.len - v.size) v.size).length = v.cap
  rw [swapped_off hi h, length_swapRanges hi hc (by omega), hi.mem]

theorem swapped_elem {v : UVec} (hi : Inv v) (h : v.size ≠ 0) {i : Nat} (hc : i < v.count) (hne : i ≠ v.count - 1)
    (k : Nat) : (v.swapped i).elem k =
      if k = v.count - 1 then v.elem i else if k = i then v.elem (v.count - 1) else v.elem k := by
  unfold elem
  show readAt (swapRanges v.mem (i * v.size) (v.len - v.size) v.size) (k * v.size) v.size = _
  rw [swapped_off hi h, swapRanges_elem hi hne hc (by omega)]
  rfl

theorem swapped_popped_elems {v : UVec} (hi : Inv v) (h : v.size ≠ 0) {i : Nat} (hc : i < v.count)
    (hne : i ≠ v.count - 1) : (v.swapped i).popped.elems = Ellecs.swapRemove v.elems i := by
  have hcount : (v.swapped i).count = v.count := rfl
  rw [popped_elems (swapped_inv hi h hc)]
  apply List.ext_getElem?
  intro j
  rw [List.getElem?_dropLast, getElem?_swapRemove _ _ _ (by rw [length_elems]; exact hc), length_elems, length_elems,
    hcount]
  by_cases hj : j < v.count - 1
  · rw [if_pos hj, if_pos hj, getElem?_elems, hcount, if_pos (by omega), swapped_elem hi h hc hne, if_neg (by omega)]
    by_cases hji : j = i
    · rw [if_pos hji, if_pos hji, getElem?_elems, if_pos (by omega)]
    · rw [if_neg hji, if_neg hji, getElem?_elems, if_pos (by omega)]
  · rw [if_neg hj, if_neg hj]

/-! ### swap_remove -/

theorem swapRemove_spec {v : UVec} (hi : Inv v) {i : Nat} (hc : i < v.count) :
    ∃ v', v.swapRemove i = .ok (v', dropEvs v.info [v.elem i]) ∧ Inv v' ∧ v'.info = v.info ∧
      v'.elems = Ellecs.swapRemove v.elems i ∧ v'.cap = v.cap := by
  unfold UVec.swapRemove
  have hlen : v.len > 0 := by
    by_cases h : v.size = 0
    · rw [count_zst h] at hc; omega
    · rw [len_eq hi h]; exact Nat.mul_pos (by omega) (Nat.pos_of_ne_zero h)
  rw [if_neg (by omega)]
  have hcount : v.size ≠ 0 → v.len / v.size = v.count := fun h => by unfold count; rw [if_neg h]
  rw [if_neg (by
    intro hx; apply hx
    by_cases h : v.size = 0
    · exact .inl h
    · rw [hcount h]; exact .inr hc)]
  by_cases h : v.size = 0 ∨ i = v.len / v.size - 1
  · rw [if_pos h]
    have hgt : v.len > i := by
      by_cases hz : v.size = 0
      · rw [count_zst hz] at hc; exact hc
      · have : v.len / v.size ≤ v.len := Nat.div_le_self _ _
        rw [hcount hz] at this; omega
    rw [if_pos hgt]
    have hlast : v.elems.getLast? = some (v.elem (v.count - 1)) := by
      rw [List.getLast?_eq_getElem?, length_elems, getElem?_elems, if_pos (by omega)]
    rw [pop_spec hi hlast]
    simp only
    have he : v.elem (v.count - 1) = v.elem i := by
      rcases h with h | h
      · rw [elem_zst h, elem_zst h]
      · by_cases hz : v.size = 0
        · rw [elem_zst hz, elem_zst hz]
        · rw [hcount hz] at h; rw [h]
    rw [he]
    refine ⟨_, rfl, popped_inv hi, rfl, ?_, rfl⟩
    rw [popped_elems hi]
    by_cases hz : v.size = 0
    · apply List.ext_getElem?
      intro j
      rw [getElem?_swapRemove _ _ _ (by simpa using hc), List.getElem?_dropLast, length_elems]
      by_cases hj : j < v.count - 1
      · rw [if_pos hj, if_pos hj, getElem?_elems, if_pos (by omega)]
        by_cases hji : j = i
        · rw [if_pos hji, getElem?_elems, if_pos (by omega), elem_zst hz, elem_zst hz]
        · rw [if_neg hji]
      · rw [if_neg hj, if_neg hj]
    · rcases h with h | h
      · exact absurd h hz
      · rw [hcount hz] at h
        rw [h, ← length_elems, swapRemove_last]
  · rw [if_neg h]
    have hz : v.size ≠ 0 := fun hz => h (.inl hz)
    have hne : i ≠ v.count - 1 := fun hx => h (.inr (by rw [hcount hz]; exact hx))
    have b1 := elem_bound hi hc
    have b2 : v.len - v.size + v.size ≤ v.mem.length := by
      rw [swapped_off hi hz]; exact elem_bound hi (by omega)
    simp only
    rw [if_neg (show ¬ ¬ Apart (i * v.size) (v.len - v.size) v.size from fun hx => hx (swapped_apart hi hz hc hne)), if_pos ⟨b1, b2⟩]
    have hlast : (v.swapped i).elems.getLast? = some (v.elem i) := by
      have hcs : (v.swapped i).count = v.count := rfl
      rw [List.getLast?_eq_getElem?, length_elems, getElem?_elems, hcs, if_pos (by omega),
        swapped_elem hi hz hc hne, if_pos rfl]
    have hp := pop_spec (swapped_inv hi hz hc) hlast
    unfold swapped at hp
    rw [hp]
    exact ⟨_, rfl, popped_inv (swapped_inv hi hz hc), rfl, swapped_popped_elems hi hz hc hne, rfl⟩

theorem swapRemove_oob {v : UVec} {i : Nat} (hc : v.count ≤ i) : v.swapRemove i = .error .vecAssert := by
  unfold UVec.swapRemove
  by_cases h0 : v.len > 0
  · rw [if_neg (by omega)]
    by_cases h : v.size = 0
    · rw [if_neg (by intro hx; exact hx (.inl h)), if_pos (.inl h)]
      rw [count_zst h] at hc
      rw [if_neg (by omega)]
    · have hcount : v.len / v.size = v.count := by unfold count; rw [if_neg h]
      rw [if_pos]
      rw [hcount]
      intro hx
      rcases hx with hx | hx
      · exact h hx
      · omega
  · rw [if_pos h0]

/-! ### swap_move -/

theorem swapMove_spec {v other : UVec} (hi : Inv v) (ho : Inv other) (hl : v.info.layout = other.info.layout)
    {i : Nat} (hc : i < v.count) :
    (∃ f, v.swapMove other i = .error f ∧ (f = .arith ∨ f = .layoutErr ∨ f = .capAssert) ∧ ¬ Roomy other) ∨
    (∃ v' other', v.swapMove other i = .ok (v', other') ∧ Inv v' ∧ v'.info = v.info ∧
      v'.elems = Ellecs.swapRemove v.elems i ∧ v'.cap = v.cap ∧
      Inv other' ∧ other'.info = other.info ∧ other'.elems = other.elems ++ [v.elem i] ∧ CapStep other other') := by
  unfold swapMove
  have hso : other.size = v.size := by unfold size; rw [hl]
  have hlen : v.len > 0 := by
    by_cases h : v.size = 0
    · rw [count_zst h] at hc; omega
    · rw [len_eq hi h]; exact Nat.mul_pos (by omega) (Nat.pos_of_ne_zero h)
  have hcount : v.size ≠ 0 → v.len / v.size = v.count := fun h => by unfold count; rw [if_neg h]
  rw [if_neg (by simpa using hl), if_neg (by omega), if_neg (by
    intro hx; apply hx
    by_cases h : v.size = 0
    · exact .inl h
    · rw [hcount h]; exact .inr hc)]
  by_cases h : v.size = 0
  · rw [if_pos h]
    right
    -- both effects are those of popped / push
    have hp : ({ v with len := v.len - 1 } : UVec) = v.popped := by unfold popped; rw [if_pos h]
    have hpush := pushRaw_spec ho [] (by rw [hso, h]; simp)
    have hzo : other.size = 0 := by rw [hso, h]
    rcases hpush with ⟨f, e, _⟩ | ⟨o', e, i', e1, e2, e3⟩
    · unfold pushRaw at e; rw [if_pos hzo] at e; cases e
    · unfold pushRaw at e; rw [if_pos hzo] at e; cases e
      refine ⟨_, _, rfl, ?_, rfl, ?_, rfl, i', rfl, ?_, e3⟩
      · rw [hp]; exact popped_inv hi
      · rw [hp, popped_elems hi]
        apply List.ext_getElem?
        intro j
        rw [getElem?_swapRemove _ _ _ (by simpa using hc), List.getElem?_dropLast, length_elems]
        by_cases hj : j < v.count - 1
        · rw [if_pos hj, if_pos hj, getElem?_elems, if_pos (by omega)]
          by_cases hji : j = i
          · rw [if_pos hji, getElem?_elems, if_pos (by omega), elem_zst h, elem_zst h]
          · rw [if_neg hji]
        · rw [if_neg hj, if_neg hj]
      · rw [e2, elem_zst h, List.take_nil]
  · rw [if_neg h]
    by_cases hlast : i = v.len / v.size - 1
    · rw [if_pos hlast, read_elem hi hc]
      simp only
      rw [hcount h] at hlast
      rcases pushRaw_spec ho (v.elem i) (by rw [hso, length_elem hi hc]; omega) with
        ⟨f, e, hf⟩ | ⟨o', e, i', e1, e2, e3⟩
      · left; rw [e]; exact ⟨f, rfl, hf⟩
      · right
        rw [e]
        have hp : ({ v with len := v.len - v.size } : UVec) = v.popped := by unfold popped; rw [if_neg h]
        refine ⟨_, _, rfl, ?_, rfl, ?_, rfl, i', e1, ?_, e3⟩
        · rw [hp]; exact popped_inv hi
        · rw [hp, popped_elems hi, hlast, ← length_elems, swapRemove_last]
        · rw [e2, hso, List.take_of_length_le (by rw [length_elem hi hc]; omega)]
    · rw [if_neg hlast]
      rw [hcount h] at hlast
      have b1 := elem_bound hi hc
      have b2 : v.len - v.size + v.size ≤ v.mem.length := by
        rw [swapped_off hi h]; exact elem_bound hi (by omega)
      simp only
      rw [if_neg (show ¬ ¬ Apart (i * v.size) (v.len - v.size) v.size from fun hx => hx (swapped_apart hi h hc hlast)), if_pos ⟨b1, b2⟩]
      have hsi := swapped_inv hi h hc
      have hread : ({ v with mem := swapRanges v.mem (i * v.size) (v.len - v.size) v.size } : UVec).read
          (v.len - v.size) v.size = .ok (v.elem i) := by
        have := read_elem hsi (i := v.count - 1) (by show v.count - 1 < v.count; omega)
        rw [swapped_elem hi h hc hlast, if_pos rfl] at this
        have h2 : (v.count - 1) * (v.swapped i).size = v.len - v.size := (swapped_off hi h).symm
        rw [h2] at this
        exact this
      simp only [size] at hread ⊢
      rw [hread]
      simp only
      rcases pushRaw_spec ho (v.elem i) (by rw [hso, length_elem hi hc]; omega) with
        ⟨f, e, hf⟩ | ⟨o', e, i', e1, e2, e3⟩
      · left; rw [e]; exact ⟨f, rfl, hf⟩
      · right
        rw [e]
        have hp : ({ v.swapped i with len := v.len - v.size } : UVec) = (v.swapped i).popped := by
          unfold popped; rw [if_neg (show ¬ (v.swapped i).size = 0 from h)]; rfl
        simp only [swapped] at hp
        refine ⟨_, _, rfl, ?_, rfl, ?_, rfl, i', e1, ?_, e3⟩
        · rw [hp]; exact popped_inv hsi
        · rw [hp]; exact swapped_popped_elems hi h hc hlast
        · rw [e2, hso, List.take_of_length_le (by rw [length_elem hi hc]; omega)]

/-! ### writing through a pointer to an element -/

theorem write_spec {v : UVec} (hi : Inv v) {i : Nat} (hc : i < v.count) (bs : Bytes) (hb : bs.length = v.size) :
    Inv { v with mem := writeAt v.mem (i * v.size) bs } ∧
    elems { v with mem := writeAt v.mem (i * v.size) bs } = v.elems.set i bs := by
  have b := elem_bound hi hc
  refine ⟨⟨hi.zst, hi.mult, hi.le, ?_, hi.block, hi.lay⟩, ?_⟩
  · show (writeAt v.mem (i * v.size) bs).length = v.cap
    rw [length_writeAt _ _ _ (by rw [hb]; exact b), hi.mem]
  · apply List.ext_getElem?
    intro j
    have hcount : count { v with mem := writeAt v.mem (i * v.size) bs } = v.count := rfl
    rw [getElem?_elems, hcount, List.getElem?_set, length_elems]
    by_cases hj : j < v.count
    · rw [if_pos hj]
      unfold elem
      show some (readAt (writeAt v.mem (i * v.size) bs) (j * v.size) v.size) = _
      by_cases hij : i = j
      · subst hij
        rw [if_pos rfl, if_pos hc]
        have := readAt_writeAt_same v.mem (i * v.size) bs (by omega)
        rw [hb] at this
        rw [this]
      · rw [if_neg hij, getElem?_elems, if_pos hj,
          readAt_writeAt_disj _ _ _ _ _ (by omega) (by rw [hb]; exact mul_disjoint (fun h => hij h.symm))]
        rfl
    · rw [if_neg hj]
      rw [if_neg (by rintro rfl; exact hj hc), getElem?_elems, if_neg hj]

/-! ### as_slice -/

theorem asSlice_eq {v : UVec} (hi : Inv v) (h : v.size ≠ 0) : v.asSlice v.info.layout = .ok v.elems := by
  unfold asSlice
  rw [if_neg (by simp), if_neg h, if_neg (by simpa using Nat.mod_eq_zero_of_dvd (hi.mult h))]
  simp only
  rw [if_neg h]
  have hcount : v.len / v.size = v.count := by unfold count; rw [if_neg h]
  rw [hcount, if_pos (by rw [hi.mem, ← len_eq hi h]; exact hi.le h)]
  rfl

/-! ### Drop -/

theorem dropEvs_append (info : TypeInfo) (a b : List Bytes) : dropEvs info (a ++ b) = dropEvs info a ++ dropEvs info b := by
  unfold dropEvs; cases info.dropFn <;> simp

theorem popAll_spec {v : UVec} (hi : Inv v) (h : v.size ≠ 0) (fuel : Nat) (hf : v.count < fuel) :
    ∃ v', popAll fuel v = .ok (v', dropEvs v.info v.elems.reverse) := by
  induction fuel generalizing v with
  | zero => omega
  | succ fuel ih =>
    unfold popAll
    cases hl : v.elems.getLast? with
    | none =>
      rw [List.getLast?_eq_none_iff] at hl
      rw [pop_empty hi h hl, hl]
      refine ⟨v, ?_⟩
      simp only [List.reverse_nil]
      unfold dropEvs
      cases v.info.dropFn <;> rfl
    | some x =>
      rw [pop_spec hi hl]
      simp only
      have hcnt : 0 < v.count := by
        rw [← length_elems]
        cases he : v.elems with
        | nil => rw [he] at hl; cases hl
        | cons => simp
      obtain ⟨v', hv'⟩ := ih (v := v.popped) (popped_inv hi) h (by rw [popped_count hi]; omega)
      rw [hv']
      refine ⟨v', ?_⟩
      rw [popped_elems hi]
      have hrev : v.elems.reverse = x :: v.elems.dropLast.reverse := by
        obtain ⟨ys, hys⟩ := List.getLast?_eq_some_iff.1 hl
        rw [hys]; simp
      rw [hrev]
      have : dropEvs v.info (x :: v.elems.dropLast.reverse) =
          dropEvs v.info [x] ++ dropEvs v.info v.elems.dropLast.reverse := dropEvs_append v.info [x] _
      rw [this]
      rfl

theorem count_le_len {v : UVec} : v.count ≤ v.len := by
  unfold count; split
  · omega
  · exact Nat.div_le_self _ _

theorem drop_spec {v : UVec} (hi : Inv v) (h : v.size ≠ 0) :
    v.drop = .ok (dropEvs v.info v.elems.reverse, v.data) := by
  unfold drop
  by_cases hc : v.cap > 0
  · rw [if_pos hc]
    obtain ⟨v', hv'⟩ := popAll_spec hi h (v.len + 1) (by have := count_le_len (v := v); omega)
    rw [hv']
    simp only
    have hl : layoutOk v.cap v.alignLog = true := by
      rcases hi.lay with h' | h'
      · omega
      · exact h'
    rw [if_pos hl]
    rcases hi.block with h' | h'
    · omega
    · rw [h'.2.1]
  · rw [if_neg hc]
    have hc0 : v.cap = 0 := by omega
    have hl : v.len = 0 := by have := hi.le h; omega
    have he : v.elems = [] := by
      unfold elems count; rw [if_neg h, hl]; simp
    rw [he]
    have hd : v.data = none := by
      rcases hi.block with h' | ⟨_, _, k, h'⟩
      · exact h'.2
      · rw [hc0] at h'
        have := Nat.mul_pos (Nat.mul_pos (Nat.pos_of_ne_zero h) (by omega : 0 < 4)) (Nat.two_pow_pos k)
        omega
    rw [hd]
    unfold dropEvs
    cases v.info.dropFn <;> rfl

theorem data_zst {v : UVec} (hi : Inv v) (h : v.size = 0) : v.data = none := by
  rcases hi.block with h' | h'
  · exact h'.2
  · exact absurd h h'.1

theorem drop_zst {v : UVec} (hi : Inv v) (h : v.size = 0) : v.drop = .ok ([], none) := by
  unfold drop; rw [if_neg (by rw [hi.zst h]; omega)]

end UVec
end Ellecs
