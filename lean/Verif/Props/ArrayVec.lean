import Verif.Spec.ArrayVec
/-! # C46 and C47: `ArrayVec` and `index_twice_mut` -/
namespace Ellecs.ArraySpec
variable {α : Type}

/-- The slots: the values of the list, then uninitialised ones. -/
def Slots (n : Nat) (v : ArrayVec α) (l : List α) : Prop :=
  l.length ≤ n ∧ v.len = l.length ∧ v.array = l.map some ++ List.replicate (n - l.length) none

theorem Slots.len {n : Nat} {v : ArrayVec α} {l : List α} (h : Slots n v l) : v.LEN = n := by
  unfold ArrayVec.LEN; rw [h.2.2]; simp; have := h.1; omega

theorem allInit_some (l : List α) : ArrayVec.allInit (l.map some) = .ok l := by
  induction l with
  | nil => rfl
  | cons x xs ih => simp only [List.map_cons, ArrayVec.allInit, ih]

theorem Slots.asSlice {n : Nat} {v : ArrayVec α} {l : List α} (h : Slots n v l) : v.asSlice = .ok l := by
  unfold ArrayVec.asSlice
  rw [h.len, if_pos (by rw [h.2.1]; exact h.1), h.2.1, h.2.2]
  have : (l.map some ++ List.replicate (n - l.length) none).take l.length = l.map some := by
    have hl : l.length = (l.map (some : α → Option α)).length := by simp
    rw [hl, List.take_left]
  rw [this, allInit_some]

theorem Slots.get {n : Nat} {v : ArrayVec α} {l : List α} (h : Slots n v l) (i : Nat) : v.get i = .ok l[i]? := by
  unfold ArrayVec.get
  rw [h.2.1]
  by_cases hi : i < l.length
  · rw [if_pos hi, h.2.2, List.getElem?_append_left (by simpa using hi), List.getElem?_map,
      List.getElem?_eq_getElem hi]
    rfl
  · rw [if_neg hi, List.getElem?_eq_none (by omega)]

theorem Slots.push {n : Nat} {v : ArrayVec α} {l : List α} (h : Slots n v l) (x : α) :
    if l.length < n then ∃ v', v.push x = (true, v') ∧ Slots n v' (l ++ [x]) else v.push x = (false, v) := by
  unfold ArrayVec.push
  rw [h.len, h.2.1]
  by_cases hl : l.length < n
  · rw [if_pos hl, if_pos hl]
    refine ⟨_, rfl, by simp; omega, by simp, ?_⟩
    rw [h.2.2]
    obtain ⟨m, hm⟩ : ∃ m, n - l.length = m + 1 := ⟨n - l.length - 1, by omega⟩
    have hm' : n - (l ++ [x]).length = m := by simp; omega
    rw [hm, hm', List.replicate_succ]
    have : (l.map some ++ none :: List.replicate m none).set l.length (some x)
        = l.map some ++ some x :: List.replicate m none := by
      rw [List.set_append_right _ _ (by simp)]; simp
    rw [this]; simp
  · rw [if_neg hl, if_neg hl]

/-- Shifting the first `k` slots by one and writing the first slot. -/
theorem shift_eq {n : Nat} (l : List α) (x : α) (k : Nat) (hk : k + 1 ≤ n) (hkl : k ≤ l.length) (hl : l.length ≤ n)
    (hdrop : (l.map some ++ List.replicate (n - l.length) none).drop (k + 1)
      = List.replicate (n - (k + 1)) (none : Option α)) :
    (((l.map some ++ List.replicate (n - l.length) none).take 1
      ++ (l.map some ++ List.replicate (n - l.length) none).take k
      ++ (l.map some ++ List.replicate (n - l.length) none).drop (k + 1)).set 0 (some x))
      = (x :: l.take k).map some ++ List.replicate (n - (x :: l.take k).length) none := by
  rw [hdrop]
  have hne : ∃ a, (l.map some ++ List.replicate (n - l.length) (none : Option α)).take 1 = [a] := by
    cases hA : l.map some ++ List.replicate (n - l.length) (none : Option α) with
    | nil =>
      have := congrArg List.length hA
      rw [List.length_append, List.length_map, List.length_replicate, List.length_nil] at this
      omega
    | cons a as => exact ⟨a, rfl⟩
  obtain ⟨a, ha⟩ := hne
  rw [ha]
  have hlen : (x :: l.take k).length = k + 1 := by
    rw [List.length_cons, List.length_take]; omega
  have htk : (l.map some ++ List.replicate (n - l.length) none).take k = (l.take k).map some := by
    rw [List.take_append_of_le_length (by simpa using hkl), List.map_take]
  rw [htk, hlen]
  simp

theorem Slots.pushStart {n : Nat} {v : ArrayVec α} {l : List α} (h : Slots n v l) (hn : 0 < n) (x : α) :
    ∃ v', v.pushStart x = .ok (if l.length = n then l.getLast? else none, v') ∧ Slots n v' ((x :: l).take n) := by
  unfold ArrayVec.pushStart
  rw [h.len, h.2.1]
  by_cases hf : l.length = n
  · simp only [hf, if_true]
    rw [h.asSlice]
    simp only
    cases hl : l.getLast? with
    | none => rw [List.getLast?_eq_none_iff] at hl; subst hl; simp at hf; omega
    | some y =>
      simp only
      rw [if_pos (by omega)]
      refine ⟨_, rfl, ?_, ?_, ?_⟩
      · simp; omega
      · simp; omega
      · have ht : (x :: l).take n = x :: l.take (n - 1) := by
          obtain ⟨m, rfl⟩ : ∃ m, n = m + 1 := ⟨n - 1, by omega⟩
          rfl
        rw [ht, h.2.2]
        exact shift_eq l x (n - 1) (by omega) (by omega) h.1 (by
          rw [List.drop_of_length_le (by simp; omega)]
          have : n - (n - 1 + 1) = 0 := by omega
          rw [this]; rfl)
  · simp only [hf, if_false]
    have hlt : l.length < n := by have := h.1; omega
    rw [if_pos (by omega)]
    refine ⟨_, rfl, ?_, ?_, ?_⟩
    · simp; omega
    · simp; omega
    · have ht : (x :: l).take n = x :: l.take l.length := by
        rw [List.take_of_length_le (by simp; omega), List.take_length]
      rw [ht, h.2.2]
      exact shift_eq l x l.length (by omega) (Nat.le_refl _) h.1 (by
        rw [List.drop_append, List.drop_of_length_le (by simp), List.nil_append, List.drop_replicate]
        congr 1
        simp; omega)

theorem Slots.new (n : Nat) : Slots n (ArrayVec.new n : ArrayVec α) [] := ⟨Nat.zero_le _, rfl, rfl⟩

theorem Hist.slots {n : Nat} {v : ArrayVec α} {l : List α} (h : Hist n v l) : Slots n v l := by
  induction h with
  | new => exact Slots.new n
  | push x _ e ih =>
    have := ih.push x
    split at this
    · obtain ⟨v', e', h'⟩ := this
      rw [e] at e'; cases e'; exact h'
    · rw [e] at this; cases this
  | pushFull x _ e ih =>
    have := ih.push x
    split at this
    · obtain ⟨v', e', h'⟩ := this
      rw [e] at e'; cases e'
    · rw [e] at this; cases this; exact ih
  | @pushStart v v' l d x h1 e ih =>
    by_cases hn : 0 < n
    · obtain ⟨v', e', h'⟩ := ih.pushStart hn x
      rw [e] at e'; cases e'; exact h'
    · -- a capacity of zero: `push_start` panics
      exfalso
      have h0 : n = 0 := by omega
      have hl : l = [] := List.eq_nil_of_length_eq_zero (by have := ih.1; omega)
      subst hl
      unfold ArrayVec.pushStart at e
      rw [ih.len, ih.2.1, h0, ih.asSlice] at e
      simp at e

/-- A full array of capacity 2 for the examples: 1 and 2 were pushed, then 3 at the start. -/
private theorem full_made : Hist 2 ⟨[some 3, some 1], 2⟩ [3, 1] := .pushStart 3 (.push 2 (.push 1 .new rfl) rfl) rfl

/-! ## C46 -/

/-- **C46**.  After any calls the array shows exactly the list the calls describe. -/
theorem C46_observe {n : Nat} {v : ArrayVec α} {l : List α} (h : Hist n v l) :
    v.len = l.length ∧ l.length ≤ n ∧ v.asSlice = .ok l ∧ (∀ i, v.get i = .ok l[i]?) ∧ v.drop = .ok l :=
  ⟨h.slots.2.1, h.slots.1, h.slots.asSlice, h.slots.get, h.slots.asSlice⟩

example := C46_observe full_made

/-- **C46**.  `push_start` puts the element first, keeps the others in order and drops only the last one, and that
only when the array is full. -/
theorem C46_push_start {n : Nat} {v : ArrayVec α} {l : List α} (h : Hist n v l) (hn : 0 < n) (x : α) :
    ∃ v', v.pushStart x = .ok (if l.length = n then l.getLast? else none, v') ∧ Hist n v' ((x :: l).take n) := by
  obtain ⟨v', e, _⟩ := h.slots.pushStart hn x
  exact ⟨v', e, .pushStart x h e⟩

example := C46_push_start full_made (by decide) 7

/-- **C46**.  `push` appends unless the array is full, in which case it changes nothing. -/
theorem C46_push {n : Nat} {v : ArrayVec α} {l : List α} (h : Hist n v l) (x : α) :
    if l.length < n then ∃ v', v.push x = (true, v') ∧ Hist n v' (l ++ [x]) else v.push x = (false, v) := by
  have := h.slots.push x
  split
  · rename_i hl
    rw [if_pos hl] at this
    obtain ⟨v', e, _⟩ := this
    exact ⟨v', e, .push x h e⟩
  · rename_i hl
    rw [if_neg hl] at this
    exact this

example := C46_push full_made 7
example := C46_push (α := Nat) (n := 2) (.push 1 .new rfl) 7

/-- A full array of capacity 2 evicts its last element. -/
example : ∃ v : ArrayVec Nat, Hist 2 v [3, 1] :=
  ⟨_, .pushStart 3 (.push 2 (.push 1 .new rfl) rfl) rfl⟩

/-- **C46** is violated by `pop`: on every non-empty array it panics or reads an uninitialised slot, because it
reads one slot past the last element. -/
theorem C46_pop_faults {n : Nat} {v : ArrayVec α} {l : List α} (h : Hist n v l) (hl : l ≠ []) :
    v.pop = .error (if l.length = n then .indexOob else .ub .uninit) := by
  obtain ⟨h1, h2, h3⟩ := h.slots
  have hpos : 0 < l.length := List.length_pos_iff.2 hl
  unfold ArrayVec.pop
  rw [h2, if_pos hpos, h3]
  by_cases hf : l.length = n
  · rw [if_pos hf, List.getElem?_eq_none (by simp; omega)]
  · rw [if_neg hf, List.getElem?_append_right (by simp), List.getElem?_replicate, if_pos (by simp; omega)]

example := C46_pop_faults full_made (by decide)

/-- `pop` on an empty array is right. -/
theorem C46_pop_empty {n : Nat} {v : ArrayVec α} (h : Hist n v []) : v.pop = .ok (none, v) := by
  unfold ArrayVec.pop; rw [h.slots.2.1]; rfl

example := C46_pop_empty (α := Nat) (n := 2) .new

/-! ## C47 -/

/-- **C47**.  Two different in-range indices give the two elements, in the order asked for. -/
theorem C47_index_twice (l : List α) (i j : Nat) (a b : α) (hij : i ≠ j) (hi : l[i]? = some a) (hj : l[j]? = some b) :
    indexTwice i j l = .ok (a, b) := by
  have hi' : i < l.length := (List.getElem?_eq_some_iff.1 hi).1
  have hj' : j < l.length := (List.getElem?_eq_some_iff.1 hj).1
  unfold indexTwice
  by_cases h : i < j
  · rw [if_pos h, if_pos (by omega), List.getElem?_take, if_pos h, List.getElem?_drop, hi, Nat.add_zero, hj]
  · rw [if_neg h, if_pos (by omega), if_pos (by omega), List.getElem?_take, if_pos (by omega), List.getElem?_drop,
      Nat.add_zero, hi, hj]

example := C47_index_twice [10, 20, 30, 40] 3 1 40 20 (by decide) rfl rfl

/-- **C47**.  Equal or out-of-range indices panic. -/
theorem C47_index_twice_panics (l : List α) (i j : Nat) (h : i = j ∨ l.length ≤ i ∨ l.length ≤ j) :
    ∃ f, indexTwice i j l = .error f := by
  unfold indexTwice
  by_cases h1 : i < j
  · rw [if_pos h1]
    by_cases h2 : j ≤ l.length
    · rw [if_pos h2, List.getElem?_drop, Nat.add_zero, List.getElem?_eq_none (i := j) (by omega)]
      cases (l.take j)[i]? <;> exact ⟨_, rfl⟩
    · rw [if_neg h2]; exact ⟨_, rfl⟩
  · rw [if_neg h1]
    by_cases h3 : j < i
    · rw [if_pos h3]
      by_cases h2 : i ≤ l.length
      · rw [if_pos h2, List.getElem?_drop, Nat.add_zero, List.getElem?_eq_none (i := i) (by omega)]
        exact ⟨_, rfl⟩
      · rw [if_neg h2]; exact ⟨_, rfl⟩
    · rw [if_neg h3]; exact ⟨_, rfl⟩

example := C47_index_twice_panics [10, 20] 1 2 (by decide)

example : indexTwice 3 1 [10, 20, 30, 40] = .ok (40, 20) := rfl

end Ellecs.ArraySpec
