import Verif.Model.Basic
/-! # Lemmas about byte blocks and lists -/
namespace Ellecs

theorem getElem?_readAt (m : Bytes) (off n k : Nat) :
    (readAt m off n)[k]? = if k < n then m[off + k]? else none := by
  unfold readAt
  rw [List.getElem?_take]
  split
  · rw [List.getElem?_drop]
  · rfl

theorem getElem?_writeAt (m : Bytes) (off : Nat) (bs : Bytes) (k : Nat) (h : off ≤ m.length) :
    (writeAt m off bs)[k]? =
      if off ≤ k ∧ k < off + bs.length then bs[k - off]? else m[k]? := by
  unfold writeAt
  have hl : (m.take off).length = off := by simp; omega
  by_cases h1 : k < off
  · rw [if_neg (by omega), List.append_assoc, List.getElem?_append_left (by omega), List.getElem?_take, if_pos h1]
  · rw [List.append_assoc, List.getElem?_append_right (by omega), hl]
    by_cases h2 : k < off + bs.length
    · rw [if_pos ⟨by omega, h2⟩, List.getElem?_append_left (by omega)]
    · rw [if_neg (by omega), List.getElem?_append_right (by omega), List.getElem?_drop]
      congr 1; omega

theorem length_readAt (m : Bytes) (off n : Nat) (h : off + n ≤ m.length) : (readAt m off n).length = n := by
  unfold readAt; simp; omega

theorem length_writeAt (m : Bytes) (off : Nat) (bs : Bytes) (h : off + bs.length ≤ m.length) :
    (writeAt m off bs).length = m.length := by
  unfold writeAt; simp; omega

theorem readAt_writeAt_same (m : Bytes) (off : Nat) (bs : Bytes) (h : off ≤ m.length) :
    readAt (writeAt m off bs) off bs.length = bs := by
  apply List.ext_getElem?
  intro k
  rw [getElem?_readAt]
  by_cases hk : k < bs.length
  · rw [if_pos hk, getElem?_writeAt _ _ _ _ h, if_pos (by omega)]
    congr 1; omega
  · rw [if_neg hk, List.getElem?_eq_none (by omega)]

theorem readAt_writeAt_disj (m : Bytes) (off o n : Nat) (bs : Bytes) (h : off ≤ m.length)
    (hd : o + n ≤ off ∨ off + bs.length ≤ o) : readAt (writeAt m off bs) o n = readAt m o n := by
  apply List.ext_getElem?
  intro k
  rw [getElem?_readAt, getElem?_readAt]
  by_cases hk : k < n
  · rw [if_pos hk, if_pos hk, getElem?_writeAt _ _ _ _ h, if_neg (by omega)]
  · rw [if_neg hk, if_neg hk]

theorem readAt_append (m x : Bytes) (o n : Nat) (h : o + n ≤ m.length) : readAt (m ++ x) o n = readAt m o n := by
  apply List.ext_getElem?
  intro k
  rw [getElem?_readAt, getElem?_readAt]
  by_cases hk : k < n
  · rw [if_pos hk, if_pos hk, List.getElem?_append_left (by omega)]
  · rw [if_neg hk, if_neg hk]

theorem readAt_zero (m : Bytes) (o : Nat) : readAt m o 0 = [] := by simp [readAt]

/-! ## `swapRemove` on lists -/

theorem getElem?_swapRemove {α : Type} (l : List α) (i j : Nat) (hi : i < l.length) :
    (swapRemove l i)[j]? = if j < l.length - 1 then (if j = i then l[l.length - 1]? else l[j]?) else none := by
  unfold swapRemove
  cases hl : l.getLast? with
  | none => rw [List.getLast?_eq_none_iff] at hl; subst hl; simp at hi
  | some x =>
    rw [List.getLast?_eq_getElem?] at hl
    simp only
    rw [List.getElem?_dropLast, List.length_set]
    by_cases h1 : j < l.length - 1
    · rw [if_pos h1, if_pos h1, List.getElem?_set]
      by_cases h2 : i = j
      · subst h2; simp [hi, hl]
      · have : ¬ j = i := fun h => h2 h.symm
        rw [if_neg h2, if_neg this]
    · rw [if_neg h1, if_neg h1]

theorem length_swapRemove {α : Type} (l : List α) (i : Nat) : (swapRemove l i).length = l.length - 1 := by
  unfold swapRemove
  cases hl : l.getLast? with
  | none => rw [List.getLast?_eq_none_iff] at hl; subst hl; simp
  | some x => simp

theorem swapRemove_last {α : Type} (l : List α) : swapRemove l (l.length - 1) = l.dropLast := by
  apply List.ext_getElem?
  intro j
  by_cases h : 0 < l.length
  · rw [getElem?_swapRemove _ _ _ (by omega), List.getElem?_dropLast]
    by_cases h1 : j < l.length - 1
    · rw [if_pos h1, if_pos h1, if_neg (by omega)]
    · rw [if_neg h1, if_neg h1]
  · have : l = [] := List.eq_nil_of_length_eq_zero (by omega)
    subst this; rfl

theorem mul_disjoint {i j s : Nat} (h : i ≠ j) : i * s + s ≤ j * s ∨ j * s + s ≤ i * s := by
  rcases Nat.lt_or_gt_of_ne h with h | h
  · left; have := Nat.mul_le_mul_right s (Nat.succ_le_of_lt h); rwa [Nat.succ_mul] at this
  · right; have := Nat.mul_le_mul_right s (Nat.succ_le_of_lt h); rwa [Nat.succ_mul] at this

theorem mul_add_le {i n s : Nat} (h : i < n) : i * s + s ≤ n * s := by
  have := Nat.mul_le_mul_right s (Nat.succ_le_of_lt h); rwa [Nat.succ_mul] at this

end Ellecs
