import Verif.Spec.Text
/-! # Hexadecimal digits -/
namespace Ellecs.TextSpec
open EcsId

theorem digitValue_hexDigit {n : Nat} (h : n < 16) : digitValue (hexDigit n) = some n := by
  have : ∀ k : Fin 16, digitValue (hexDigit k.val) = some k.val := by decide
  exact this ⟨n, h⟩

theorem readHex_append (l : List Char) (c : Char) {n d : Nat} (h : readHex l = some n) (hd : digitValue c = some d) :
    readHex (l ++ [c]) = some (16 * n + d) := by
  unfold readHex at h ⊢
  rw [List.foldl_append, h]
  simp only [List.foldl_cons, List.foldl_nil, hd]

theorem readHex_zeros (k : Nat) (l : List Char) : readHex (List.replicate k '0' ++ l) = readHex l := by
  induction k with
  | zero => rfl
  | succ k ih =>
    have h0 : digitValue '0' = some 0 := by decide
    rw [← ih]
    show readHex ('0' :: (List.replicate k '0' ++ l)) = _
    unfold readHex
    rw [List.foldl_cons, h0]

theorem readHex_upperHex (n : Nat) : readHex (upperHex n) = some n := by
  induction n using Nat.strongRecOn with
  | ind n ih =>
    rw [upperHex]
    by_cases h : n < 16
    · rw [if_pos h]
      have := readHex_append [] (hexDigit n) (n := 0) rfl (digitValue_hexDigit h)
      simpa using this
    · rw [if_neg h]
      have := readHex_append _ (hexDigit (n % 16)) (ih (n / 16) (by omega)) (digitValue_hexDigit (Nat.mod_lt _ (by decide)))
      rw [this]
      congr 1
      omega

theorem upperHex_length (n : Nat) : ∀ k, 0 < k → n < 16 ^ k → (upperHex n).length ≤ k := by
  induction n using Nat.strongRecOn with
  | ind n ih =>
    intro k hk h
    rw [upperHex]
    by_cases h1 : n < 16
    · rw [if_pos h1]; exact hk
    · rw [if_neg h1, List.length_append]
      obtain ⟨j, rfl⟩ : ∃ j, k = j + 1 := ⟨k - 1, by omega⟩
      have hj : 0 < j := by
        rcases Nat.eq_zero_or_pos j with rfl | hj
        · simp at h; omega
        · exact hj
      have := ih (n / 16) (by omega) j hj (by rw [Nat.div_lt_iff_lt_mul (by decide), ← Nat.pow_succ]; exact h)
      simp only [List.length_singleton]
      omega

theorem hex10_length {n : Nat} (h : n < 2 ^ 32) : (hex10 n).length = 10 := by
  have := upperHex_length n 8 (by decide) (by simpa using h)
  unfold hex10
  simp only [List.length_append, List.length_replicate, List.length_cons, List.length_nil]
  omega

theorem hex10_read (n : Nat) : readHex ((hex10 n).drop 2) = some n := by
  show readHex (List.replicate _ '0' ++ upperHex n) = some n
  rw [readHex_zeros, readHex_upperHex]

theorem hex10_inj {a b : BitVec 32} (h : hex10 a.toNat = hex10 b.toNat) : a = b := by
  have h1 := hex10_read a.toNat
  rw [h, hex10_read] at h1
  exact (BitVec.eq_of_toNat_eq (Option.some.inj h1)).symm

theorem two_inj {p m : List Char} {s : List Char} {a b c d : BitVec 32}
    (h : p ++ hex10 a.toNat ++ m ++ hex10 c.toNat ++ s = p ++ hex10 b.toNat ++ m ++ hex10 d.toNat ++ s) : a = b ∧ c = d := by
  simp only [List.append_assoc] at h
  have h1 := List.append_cancel_left h
  obtain ⟨h2, h3⟩ := List.append_inj h1 (by rw [hex10_length a.isLt, hex10_length b.isLt])
  have h4 := List.append_cancel_left h3
  obtain ⟨h5, _⟩ := List.append_inj h4 (by rw [hex10_length c.isLt, hex10_length d.isLt])
  exact ⟨hex10_inj h2, hex10_inj h5⟩

end Ellecs.TextSpec
