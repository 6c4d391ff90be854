import Verif.Model.Bitset
import Verif.Spec.Iter
/-! # Lemmas about bit vectors and the bitset iterator -/
namespace Ellecs

namespace BitsetIter

/-- Positions of the ones among the `r` lowest bits of `c`, shifted by `p`. -/
def bitsFrom (p r : Nat) (c : Word) : List Nat := ((List.range r).filter (fun i => c.getLsbD i)).map (p + ·)

/-- Positions of the ones in a list of words that starts at position `p`. -/
def wordsFrom (p : Nat) : List Word → List Nat
  | [] => []
  | w :: ws => bitsFrom p 64 w ++ wordsFrom (p + 64) ws

/-- One more vector is and-ed in. -/
def zipAnd (acc : List Word) (it : WordIter) : List Word := List.zipWith (· &&& ·) acc (it.words.map it.map)

/-- The and-ed words still to come. -/
def ands : List WordIter → List Word
  | [] => []
  | it :: its => its.foldl zipAnd (it.words.map it.map)

theorem foldl_zipAnd_nil (its : List WordIter) : its.foldl zipAnd [] = [] := by
  induction its with
  | nil => rfl
  | cons it its ih => simpa [zipAnd] using ih

theorem andRest_spec (its : List WordIter) (x : Word) (xs : List Word) :
    match andRest x its with
    | (some w, its') => its.foldl zipAnd (x :: xs) = w :: its'.foldl zipAnd xs
    | (none, its') => its.foldl zipAnd (x :: xs) = [] ∧ its'.foldl zipAnd xs = [] := by
  induction its generalizing x xs with
  | nil => simp [andRest]
  | cons it its ih =>
    cases hw : it.words with
    | nil =>
      simp only [andRest, hw, List.foldl_cons]
      have h1 : zipAnd (x :: xs) it = [] := by simp [zipAnd, hw]
      have h2 : zipAnd xs it = [] := by simp [zipAnd, hw]
      rw [h1, h2]; exact ⟨foldl_zipAnd_nil _, foldl_zipAnd_nil _⟩
    | cons y ys =>
      have h := ih (x &&& it.map y) (List.zipWith (· &&& ·) xs (ys.map it.map))
      simp only [andRest, hw, List.foldl_cons]
      have h1 : zipAnd (x :: xs) it = (x &&& it.map y) :: List.zipWith (· &&& ·) xs (ys.map it.map) := by
        simp [zipAnd, hw]
      rw [h1]
      revert h
      generalize andRest (x &&& it.map y) its = r
      rcases r with ⟨_ | w, its'⟩
      · exact fun h => h
      · exact fun h => h

theorem refill_spec (its : List WordIter) :
    match refill its with
    | (some w, its') => ands its = w :: ands its'
    | (none, its') => ands its = [] ∧ ands its' = [] := by
  cases its with
  | nil => simp [refill, ands]
  | cons it its =>
    cases hw : it.words with
    | nil => simp [refill, hw, ands, foldl_zipAnd_nil]
    | cons x xs =>
      have h := andRest_spec its (it.map x) (xs.map it.map)
      simp only [refill, hw, ands, List.map_cons]
      revert h
      generalize andRest (it.map x) its = r
      rcases r with ⟨_ | w, its'⟩
      · exact fun h => h
      · exact fun h => h

theorem tz_eq_64 {c : Word} (h : trailingZeros c = 64) : ∀ i, c.getLsbD i = false := by
  intro i
  by_cases hi : i < 64
  · unfold trailingZeros at h
    cases hf : (List.range 64).find? (fun i => c.getLsbD i) with
    | some z =>
      rw [hf] at h
      have := List.mem_of_find?_eq_some hf
      simp at this h; omega
    | none =>
      rw [List.find?_eq_none] at hf
      have := hf i (List.mem_range.2 hi)
      simpa using this
  · exact BitVec.getLsbD_of_ge _ _ (by omega)

theorem tz_lt {c : Word} (h : trailingZeros c ≠ 64) :
    trailingZeros c < 64 ∧ c.getLsbD (trailingZeros c) = true ∧ ∀ i < trailingZeros c, c.getLsbD i = false := by
  unfold trailingZeros at h ⊢
  cases hf : (List.range 64).find? (fun i => c.getLsbD i) with
  | none => rw [hf] at h; exact absurd rfl h
  | some z =>
    have hm := List.mem_of_find?_eq_some hf
    have hp := List.find?_some hf
    simp only [Option.getD_some]
    rw [List.find?_range_eq_some] at hf
    refine ⟨List.mem_range.1 hm, hp, ?_⟩
    intro i hi
    have := hf.2.2 i hi
    simpa using this

theorem bitsFrom_zero {c : Word} (p r : Nat) (h : ∀ i, c.getLsbD i = false) : bitsFrom p r c = [] := by
  simp [bitsFrom, h]

theorem bitsFrom_step {c : Word} (p r z : Nat) (hz : c.getLsbD z = true) (hl : ∀ i < z, c.getLsbD i = false)
    (hr : z < r) : bitsFrom p r c = (p + z) :: bitsFrom (p + (z + 1)) (r - (z + 1)) ((c >>> 1) >>> z) := by
  obtain ⟨d, rfl⟩ : ∃ d, r = z + (1 + d) := ⟨r - z - 1, by omega⟩
  unfold bitsFrom
  rw [List.range_add, List.range_add, List.filter_append, List.map_append]
  have h1 : (List.range z).filter (fun i => c.getLsbD i) = [] := by
    rw [List.filter_eq_nil_iff]; intro i hi; simp [hl i (List.mem_range.1 hi)]
  rw [h1]
  have h2 : z + (1 + d) - (z + 1) = d := by omega
  rw [h2]
  simp only [List.map_nil, List.nil_append, List.map_append, List.filter_append]
  have h3 : List.range 1 = [0] := rfl
  rw [h3]
  simp only [List.map_cons, List.map_nil, Nat.add_zero, List.filter_cons, hz, if_true, List.filter_nil,
    List.cons_append, List.nil_append]
  congr 1
  rw [List.map_map, List.filter_map, List.map_map]
  have hfun : (fun i => c.getLsbD i) ∘ ((fun x => z + x) ∘ fun x => 1 + x)
      = fun i => BitVec.getLsbD (c >>> 1 >>> z) i := by
    funext i
    simp only [Function.comp_apply, BitVec.getLsbD_ushiftRight]
    congr 1; omega
  rw [hfun]
  apply List.map_congr_left
  intro i _
  simp only [Function.comp_apply]; omega

/-- The invariant of an iterator state: the current word has no ones beyond the remaining bits. -/
structure Inv (s : BitsetIter) : Prop where
  rem : s.bitsRemaining ≤ 64
  cur : ∀ i, s.bitsRemaining ≤ i → s.currentBits.getLsbD i = false

/-- The items still to come. -/
def pend (s : BitsetIter) : List Nat :=
  (bitsFrom s.index s.bitsRemaining s.currentBits ++ wordsFrom (s.index + s.bitsRemaining) (ands s.iters)).filter
    (fun i => i < s.bitLength)

theorem inv_new (iters : List WordIter) (bl : Nat) : Inv (new iters bl) :=
  ⟨by simp [new], by intro i _; simp [new]⟩

theorem mem_bitsFrom {p r i : Nat} {c : Word} :
    i ∈ bitsFrom p r c ↔ p ≤ i ∧ i < p + r ∧ c.getLsbD (i - p) = true := by
  simp only [bitsFrom, List.mem_map, List.mem_filter, List.mem_range]
  constructor
  · rintro ⟨j, ⟨h1, h2⟩, rfl⟩
    refine ⟨by omega, by omega, ?_⟩
    rw [Nat.add_sub_cancel_left]; exact h2
  · rintro ⟨h1, h2, h3⟩
    exact ⟨i - p, ⟨by omega, h3⟩, by omega⟩

theorem le_of_mem_wordsFrom {ws : List Word} {p i : Nat} (h : i ∈ wordsFrom p ws) : p ≤ i := by
  induction ws generalizing p with
  | nil => cases h
  | cons w ws ih =>
    rw [wordsFrom, List.mem_append] at h
    rcases h with h | h
    · exact (mem_bitsFrom.1 h).1
    · have := ih h; omega

theorem pend_nil_of_ge {s : BitsetIter} (h : s.bitLength ≤ s.index) : pend s = [] := by
  unfold pend
  rw [List.filter_eq_nil_iff]
  intro i hi
  rw [List.mem_append] at hi
  rcases hi with hi | hi
  · have := (mem_bitsFrom.1 hi).1; simp; omega
  · have := le_of_mem_wordsFrom hi; simp; omega

/-- Items reach the bound in order: when the first one is out of range, all are. -/
theorem filter_first_out {s : BitsetIter} {z : Nat} (h : s.bitLength ≤ s.index + z) (ws : List Word) (r : Nat) (c : Word)
    (p' p'' : Nat) (hp' : s.index + z ≤ p') (hp'' : s.index + z ≤ p'') :
    ((s.index + z) :: (bitsFrom p' r c ++ wordsFrom p'' ws)).filter (fun i => i < s.bitLength) = [] := by
  rw [List.filter_eq_nil_iff]
  intro i hi
  rcases List.mem_cons.1 hi with hi | hi
  · simp; omega
  · rw [List.mem_append] at hi
    rcases hi with hi | hi
    · have := (mem_bitsFrom.1 hi).1; simp; omega
    · have := le_of_mem_wordsFrom hi; simp; omega

theorem ands_cons_nil (it : WordIter) (its : List WordIter) :
    ands ({ it with words := [] } :: its) = [] := by
  simp [ands, foldl_zipAnd_nil]

/-- What the loop body does to the pending items. -/
theorem body_spec {s : BitsetIter} (hi : Inv s) :
    match body s with
    | (none, s') => pend s' = pend s ∧ Inv s' ∧ s'.bitsRemaining = 0 ∧ s'.iters = s.iters
    | (some none, s') => pend s = [] ∧ pend s' = [] ∧ Inv s'
    | (some (some x), s') => pend s = x :: pend s' ∧ Inv s' := by
  unfold body
  by_cases hz : trailingZeros s.currentBits = 64
  · simp only [hz, if_true]
    have h0 := tz_eq_64 hz
    refine ⟨?_, ⟨by simp, fun i _ => h0 i⟩, by simp, by simp⟩
    simp only [pend, bitsFrom_zero _ _ h0, Nat.add_zero]
  · simp only [hz, if_false]
    obtain ⟨h64, hb, hl⟩ := tz_lt hz
    have hr : trailingZeros s.currentBits < s.bitsRemaining := by
      by_cases hx : trailingZeros s.currentBits < s.bitsRemaining
      · exact hx
      · have := hi.cur _ (by omega : s.bitsRemaining ≤ trailingZeros s.currentBits)
        rw [hb] at this; cases this
    have hstep := bitsFrom_step s.index s.bitsRemaining _ hb hl hr
    generalize trailingZeros s.currentBits = z at *
    have hpos : s.index + s.bitsRemaining = s.index + (z + 1) + (s.bitsRemaining - (z + 1)) := by omega
    have hcur' : ∀ i, s.bitsRemaining - (z + 1) ≤ i → ((s.currentBits >>> 1) >>> z).getLsbD i = false := by
      intro i hi'
      rw [BitVec.getLsbD_ushiftRight, BitVec.getLsbD_ushiftRight]
      exact hi.cur _ (by omega)
    by_cases hbl : s.index + (z + 1) > s.bitLength
    · simp only [hbl, if_true]
      refine ⟨?_, ?_, ⟨by have := hi.rem; simp only; omega, by simp⟩⟩
      · unfold pend
        rw [hstep, List.cons_append]
        exact filter_first_out (by omega) _ _ _ _ _ (by omega) (by omega)
      · have : pend ⟨(match s.iters with | [] => [] | it :: its => { it with words := [] } :: its), s.bitLength,
            s.index + (z + 1), s.bitsRemaining - (z + 1), 0⟩ = [] := by
          apply pend_nil_of_ge; simp only; omega
        exact this
    · simp only [hbl, if_false]
      refine ⟨?_, ⟨by have := hi.rem; simp only; omega, hcur'⟩⟩
      unfold pend
      rw [hstep, List.cons_append, List.filter_cons]
      have : s.index + z < s.bitLength := by omega
      simp only [this, decide_true, if_true]
      rw [hpos]
      congr 1

/-- Words left in the first vector. -/
def firstLen (its : List WordIter) : Nat :=
  match its with
  | [] => 0
  | it :: _ => it.words.length

theorem refill_firstLen {its its' : List WordIter} {w : Word} (h : refill its = (some w, its')) :
    firstLen its = firstLen its' + 1 := by
  cases its with
  | nil => simp [refill] at h
  | cons it its =>
    cases hw : it.words with
    | nil => simp [refill, hw] at h
    | cons x xs =>
      simp only [refill, hw] at h
      have := (Prod.mk.inj h).2
      rw [← this]
      simp [firstLen, hw]

theorem loop_spec (fuel : Nat) (s : BitsetIter) (hi : Inv s)
    (hf : firstLen s.iters + (if s.bitsRemaining = 0 then 0 else 1) < fuel) :
    (loop fuel s).1 = (pend s).head? ∧ pend (loop fuel s).2 = (pend s).tail ∧ Inv (loop fuel s).2 := by
  induction fuel generalizing s with
  | zero => omega
  | succ fuel ih =>
    unfold loop
    by_cases hr : s.bitsRemaining = 0
    · simp only [hr, if_true]
      have hre := refill_spec s.iters
      have hfl := fun w its' => @refill_firstLen s.iters its' w
      have hb0 : ∀ p, bitsFrom p 0 s.currentBits = [] := fun p => rfl
      revert hre hfl
      generalize refill s.iters = r
      rcases r with ⟨_ | w, its'⟩
      · rintro ⟨h1, h2⟩ -
        have hp : pend s = [] := by simp [pend, hr, h1, hb0, wordsFrom]
        simp only
        have hp' : pend { s with iters := its', bitsRemaining := 0 } = [] := by
          simp [pend, h2, hb0, wordsFrom]
        refine ⟨by simp [hp], by rw [hp]; exact hp', ⟨by simp, ?_⟩⟩
        have := hi.cur
        rw [hr] at this
        exact this
      · intro h1 hfl
        have hfl := hfl w its' rfl
        have hinv : Inv { s with iters := its', bitsRemaining := 64, currentBits := w } :=
          ⟨by simp, fun i h => BitVec.getLsbD_of_ge _ _ h⟩
        have hp : pend { s with iters := its', bitsRemaining := 64, currentBits := w } = pend s := by
          simp only [pend, hr, h1, hb0, List.nil_append, Nat.add_zero]
          rfl
        have hb := body_spec hinv
        simp only
        revert hb
        generalize hB : body { s with iters := its', bitsRemaining := 64, currentBits := w } = B
        rcases B with ⟨_ | _ | x, s'⟩
        · rintro ⟨g1, g2, g3, g4⟩
          have := ih s' g2 (by rw [g4, g3]; simp only [if_true]; simp [hr] at hf; omega)
          rw [g1, hp] at this
          exact this
        · rintro ⟨g1, g2, g3⟩
          rw [hp] at g1
          exact ⟨by simp [g1], by rw [g2, g1]; rfl, g3⟩
        · rintro ⟨g1, g2⟩
          rw [hp] at g1
          exact ⟨by simp [g1], by rw [g1]; rfl, g2⟩
    · simp only [hr, if_false]
      have hb := body_spec hi
      revert hb
      generalize hB : body s = B
      rcases B with ⟨_ | _ | x, s'⟩
      · rintro ⟨g1, g2, g3, g4⟩
        have := ih s' g2 (by rw [g4, g3]; simp only [if_true]; simp [hr] at hf; omega)
        rw [g1] at this
        exact this
      · rintro ⟨g1, g2, g3⟩
        exact ⟨by simp [g1], by rw [g2, g1]; rfl, g3⟩
      · rintro ⟨g1, g2⟩
        exact ⟨by simp [g1], by rw [g1]; rfl, g2⟩

theorem next_spec (s : BitsetIter) (hi : Inv s) :
    (next s).1 = (pend s).head? ∧ pend (next s).2 = (pend s).tail ∧ Inv (next s).2 := by
  apply loop_spec _ _ hi
  unfold fuelFor firstLen
  cases s.iters <;> simp <;> split <;> omega

theorem yields_pend (s : BitsetIter) (hi : Inv s) : Yields next s (pend s) := by
  generalize hl : pend s = l
  induction l generalizing s with
  | nil =>
    apply Yields.done
    rw [(next_spec s hi).1, hl]; rfl
  | cons x xs ih =>
    obtain ⟨h1, h2, h3⟩ := next_spec s hi
    rw [hl] at h1 h2
    exact Yields.item (Prod.ext h1 rfl) (ih _ h3 h2)

theorem finished_of_pend (s : BitsetIter) (hi : Inv s) (hp : pend s = []) : Finished next s := by
  intro n
  induction n generalizing s with
  | zero => rw [advance, (next_spec s hi).1, hp]; rfl
  | succ n ih =>
    obtain ⟨h1, h2, h3⟩ := next_spec s hi
    exact ih _ h3 (by rw [h2, hp]; rfl)

theorem mem_wordsFrom {ws : List Word} {p i : Nat} :
    i ∈ wordsFrom p ws ↔ p ≤ i ∧ ∃ w, ws[(i - p) / 64]? = some w ∧ w.getLsbD ((i - p) % 64) = true := by
  induction ws generalizing p with
  | nil => simp [wordsFrom]
  | cons w ws ih =>
    rw [wordsFrom, List.mem_append, mem_bitsFrom, ih]
    by_cases h : i < p + 64
    · constructor
      · rintro (⟨h1, h2, h3⟩ | ⟨h1, _⟩)
        · refine ⟨h1, w, ?_, ?_⟩
          · rw [Nat.div_eq_of_lt (by omega)]; rfl
          · rw [Nat.mod_eq_of_lt (by omega)]; exact h3
        · omega
      · rintro ⟨h1, w', h2, h3⟩
        rw [Nat.div_eq_of_lt (by omega)] at h2
        rw [Nat.mod_eq_of_lt (by omega)] at h3
        cases h2
        exact .inl ⟨h1, h, h3⟩
    · have e1 : (i - p) / 64 = (i - (p + 64)) / 64 + 1 := by omega
      have e2 : (i - p) % 64 = (i - (p + 64)) % 64 := by omega
      rw [e1, e2, List.getElem?_cons_succ]
      constructor
      · rintro (⟨h1, h2, h3⟩ | ⟨h1, h2⟩)
        · omega
        · exact ⟨by omega, h2⟩
      · rintro ⟨h1, h2⟩
        exact .inr ⟨by omega, h2⟩

theorem mem_foldl_zipAnd (its : List WordIter) (acc : List Word) (k j : Nat) :
    (∃ w, (its.foldl zipAnd acc)[k]? = some w ∧ w.getLsbD j = true) ↔
    (∃ w, acc[k]? = some w ∧ w.getLsbD j = true) ∧
      ∀ it ∈ its, ∃ w, it.words[k]? = some w ∧ (it.map w).getLsbD j = true := by
  induction its generalizing acc with
  | nil => simp
  | cons it its ih =>
    rw [List.foldl_cons, ih]
    have hz : (∃ w, (zipAnd acc it)[k]? = some w ∧ w.getLsbD j = true) ↔
        (∃ w, acc[k]? = some w ∧ w.getLsbD j = true) ∧
        ∃ w, it.words[k]? = some w ∧ (it.map w).getLsbD j = true := by
      unfold zipAnd
      rw [List.getElem?_zipWith, List.getElem?_map]
      cases acc[k]? with
      | none => simp
      | some a =>
        cases it.words[k]? with
        | none => simp
        | some b => simp
    rw [hz, List.forall_mem_cons, and_assoc]

theorem mem_ands (its : List WordIter) (k j : Nat) :
    (∃ w, (ands its)[k]? = some w ∧ w.getLsbD j = true) ↔
    its ≠ [] ∧ ∀ it ∈ its, ∃ w, it.words[k]? = some w ∧ (it.map w).getLsbD j = true := by
  cases its with
  | nil => simp [ands]
  | cons it its =>
    rw [ands, mem_foldl_zipAnd, List.forall_mem_cons]
    have : (∃ w, (it.words.map it.map)[k]? = some w ∧ w.getLsbD j = true) ↔
        ∃ w, it.words[k]? = some w ∧ (it.map w).getLsbD j = true := by
      rw [List.getElem?_map]
      cases it.words[k]? <;> simp
    rw [this]; simp

theorem mem_pend_new (its : List WordIter) (bl i : Nat) :
    i ∈ pend (new its bl) ↔ i < bl ∧ its ≠ [] ∧
      ∀ it ∈ its, ∃ w, it.words[i / 64]? = some w ∧ (it.map w).getLsbD (i % 64) = true := by
  have h0 : bitsFrom 0 0 (0 : Word) = [] := rfl
  rw [pend]
  simp only [new, h0, List.nil_append, List.mem_filter, mem_wordsFrom, Nat.sub_zero, Nat.zero_le,
    true_and, mem_ands, Nat.add_zero]
  constructor
  · rintro ⟨h1, h2⟩; exact ⟨of_decide_eq_true h2, h1⟩
  · rintro ⟨h1, h2⟩; exact ⟨h2, decide_eq_true h1⟩

theorem bitsFrom_sorted (p r : Nat) (c : Word) : (bitsFrom p r c).Pairwise (· < ·) := by
  unfold bitsFrom
  rw [List.pairwise_map]
  exact (List.pairwise_lt_range.filter _).imp (by intro a b h; omega)

theorem wordsFrom_sorted (p : Nat) (ws : List Word) : (wordsFrom p ws).Pairwise (· < ·) := by
  induction ws generalizing p with
  | nil => exact List.Pairwise.nil
  | cons w ws ih =>
    rw [wordsFrom, List.pairwise_append]
    refine ⟨bitsFrom_sorted _ _ _, ih _, ?_⟩
    intro a ha b hb
    have := (mem_bitsFrom.1 ha).2.1
    have := le_of_mem_wordsFrom hb
    omega

theorem pend_new_sorted (its : List WordIter) (bl : Nat) : (pend (new its bl)).Pairwise (· < ·) := by
  have h0 : bitsFrom 0 0 (0 : Word) = [] := rfl
  rw [pend]
  simp only [new, h0, List.nil_append]
  exact (wordsFrom_sorted _ _).filter _

end BitsetIter

/-! ## Bit vectors -/

namespace Bitvec

/-- The bit at position `i` of the underlying words. -/
def rawBit (b : Bitvec) (i : Nat) : Bool :=
  match b.data[i / 64]? with
  | some w => w.getLsbD (i % 64)
  | none => false

/-- The words cover the length, and there are no ones beyond the length. -/
structure Inv (b : Bitvec) : Prop where
  cover : b.len ≤ 64 * b.data.length
  clean : ∀ i, b.len ≤ i → b.rawBit i = false

theorem inv_new : Inv new := ⟨by simp [new], by intro i _; simp [new, rawBit]⟩

theorem shift_and_one (w : Word) (i : Nat) : (((w >>> i) &&& 1#64) == 1#64) = w.getLsbD i := by
  cases h : w.getLsbD i with
  | true =>
    rw [beq_iff_eq]
    apply BitVec.eq_of_getLsbD_eq
    intro j hj
    rw [BitVec.getLsbD_and, BitVec.getLsbD_ushiftRight, BitVec.getLsbD_one]
    by_cases h0 : j = 0
    · subst h0; simp [h]
    · simp [h0]
  | false =>
    rw [beq_eq_false_iff_ne]
    intro hx
    have := congrArg (fun x => BitVec.getLsbD x 0) hx
    simp [h] at this

theorem getBit_eq {b : Bitvec} (hi : Inv b) (i : Nat) :
    b.getBit i = .ok (if i < b.len then some (b.rawBit i) else none) := by
  unfold getBit rawBit
  by_cases h : i < b.len
  · have h' : ¬ i ≥ b.len := by omega
    rw [if_neg h', if_pos h]
    have hc := hi.cover
    have hlt : i / 64 < b.data.length := by omega
    rw [List.getElem?_eq_getElem hlt]
    simp only [shift_and_one]
  · have h' : i ≥ b.len := by omega
    rw [if_pos h', if_neg h]

/-- Setting one bit of a word. -/
theorem setWord_getLsbD (w : Word) (k j : Nat) (v : Bool) (hk : k < 64) (hj : j < 64) :
    ((w &&& ~~~(1#64 <<< k)) ||| ((if v then 1#64 else 0#64) <<< k)).getLsbD j =
      if j = k then v else w.getLsbD j := by
  rw [BitVec.getLsbD_or, BitVec.getLsbD_and, BitVec.getLsbD_not, BitVec.getLsbD_shiftLeft,
    BitVec.getLsbD_shiftLeft]
  by_cases h : j = k
  · subst h
    cases v <;> simp [hj]
  · simp only [if_neg h, hj, decide_true, Bool.true_and]
    by_cases hlt : j < k
    · simp [hlt]
    · have h0 : j - k ≠ 0 := by omega
      cases v <;> simp [hlt, h0]

/-- `set_bit` in terms of raw bits. -/
theorem setBit_spec {b : Bitvec} (hi : Inv b) (i : Nat) (v : Bool) :
    ∃ b', b.setBit i v = .ok b' ∧ Inv b' ∧ b'.len = max b.len (i + 1) ∧
      (∀ j, b'.rawBit j = if j = i then v else b.rawBit j) := by
  unfold setBit
  have hc := hi.cover
  have key : ∀ data' : List Word, i / 64 < data'.length →
      (∀ j, (match data'[j / 64]? with | some w => w.getLsbD (j % 64) | none => false) = b.rawBit j) →
      ∀ bits, data'[i / 64]? = some bits → ∀ j,
      rawBit ⟨data'.set (i / 64) ((bits &&& ~~~(1#64 <<< (i % 64))) |||
        ((if v then 1#64 else 0#64) <<< (i % 64))), max b.len (i + 1)⟩ j = if j = i then v else b.rawBit j := by
    intro data' hlen hraw bits hbits j
    unfold rawBit
    simp only [List.getElem?_set]
    by_cases hji : i / 64 = j / 64
    · rw [if_pos hji, if_pos hlen]
      simp only
      rw [setWord_getLsbD _ _ _ _ (by omega) (by omega)]
      have := hraw j
      rw [← hji, hbits] at this
      simp only at this
      by_cases hj : j = i
      · subst hj; simp
      · have hne : ¬ j % 64 = i % 64 := by omega
        rw [if_neg hne, if_neg hj, this]
        rfl
    · rw [if_neg hji]
      have hj : ¬ j = i := by rintro rfl; exact hji rfl
      rw [if_neg hj]
      exact hraw j
  have hlen' : (if i ≥ b.len then i + 1 else b.len) = max b.len (i + 1) := by
    split <;> omega
  simp only [hlen']
  by_cases hgrow : i ≥ b.len ∧ b.data.length < i / 64 + 1
  · simp only [if_pos hgrow]
    have hlen : i / 64 < (b.data ++ List.replicate (i / 64 + 1 - b.data.length) 0#64).length := by
      simp; omega
    have hget := List.getElem?_eq_getElem hlen
    have hk := key _ hlen (by
      intro j
      unfold rawBit
      by_cases hj : j / 64 < b.data.length
      · rw [List.getElem?_append_left hj]
      · rw [List.getElem?_append_right (by omega), List.getElem?_eq_none (by omega : b.data.length ≤ j / 64)]
        rw [List.getElem?_replicate]
        split
        · rename_i heq
          split at heq
          · cases heq; simp
          · cases heq
        · rfl) _ hget
    rw [hget]
    refine ⟨_, rfl, ⟨?_, ?_⟩, rfl, hk⟩
    · simp only [List.length_set, List.length_append, List.length_replicate]; omega
    · intro j hj
      simp only at hj
      rw [hk, if_neg (by omega)]; exact hi.clean j (by omega)
  · simp only [if_neg hgrow]
    have hlen : i / 64 < b.data.length := by omega
    have hget := List.getElem?_eq_getElem hlen
    have hk := key _ hlen (by intro j; rfl) _ hget
    rw [hget]
    refine ⟨_, rfl, ⟨?_, ?_⟩, rfl, hk⟩
    · simp only [List.length_set]; omega
    · intro j hj
      simp only at hj
      rw [hk, if_neg (by omega)]; exact hi.clean j (by omega)

end Bitvec
end Ellecs
