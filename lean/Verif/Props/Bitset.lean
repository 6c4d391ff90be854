import Verif.Proofs.Bitset
import Verif.Spec.Bitset
/-! # C43, C44 (bitset part), C45 -/
namespace Ellecs.BitSpec
open BitsetIter

/-- **C43**.  The iterator yields, in increasing order (hence each once), exactly the common positions below the
bit length. -/
theorem C43_bitset_iter_exact (iters : List WordIter) (bitLength : Nat) :
    ∃ xs, Yields BitsetIter.next (BitsetIter.new iters bitLength) xs ∧ xs.Pairwise (· < ·) ∧
      ∀ i, i ∈ xs ↔ i < bitLength ∧ Common iters i :=
  ⟨_, yields_pend _ (inv_new _ _), pend_new_sorted _ _, fun i => mem_pend_new _ _ i⟩

/-- Two words and-ed, one of them negated: positions 1 and 64 remain (65 is cut off by the length). -/
example : Yields BitsetIter.next
    (BitsetIter.new [⟨[0b1011#64, 0b11#64], id⟩, ⟨[0b1001#64, 0#64], (~~~ ·)⟩] 65) [1, 64] :=
  .item rfl (.item rfl (.done rfl))

/-- **C44** (bitset iterator).  After any number of calls, once `next` returned `None` it does so forever. -/
theorem C44_bitset_iter_fused (iters : List WordIter) (bitLength n : Nat) (s' : BitsetIter)
    (h : BitsetIter.next (advance BitsetIter.next n (BitsetIter.new iters bitLength)) = (none, s')) :
    Finished BitsetIter.next s' := by
  have hinv : ∀ n s, BitsetIter.Inv s → BitsetIter.Inv (advance BitsetIter.next n s) := by
    intro n
    induction n with
    | zero => exact fun s h => h
    | succ n ih => exact fun s h => ih _ (next_spec s h).2.2
  have hi := hinv n _ (inv_new iters bitLength)
  obtain ⟨h1, h2, h3⟩ := next_spec _ hi
  rw [h] at h1 h2 h3
  refine finished_of_pend s' h3 ?_
  rw [h2]
  cases hp : pend (advance BitsetIter.next n (BitsetIter.new iters bitLength)) with
  | nil => rfl
  | cons x xs => rw [hp] at h1; cases h1

/-- The hypothesis is met by an iterator stopped by its length, with further ones behind it. -/
example : (BitsetIter.next (advance BitsetIter.next 1 (BitsetIter.new [⟨[0b110#64, 5#64], id⟩] 2))).1 = none := rfl

/-! ## C45 -/

/-- `b` represents the list `l`. -/
def Repr (b : Bitvec) (l : List Bool) : Prop :=
  Bitvec.Inv b ∧ b.len = l.length ∧ ∀ i, b.rawBit i = l.getD i false

theorem repr_new : Repr Bitvec.new [] := ⟨Bitvec.inv_new, rfl, by intro i; simp [Bitvec.rawBit, Bitvec.new]⟩

theorem length_set (l : List Bool) (i : Nat) (v : Bool) : (set l i v).length = max l.length (i + 1) := by
  simp [set]

theorem getD_set (l : List Bool) (i j : Nat) (v : Bool) :
    (set l i v).getD j false = if j = i then v else l.getD j false := by
  unfold set
  rw [List.getD_eq_getElem?_getD, List.getElem?_map]
  by_cases h : j < max l.length (i + 1)
  · rw [List.getElem?_range h]; simp
  · have h1 : j ≠ i := by omega
    have h2 : l.length ≤ j := by omega
    rw [List.getElem?_eq_none (by simp; omega)]
    simp [h1, List.getElem?_eq_none h2]

theorem repr_set {b l} (h : Repr b l) (i : Nat) (v : Bool) :
    ∃ b', b.setBit i v = .ok b' ∧ Repr b' (set l i v) := by
  obtain ⟨b', h1, h2, h3, h4⟩ := Bitvec.setBit_spec h.1 i v
  refine ⟨b', h1, h2, by rw [h3, h.2.1, length_set], fun j => ?_⟩
  rw [h4, getD_set, h.2.2]

theorem set_length (l : List Bool) (v : Bool) : set l l.length v = l ++ [v] := by
  apply List.ext_getElem?
  intro j
  unfold set
  rw [List.getElem?_map]
  by_cases h : j < max l.length (l.length + 1)
  · rw [List.getElem?_range h]
    by_cases hj : j = l.length
    · subst hj; simp
    · have hlt : j < l.length := by omega
      simp [hj, List.getElem?_append_left hlt, List.getElem?_eq_getElem hlt]
  · rw [List.getElem?_eq_none (by simp; omega), List.getElem?_eq_none (by simp; omega)]; rfl

theorem repr_push {b l} (h : Repr b l) (v : Bool) : ∃ b', b.pushBit v = .ok b' ∧ Repr b' (l ++ [v]) := by
  obtain ⟨b', h1, h2⟩ := repr_set h l.length v
  rw [set_length] at h2
  refine ⟨b', ?_, h2⟩
  unfold Bitvec.pushBit; rw [h.2.1]; exact h1

theorem Built.repr {b l} (h : Built b l) : Repr b l := by
  induction h with
  | new => exact repr_new
  | set i v _ h2 ih =>
    obtain ⟨b'', h3, h4⟩ := repr_set ih i v
    rw [h2] at h3; cases h3; exact h4
  | push v _ h2 ih =>
    obtain ⟨b'', h3, h4⟩ := repr_push ih v
    rw [h2] at h3; cases h3; exact h4

theorem Repr.getBit {b l} (h : Repr b l) (i : Nat) : b.getBit i = .ok l[i]? := by
  rw [Bitvec.getBit_eq h.1, h.2.1, h.2.2]
  by_cases hi : i < l.length
  · simp [hi]
  · simp [hi]

/-- A vector for the examples: bits 3 and 130 were set. -/
private theorem bits_made : Built ⟨[8#64, 0#64, 4#64], 131⟩ (set (set [] 3 true) 130 true) := .set 130 true (.set 3 true .new rfl) rfl

/-- **C45**.  A bit vector built by any calls is the list of bits those calls describe: `get_bit` reads it. -/
theorem C45_get_bit {b l} (h : Built b l) (i : Nat) : b.getBit i = .ok l[i]? := h.repr.getBit i

example := C45_get_bit bits_made 130

/-- **C45**.  `set_bit` and `push_bit` never panic. -/
theorem C45_total {b l} (h : Built b l) (i : Nat) (v : Bool) :
    (∃ b', b.setBit i v = .ok b') ∧ ∃ b', b.pushBit v = .ok b' :=
  ⟨(repr_set h.repr i v).imp fun _ h => h.1, (repr_push h.repr v).imp fun _ h => h.1⟩

example := C45_total bits_made 200 true

/-- **C45**.  The effect of `set_bit` seen through `get_bit`: position `i` becomes `v`, other positions keep
their value, the gap up to `i` reads zero, and everything beyond is out of range. -/
theorem C45_set_bit {b b' l} (h : Built b l) (i : Nat) (v : Bool) (hs : b.setBit i v = .ok b') :
    b'.getBit i = .ok (some v) ∧
    ∀ j, j ≠ i → b'.getBit j =
      if j < l.length then b.getBit j else if j < i then .ok (some false) else .ok none := by
  have h' := (Built.set i v h hs).repr
  have hg : ∀ j, b'.getBit j = .ok (if j < max l.length (i + 1) then some (if j = i then v else l.getD j false)
      else none) := by
    intro j
    rw [h'.getBit]
    unfold set
    rw [List.getElem?_map]
    by_cases hj : j < max l.length (i + 1)
    · rw [List.getElem?_range hj]; simp [hj]
    · rw [List.getElem?_eq_none (by simp; omega)]; simp [hj]
  refine ⟨by rw [hg]; simp; omega, fun j hj => ?_⟩
  rw [hg, h.repr.getBit]
  by_cases h1 : j < l.length
  · have : j < max l.length (i + 1) := by omega
    rw [if_pos this, if_neg hj, if_pos h1]
    simp [h1]
  · by_cases h2 : j < i
    · have : j < max l.length (i + 1) := by omega
      rw [if_pos this, if_neg hj, if_neg h1, if_pos h2]
      simp [h1]
    · have : ¬ j < max l.length (i + 1) := by omega
      rw [if_neg this, if_neg h1, if_neg h2]

example := C45_set_bit bits_made 64 true (b' := ⟨[8#64, 1#64, 4#64], 131⟩) rfl

/-- **C45**.  `push_bit` appends. -/
theorem C45_push_bit {b b' l} (h : Built b l) (v : Bool) (hs : b.pushBit v = .ok b') (j : Nat) :
    b'.getBit j = if j = l.length then .ok (some v) else b.getBit j := by
  rw [(Built.push v h hs).repr.getBit, h.repr.getBit]
  by_cases hj : j = l.length
  · subst hj; simp
  · rw [if_neg hj]
    by_cases h1 : j < l.length
    · rw [List.getElem?_append_left h1]
    · rw [List.getElem?_eq_none (by simp; omega), List.getElem?_eq_none (by omega)]

example := C45_push_bit bits_made true (b' := ⟨[8#64, 0#64, 12#64], 132⟩) rfl

/-- A vector with a gap crossing two word boundaries. -/
example : ∃ b, Built b (set (set [] 3 true) 130 true) ∧ b.getBit 130 = .ok (some true) ∧
    b.getBit 3 = .ok (some true) ∧ b.getBit 64 = .ok (some false) ∧ b.getBit 131 = .ok none :=
  ⟨_, .set 130 true (.set 3 true .new rfl) rfl, rfl, rfl, rfl, rfl⟩

/-! ### The family of bit vectors -/

def ReprFamily (s : Bitsets) (m : Nat → List Bool) : Prop :=
  ∀ k, match s[k]? with
    | some b => Repr b (m k)
    | none => m k = []

theorem reprFamily_update {s m} (h : ReprFamily s m) (id : EcsId) (f : Bitvec → Except Fault Bitvec)
    (g : List Bool → List Bool) (hf : ∀ b l, Repr b l → ∃ b', f b = .ok b' ∧ Repr b' (g l)) :
    ∃ s' : Bitsets, ((if id.uindex ≥ s.length then Bitsets.insertBitvec s id else .ok s) >>= fun s =>
      match s[id.uindex]? with
      | none => .error .indexOob
      | some bv => f bv >>= fun bv' => .ok (s.set id.uindex bv')) = .ok s' ∧
      ReprFamily s' (fun k => if k = id.uindex then g (m k) else m k) := by
  -- the grown family represents the same lists
  have grown : ∃ s1 : Bitsets, (if id.uindex ≥ s.length then Bitsets.insertBitvec s id else .ok s) = .ok s1 ∧
      id.uindex < s1.length ∧ ReprFamily s1 m := by
    by_cases hge : id.uindex ≥ s.length
    · rw [if_pos hge]
      unfold Bitsets.insertBitvec
      rw [List.getElem?_eq_none hge]
      refine ⟨_, rfl, by simp; omega, fun k => ?_⟩
      have hk := h k
      by_cases hlt : k < s.length
      · rw [List.getElem?_append_left hlt]; exact hk
      · rw [List.getElem?_eq_none (by omega)] at hk
        simp only at hk
        rw [List.getElem?_append_right (by omega), List.getElem?_replicate]
        by_cases hr : k - s.length < id.uindex + 1 - s.length
        · rw [if_pos hr]; simp only; rw [hk]; exact repr_new
        · rw [if_neg hr]; exact hk
    · rw [if_neg hge]
      exact ⟨s, rfl, by omega, h⟩
  obtain ⟨s1, h1, h2, h3⟩ := grown
  rw [h1]
  have hget := List.getElem?_eq_getElem h2
  have hr := h3 id.uindex
  rw [hget] at hr
  obtain ⟨b', hb1, hb2⟩ := hf _ _ hr
  refine ⟨s1.set id.uindex b', ?_, fun k => ?_⟩
  · show (match s1[id.uindex]? with
      | none => Except.error Fault.indexOob
      | some bv => (f bv >>= fun bv' => Except.ok (s1.set id.uindex bv'))) = _
    rw [hget]
    simp only [hb1]
    rfl
  · rw [List.getElem?_set]
    by_cases hk : id.uindex = k
    · subst hk
      simp only [if_true, h2]
      exact hb2
    · have hk' : ¬ k = id.uindex := fun h => hk h.symm
      simp only [if_neg hk, if_neg hk']
      exact h3 k

theorem BuiltFamily.repr {s m} (h : BuiltFamily s m) : ReprFamily s m := by
  induction h with
  | new => intro k; simp
  | set id i v _ h2 ih =>
    obtain ⟨s'', h3, h4⟩ := reprFamily_update ih id (fun b => b.setBit i v) (fun l => BitSpec.set l i v)
      (fun b l h => repr_set h i v)
    have : Bitsets.setBit _ id i v = .ok s'' := h3
    rw [h2] at this; cases this; exact h4
  | push id v _ h2 ih =>
    obtain ⟨s'', h3, h4⟩ := reprFamily_update ih id (fun b => b.pushBit v) (fun l => l ++ [v])
      (fun b l h => repr_push h v)
    have : Bitsets.pushBit _ id v = .ok s'' := h3
    rw [h2] at this; cases this; exact h4

private def fam : Bitsets := [⟨[], 0⟩, ⟨[1#64], 1⟩, ⟨[], 0⟩, ⟨[], 0⟩, ⟨[], 0⟩, ⟨[2#64], 2⟩]
/-- A family for the examples: bit 1 of vector 5 was set and a bit was pushed to vector 1. -/
private theorem fam_made : ∃ m, BuiltFamily fam m ∧ m 5 = [false, true] ∧ m 1 = [true] :=
  ⟨_, .push (EcsId.new 1 0) true (.set (EcsId.new 5 0) 1 true .new rfl) rfl, rfl, rfl⟩

/-- **C45** (`Bitsetsss`).  A family of vectors built by any calls holds, under every id, exactly the list the
calls describe for that id's index; an id without a vector has the empty list. -/
theorem C45_family {s m} (h : BuiltFamily s m) (id : EcsId) :
    match Bitsets.getBitvec s id with
    | some b => ∀ i, b.getBit i = .ok (m id.uindex)[i]?
    | none => m id.uindex = [] := by
  have := h.repr id.uindex
  unfold Bitsets.getBitvec
  revert this
  cases s[id.uindex]? with
  | none => exact fun h => h
  | some b => exact fun h i => h.getBit i

example {m} (h : BuiltFamily fam m) := C45_family h (EcsId.new 5 0)

/-- **C45** (`Bitsetsss`).  `set_bit` and `push_bit` on a family never panic. -/
theorem C45_family_total {s m} (h : BuiltFamily s m) (id : EcsId) (i : Nat) (v : Bool) :
    (∃ s', Bitsets.setBit s id i v = .ok s') ∧ ∃ s', Bitsets.pushBit s id v = .ok s' :=
  ⟨(reprFamily_update h.repr id (fun b => b.setBit i v) (fun l => BitSpec.set l i v)
      (fun _ _ h => repr_set h i v)).imp fun _ h => h.1,
   (reprFamily_update h.repr id (fun b => b.pushBit v) (fun l => l ++ [v])
      (fun _ _ h => repr_push h v)).imp fun _ h => h.1⟩

example {m} (h : BuiltFamily fam m) := C45_family_total h (EcsId.new 3 0) 70 true

/-- Two ids, the second one beyond the end of the family. -/
example : ∃ s m, BuiltFamily s m ∧ m 5 = [false, true] ∧ m 1 = [true] ∧ m 3 = [] :=
  ⟨_, _, .push (EcsId.new 1 0) true (.set (EcsId.new 5 0) 1 true .new rfl) rfl, rfl, rfl, rfl⟩

end Ellecs.BitSpec
