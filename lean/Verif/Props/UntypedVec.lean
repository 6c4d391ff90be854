import Verif.Proofs.UntypedVec
/-! # C38-C42, C52 and C71: `UntypedVec` -/
namespace Ellecs.VecSpec
open UVec

theorem removeAt_eq (l : List Bytes) (i : Nat) (h : i < l.length) : removeAt l i = Ellecs.swapRemove l i := by
  apply List.ext_getElem?
  intro j
  rw [getElem?_swapRemove l i j h]
  unfold removeAt
  rw [List.getElem?_take, List.getElem?_set]
  by_cases hj : j < l.length - 1
  · rw [if_pos hj, if_pos hj]
    by_cases hji : i = j
    · subst hji
      rw [if_pos rfl, if_pos h, if_pos rfl, List.getLast?_eq_getElem?]
      have : l.length - 1 < l.length := by omega
      simp [List.getElem?_eq_getElem this]
    · rw [if_neg hji, if_neg (fun hx => hji hx.symm)]
  · rw [if_neg hj, if_neg hj]

theorem Hist.inv {v l p} (h : Hist v l p) :
    UVec.Inv v ∧ v.elems = l ∧ l.length ≤ p ∧ v.cap ≤ max 4 (2 * p) * v.size := by
  have grow : ∀ {v v' : UVec} {p n : Nat}, v.cap ≤ max 4 (2 * p) * v.size → CapStep v v' → v.count = n →
      v'.cap ≤ max 4 (2 * max p (n + 1)) * v.size := by
    intro v v' p n hb hs hn
    have hmono : max 4 (2 * p) ≤ max 4 (2 * max p (n + 1)) := by omega
    have hb' := Nat.le_trans hb (Nat.mul_le_mul_right v.size hmono)
    rcases hs with hs | ⟨hs1, hs2⟩
    · omega
    · rw [hs2]
      split
      · have : 4 ≤ max 4 (2 * max p (n + 1)) := by omega
        have := Nat.mul_le_mul_right v.size this
        omega
      · have h1 : 2 * (n + 1) ≤ max 4 (2 * max p (n + 1)) := by omega
        have := Nat.mul_le_mul_right v.size h1
        rw [Nat.mul_assoc] at this
        rw [hn] at hs1
        omega
  induction h with
  | new info => exact ⟨inv_newFromRaw _, elems_newFromRaw _, Nat.le_refl _, by simp [newFromRaw]⟩
  | newFrom _ _ => exact ⟨inv_newFromRaw _, elems_newFromRaw _, Nat.le_refl _, by simp [newFromUntypedVec, newFromRaw]⟩
  | push src _ hs he ih =>
    obtain ⟨i1, i2, i3, i4⟩ := ih
    rcases pushRaw_spec i1 src hs with ⟨f, e, _⟩ | ⟨v', e, j1, j2, j3, j4⟩
    · rw [he] at e; cases e
    · rw [he] at e; cases e
      refine ⟨j1, by rw [j3, i2], by simp; omega, ?_⟩
      have := grow i4 j4 (by rw [← length_elems, i2])
      unfold UVec.size at this ⊢
      rw [j2]; exact this
  | @pop v v' l p b evs _ he ih =>
    obtain ⟨i1, i2, i3, i4⟩ := ih
    cases hl : l.getLast? with
    | some x =>
      rw [← i2] at hl
      rw [pop_spec i1 hl] at he
      cases he
      exact ⟨popped_inv i1, by rw [popped_elems i1, i2], by simp; omega, i4⟩
    | none =>
      rw [List.getLast?_eq_none_iff] at hl
      subst hl
      by_cases hz : v.size = 0
      · have hc : v.len = 0 := by rw [← count_zst hz, ← length_elems, i2]; rfl
        unfold UVec.pop at he
        rw [if_neg (by omega), if_pos (by omega)] at he
        have hv : ({ v with len := v.len - v.size } : UVec) = v := by rw [hz, Nat.sub_zero]
        simp only [hv] at he
        split at he
        · cases he
        · cases he
          exact ⟨i1, i2, i3, i4⟩
      · rw [pop_empty i1 hz i2] at he
        cases he
        exact ⟨i1, i2, i3, i4⟩
  | @swapRemove v v' l p evs i _ he ih =>
    obtain ⟨i1, i2, i3, i4⟩ := ih
    by_cases hc : i < v.count
    · obtain ⟨v'', e, j1, j2, j3, j4⟩ := swapRemove_spec i1 hc
      rw [he] at e; cases e
      have hl : i < l.length := by rw [← i2, length_elems]; exact hc
      refine ⟨j1, by rw [j3, i2, removeAt_eq _ _ hl], ?_, ?_⟩
      · rw [removeAt_eq _ _ hl, length_swapRemove]; omega
      · unfold UVec.size at i4 ⊢; rw [j4, j2]; exact i4
    · rw [swapRemove_oob (by omega)] at he; cases he
  | @moveOut v v' o o' l lo p po i _ _ hl he ih iho =>
    obtain ⟨i1, i2, i3, i4⟩ := ih
    obtain ⟨o1, o2, o3, o4⟩ := iho
    have hlay : v.info.layout = o.info.layout := by
      by_cases h : v.info.layout = o.info.layout
      · exact h
      · unfold swapMove at he; rw [if_pos h] at he; cases he
    rcases swapMove_spec i1 o1 hlay (i := i) (by rw [← length_elems, i2]; exact hl) with ⟨f, e, _⟩ |
      ⟨v'', o'', e, j1, j2, j3, j4, _⟩
    · rw [he] at e; cases e
    · rw [he] at e; cases e
      refine ⟨j1, by rw [j3, i2, removeAt_eq _ _ hl], ?_, ?_⟩
      · rw [removeAt_eq _ _ hl, length_swapRemove]; omega
      · unfold UVec.size at i4 ⊢; rw [j4, j2]; exact i4
  | @moveIn v v' o o' l lo p po i x _ _ hl he ih iho =>
    obtain ⟨i1, i2, i3, i4⟩ := ih
    obtain ⟨o1, o2, o3, o4⟩ := iho
    have hlay : v.info.layout = o.info.layout := by
      by_cases h : v.info.layout = o.info.layout
      · exact h
      · unfold swapMove at he; rw [if_pos h] at he; cases he
    have hlt : i < v.count := by
      rw [← i2, getElem?_elems] at hl
      by_cases h : i < v.count
      · exact h
      · rw [if_neg h] at hl; cases hl
    rcases swapMove_spec i1 o1 hlay hlt with ⟨f, e, _⟩ | ⟨v'', o'', e, _, _, _, _, j1, j2, j3, j4⟩
    · rw [he] at e; cases e
    · rw [he] at e; cases e
      have hx : v.elem i = x := by
        rw [← i2, getElem?_elems, if_pos hlt] at hl; cases hl; rfl
      refine ⟨j1, by rw [j3, o2, hx], by simp; omega, ?_⟩
      have := grow o4 j4 (by rw [← length_elems, o2])
      unfold UVec.size at this ⊢
      rw [j2]; exact this
  | @write v l p i off bs _ hg hb ih =>
    obtain ⟨i1, i2, i3, i4⟩ := ih
    rw [getRaw_eq i1] at hg
    by_cases hc : i < v.count
    · rw [if_pos hc] at hg
      cases hg
      obtain ⟨j1, j2⟩ := write_spec i1 hc bs hb
      exact ⟨j1, by rw [j2, i2], by simpa using i3, i4⟩
    · rw [if_neg hc] at hg; cases hg
  | @realloc v v' l p _ he ih =>
    obtain ⟨i1, i2, i3, i4⟩ := ih
    by_cases hz : v.size = 0
    · rw [realloc_zst hz] at he; cases he
    · rcases realloc_spec i1 hz with ⟨f, e, _⟩ | ⟨v1, e, j1, j2, j3, j4, _, j6⟩
      · rw [he] at e; cases e
      · rw [he] at e; cases e
        have hs : v'.size = v.size := by unfold UVec.size; rw [j2]
        refine ⟨j1, by rw [elems_extended i1 j2 j3 j4, i2], by omega, ?_⟩
        rw [hs, j6]
        split
        · have := Nat.mul_le_mul_right v.size (show 4 ≤ max 4 (2 * max p (v.cap / v.size)) by omega)
          omega
        · have hd : v.size ∣ v.cap := by
            rcases i1.block with h | ⟨_, _, k, hk⟩
            · rw [h.1]; exact Nat.dvd_zero _
            · rw [hk, Nat.mul_assoc]; exact Nat.dvd_mul_right _ _
          have h1 := Nat.div_mul_cancel hd
          have := Nat.mul_le_mul_right v.size (show 2 * (v.cap / v.size) ≤ max 4 (2 * max p (v.cap / v.size)) by omega)
          rw [Nat.mul_assoc, h1] at this
          omega

/-! ## A vec for the examples -/

private def info2 : TypeInfo := ⟨⟨2, 1⟩, some (.custom 7)⟩
private def b1 (n : Nat) : Bytes := [some (BitVec.ofNat 8 n), none]

/-- Three values of two bytes were pushed; the block has room for a fourth. -/
private def vec3 : UVec := ⟨info2, some ⟨8, 1⟩, b1 1 ++ b1 2 ++ b1 3 ++ [none, none], 8, 6⟩
private theorem vec3_made : Hist vec3 [b1 1, b1 2, b1 3] 3 :=
  .push (b1 3) (.push (b1 2) (.push (b1 1) (.new info2) (Nat.le_refl 2) rfl) (Nat.le_refl 2) rfl) (Nat.le_refl 2) rfl

/-- Two values without a size, of alignment four. -/
private def vecZ : UVec := ⟨⟨⟨0, 2⟩, some (.custom 8)⟩, none, [], 0, 2⟩
private theorem vecZ_made : Hist vecZ [[], []] 2 :=
  .push [] (.push [] (.new ⟨⟨0, 2⟩, some (.custom 8)⟩) (Nat.le_refl 0) rfl) (Nat.le_refl 0) rfl

/-! ## C38 -/

/-- **C38**.  After any calls the vec shows exactly the list the calls describe: its length, its emptiness, where
`get_raw` points, and what is stored there. -/
theorem C38_observe {v l p} (h : Hist v l p) :
    v.lenElems = .ok l.length ∧ v.isEmpty = decide (l = []) ∧
    (∀ i, v.getRaw i = .ok (if i < l.length then some (i * v.size) else none)) ∧
    ∀ i x, l[i]? = some x → v.read (i * v.size) v.size = .ok x := by
  obtain ⟨i1, i2, _, _⟩ := h.inv
  have hc : v.count = l.length := by rw [← i2, length_elems]
  refine ⟨by rw [lenElems_eq i1, hc], ?_, fun i => by rw [getRaw_eq i1, hc], fun i x hx => ?_⟩
  · rw [isEmpty_eq i1, hc, Bool.eq_iff_iff]
    simp only [decide_eq_true_eq]; exact List.length_eq_zero_iff
  · rw [← i2, getElem?_elems] at hx
    by_cases h : i < v.count
    · rw [if_pos h] at hx; cases hx; exact read_elem i1 h
    · rw [if_neg h] at hx; cases hx

example := C38_observe vec3_made

/-- **C38**.  `push` appends (the call succeeds unless an allocator limit is reached). -/
theorem C38_push {v l p} (h : Hist v l p) (src : Bytes) (hs : src.length = v.size) (hr : Roomy v) :
    ∃ v' p', v.pushRaw src = .ok v' ∧ Hist v' (l ++ [src]) p' := by
  obtain ⟨v', e, _⟩ := pushRaw_ok h.inv.1 src (by omega) hr
  have := Hist.push src h (by omega) e
  rw [List.take_of_length_le (by omega)] at this
  exact ⟨v', _, e, this⟩

example := C38_push vec3_made (b1 4) rfl ⟨by decide, by decide⟩

/-- **C38**.  `pop` removes the last element, returns `true` and drops exactly that element. -/
theorem C38_pop {v l x p} (h : Hist v (l ++ [x]) p) :
    ∃ v', v.pop = .ok (true, v', dropEvs v.info [x]) ∧ Hist v' l p := by
  obtain ⟨i1, i2, _, _⟩ := h.inv
  have e := pop_spec i1 (x := x) (by rw [i2]; simp)
  refine ⟨_, e, ?_⟩
  have := Hist.pop h e
  rwa [List.dropLast_concat] at this

example := C38_pop (l := [b1 1, b1 2]) vec3_made

/-- **C38**.  `swap_remove(i)` replaces element `i` by the last one and drops exactly element `i`; out of range
it panics. -/
theorem C38_swap_remove {v l p} (h : Hist v l p) (i : Nat) :
    match l[i]? with
    | some x => ∃ v', v.swapRemove i = .ok (v', dropEvs v.info [x]) ∧ Hist v' (removeAt l i) p
    | none => v.swapRemove i = .error .vecAssert := by
  obtain ⟨i1, i2, _, _⟩ := h.inv
  have hc : v.count = l.length := by rw [← i2, length_elems]
  by_cases hi : i < v.count
  · have hx : l[i]? = some (v.elem i) := by rw [← i2, getElem?_elems, if_pos hi]
    rw [hx]
    obtain ⟨v', e, _⟩ := swapRemove_spec i1 hi
    exact ⟨v', e, Hist.swapRemove i h e⟩
  · rw [List.getElem?_eq_none (by omega)]
    exact swapRemove_oob (by omega)

example := C38_swap_remove vec3_made 0

/-- **C38**.  Moving element `i` to another vec of the same layout appends it there and swap-removes it here,
without dropping anything. -/
theorem C38_swap_move {v o l lo p po} (h : Hist v l p) (ho : Hist o lo po) (hlay : v.info.layout = o.info.layout)
    (i : Nat) (x : Bytes) (hx : l[i]? = some x) (hr : Roomy o) :
    ∃ v' o' po', v.swapMove o i = .ok (v', o') ∧ Hist v' (removeAt l i) p ∧ Hist o' (lo ++ [x]) po' := by
  obtain ⟨i1, i2, _, _⟩ := h.inv
  obtain ⟨o1, o2, _, _⟩ := ho.inv
  have hl : i < l.length := by
    by_cases h' : i < l.length
    · exact h'
    · rw [List.getElem?_eq_none (by omega)] at hx; cases hx
  rcases swapMove_spec i1 o1 hlay (i := i) (by rw [← length_elems, i2]; exact hl) with ⟨f, _, _, hn⟩ | ⟨v', o', e, _⟩
  · exact absurd hr hn
  · exact ⟨v', o', _, e, Hist.moveOut i h ho hl e, Hist.moveIn i x h ho hx e⟩

example := C38_swap_move vec3_made vec3_made rfl 0 (b1 1) rfl ⟨by decide, by decide⟩

/-- **C38**.  A write through the pointer returned by `get_mut_raw(i)` replaces element `i` only. -/
theorem C38_write {v l p} (h : Hist v l p) (i : Nat) (bs : Bytes) (hi : i < l.length) (hb : bs.length = v.size) :
    Hist { v with mem := writeAt v.mem (i * v.size) bs } (l.set i bs) p := by
  have := (C38_observe h).2.2.1 i
  rw [if_pos hi] at this
  exact Hist.write i _ bs h this hb

example := C38_write vec3_made 1 (b1 9) (by decide) rfl

/-- **C38**.  `realloc` doubles the block (the first one has room for four elements) and changes nothing else; for zero
sized elements it panics. -/
theorem C38_realloc {v l p} (h : Hist v l p) :
    if v.size = 0 then v.realloc = .error .reallocZst
    else Roomy v → ∃ v' p', v.realloc = .ok v' ∧ Hist v' l p' ∧ v'.info = v.info ∧ v'.cap = if v.cap = 0 then 4 * v.size else 2 * v.cap := by
  by_cases hz : v.size = 0
  · rw [if_pos hz]; exact realloc_zst hz
  · rw [if_neg hz]
    intro hr
    rcases realloc_spec h.inv.1 hz with ⟨f, _, _, hf⟩ | ⟨v', e, _, j2, _, _, _, j6⟩
    · exact absurd hr hf
    · refine ⟨v', _, e, .realloc h e, j2, ?_⟩
      rw [j6, Nat.mul_comm v.size, Nat.mul_comm v.cap]

example := C38_realloc vec3_made

/-- Three two-byte values; the middle one is swap-removed. -/
example : ∃ v p, Hist v [b1 1, b1 3] p ∧ v.size = 2 :=
  ⟨_, _, .swapRemove 1 (.push (b1 3) (.push (b1 2) (.push (b1 1) (.new info2) (Nat.le_refl 2) rfl)
    (Nat.le_refl 2) rfl) (Nat.le_refl 2) rfl) rfl, rfl⟩

/-- Zero sized elements are counted. -/
example : ∃ v p, Hist v [[], []] p ∧ v.size = 0 :=
  ⟨_, _, .push [] (.push [] (.new ⟨⟨0, 0⟩, none⟩) (Nat.le_refl 0) rfl) (Nat.le_refl 0) rfl, rfl⟩

/-! ## C39 -/

/-- The result is not undefined behaviour. -/
def NoUb {α : Type} (r : Except Fault α) : Prop := ∀ u, r ≠ .error (.ub u)

theorem noUb_ok {α : Type} (x : α) : NoUb (.ok x : Except Fault α) := fun u h => by cases h

theorem noUb_limit {α : Type} {r : Except Fault α} {f : Fault} (h : r = .error f)
    (hf : f = .arith ∨ f = .layoutErr ∨ f = .capAssert) : NoUb r := by
  intro u hu
  rw [h] at hu
  cases hu
  rcases hf with hf | hf | hf <;> cases hf

/-- **C39**.  The byte length is a multiple of the element size, at most the capacity, and the capacity is the
size of the block. -/
theorem C39_bounds {v l p} (h : Hist v l p) :
    v.mem.length = v.cap ∧ (v.size ≠ 0 → v.size ∣ v.len ∧ v.len ≤ v.cap) ∧
    (match v.data with | none => v.cap = 0 | some lay => lay = ⟨v.cap, v.info.layout.alignLog⟩) := by
  have i1 := h.inv.1
  refine ⟨i1.mem, fun hz => ⟨i1.mult hz, i1.le hz⟩, ?_⟩
  rcases i1.block with ⟨h1, h2⟩ | ⟨_, h1, _⟩
  · rw [h2]; exact h1
  · rw [h1]

example := C39_bounds vec3_made

/-- **C39**.  No operation of a vec with any history accesses memory outside its block: every access in the model
is checked against the block and none of the checks fails. -/
theorem C39_no_oob {v l p} (h : Hist v l p) :
    (∀ src : Bytes, v.size ≤ src.length → NoUb (v.pushRaw src)) ∧
    NoUb v.pop ∧ (∀ i, NoUb (v.swapRemove i)) ∧
    (∀ o lo po i, Hist o lo po → NoUb (v.swapMove o i)) ∧
    (∀ t, NoUb (v.asSlice t)) ∧ NoUb v.drop ∧ NoUb v.realloc ∧
    ∀ i off, v.getRaw i = .ok (some off) → off + v.size ≤ v.mem.length := by
  obtain ⟨i1, i2, _, _⟩ := h.inv
  refine ⟨fun src hs => ?_, ?_, fun i => ?_, fun o lo po i ho => ?_, fun t => ?_, ?_, ?_, fun i off hg => ?_⟩
  · rcases pushRaw_spec i1 src hs with ⟨f, e, hf, _⟩ | ⟨v', e, _⟩
    · exact noUb_limit e hf
    · rw [e]; exact noUb_ok _
  · cases hl : v.elems.getLast? with
    | some x => rw [pop_spec i1 hl]; exact noUb_ok _
    | none =>
      rw [List.getLast?_eq_none_iff] at hl
      by_cases hz : v.size = 0
      · have hc : v.len = 0 := by rw [← count_zst hz, ← length_elems, hl]; rfl
        unfold UVec.pop
        rw [if_neg (by omega), if_pos (by omega)]
        simp only
        rw [callDrop_eq (v := { v with len := v.len - v.size })
          (by show v.len - v.size + v.size ≤ _; omega)]
        exact noUb_ok _
      · rw [pop_empty i1 hz hl]; exact noUb_ok _
  · by_cases hc : i < v.count
    · obtain ⟨v', e, _⟩ := swapRemove_spec i1 hc
      rw [e]; exact noUb_ok _
    · rw [swapRemove_oob (by omega)]; intro u hu; cases hu
  · have o1 := ho.inv.1
    by_cases hlay : v.info.layout = o.info.layout
    · by_cases hc : i < v.count
      · rcases swapMove_spec i1 o1 hlay hc with ⟨f, e, hf, _⟩ | ⟨v', o', e, _⟩
        · exact noUb_limit e hf
        · rw [e]; exact noUb_ok _
      · unfold UVec.swapMove
        rw [if_neg (by simpa using hlay)]
        by_cases h0 : ¬ v.len > 0
        · rw [if_pos h0]; intro u hu; cases hu
        · rw [if_neg h0]
          by_cases hz : v.size = 0
          · rw [if_neg (by intro hx; exact hx (.inl hz)), if_pos hz]; exact noUb_ok _
          · rw [if_pos (by
              have : v.len / v.size = v.count := by unfold count; rw [if_neg hz]
              rw [this]
              rintro (hx | hx)
              · exact hz hx
              · exact hc hx)]
            intro u hu; cases hu
    · unfold UVec.swapMove
      rw [if_pos hlay]; intro u hu; cases hu
  · by_cases ht : v.info.layout = t
    · subst ht
      by_cases hz : v.size = 0
      · unfold UVec.asSlice; rw [if_neg (by simp), if_pos hz]; intro u hu; cases hu
      · rw [asSlice_eq i1 hz]; exact noUb_ok _
    · unfold UVec.asSlice; rw [if_pos ht]; intro u hu; cases hu
  · by_cases hz : v.size = 0
    · rw [drop_zst i1 hz]; exact noUb_ok _
    · rw [drop_spec i1 hz]; exact noUb_ok _
  · by_cases hz : v.size = 0
    · rw [realloc_zst hz]; intro u hu; cases hu
    · rcases realloc_spec i1 hz with ⟨f, e, hf, _⟩ | ⟨v', e, _⟩
      · exact noUb_limit e hf
      · rw [e]; exact noUb_ok _
  · rw [getRaw_eq i1] at hg
    by_cases hc : i < v.count
    · rw [if_pos hc] at hg; cases hg; exact elem_bound i1 hc
    · rw [if_neg hc] at hg; cases hg

example := C39_no_oob vec3_made

/-- **C39**.  Dropping the vec frees the block it owns (if it owns one) with the layout it was allocated with. -/
theorem C39_dealloc {v l p} (h : Hist v l p) : ∃ evs, v.drop = .ok (evs, v.data) := by
  have i1 := h.inv.1
  by_cases hz : v.size = 0
  · refine ⟨[], ?_⟩
    rw [drop_zst i1 hz, data_zst i1 hz]
  · exact ⟨_, drop_spec i1 hz⟩

example := C39_dealloc vec3_made

/-- **C39**.  Dropping the vec drops every (non zero sized) element once. -/
theorem C39_drop_elements {v l p} (h : Hist v l p) (hz : v.size ≠ 0) :
    v.drop = .ok (dropEvs v.info l.reverse, v.data) := by
  rw [drop_spec h.inv.1 hz, h.inv.2.1]

example := C39_drop_elements vec3_made (by decide)

/-! ## C40 -/

/-- **C40** for element types that are not zero sized.  Missing: zero sized elements, for which the claim is
false (`C40_zst_pop_violated`). -/
theorem C40_pop_empty_partial {v p} (h : Hist v [] p) (hz : v.size ≠ 0) : v.pop = .ok (false, v, []) :=
  pop_empty h.inv.1 hz h.inv.2.1

example : ∃ p, Hist (.newFromRaw info2) [] p ∧ info2.layout.size ≠ 0 := ⟨0, .new _, by decide⟩

/-- **C40**, what the code does instead: `pop` on an empty vec of zero sized elements always returns `true` and
calls the drop function on a value that was never pushed. -/
theorem C40_zst_pop_violated {v p} (h : Hist v [] p) (hz : v.size = 0) : v.pop = .ok (true, v, dropEvs v.info [[]]) := by
  obtain ⟨i1, i2, _, _⟩ := h.inv
  have hc : v.len = 0 := by rw [← count_zst hz, ← length_elems, i2]; rfl
  unfold UVec.pop
  rw [if_neg (by omega), if_pos (by omega)]
  have hv : ({ v with len := v.len - v.size } : UVec) = v := by rw [hz, Nat.sub_zero]
  simp only [hv]
  rw [callDrop_eq (by rw [hc, hz]; omega), hz, readAt_zero]

example := C40_zst_pop_violated (.new ⟨⟨0, 2⟩, some (.custom 8)⟩) rfl

/-- The property as stated fails: a witness with a logged drop. -/
theorem C40_violated : ∃ v p, Hist v [] p ∧ v.pop ≠ .ok (false, v, []) :=
  ⟨.newFromRaw ⟨⟨0, 0⟩, some (.custom 1)⟩, 0, .new _, by
    rw [C40_zst_pop_violated (.new _) rfl]; intro h; cases h⟩

/-! ## C41 -/

/-- **C41** for element types that are not zero sized.  Missing: zero sized elements (`C41_zst_panics`). -/
theorem C41_as_slice_partial {v l p} (h : Hist v l p) (hz : v.size ≠ 0) : v.asSlice v.info.layout = .ok l := by
  rw [asSlice_eq h.inv.1 hz, h.inv.2.1]

example := C41_as_slice_partial vec3_made (by decide)

/-- **C41**, what the code does instead: `as_slice` of every vec of zero sized elements panics (remainder by
zero). -/
theorem C41_zst_panics {v l p} (_ : Hist v l p) (hz : v.size = 0) : v.asSlice v.info.layout = .error .arith := by
  unfold UVec.asSlice; rw [if_neg (by simp), if_pos hz]

example := C41_zst_panics vecZ_made rfl

/-! ## C42 -/

/-- **C42** for element types that are not zero sized and whose size is a multiple of the alignment (true of every
Rust type).  Missing: zero sized types with alignment above 1 and hand made layouts. -/
theorem C42_aligned_partial {v l p base} (h : Hist v l p) (hz : v.size ≠ 0) (hd : v.info.layout.align ∣ v.size)
    (hb : Aligned base v) (i off : Nat) (hg : v.getRaw i = .ok (some off)) :
    v.info.layout.align ∣ addr base v off := by
  have i1 := h.inv.1
  rw [getRaw_eq i1] at hg
  by_cases hc : i < v.count
  · rw [if_pos hc] at hg
    cases hg
    have hoff : v.info.layout.align ∣ i * v.size := Nat.dvd_trans hd (Nat.dvd_mul_left _ _)
    rcases i1.block with ⟨h1, _⟩ | ⟨_, h1, _⟩
    · have := elem_bound i1 hc
      rw [i1.mem, h1] at this; omega
    · unfold Aligned at hb; rw [h1] at hb
      unfold addr; rw [h1]
      exact Nat.dvd_add hb hoff
  · rw [if_neg hc] at hg; cases hg

example := C42_aligned_partial vec3_made (base := 64) (by decide) ⟨1, rfl⟩ ⟨32, rfl⟩ 2 4 rfl

/-- The alignment of zero sized types is respected when it is 1. -/
theorem C42_zst_align_one_partial {v base} (h : v.info.layout.alignLog = 0) (off : Nat) :
    v.info.layout.align ∣ addr base v off := by
  unfold Layout.align; rw [h]; exact Nat.one_dvd _

example := C42_zst_align_one_partial (v := ⟨⟨⟨0, 0⟩, none⟩, none, [], 0, 3⟩) (base := 0) rfl 0

/-- **C42** is violated by every zero sized type with alignment above 1: `get_raw` returns address 1. -/
theorem C42_zst_misaligned {v l p base} (h : Hist v l p) (hz : v.size = 0) (ha : v.info.layout.alignLog ≠ 0)
    (i off : Nat) (hg : v.getRaw i = .ok (some off)) : ¬ v.info.layout.align ∣ addr base v off := by
  have i1 := h.inv.1
  rw [getRaw_eq i1] at hg
  have ho : off = 0 := by
    split at hg
    · cases hg; rw [hz, Nat.mul_zero]
    · cases hg
  subst ho
  have hd : v.data = none := data_zst i1 hz
  unfold addr; rw [hd]
  intro hx
  have : v.info.layout.align = 1 := Nat.dvd_one.1 hx
  unfold Layout.align at this
  have h0 : v.info.layout.alignLog.val ≠ 0 := fun h' => ha (Fin.ext h')
  have := Nat.one_lt_two_pow h0
  omega

example := C42_zst_misaligned vecZ_made (base := 0) rfl (by decide) 1 0 rfl

/-- The hypotheses of `C42_zst_misaligned` are met: one pushed `[u32; 0]`. -/
example : ∃ v p, Hist v [[]] p ∧ v.size = 0 ∧ v.info.layout.align = 4 ∧ v.getRaw 0 = .ok (some 0) :=
  ⟨_, _, .push [] (.new ⟨⟨0, 2⟩, none⟩) (Nat.le_refl 0) rfl, rfl, rfl, rfl⟩

/-- **C42** is violated by a hand made layout (`ComponentMeta::from_size_align(6, 4)`): the second element of an
aligned block is misaligned. -/
theorem C42_unpadded_misaligned : ∃ v l p, Hist v l p ∧ v.info.layout = ⟨6, 2⟩ ∧ v.getRaw 1 = .ok (some 6) ∧
    ∀ base, Aligned base v → ¬ v.info.layout.align ∣ addr base v 6 := by
  refine ⟨_, _, _, .push (List.replicate 6 none) (.push (List.replicate 6 none) (.new ⟨⟨6, 2⟩, none⟩)
    (Nat.le_refl 6) rfl) (Nat.le_refl 6) rfl, rfl, rfl, ?_⟩
  intro base hb
  have hb' : 4 ∣ base := hb
  show ¬ 4 ∣ base + 6
  omega

/-- The base pointer `as_slice` hands to `from_raw_parts` is aligned once the vec has a block.  Missing: vecs without one. -/
theorem C42_slice_aligned_partial {v l p base} (h : Hist v l p) (hz : v.size ≠ 0) (hl : l ≠ []) (hb : Aligned base v) :
    v.info.layout.align ∣ addr base v 0 := by
  have i1 := h.inv.1
  have h2 : v.elems = l := h.inv.2.1
  rcases i1.block with ⟨h1, _⟩ | ⟨_, h1, _⟩
  · exfalso
    have hc : 0 < v.count := by
      rw [← UVec.length_elems, h2]
      exact List.length_pos_iff.2 hl
    have := elem_bound i1 hc
    rw [i1.mem, h1] at this; omega
  · unfold Aligned at hb; rw [h1] at hb
    unfold addr; rw [h1]
    exact hb

example := C42_slice_aligned_partial vec3_made (base := 64) (by decide) (by decide) ⟨32, rfl⟩

/-- **C42**: `as_slice` of a vec that never had an element returns an empty slice whose address is 1, so it is misaligned
for every element type with alignment above 1 (`from_raw_parts` requires alignment for empty slices too). -/
theorem C42_empty_slice_misaligned (info : TypeInfo) (hz : info.layout.size ≠ 0) (ha : info.layout.alignLog ≠ 0) (base : Nat) :
    Hist (.newFromRaw info) [] 0 ∧ (UVec.newFromRaw info).asSlice info.layout = .ok [] ∧ ¬ info.layout.align ∣ addr base (.newFromRaw info) 0 := by
  refine ⟨.new _, C41_as_slice_partial (.new info) hz, ?_⟩
  intro hx
  have : info.layout.align = 1 := Nat.dvd_one.1 hx
  unfold Layout.align at this
  have h0 : info.layout.alignLog.val ≠ 0 := fun h' => ha (Fin.ext h')
  have := Nat.one_lt_two_pow h0
  omega

/-- `UntypedVec` of `u32`. -/
example : ¬ (⟨⟨4, 2⟩, none⟩ : TypeInfo).layout.align ∣ addr 0 (.newFromRaw ⟨⟨4, 2⟩, none⟩) 0 :=
  (C42_empty_slice_misaligned ⟨⟨4, 2⟩, none⟩ (by decide) (by decide) 0).2.2

/-! ## C52 -/

/-- **C52**.  The capacity is 0 or four elements doubled some number of times, and a vec that never held more than
`peak` elements has room for at most `max 4 (2 * peak)`. -/
theorem C52_growth {v l p} (h : Hist v l p) :
    (v.cap = 0 ∨ ∃ k, v.cap = v.size * 4 * 2 ^ k) ∧ v.cap ≤ max 4 (2 * p) * v.size := by
  obtain ⟨i1, _, _, i4⟩ := h.inv
  refine ⟨?_, i4⟩
  rcases i1.block with h | h
  · exact .inl h.1
  · exact .inr h.2.2

example := C52_growth vec3_made

/-- The ghost `peak` is at least the current length, so the bound cannot be met by understating it. -/
theorem C52_peak {v l p} (h : Hist v l p) : l.length ≤ p := h.inv.2.2.1

example := C52_peak vec3_made

/-- `realloc` called by hand: room for eight elements after one push. -/
example : ∃ v l p, Hist v l p ∧ l = [b1 1] ∧ v.cap = 8 * v.size ∧ p = 4 :=
  ⟨_, _, _, .realloc (.push (b1 1) (.new info2) (Nat.le_refl 2) rfl) rfl, rfl, rfl, rfl⟩

/-- Five elements need a second block: capacity 8 elements. -/
example : ∃ v l p, Hist v l p ∧ p = 5 ∧ v.cap = 8 * v.size ∧ v.size = 2 :=
  ⟨_, _, _, .push (b1 5) (.push (b1 4) (.push (b1 3) (.push (b1 2) (.push (b1 1) (.new info2) (Nat.le_refl 2) rfl)
    (Nat.le_refl 2) rfl) (Nat.le_refl 2) rfl) (Nat.le_refl 2) rfl) (Nat.le_refl 2) rfl, rfl, rfl, rfl⟩

/-! ## C71 -/

theorem pushRaw_fits {v v' : UVec} {src : Bytes} (h : v.pushRaw src = .ok v') : v'.info = v.info ∧ (4 * v.size < isizeMax → v.cap < isizeMax → v'.cap < isizeMax) := by
  unfold pushRaw at h
  split at h
  · cases h; exact ⟨rfl, fun _ h => h⟩
  · have hr : ∀ u, (if v.len + v.size > v.cap then v.realloc else .ok v) = .ok u → u.info = v.info ∧ (4 * v.size < isizeMax → v.cap < isizeMax → u.cap < isizeMax) := by
      intro u hu
      split at hu
      · unfold realloc at hu
        split at hu
        · cases hu
        · split at hu
          · simp only at hu
            split at hu
            · cases hu
            · split at hu
              · cases hu; exact ⟨rfl, fun h1 _ => by show v.size * 4 < _; omega⟩
              · cases hu
          · simp only at hu
            split at hu
            · cases hu
            · split at hu
              · rename_i h1
                split at hu
                · split at hu
                  · cases hu; exact ⟨rfl, fun _ _ => h1⟩
                  · cases hu
                · cases hu
              · cases hu
      · cases hu; exact ⟨rfl, fun _ h => h⟩
    simp only at h
    cases hu : (if v.len + v.size > v.cap then v.realloc else .ok v) with
    | error f => rw [hu] at h; cases h
    | ok u =>
      rw [hu] at h
      simp only at h
      split at h
      · cases h
      · split at h
        · cases h
        · cases h; exact hr u hu

theorem pop_fits {v v' : UVec} {b : Bool} {evs : List DropEv} (h : v.pop = .ok (b, v', evs)) : v'.info = v.info ∧ v'.cap = v.cap := by
  unfold UVec.pop at h
  split at h
  · simp only at h
    split at h
    · cases h
    · cases h; exact ⟨rfl, rfl⟩
  · split at h
    · simp only at h
      split at h
      · cases h
      · cases h; exact ⟨rfl, rfl⟩
    · cases h; exact ⟨rfl, rfl⟩

theorem swapRemove_fits {v v' : UVec} {i : Nat} {evs : List DropEv} (h : v.swapRemove i = .ok (v', evs)) : v'.info = v.info ∧ v'.cap = v.cap := by
  unfold UVec.swapRemove at h
  split at h
  · cases h
  split at h
  · cases h
  split at h
  · split at h
    · split at h
      · cases h
      · rename_i hp; cases h; exact pop_fits hp
    · cases h
  · split at h
    · cases h
    simp only at h
    split at h
    · split at h
      · cases h
      · rename_i hp; cases h; have := pop_fits hp; exact this
    · cases h

theorem swapMove_fits {v o v' o' : UVec} {i : Nat} (h : v.swapMove o i = .ok (v', o')) :
    v'.info = v.info ∧ v'.cap = v.cap ∧ o'.info = o.info ∧ (4 * o.size < isizeMax → o.cap < isizeMax → o'.cap < isizeMax) := by
  unfold UVec.swapMove at h
  split at h
  · cases h
  split at h
  · cases h
  split at h
  · cases h
  split at h
  · cases h; exact ⟨rfl, rfl, rfl, fun _ h => h⟩
  split at h
  · split at h
    · cases h
    · split at h
      · cases h
      · rename_i hp; cases h; exact ⟨rfl, rfl, pushRaw_fits hp⟩
  · split at h
    · cases h
    simp only at h
    split at h
    · split at h
      · cases h
      · split at h
        · cases h
        · rename_i hp; cases h; exact ⟨rfl, rfl, pushRaw_fits hp⟩
    · cases h

theorem hist_cap {v l p} (h : Hist v l p) : 4 * v.size < isizeMax → v.cap < isizeMax := by
  have size_of : ∀ {v v' : UVec}, v'.info = v.info → v'.size = v.size := fun h => by unfold UVec.size; rw [h]
  induction h with
  | new info => intro _; show 0 < isizeMax; unfold isizeMax; decide
  | newFrom _ _ => intro _; show 0 < isizeMax; unfold isizeMax; decide
  | push src _ _ he ih => intro h; obtain ⟨h1, h2⟩ := pushRaw_fits he; rw [size_of h1] at h; exact h2 h (ih h)
  | pop _ he ih => intro h; obtain ⟨h1, h2⟩ := pop_fits he; rw [size_of h1] at h; rw [h2]; exact ih h
  | swapRemove i _ he ih => intro h; obtain ⟨h1, h2⟩ := swapRemove_fits he; rw [size_of h1] at h; rw [h2]; exact ih h
  | moveOut i _ _ _ he ih _ => intro h; obtain ⟨h1, h2, _⟩ := swapMove_fits he; rw [size_of h1] at h; rw [h2]; exact ih h
  | moveIn i x _ _ _ he _ ih => intro h; obtain ⟨_, _, h1, h2⟩ := swapMove_fits he; rw [size_of h1] at h; exact h2 h (ih h)
  | write i off bs _ _ _ ih => exact ih
  | @realloc v v' l p h0 he ih =>
    intro h
    by_cases hz : v.size = 0
    · rw [realloc_zst hz] at he; cases he
    · rcases realloc_spec h0.inv.1 hz with ⟨f, e, _⟩ | ⟨v1, e, _, j2, _, _, _, j6⟩
      · rw [he] at e; cases e
      · rw [he] at e; cases e
        rw [size_of j2] at h
        rw [j6]
        split
        · omega
        · rename_i hc
          unfold UVec.realloc at he
          rw [if_neg hz] at he
          simp only [if_neg hc] at he
          split at he
          · cases he
          · split at he
            · assumption
            · cases he

/-- **C71**, when `push_raw` succeeds: there is room, or the first block (4 elements) has a valid layout, or the doubled
block is smaller than `isize::MAX`.  (Elements of size 0 need no room.) -/
theorem C71_push_exact {v l p} (h : Hist v l p) (src : Bytes) (hs : v.size ≤ src.length) :
    (∃ v', v.pushRaw src = .ok v') ↔ v.size = 0 ∨ v.len + v.size ≤ v.cap ∨ (v.cap = 0 ∧ 4 * v.size + (v.info.layout.align - 1) < 2 ^ 64) ∨
      (0 < v.cap ∧ 2 * v.cap < 2 ^ 63 - 1) := by
  have i1 := h.inv.1
  by_cases hz : v.size = 0
  · exact ⟨fun _ => .inl hz, fun _ => ⟨_, by unfold pushRaw; rw [if_pos hz]⟩⟩
  have hle := i1.le hz
  have hm := i1.mem
  have hpos := Nat.pos_of_ne_zero hz
  by_cases hr : v.len + v.size ≤ v.cap
  · refine ⟨fun _ => .inr (.inl hr), fun _ => ?_⟩
    unfold pushRaw
    rw [if_neg hz]
    simp only [if_neg (show ¬ v.len + v.size > v.cap by omega)]
    rw [if_neg (by omega), if_neg (by omega)]
    exact ⟨_, rfl⟩
  · have he : ∀ f, v.realloc = .error f → v.pushRaw src = .error f := by
      intro f hf
      unfold pushRaw
      rw [if_neg hz]
      simp only [if_pos (show v.len + v.size > v.cap by omega), hf]
    have ho : ∀ u, v.realloc = .ok u → ∃ v', v.pushRaw src = .ok v' := by
      intro u hu
      rcases pushRaw_spec i1 src hs with ⟨f, e, _, _⟩ | ⟨v', e, _⟩
      · rcases realloc_spec i1 hz with ⟨f', e', _⟩ | ⟨u', e', j0, j1, j2, ⟨x, j3⟩, j4, j5⟩
        · rw [hu] at e'; cases e'
        · exfalso
          have hsz : u'.size = v.size := by unfold UVec.size; rw [j1]
          unfold pushRaw at e
          rw [if_neg hz] at e
          simp only [if_pos (show v.len + v.size > v.cap by omega), e'] at e
          rw [if_neg (by omega), if_neg (by rw [j0.mem]; omega)] at e
          cases e
      · exact ⟨v', e⟩
    have ha : layoutOk (v.size * 4) v.alignLog = decide (4 * v.size + (v.info.layout.align - 1) < 2 ^ 64) := by
      unfold layoutOk usizeMax Layout.align UVec.alignLog
      rw [decide_eq_decide, Nat.mul_comm]
      constructor <;> intro <;> omega
    constructor
    · rintro ⟨v', hv⟩
      cases hu : v.realloc with
      | error f => rw [he f hu] at hv; cases hv
      | ok u =>
        unfold realloc at hu
        rw [if_neg hz] at hu
        by_cases hc : v.cap = 0
        · simp only [if_pos hc] at hu
          split at hu
          · cases hu
          · split at hu
            · rename_i h1
              rw [ha] at h1
              exact .inr (.inr (.inl ⟨hc, of_decide_eq_true h1⟩))
            · cases hu
        · simp only [if_neg hc] at hu
          split at hu
          · cases hu
          · split at hu
            · rename_i h1
              unfold isizeMax at h1
              exact .inr (.inr (.inr ⟨by omega, by omega⟩))
            · cases hu
    · rintro (h1 | h1 | ⟨h1, h2⟩ | ⟨h1, h2⟩)
      · exact absurd h1 hz
      · exact absurd h1 hr
      · have h3 : layoutOk (v.size * 4) v.alignLog = true := by rw [ha]; exact decide_eq_true h2
        refine ho _ (by unfold realloc; rw [if_neg hz]; simp only [if_pos h1]; rw [if_neg (by unfold usizeMax; omega), if_pos h3])
      · have h3 : layoutOk v.cap v.alignLog = true := i1.lay.resolve_left (by omega)
        refine ho _ (by
          unfold realloc; rw [if_neg hz]
          simp only [if_neg (show ¬ v.cap = 0 by omega)]
          rw [if_neg (by unfold usizeMax; omega), if_pos (by unfold isizeMax; omega), if_pos h3, if_pos (i1.block.resolve_left (fun h' => by omega)).2.1])

example := C71_push_exact vec3_made (b1 4) (Nat.le_refl 2)

/-- **C71** for elements of less than `isize::MAX / 4` bytes: "we limit the capacity of our vec to less than isize::MAX"
(lib.rs:322, also 133).  Missing: bigger elements, for which the claim is false (`C71_first_block_unchecked`). -/
theorem C71_capacity_partial {v l p} (h : Hist v l p) (hs : 4 * v.size < 2 ^ 63 - 1) : v.cap < 2 ^ 63 - 1 ∧ (v.size ≠ 0 → l.length * v.size < 2 ^ 63 - 1) := by
  have hc : v.cap < 2 ^ 63 - 1 := hist_cap h hs
  refine ⟨hc, fun hz => ?_⟩
  have i := h.inv
  have h1 := len_eq i.1 hz
  have h2 := i.1.le hz
  rw [← length_elems, i.2.1] at h1
  omega

example := C71_capacity_partial vec3_made (by decide)

/-- An element of `2 ^ 61` bytes. -/
def hugeInfo : TypeInfo := ⟨⟨2 ^ 61, 0⟩, none⟩

/-- **C71** is violated for huge elements: nothing checks the size of the first block, and with elements of `2 ^ 61` bytes
it has `2 ^ 63`, more than `isize::MAX`.  (Every allocator in use today refuses such a block, which ends the process.) -/
theorem C71_first_block_unchecked : ∃ v l p, Hist v l p ∧ v.info = hugeInfo ∧ v.cap = 2 ^ 63 := by
  have hs : (UVec.newFromRaw hugeInfo).size = 2 ^ 61 := rfl
  have hlen : (List.replicate (2 ^ 61) (none : Byte)).length = 2 ^ 61 := List.length_replicate
  obtain ⟨v', hv⟩ := (C71_push_exact (.new hugeInfo) (List.replicate (2 ^ 61) none) (by rw [hs, hlen]; exact Nat.le_refl _)).2
    (.inr (.inr (.inl ⟨rfl, by decide⟩)))
  have h := Hist.push _ (.new hugeInfo) (by rw [hs, hlen]; exact Nat.le_refl _) hv
  refine ⟨v', _, _, h, (pushRaw_fits hv).1, ?_⟩
  rcases pushRaw_spec (inv_newFromRaw hugeInfo) _ (by rw [hs, hlen]; exact Nat.le_refl _) with ⟨f, e, _⟩ | ⟨u, e, j1, j2, j3, j4⟩
  · rw [hv] at e; cases e
  · rw [hv] at e; cases e
    rcases j4 with j4 | ⟨_, j4⟩
    · exfalso
      have h1 : v'.size = 2 ^ 61 := by unfold UVec.size; rw [j2]; rfl
      have h2 := j1.le (by rw [h1]; decide)
      have h3 : v'.elems.length = 1 := by rw [j3, elems_newFromRaw]; rfl
      have h4 := len_eq j1 (by rw [h1]; decide)
      rw [← length_elems, h3, h1] at h4
      have h5 : (UVec.newFromRaw hugeInfo).cap = 0 := rfl
      rw [j4, h5, h4] at h2
      exact absurd h2 (by decide)
    · rw [j4]; decide

/-- The cases of `C71_push_exact`: the first push of a `u16`, and a block of `2 ^ 61` bytes that may be doubled. -/
example : (∃ v', (UVec.newFromRaw info2).pushRaw (b1 1) = .ok v') := (C71_push_exact (.new info2) (b1 1) (Nat.le_refl 2)).2 (.inr (.inr (.inl ⟨rfl, by decide⟩)))

/-- Elements of `2 ^ 62` bytes: the first push panics. -/
example : ¬ ∃ v', (UVec.newFromRaw ⟨⟨2 ^ 62, 0⟩, none⟩).pushRaw (List.replicate (2 ^ 62) none) = .ok v' := by
  have hs : (UVec.newFromRaw ⟨⟨2 ^ 62, 0⟩, none⟩).size = 2 ^ 62 := rfl
  have hlen : (List.replicate (2 ^ 62) (none : Byte)).length = 2 ^ 62 := List.length_replicate
  rw [C71_push_exact (.new _) _ (by rw [hs, hlen]; exact Nat.le_refl _)]
  rintro (h | h | ⟨_, h⟩ | ⟨h, _⟩) <;> revert h <;> decide

end Ellecs.VecSpec
