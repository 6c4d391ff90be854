import Verif.Proofs.VecOwner
/-! # C81: a family of `UntypedVec`s owns its values -/
namespace Ellecs
namespace VecSpec
open UVec

private def i2 : TypeInfo := ⟨⟨2, 1⟩, some (.custom 7)⟩
private def j2 : TypeInfo := ⟨⟨2, 1⟩, some (.custom 9)⟩
private def z0 : TypeInfo := ⟨⟨0, 2⟩, some (.custom 8)⟩
private def b (n : Nat) : Bytes := [some (BitVec.ofNat 8 n), none]
private def One (a : TypeInfo) : Prop := a = i2
private theorem one_i2 : One i2 := rfl
private theorem one_distinct : Distinct One := fun _ _ ha hb _ => Eq.trans ha (Eq.symm hb)
private theorem one_sized : ∀ a, One a → a.layout.size ≠ 0 := fun a ha => by rw [show a = i2 from ha]; decide

/-- Two vecs of one type: 1, 2 and 3 are pushed to the first, 1 is moved to the second, 3 (now in place of 1) is
replaced by 4, and 2 is popped. -/
private theorem story : ∃ v o, Owner One [some v, some o] [(i2, b 1), (i2, b 2), (i2, b 3), (i2, b 4)]
    [(i2, b 3)] [] [⟨.custom 7, b 2⟩] ∧ v.elems = [b 4] ∧ o.elems = [b 1] :=
  ⟨_, _, .pop (b := true) 0 (.replace 0 0 0 (b 4) (.move 0 1 0 (.push 0 (b 3) (.push 0 (b 2) (.push 0 (b 1) (.new i2 one_i2
    (.new i2 one_i2 .start)) rfl rfl rfl) rfl rfl rfl) rfl rfl rfl) (by decide) rfl rfl (by decide) rfl) rfl rfl rfl) rfl rfl,
    rfl, rfl⟩

/-- The same, and then the two vecs are dropped. -/
private theorem ended : Owner One [none, none] [(i2, b 1), (i2, b 2), (i2, b 3), (i2, b 4)]
    [(i2, b 3)] [] [⟨.custom 7, b 2⟩, ⟨.custom 7, b 4⟩, ⟨.custom 7, b 1⟩] :=
  .drop 1 (.drop 0 (.pop (b := true) 0 (.replace 0 0 0 (b 4) (.move 0 1 0 (.push 0 (b 3) (.push 0 (b 2) (.push 0 (b 1)
    (.new i2 one_i2 (.new i2 one_i2 .start)) rfl rfl rfl) rfl rfl rfl) rfl rfl rfl) (by decide) rfl rfl (by decide) rfl)
    rfl rfl rfl) rfl rfl) rfl rfl) rfl rfl

/-- 1, 2 and 3 are pushed, and the vec is dropped; the drop call of 2 panics. -/
private theorem unwound : Owner One [none] [(i2, b 1), (i2, b 2), (i2, b 3)] [] [(i2, b 1)]
    [⟨.custom 7, b 3⟩, ⟨.custom 7, b 2⟩] :=
  .unwind 0 (fun _ ev => ev.bytes == b 2) (.push 0 (b 3) (.push 0 (b 2) (.push 0 (b 1) (.new i2 one_i2 .start) rfl rfl rfl)
    rfl rfl rfl) rfl rfl rfl) rfl rfl

/-- **C81 (inventory, every size).** At any time, the drop calls so far, those due for the stored values, for the
values taken out by the user, for the values not reached when a drop unwound, and for some values without bytes ("leaks") are,
in some order, exactly the drop calls due
for the values handed in and for some values without bytes ("ghosts"): only zero sized values are ever lost or made
up.  `Distinct` stands for the safety contract of `swap_move_element_to_other_vec`. -/
theorem C81_inventory {T vs hs ts us ds} (hT : Distinct T) (h : Owner T vs hs ts us ds) :
    ∃ ghosts leaks : List Item, (∀ x ∈ ghosts ++ leaks, T x.1 ∧ x.Void) ∧
      (ds ++ due (stored vs ++ ts ++ us ++ leaks)).Perm (due (hs ++ ghosts)) := by
  have := h.books dueOne (fun ev => [ev]) (fun a x _ => by simp [dueOne])
    (fun a b x ha hb hl => by rw [hT a b ha hb hl])
  simpa [due] using this

example := C81_inventory one_distinct ended
example := C81_inventory one_distinct unwound

private theorem empty_of_void {T : TypeInfo → Prop} (hs : ∀ a, T a → a.layout.size ≠ 0) {gs ls : List Item}
    (h : ∀ x ∈ gs ++ ls, T x.1 ∧ x.Void) : gs = [] ∧ ls = [] := by
  have : gs ++ ls = [] := by
    rw [List.eq_nil_iff_forall_not_mem]
    intro x hx
    exact hs _ (h x hx).1 (h x hx).2
  exact List.append_eq_nil_iff.1 this

/-- **C81 (once).** With types of a size, at any time: every value handed in has had its one drop call, by the function of
its type, or is stored, or was taken out, or was not reached when the drop of its vec unwound; nothing else has been dropped.
What is missing: zero sized types, for which it is false (`C81_leak`, `C81_ghost`), and types with the same layout
and different drop functions, for which the assertion of `swap_move_element_to_other_vec` does not help
(`C81_wrong_function`). -/
theorem C81_once_partial {T vs hs ts us ds} (hT : Distinct T) (hz : ∀ a, T a → a.layout.size ≠ 0)
    (h : Owner T vs hs ts us ds) : (ds ++ due (stored vs) ++ due ts ++ due us).Perm (due hs) := by
  obtain ⟨gs, ls, h1, h2⟩ := C81_inventory hT h
  obtain ⟨rfl, rfl⟩ := empty_of_void hz h1
  simpa [due] using h2

example : (∃ v o : UVec, v.elems = [b 4] ∧ o.elems = [b 1] ∧
    ([DropEv.mk (.custom 7) (b 2)] ++ due (stored [some v, some o]) ++ due [(i2, b 3)] ++ due []).Perm
      (due [(i2, b 1), (i2, b 2), (i2, b 3), (i2, b 4)])) := by
  obtain ⟨v, o, h, hv, ho⟩ := story
  exact ⟨v, o, hv, ho, C81_once_partial one_distinct one_sized h⟩

/-- **C81 (the end).** When the vecs have been dropped, the drop calls are exactly one for each value handed in and not
taken out, by the function of its type (and not left behind by a drop that unwound). -/
theorem C81_end_partial {T vs hs ts us ds} (hT : Distinct T) (hz : ∀ a, T a → a.layout.size ≠ 0)
    (h : Owner T vs hs ts us ds) (he : ∀ v, some v ∉ vs) : (ds ++ due ts ++ due us).Perm (due hs) := by
  have hn : stored vs = [] := by
    unfold stored
    rw [List.flatMap_eq_nil_iff]
    intro o ho
    cases o with
    | none => rfl
    | some v => exact absurd ho (he v)
  have := C81_once_partial hT hz h
  rw [hn] at this
  simpa [due] using this

example := C81_end_partial one_distinct one_sized ended (by simp)

/-- **C81 (never twice).** Whichever drop functions panic, no value is dropped twice, nor dropped while it is stored or after
it was taken out.  What is missing: as in `C81_once_partial`. -/
theorem C81_never_twice_partial {T vs hs ts us ds} (hT : Distinct T) (hz : ∀ a, T a → a.layout.size ≠ 0)
    (h : Owner T vs hs ts us ds) (ev : DropEv) : (ds ++ due (stored vs) ++ due ts).count ev ≤ (due hs).count ev := by
  have := List.perm_iff_count.1 (C81_once_partial hT hz h) ev
  simp only [List.count_append] at this ⊢
  omega

example := C81_never_twice_partial one_distinct one_sized unwound ⟨.custom 7, b 2⟩

/-- **C81 (unwinding).** Dropping a vec of the family drops its values from the last to the first, up to the first whose drop
call panics; it unwinds if and only if there is such a value, and does what it does without panics otherwise. -/
theorem C81_unwind {T vs hs ts us ds v} {i : Nat} (h : Owner T vs hs ts us ds) (hv : vs[i]? = some (some v)) (hz : v.size ≠ 0)
    (pan : Panics) : ∃ evs blk u, v.dropU pan = .ok (evs, blk, u) ∧
      evs = cut pan (due (v.elems.reverse.map (v.info, ·))) ∧
      (u = false ↔ pan.Quiet (due (v.elems.reverse.map (v.info, ·)))) ∧ (u = false → v.drop = .ok (evs, blk)) := by
  have hi := (h.good.at hv).1
  have hd : due (v.elems.reverse.map (v.info, ·)) = dropEvs v.info v.elems.reverse := by
    rw [dropEvs_flat]; unfold due dueOne; rw [List.flatMap_map]
  have hn : v.nz = dropEvs v.info v.elems.reverse := by unfold nz; rw [if_neg hz]
  refine ⟨_, _, _, dropU_spec hi, by rw [hd, hn], ?_, ?_⟩
  · rw [hd, hn]; exact quiet_iff.symm
  · intro hf
    rw [drop_spec hi hz, hf, cut_quiet hf, hn]
    rfl

example : ∃ v : UVec, v.elems = [b 1, b 2, b 3] ∧ v.size ≠ 0 ∧
    Owner One [some v] [(i2, b 1), (i2, b 2), (i2, b 3)] [] [] [] ∧
    v.dropU (fun _ ev => ev.bytes == b 2) = .ok ([⟨.custom 7, b 3⟩, ⟨.custom 7, b 2⟩], none, true) :=
  ⟨_, rfl, by decide, .push 0 (b 3) (.push 0 (b 2) (.push 0 (b 1) (.new i2 one_i2 .start) rfl rfl rfl) rfl rfl rfl)
    rfl rfl rfl, rfl⟩

/-- **C81 (values, types mixed).** Even where elements are moved between vecs of different types with the same layout:
as long as each type has a drop function and a size, each value handed in is dropped exactly once, or is stored, or was
taken out, or was left behind by a drop that unwound — by whatever function. -/
theorem C81_values_partial {T vs hs ts us ds} (hd : ∀ a, T a → a.dropFn.isSome) (hz : ∀ a, T a → a.layout.size ≠ 0)
    (h : Owner T vs hs ts us ds) :
    (ds.map (·.bytes) ++ (stored vs ++ ts ++ us).map (·.2)).Perm (hs.map (·.2)) := by
  obtain ⟨gs, ls, h1, h2⟩ := h.books (fun x => [x.2]) (fun ev => [ev.bytes])
    (fun a x ha => by
      unfold dropEvs
      cases hf : a.dropFn with
      | none => have := hd a ha; rw [hf] at this; cases this
      | some f => rfl)
    (fun _ _ _ _ _ _ => rfl)
  obtain ⟨rfl, rfl⟩ := empty_of_void hz h1
  simpa [List.map_eq_flatMap] using h2

/-- Two types with the same layout. -/
private def Two (a : TypeInfo) : Prop := a = i2 ∨ a = j2

/-- A value of the first type, moved to a vec of the second type and dropped there. -/
private theorem mixed : Owner Two [some ⟨i2, some ⟨8, 1⟩, b 1 ++ List.replicate 6 none, 8, 0⟩, none] [(i2, b 1)] [] []
    [⟨.custom 9, b 1⟩] :=
  .drop 1 (.move 0 1 0 (.push 0 (b 1) (.new j2 (.inr rfl) (.new i2 (.inl rfl) .start)) rfl rfl rfl)
    (by decide) rfl rfl (by decide) rfl) rfl rfl

example := C81_values_partial (T := Two) (fun a h => by rcases h with rfl | rfl <;> rfl)
  (fun a h => by rcases h with rfl | rfl <;> decide) mixed

/-- **C81 (whose function).** A drop function is only ever called on a whole value of the size of one of the types that
have this function. -/
theorem C81_function {T vs hs ts us ds} (h : Owner T vs hs ts us ds) :
    ∀ ev ∈ ds, ∃ a, T a ∧ a.dropFn = some ev.fn ∧ ev.bytes.length = a.layout.size := by
  exact h.functions

example := C81_function mixed

/-- **C81 (counterexample, layouts only).** `PartialEq for TypeInfo` (lib.rs:17-21) compares the layouts only, so the
assertion of `swap_move_element_to_other_vec` lets a value of one type go to a vec of another type with the same
layout, and the value is dropped by the function of the wrong type. -/
theorem C81_wrong_function : ∃ T vs ds, ∃ x : Item, Owner T vs [x] [] [] ds ∧ (∀ a, T a → a.layout.size ≠ 0) ∧
    x.1.dropFn = some (.custom 7) ∧ ds = [⟨.custom 9, x.2⟩] :=
  ⟨_, _, _, _, mixed, fun a h => by rcases h with rfl | rfl <;> decide, rfl, rfl⟩

private def Zero (a : TypeInfo) : Prop := a = z0
private theorem zero_z0 : Zero z0 := rfl
private theorem zero_distinct : Distinct Zero := fun _ _ ha hb _ => Eq.trans ha (Eq.symm hb)

/-- **C81 (counterexample, leak).** A zero sized value handed in is not dropped when its vec is. -/
theorem C81_leak : ∃ T, Distinct T ∧ ∃ x : Item, Owner T [none] [x] [] [] [] ∧ due [x] = [⟨.custom 8, []⟩] :=
  ⟨Zero, zero_distinct, (z0, []), .drop 0 (.push 0 [] (.new z0 zero_z0 .start) rfl rfl rfl) rfl rfl, rfl⟩

/-- **C81 (counterexample, ghost).** `pop` of an empty vec of zero sized values drops a value nobody handed in. -/
theorem C81_ghost : ∃ T, Distinct T ∧ ∃ v, Owner T [some v] [] [] [] [⟨.custom 8, []⟩] ∧ v.elems = [] :=
  ⟨Zero, zero_distinct, _, .pop (b := true) 0 (.new z0 zero_z0 .start) rfl rfl, rfl⟩

example := C81_inventory zero_distinct (.drop 0 (.push 0 [] (.new z0 zero_z0 .start) rfl rfl rfl) rfl rfl)

end VecSpec
end Ellecs
