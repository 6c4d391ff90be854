import Verif.Proofs.ArrayVecDrop
/-! # C78: an `ArrayVec` owns its elements -/
namespace Ellecs.ArraySpec
variable {α : Type}

/-- An array of capacity 2 for the examples: 1, 2 and 3 were pushed at its start, which evicted 1. -/
private theorem calm_life : Life (fun _ _ => false) 2 ⟨[some 3, some 2], 2⟩ [1, 2, 3] [1] :=
  .pushStart (v := ⟨[some 2, some 1], 2⟩) (hs := [1, 2]) (ds := []) (e := .done ()) 3
    (.pushStart (v := ⟨[some 1, none], 1⟩) (hs := [1]) (ds := []) (ds' := []) (e := .done ()) 2
      (.pushStart (hs := []) (ds := []) (ds' := []) (e := .done ()) 1 .new rfl nofun) rfl nofun) rfl nofun

/-- **C78** (partial: only as long as no destructor unwinds, see `C78_twice` and `C78_leak`).  Whatever is called, in
the end, when the array is dropped as well, the destructor of every value handed to it has run exactly once. -/
theorem C78_once_partial {pan : List α → α → Bool} {n : Nat} {v : ArrayVec α} {hs ds : List α} (h : Life pan n v hs ds) :
    ∃ l, v.asSlice = .ok l ∧ (Quiet pan (ds ++ l) →
      v.dropU (fun past => pan (ds ++ past)) = .ok (l, .done ()) ∧ (ds ++ l).Perm hs) := by
  obtain ⟨l, tw, s, p, t⟩ := h.slots
  refine ⟨l, s.asSlice, fun hq => ?_⟩
  have htw : tw = [] := by
    cases tw with
    | nil => rfl
    | cons y ys =>
      obtain ⟨⟨pre, post, e, t1⟩, t2⟩ := t y List.mem_cons_self
      rw [hq pre y (post ++ l) (by rw [e]; simp)] at t1
      cases t1
  subst htw
  rw [List.append_nil] at p
  refine ⟨?_, List.perm_append_comm.trans p⟩
  unfold ArrayVec.dropU
  rw [s.asSlice]
  rcases dropLoop_eq (fun past => pan (ds ++ past)) l with ⟨e, _⟩ | ⟨pre, x, post, e1, _, e2, _⟩
  · simp only [e]
  · rw [hq (ds ++ pre) x post (by rw [e1, List.append_assoc])] at e2
    cases e2

example := C78_once_partial calm_life

/-- **C78**, with destructors that may unwind: after any calls, every value handed over is in the array or its destructor
has run; a destructor runs more often only if it has unwound.  Dropping the array runs the destructors in order, up to
the first one that unwinds. -/
theorem C78_inventory {pan : List α → α → Bool} {n : Nat} {v : ArrayVec α} {hs ds : List α} (h : Life pan n v hs ds) :
    ∃ l twice, v.asSlice = .ok l ∧ (l ++ ds).Perm (hs ++ twice) ∧
      (∀ y ∈ twice, (∃ pre post, ds = pre ++ y :: post ∧ pan pre y = true) ∧ y ∈ hs) ∧
      ∀ pan', (v.dropU pan' = .ok (l, .done ()) ∧ Quiet pan' l) ∨
        ∃ pre x post, l = pre ++ x :: post ∧ Quiet pan' pre ∧ pan' pre x = true ∧
          v.dropU pan' = .ok (pre ++ [x], .unwound) := by
  obtain ⟨l, tw, s, p, t⟩ := h.slots
  refine ⟨l, tw, s.asSlice, p, t, fun pan' => ?_⟩
  unfold ArrayVec.dropU
  rw [s.asSlice]
  rcases dropLoop_eq pan' l with ⟨e, h⟩ | ⟨pre, x, post, e1, h1, h2, e⟩
  · exact Or.inl ⟨by simp only [e], h⟩
  · exact Or.inr ⟨pre, x, post, e1, h1, h2, by simp only [e]⟩

example := C78_inventory calm_life

/-- **C78**.  No call of `push` or `push_start` is undefined behaviour; `push` never unwinds while there is room, and
`push_start` unwinds only out of a destructor or when the capacity is zero. -/
theorem C78_calls {pan : List α → α → Bool} {n : Nat} {v : ArrayVec α} {hs ds : List α} (h : Life pan n v hs ds) (x : α)
    (pan' : List α → α → Bool) :
    (∃ l, v.asSlice = .ok l ∧ l.length ≤ n ∧
      (v.pushU pan' x).2 = (if l.length < n then ([], .done true) else ([x], if pan' [] x then .unwound else .done false)) ∧
      ∃ v' ds' e, v.pushStartU pan' x = .ok (v', ds', e) ∧
        (e = .done () ↔ 0 < n ∧ ∀ y, l.length = n → l.getLast? = some y → pan' [] y = false) ∧
        (e = .done () → v'.asSlice = .ok ((x :: l).take n) ∧ ds' = (x :: l).drop n)) := by
  obtain ⟨l, tw, s, p, t⟩ := h.slots
  refine ⟨l, s.asSlice, s.1, ?_, ?_⟩
  · rw [pushU_eq]
    have := s.push x
    by_cases hl : l.length < n
    · rw [if_pos hl] at this ⊢
      obtain ⟨v', e, _⟩ := this
      rw [e]; rfl
    · rw [if_neg hl] at this ⊢
      rw [this]; rfl
  · rcases s.pushStartU (pan := pan') x with ⟨h0, e1⟩ | ⟨l', y, rfl, hl, hy, e1⟩ | ⟨l', y, v2, rfl, hl, hy, e1, s2⟩ | ⟨v2, hl, e1, s2⟩
    · refine ⟨_, _, _, e1, ?_, ?_⟩
      · constructor
        · intro he; split at he <;> cases he
        · rintro ⟨h1, _⟩; omega
      · intro he; split at he <;> cases he
    · refine ⟨_, _, _, e1, ?_, ?_⟩
      · constructor
        · intro he; split at he <;> cases he
        · rintro ⟨_, h1⟩
          rw [h1 y hl (by simp)] at hy
          cases hy
      · intro he; split at he <;> cases he
    · refine ⟨_, _, _, e1, ⟨fun _ => ⟨by simp at hl; omega, ?_⟩, fun _ => rfl⟩, fun _ => ⟨?_, ?_⟩⟩
      · intro z _ hz
        simp only [List.getLast?_append, List.getLast?_singleton, Option.some_or, Option.some.injEq] at hz
        rw [← hz]; exact hy
      · rw [s2.asSlice]
        have : n = (x :: l').length := by simp at hl ⊢; omega
        rw [this, ← List.cons_append, List.take_left]
      · have : n = (x :: l').length := by simp at hl ⊢; omega
        rw [this, ← List.cons_append, List.drop_left]
    · refine ⟨_, _, _, e1, ⟨fun _ => ⟨by omega, fun _ hh => by omega⟩, fun _ => rfl⟩, fun _ => ⟨?_, ?_⟩⟩
      · rw [s2.asSlice, List.take_of_length_le (by simp; omega)]
      · rw [List.drop_of_length_le (by simp; omega)]

example := C78_calls calm_life 4 (fun _ _ => true)

/-- **C78** is violated: whenever `push_start` evicts a value whose destructor unwinds, the value stays in the array
(`len` is lowered after the destructor only, lines 33-35), so that its destructor runs again when the array is
dropped (unless that of a value before it unwinds). -/
theorem C78_twice {pan : List α → α → Bool} {n : Nat} {v : ArrayVec α} {hs ds l : List α} (h : Life pan n v hs ds) {x y : α}
    (hl : v.asSlice = .ok (l ++ [y])) (hn : l.length + 1 = n) (hy : pan ds y = true) (hx : pan (ds ++ [y]) x = false) :
    v.pushStartU (fun past => pan (ds ++ past)) x = .ok (v, [y, x], .unwound) ∧ Life pan n v (hs ++ [x]) (ds ++ [y, x]) ∧
      ∀ pan', Quiet pan' l → v.dropU pan' = .ok (l ++ [y], if pan' l y then .unwound else .done ()) := by
  obtain ⟨l2, tw, s, p, t⟩ := h.slots
  have hl2 : l2 = l ++ [y] := by
    have := s.asSlice
    rw [hl] at this
    cases this; rfl
  subst hl2
  have e : v.pushStartU (fun past => pan (ds ++ past)) x = .ok (v, [y, x], .unwound) := by
    rcases s.pushStartU (pan := fun past => pan (ds ++ past)) x with
      ⟨h0, _⟩ | ⟨l', z, hz, _, hy', e1⟩ | ⟨l', z, v2, hz, _, hy', _⟩ | ⟨v2, hlt, _⟩
    · omega
    · obtain ⟨_, h3⟩ := List.append_inj' hz rfl
      cases h3
      rw [e1, hx]; rfl
    · obtain ⟨_, h3⟩ := List.append_inj' hz rfl
      cases h3
      rw [List.append_nil, hy] at hy'
      cases hy'
    · simp at hlt; omega
  refine ⟨e, .pushStart x h e (fun h => nomatch h), fun pan' hz => ?_⟩
  unfold ArrayVec.dropU
  rw [hl]
  simp only [Except.ok.injEq]
  clear hl hn s p e
  induction l generalizing pan' with
  | nil => simp only [List.nil_append, ArrayVec.dropLoop]; split <;> rfl
  | cons z zs ih =>
    obtain ⟨q1, q2⟩ := quiet_cons.1 hz
    have := ih (fun past => pan' (z :: past)) q2
    simp [ArrayVec.dropLoop, q1, this]

/-- Element 1 panics when it is dropped; it is evicted by 2. -/
example := C78_twice (pan := fun _ x => x == 1) (n := 1) (l := []) (x := 2) (y := 1)
  (.push (hs := []) (ds := []) (ds' := []) (e := .done true) 1 .new rfl nofun) rfl rfl rfl rfl

/-- **C78** is violated by `drop` too: the values after the first one whose destructor unwinds are leaked. -/
theorem C78_leak {pan : List α → α → Bool} {v : ArrayVec α} {pre post : List α} {x : α}
    (hl : v.asSlice = .ok (pre ++ x :: post)) (h1 : Quiet pan pre) (h2 : pan pre x = true) :
    v.dropU pan = .ok (pre ++ [x], .unwound) := by
  unfold ArrayVec.dropU
  rw [hl]
  simp only [Except.ok.injEq]
  clear hl
  induction pre generalizing pan with
  | nil => simp [ArrayVec.dropLoop, h2]
  | cons y ys ih =>
    obtain ⟨q1, q2⟩ := quiet_cons.1 h1
    have := ih q2 h2
    simp [ArrayVec.dropLoop, q1, this]

/-- The second destructor to run unwinds. -/
example := C78_leak (pan := fun past _ => past.length == 1) (v := ⟨[some 5, some 5, some 5], 3⟩) (pre := [5]) (post := [5])
  (x := 5) rfl (quiet_cons.2 ⟨rfl, Quiet.nil _⟩) rfl

/-- C78: with room for two, three values and no unwinding destructor: 1 is evicted, 2 and 3 are dropped in the end. -/
example : ∃ v : ArrayVec Nat, Life (fun _ _ => false) 2 v [1, 2, 3] [1] ∧ v.dropU (fun _ _ => false) = .ok ([3, 2], .done ()) :=
  ⟨⟨[some 3, some 2], 2⟩, .pushStart (v := ⟨[some 2, some 1], 2⟩) (hs := [1, 2]) (ds := []) (e := .done ()) 3
    (.pushStart (v := ⟨[some 1, none], 1⟩) (hs := [1]) (ds := []) (ds' := []) (e := .done ()) 2
      (.pushStart (hs := []) (ds := []) (ds' := []) (e := .done ()) 1 .new rfl nofun) rfl nofun) rfl nofun, rfl⟩

/-- C78 is violated: the destructor of 1 unwinds when it is evicted, and runs again when the array is dropped. -/
example : ∃ v : ArrayVec Nat, Life (fun _ x => x == 1) 1 v [1, 2] [1, 2] ∧ v.dropU (fun _ x => x == 1) = .ok ([1], .unwound) :=
  ⟨⟨[some 1], 1⟩, .pushStart (hs := [1]) (ds := []) (e := .unwound) 2
    (.push (hs := []) (ds := []) (ds' := []) (e := .done true) 1 .new rfl nofun) rfl nofun, rfl⟩

/-- C78 is violated: the destructor of 1 unwinds when the array is dropped, and 2 is leaked. -/
example : ∃ v : ArrayVec Nat, Life (fun _ x => x == 1) 2 v [1, 2] [] ∧ v.dropU (fun _ x => x == 1) = .ok ([1], .unwound) :=
  ⟨⟨[some 1, some 2], 2⟩, .push (hs := [1]) (ds := []) (ds' := []) (e := .done true) 2
    (.push (hs := []) (ds := []) (ds' := []) (e := .done true) 1 .new rfl nofun) rfl nofun, rfl⟩

end Ellecs.ArraySpec
