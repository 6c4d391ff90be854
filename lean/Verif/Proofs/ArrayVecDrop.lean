import Verif.Spec.ArrayVecDrop
import Verif.Props.ArrayVec
/-! # What the calls of an `ArrayVec` do with the elements -/
namespace Ellecs.ArraySpec
variable {α : Type}

theorem pushU_eq (pan : List α → α → Bool) (v : ArrayVec α) (x : α) :
    v.pushU pan x = ((v.push x).2, if (v.push x).1 then [] else [x],
      if (v.push x).1 then .done true else if pan [] x then .unwound else .done false) := by
  unfold ArrayVec.pushU ArrayVec.push
  by_cases h : v.len < v.LEN
  · rw [if_pos h, if_pos h]; rfl
  · rw [if_neg h, if_neg h]; rfl

/-- What `push_start` does, by cases. -/
theorem Slots.pushStartU {pan : List α → α → Bool} {n : Nat} {v : ArrayVec α} {l : List α} (h : Slots n v l) (x : α) :
    (n = 0 ∧ v.pushStartU pan x = .ok (v, [x], if pan [] x then .aborted else .unwound)) ∨
    (∃ l' y, l = l' ++ [y] ∧ l.length = n ∧ pan [] y = true ∧
      v.pushStartU pan x = .ok (v, [y, x], if pan [y] x then .aborted else .unwound)) ∨
    (∃ l' y v', l = l' ++ [y] ∧ l.length = n ∧ pan [] y = false ∧ v.pushStartU pan x = .ok (v', [y], .done ()) ∧
      Slots n v' (x :: l')) ∨
    (∃ v', l.length < n ∧ v.pushStartU pan x = .ok (v', [], .done ()) ∧ Slots n v' (x :: l)) := by
  by_cases hf : l.length = n
  · cases hl : l.getLast? with
    | none =>
      rw [List.getLast?_eq_none_iff] at hl
      subst hl
      refine Or.inl ⟨hf.symm, ?_⟩
      unfold ArrayVec.pushStartU
      rw [h.len, h.2.1, if_pos hf, h.asSlice]
      simp
      rfl
    | some y =>
      obtain ⟨l', rfl⟩ := List.getLast?_eq_some_iff.1 hl
      right
      have hn : 0 < n := by simp at hf; omega
      cases hp : pan [] y with
      | true =>
        refine Or.inl ⟨l', y, rfl, hf, hp, ?_⟩
        unfold ArrayVec.pushStartU
        rw [h.len, h.2.1, if_pos hf, h.asSlice]
        simp [hp]
        rfl
      | false =>
        obtain ⟨v', e, h'⟩ := h.pushStart hn x
        have ht : (x :: (l' ++ [y])).take n = x :: l' := by
          have : n = (x :: l').length := by simp at hf ⊢; omega
          rw [this, ← List.cons_append, List.take_left]
        rw [ht] at h'
        refine Or.inr (Or.inl ⟨l', y, v', rfl, hf, hp, ?_, h'⟩)
        unfold ArrayVec.pushStart at e
        unfold ArrayVec.pushStartU
        rw [h.len, h.2.1, if_pos hf, h.asSlice] at e ⊢
        simp only [hl, hp] at e ⊢
        split at e
        · rename_i hle
          rw [if_pos hle]
          cases e
          rfl
        · cases e
  · have hlt : l.length < n := by have := h.1; omega
    obtain ⟨v', e, h'⟩ := h.pushStart (by omega) x
    rw [List.take_of_length_le (by simp; omega)] at h'
    refine Or.inr (Or.inr (Or.inr ⟨v', hlt, ?_, h'⟩))
    unfold ArrayVec.pushStart at e
    unfold ArrayVec.pushStartU
    rw [h.len, h.2.1, if_neg hf] at e ⊢
    simp only at e ⊢
    split at e
    · rename_i hle
      rw [if_pos hle]
      cases e
      rfl
    · cases e

theorem fired_more {pan : List α → α → Bool} {ds : List α} {y : α} (h : ∃ pre post, ds = pre ++ y :: post ∧ pan pre y = true)
    (l : List α) : ∃ pre post, ds ++ l = pre ++ y :: post ∧ pan pre y = true := by
  obtain ⟨pre, post, rfl, hp⟩ := h
  exact ⟨pre, post ++ l, by simp, hp⟩

theorem Quiet.nil (pan : List α → α → Bool) : Quiet pan [] := by
  intro pre x post h
  cases pre <;> cases h

theorem quiet_cons {pan : List α → α → Bool} {x : α} {l : List α} :
    Quiet pan (x :: l) ↔ pan [] x = false ∧ Quiet (fun past => pan (x :: past)) l := by
  constructor
  · intro h
    exact ⟨h [] x l rfl, fun pre y post e => h (x :: pre) y post (by rw [e]; rfl)⟩
  · rintro ⟨h1, h2⟩ pre y post e
    cases pre with
    | nil => cases e; exact h1
    | cons z pre => cases e; exact h2 pre y post rfl

theorem Life.slots {pan : List α → α → Bool} {n : Nat} {v : ArrayVec α} {hs ds : List α} (h : Life pan n v hs ds) :
    ∃ l twice, Slots n v l ∧ (l ++ ds).Perm (hs ++ twice) ∧
      ∀ y ∈ twice, (∃ pre post, ds = pre ++ y :: post ∧ pan pre y = true) ∧ y ∈ hs := by
  induction h with
  | new => exact ⟨[], [], Slots.new n, List.Perm.refl _, fun _ h => nomatch h⟩
  | @push v v' hs ds ds' e x h0 h1 h2 ih =>
    obtain ⟨l, tw, s, p, t⟩ := ih
    rw [pushU_eq] at h1
    have hp := s.push x
    by_cases hl : l.length < n
    · rw [if_pos hl] at hp
      obtain ⟨v2, e2, s2⟩ := hp
      rw [e2] at h1
      cases h1
      refine ⟨l ++ [x], tw, s2, ?_, fun y hy => ⟨fired_more (t y hy).1 _, List.mem_append_left _ (t y hy).2⟩⟩
      simp only [List.append_nil, List.append_assoc, if_true] at p ⊢
      refine List.Perm.trans (List.perm_append_comm_assoc l [x] ds) ?_
      refine List.Perm.trans ?_ (List.perm_append_comm_assoc [x] hs tw)
      exact p.append_left [x]
    · rw [if_neg hl] at hp
      rw [hp] at h1
      cases h1
      refine ⟨l, tw, s, ?_, fun y hy => ⟨fired_more (t y hy).1 _, List.mem_append_left _ (t y hy).2⟩⟩
      simp only [Bool.false_eq_true, if_false]
      rw [← List.append_assoc]
      refine List.Perm.trans (p.append_right [x]) ?_
      simp only [List.append_assoc]
      exact (List.perm_append_comm).append_left hs
  | @pushStart v v' hs ds ds' e x h0 h1 h2 ih =>
    obtain ⟨l, tw, s, p, t⟩ := ih
    have p' : (x :: (l ++ ds)).Perm (hs ++ [x] ++ tw) := by
      rw [List.append_assoc]
      exact (p.cons x).trans (List.perm_append_comm_assoc [x] hs tw)
    rcases s.pushStartU (pan := fun past => pan (ds ++ past)) x with ⟨_, e1⟩ | ⟨l', y, rfl, _, hy, e1⟩ | ⟨l', y, v2, rfl, _, _, e1, s2⟩ | ⟨v2, _, e1, s2⟩
    · rw [e1] at h1
      cases h1
      refine ⟨l, tw, s, ?_, fun y hy => ⟨fired_more (t y hy).1 _, List.mem_append_left _ (t y hy).2⟩⟩
      rw [← List.append_assoc]
      exact (List.perm_append_comm (l₁ := l ++ ds) (l₂ := [x])).trans p'
    · rw [e1] at h1
      cases h1
      refine ⟨l' ++ [y], tw ++ [y], s, ?_, ?_⟩
      · rw [← List.append_assoc, ← List.append_assoc (hs ++ [x])]
        have : ((l' ++ [y] ++ ds) ++ [y, x]).Perm ((x :: (l' ++ [y] ++ ds)) ++ [y]) := by
          have h3 : [y, x].Perm [x, y] := List.Perm.swap x y []
          refine (h3.append_left _).trans ?_
          exact List.perm_append_comm_assoc (l' ++ [y] ++ ds) [x] [y]
        exact this.trans (p'.append_right [y])
      · intro z hz
        rcases List.mem_append.1 hz with hz | hz
        · exact ⟨fired_more (t z hz).1 _, List.mem_append_left _ (t z hz).2⟩
        · rw [List.mem_singleton.1 hz]
          refine ⟨⟨ds, [x], rfl, by simpa using hy⟩, List.mem_append_left _ ?_⟩
          have : y ∈ hs ++ tw := p.mem_iff.1 (by simp)
          exact (List.mem_append.1 this).elim id (fun h => (t y h).2)
    · rw [e1] at h1
      cases h1
      refine ⟨x :: l', tw, s2, ?_, fun y hy => ⟨fired_more (t y hy).1 _, List.mem_append_left _ (t y hy).2⟩⟩
      refine List.Perm.trans ?_ p'
      rw [List.cons_append]
      refine List.Perm.cons x ?_
      rw [List.append_assoc]
      exact (List.perm_append_comm).append_left l'
    · rw [e1] at h1
      cases h1
      refine ⟨x :: l, tw, s2, ?_, fun y hy => ⟨fired_more (t y hy).1 _, List.mem_append_left _ (t y hy).2⟩⟩
      rw [List.append_nil]
      exact p'

theorem dropLoop_eq (pan : List α → α → Bool) (l : List α) :
    (ArrayVec.dropLoop pan l = (l, .done ()) ∧ Quiet pan l) ∨
      ∃ pre x post, l = pre ++ x :: post ∧ Quiet pan pre ∧ pan pre x = true ∧
        ArrayVec.dropLoop pan l = (pre ++ [x], .unwound) := by
  induction l generalizing pan with
  | nil => exact Or.inl ⟨rfl, Quiet.nil pan⟩
  | cons x xs ih =>
    cases hp : pan [] x with
    | true => exact Or.inr ⟨[], x, xs, rfl, Quiet.nil pan, hp, by simp [ArrayVec.dropLoop, hp]⟩
    | false =>
      rcases ih (fun past => pan (x :: past)) with ⟨e, h⟩ | ⟨pre, y, post, rfl, h1, h2, e⟩
      · exact Or.inl ⟨by simp [ArrayVec.dropLoop, hp, e], quiet_cons.2 ⟨hp, h⟩⟩
      · exact Or.inr ⟨x :: pre, y, post, rfl, quiet_cons.2 ⟨hp, h1⟩, h2, by simp [ArrayVec.dropLoop, hp, e]⟩

end Ellecs.ArraySpec
