import Verif.Proofs.Program
import Verif.Proofs.Demo
/-!
# C65: a program logic for the crate

`Exec` (in `Spec/Program.lean`) runs a program on the tables: calls, loops over queries, look-ups in queries; the program
may choose what to do next by everything it has seen, and catches panics.  `Prog.wp` is a logic for such programs that
speaks of plain maps only.  What is derived in the logic is true of the real execution.
-/
namespace Ellecs.WorldSpec
open World Demo

/-- C65: if the logic derives `Q` for a program, the program does end, without a fault of memory, without exhausting
memory and without a deadlock, and what it returns and leaves behind is as `Q` says. -/
theorem C65_sound {α : Type} {s : Nat} {S : List (List EcsId)} (hs : s < 2 ^ 29) {w : World} (hw : Reachable w) {a : AWorld} (ha : w.Shows a)
    (hm : ∀ m, some m ∈ w.metas → m.comp.layout.size ≤ s) (hn : Covers S w) {p : Prog α} {Q : List (List EcsId) → α → AWorld → Prop}
    (h : p.wp s S a Q) : ∃ x w' S' a', Exec p w x w' ∧ Reachable w' ∧ w'.Shows a' ∧ Covers S' w' ∧ Q S' x a' := by
  obtain ⟨x, w', S', a', h1, h2, h3⟩ := wp_sound hs p ⟨hw, ha, hm, hn⟩ h
  exact ⟨x, w', S', a', h1, h2.reach, h2.shows, h2.covers, h3⟩

/-- C65 for a program that starts with a new world. -/
theorem C65_new {α : Type} {s : Nat} (hs : s < 2 ^ 29) {p : Prog α} {Q : List (List EcsId) → α → AWorld → Prop} (h : p.wp s [] AWorld.new Q) :
    ∃ x w' S' a', Exec p World.new x w' ∧ Reachable w' ∧ w'.Shows a' ∧ Covers S' w' ∧ Q S' x a' :=
  C65_sound hs .new C57_new (fun m hm => by cases hm) (fun t ht => nomatch ht) h

/-- C65: a program has one result. -/
theorem C65_one_result {α : Type} {p : Prog α} {w w1 w2 : World} {x1 x2 : α} (h1 : Exec p w x1 w1) (h2 : Exec p w x2 w2) : x1 = x2 ∧ w1 = w2 :=
  Exec.det h1 h2

/-- C65: so every execution is as the logic says. -/
theorem C65_every {α : Type} {s : Nat} {S : List (List EcsId)} (hs : s < 2 ^ 29) {w : World} (hw : Reachable w) {a : AWorld} (ha : w.Shows a)
    (hm : ∀ m, some m ∈ w.metas → m.comp.layout.size ≤ s) (hn : Covers S w) {p : Prog α} {Q : List (List EcsId) → α → AWorld → Prop}
    (h : p.wp s S a Q) {x : α} {w' : World} (he : Exec p w x w') : ∃ S' a', Reachable w' ∧ w'.Shows a' ∧ Covers S' w' ∧ Q S' x a' := by
  obtain ⟨y, u, S', a', h1, h2⟩ := C65_sound hs hw ha hm hn h
  obtain ⟨rfl, rfl⟩ := Exec.det he h1
  exact ⟨S', a', h2⟩

/-- C65: what is derived may be weakened. -/
theorem C65_mono {α : Type} {s : Nat} (p : Prog α) : ∀ {S : List (List EcsId)} {a : AWorld} {Q R : List (List EcsId) → α → AWorld → Prop},
    (∀ S x a, Q S x a → R S x a) → p.wp s S a Q → p.wp s S a R := by
  induction p with
  | done x => exact fun h hq => h _ _ _ hq
  | ask q k ih => exact fun h hq => hq.2.2.2.elim fun T hT => ⟨hq.1, hq.2.1, hq.2.2.1, T, hT.1, ih _ h hT.2⟩
  | loop ps b k ih =>
    intro S a Q R h hq
    simp only [Prog.wp] at hq ⊢
    split at hq
    · exact ⟨hq.1, ih _ h hq.2⟩
    · exact ⟨hq.1, hq.2.1, hq.2.2.1, fun es h1 h2 => ih _ h (hq.2.2.2 es h1 h2)⟩
  | loopDyn ps b k ih =>
    intro S a Q R h hq
    simp only [Prog.wp] at hq ⊢
    split at hq
    · exact ⟨hq.1, ih _ h hq.2⟩
    · exact ⟨hq.1, hq.2.1, hq.2.2.1, hq.2.2.2.1, fun es h1 h2 => ih _ h (hq.2.2.2.2 es h1 h2)⟩
  | loopCols ps ns b k ih =>
    intro S a Q R h hq
    simp only [Prog.wp] at hq ⊢
    split at hq
    · exact ⟨hq.1, ih _ h hq.2⟩
    · exact ⟨hq.1, hq.2.1, hq.2.2.1, hq.2.2.2.1, hq.2.2.2.2.1, fun es h1 h2 h3 => ih _ h (hq.2.2.2.2.2 es h1 h2 h3)⟩
  | visit ps es b k ih =>
    intro S a Q R h hq
    simp only [Prog.wp] at hq ⊢
    split at hq
    · exact ⟨hq.1, ih _ h hq.2⟩
    · refine ⟨hq.1, ?_⟩
      have := hq.2
      revert this
      split <;> exact ih _ h

/-- C65: programs one after the other. -/
theorem C65_bind {α β : Type} {s : Nat} (p : Prog α) (f : α → Prog β) : ∀ {S : List (List EcsId)} {a : AWorld} {Q : List (List EcsId) → β → AWorld → Prop},
    (p.bind f).wp s S a Q ↔ p.wp s S a (fun S x a => (f x).wp s S a Q) := by
  induction p with
  | done x => exact Iff.rfl
  | ask q k ih => intro S a Q; simp only [Prog.bind, Prog.wp, ih]
  | loop ps b k ih => intro S a Q; simp only [Prog.bind, Prog.wp, ih]
  | loopDyn ps b k ih => intro S a Q; simp only [Prog.bind, Prog.wp, ih]
  | loopCols ps ns b k ih => intro S a Q; simp only [Prog.bind, Prog.wp, ih]
  | visit ps es b k ih => intro S a Q; simp only [Prog.bind, Prog.wp, ih]

/-- A program: spawn an entity, store a new value through a query, look it up in another query. -/
def sample : Prog (Except Fault (List Found)) :=
  .ask (.spawn .plain [.with tA (val 4 1), .build]) fun r =>
    match r with
    | .ok (.id e) => .visit [.mut tA] [e] (fun _ => [some (val 4 2)]) fun _ => .visit [.ids, .ref tA] [e] (fun _ => []) .done
    | _ => .done (.error .fuel)

theorem sample_wp : sample.wp 4 [] AWorld.new (fun S x _ => S = [[], [ent 1]] ∧ x = .ok [some [.id (ent 0), .value (val 4 2)]]) := by
  have ht : tA.size = 4 := by decide
  refine ⟨⟨?_, by decide, ⟨(fun m hm => nomatch hm), (fun n hn => nomatch hn), ?_⟩⟩, (fun h => nomatch h), ?_, ?_⟩
  · intro e a h
    cases h
    exact ⟨(rfl : (val 4 1).length = 4), ⟨rfl, (by decide : [ent 1].Nodup)⟩, trivial⟩
  · intro t v h
    simp at h
    rw [h.1, ht]
    exact Nat.le_refl 4
  · show ∀ p ∈ [(true, (0 : BitVec 32)), (true, 0)], _
    decide
  · refine ⟨[[], [ent 1]], ?_, ?_, ?_, rfl, rfl⟩
    · intro e he
      by_cases h1 : e = ent 0
      · subst h1
        refine ⟨[ent 1], by simp, fun c => ?_⟩
        show c ∈ [ent 1] ↔ List.lookup c [(ent 1, val 4 1)] ≠ none
        by_cases h2 : c = ent 1
        · simp [h2]
        · rw [List.lookup, beq_false_of_ne h2]
          exact ⟨fun h => absurd (List.mem_singleton.1 h) h2, fun h => absurd rfl h⟩
      · refine ⟨[], by simp, fun c => ?_⟩
        show c ∈ [] ↔ (if e = ent 0 then List.lookup c [(ent 1, val 4 1)] else none) ≠ none
        rw [if_neg h1]
        exact ⟨(fun h => nomatch h), fun h => absurd rfl h⟩
    · intro h i t bs h1 h2
      rcases i with _ | i
      · cases h1; cases h2; rfl
      · cases h2
    · intro h i t bs h1 h2
      cases h2

/-- The hypothesis of the theorems above holds of it. -/
example : ∃ x w', Exec sample World.new x w' ∧ x = .ok [some [.id (ent 0), .value (val 4 2)]] := by
  obtain ⟨x, w', S', a', h1, _, _, _, _, h2⟩ := C65_new (by decide) sample_wp
  exact ⟨x, w', h1, h2⟩
/-- All executions of it end so. -/
example {x : Except Fault (List Found)} {w' : World} (h : Exec sample World.new x w') : x = .ok [some [.id (ent 0), .value (val 4 2)]] := by
  obtain ⟨_, _, _, _, _, _, h1⟩ := C65_every (by decide) .new C57_new (fun m hm => by cases hm) (fun t ht => nomatch ht) sample_wp h
  exact h1

example {x y : Except Fault (List Found)} {w v : World} (h1 : Exec sample World.new x w) (h2 : Exec sample World.new y v) : x = y ∧ w = v := C65_one_result h1 h2
example : sample.wp 4 [] AWorld.new (fun S _ _ => S.length = 2) := C65_mono sample (fun _ _ _ h => by rw [h.1]; rfl) sample_wp

/-- Two programs one after the other. -/
example : (sample.bind fun r => .done (r.toOption.map List.length)).wp 4 [] AWorld.new (fun _ n _ => n = some 1) :=
  (C65_bind _ _).2 (C65_mono sample (fun _ _ _ h => by rw [h.2]; rfl) sample_wp)

end Ellecs.WorldSpec
