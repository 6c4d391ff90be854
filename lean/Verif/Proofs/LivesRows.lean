import Verif.Proofs.Lives
import Verif.Proofs.Told
/-!
# Rows of dynamic queries read off the conversation
-/
namespace Ellecs.World

theorem pass_isSome (ty : Ty → Option EcsId) (e c : EcsId) (n : Nat) (p : Ask × Except Fault Answer) (old : Option (Option Bytes)) :
    (pass ty e c n p old).isSome = there e p old.isSome := by
  unfold pass
  split
  · simp only [there]
    split
    · unfold makes; split <;> simp_all
    · rfl
  · simp only [there]; split <;> rfl
  · simp only [there]; split <;> rfl
  · next h1 h2 h3 =>
    unfold there
    split
    · exact absurd rfl (h1 _ _ _)
    · exact absurd rfl (h2 _ _)
    · exact absurd rfl (h3 _ _)
    · simp

theorem live_isSome (e c : EcsId) (p : Ask × Except Fault Answer) (s : Nat × Option (Option Bytes)) :
    (live e c p s).2.isSome = there e p s.2.isSome := by
  unfold live
  split
  · split
    · dsimp only
      split <;> simp_all
    · exact pass_isSome (fun _ => none) e c s.1 (.spawn _ _, .ok (.id _)) s.2
  · exact pass_isSome (fun _ => none) e c s.1 _ s.2

theorem lives_isSome (e c : EcsId) (tr : List (Ask × Except Fault Answer)) (s : Nat × Option (Option Bytes)) :
    (tr.foldl (fun s p => live e c p s) s).2.isSome = tr.foldl (fun x p => there e p x) s.2.isSome := by
  induction tr generalizing s with
  | nil => rfl
  | cons p tr ih => rw [List.foldl_cons, List.foldl_cons, ih, live_isSome]

theorem live_other {e c : EcsId} {p : Ask × Except Fault Answer} (h : ∀ k xs, p ≠ (.spawn k xs, .ok (.id c))) (s : Nat × Option (Option Bytes)) :
    live e c p s = (s.1, pass (fun _ => none) e c s.1 p s.2) := by
  unfold live
  split
  · rw [if_neg]
    rintro rfl
    exact h _ _ rfl
  · rfl

theorem lives_other {e c : EcsId} {tr : List (Ask × Except Fault Answer)} (h : ∀ p ∈ tr, ∀ k xs, p ≠ (.spawn k xs, .ok (.id c)))
    (s : Nat × Option (Option Bytes)) : (tr.foldl (fun s p => live e c p s) s) = (s.1, course (fun _ => none) e c s.1 tr s.2) := by
  induction tr generalizing s with
  | nil => rfl
  | cons p tr ih =>
    rw [List.foldl_cons, live_other (h p List.mem_cons_self), ih (fun q hq => h q (List.mem_cons_of_mem _ hq))]
    rfl

theorem life_born {e c : EcsId} {tr1 tr2 : List (Ask × Except Fault Answer)} {kind : SpawnKind} {as : List BAct}
    (h : ∀ p ∈ tr2, ∀ k xs, p ≠ (.spawn k xs, .ok (.id c))) :
    life e c (tr1 ++ (.spawn kind as, .ok (.id c)) :: tr2) = course (fun _ => none) e c (AWorld.metaOf kind).layout.size tr2
      (if stays e (tr1 ++ [(.spawn kind as, .ok (.id c))]) = true then some none else none) := by
  unfold life stays
  rw [List.foldl_append, List.foldl_cons, lives_other h, List.foldl_append]
  have := lives_isSome e c tr1 (0, none)
  generalize tr1.foldl (fun s p => live e c p s) (0, none) = s at this
  have this : s.2.isSome = tr1.foldl (fun x p => there e p x) false := this
  simp only [live, if_true, List.foldl_cons, List.foldl_nil, this]
  rfl

theorem rowDyn_life {w : World} {tr : List (Ask × Except Fault Answer)} {fs : List Fetch} (hw : Safe w []) {e : EcsId}
    (hs : (∃ m, w.InfoIs e m) ↔ stays e tr = true) (hv : ∀ f ∈ fs, ∀ c, f.Of c → w.Stands e c (life e c tr)) :
    w.view.rowDyn fs e = lifeRow tr fs e := by
  have ha := view_shows hw.inv.inv
  unfold AWorld.rowDyn lifeRow
  cases hinfo : w.view.info e with
  | none =>
    rw [if_neg (by simp), if_neg]
    intro hh
    obtain ⟨m, hm⟩ := hs.2 hh
    rw [(ha.info e m).2 hm] at hinfo
    cases hinfo
  | some m =>
    have hm := (ha.info e m).1 hinfo
    rw [if_pos (show (some m).isSome = true from rfl), if_pos (hs.1 ⟨m, hm⟩)]
    have hval : ∀ f ∈ fs, ∀ c, f.Of c → w.view.cell e c = (life e c tr).join := fun f hf c hc => by
      have h := hv f hf c hc
      apply Option.ext
      intro bs
      rw [ha.cell e c bs]
      cases hl : life e c tr with
      | none => rw [hl] at h; exact absurd hm (h m)
      | some o => rw [hl] at h; exact h.2 bs
    refine mapM_congr (fun f hf => ?_)
    cases f with
    | ecsId => rfl
    | «mut» c => show Option.map _ _ = Option.map _ _; rw [hval _ hf c (Or.inl rfl)]
    | immut c => show Option.map _ _ = Option.map _ _; rw [hval _ hf c (Or.inr rfl)]

end Ellecs.World
