import Verif.Proofs.Latest
import Verif.Props.Rebirth
import Verif.Props.Refine
/-!
# C90: a component holds the value that was put there last

The effects of single calls are `C06`–`C09`, `C19` and `C26`.  Here is what they amount to in a conversation, panics and
calls about everything else included.
-/
namespace Ellecs.WorldSpec
open World Demo

/-- C90: what an entity has of a component is what the questions about these two say, in their order. -/
theorem C90_latest {w w' : World} (hw : Safe w []) {e c : EcsId} {m : ComponentMeta} (he : w.Alive e) (hm : w.InfoIs c m)
    {tr : List (Ask × Except Fault Answer)} (h : FreeTalk w tr w') (hde : ¬ Despawned tr e) (hdc : ¬ Despawned tr c)
    {old : Option Bytes} (ho : ∀ bs, w.Has e c bs ↔ old = some bs) :
    ∀ bs, w'.Has e c bs ↔ latest w'.typeMap e c m.layout.size tr old = some bs :=
  (h.latest hw he hm hde hdc ho).2.2

/-- C90: and this is what the program sees when it asks. -/
theorem C90_look {w w' : World} (hw : Safe w []) {e c : EcsId} {m : ComponentMeta} (he : w.Alive e) (hm : w.InfoIs c m)
    {tr : List (Ask × Except Fault Answer)} (h : FreeTalk w tr w') (hde : ¬ Despawned tr e) (hdc : ¬ Despawned tr c)
    {old : Option Bytes} (ho : ∀ bs, w.Has e c bs ↔ old = some bs) :
    (∀ x w'', Ask.exec (.look e c m.layout.size) w' = .ok (.value x) w'' → x = latest w'.typeMap e c m.layout.size tr old) ∧
    (∀ t b w'', w'.typeMap t = some c → Ask.exec (.has t e) w' = .ok (.bool b) w'' → b = (latest w'.typeMap e c m.layout.size tr old).isSome) := by
  have hw' := h.safe hw
  have hi := hw'.inv.inv
  have ha := view_shows hi
  obtain ⟨k1, k2, k3⟩ := h.latest hw he hm hde hdc ho
  have hcell : w'.view.cell e c = latest w'.typeMap e c m.layout.size tr old := by
    apply Option.ext
    intro bs
    rw [ha.cell, k3]
  have he' : w'.view.isAlive e = .ok true := by rw [ha.alive]; exact k1
  have hc' : w'.view.isAlive c = .ok true := by rw [ha.alive]; exact Entities.isAlive_live (hi.row_live ((infoIs_iff hi).1 k2).1)
  rw [← hcell]
  constructor
  · intro x w'' hx
    have hq : Ask.Ok w' (.look e c m.layout.size) := fun m' hm' => by
      have h1 := (ha.info c m).2 k2
      rw [(ha.info c m').2 hm'] at h1
      cases h1; rfl
    obtain ⟨s1, _⟩ := ask_maps hw' hq (Or.inl ⟨_, rfl, hx⟩)
    have s1 : Except.map Answer.value (w'.view.look e c) = .ok (.value x) := s1
    unfold AWorld.look at s1
    simp only [he', hc'] at s1
    cases h1 : w'.view.info e with
    | none =>
      simp only [h1] at s1
      cases s1
      cases h2 : w'.view.cell e c with
      | none => rfl
      | some bs =>
        obtain ⟨k, r, t, v, h3, h4, _⟩ := (ha.cell e c bs).1 h2
        exact absurd ⟨k, r, t, h3, h4⟩ ((ha.infoNone hi).1 h1)
    | some m' =>
      simp only [h1] at s1
      cases h2 : w'.view.cell e c with
      | none => simp only [h2] at s1; cases s1
      | some bs => simp only [h2] at s1; cases s1; rfl
  · intro t b w'' ht hx
    obtain ⟨s1, _⟩ := ask_maps (q := .has t e) hw' trivial (Or.inl ⟨_, rfl, hx⟩)
    have s1 : Except.map Answer.bool (w'.view.hasComponent t e) = .ok (.bool b) := s1
    unfold AWorld.hasComponent at s1
    rw [ha.types, ht] at s1
    simp only [he'] at s1
    cases s1; rfl

/-- C90: an entity no question is about keeps all it has, and its metadata. -/
theorem C90_untouched {w w' : World} (hw : Safe w []) {e : EcsId} (he : w.Alive e) {tr : List (Ask × Except Fault Answer)} (h : FreeTalk w tr w')
    (hi : ∀ p ∈ tr, ¬ Involves e p.1) : w'.Alive e ∧ (∀ m, w'.InfoIs e m ↔ w.InfoIs e m) ∧ ∀ c bs, w'.Has e c bs ↔ w.Has e c bs :=
  h.untouched hw he hi

/-- C90: a component keeps its metadata until it is despawned. -/
theorem C90_metadata {w w' : World} (hw : Safe w []) {c : EcsId} {m : ComponentMeta} (hm : w.InfoIs c m) {tr : List (Ask × Except Fault Answer)}
    (h : FreeTalk w tr w') (hd : ¬ Despawned tr c) : w'.InfoIs c m := by
  have hi := hw.inv.inv
  have hc : w.Alive c := Entities.isAlive_live (hi.row_live ((infoIs_iff hi).1 hm).1)
  have ha := view_shows hi
  exact (h.latest hw hc hm hd hd (old := w.view.cell c c) (fun bs => (ha.cell c c bs).symm)).2.1

/-! ## cases -/

/-- A value is removed, another one added and overwritten; a second addition panics; other entities come and go. -/
def story : List Ask :=
  [.call (.removeComponent (ent 0) tA), .spawn .plain [.with tA (val 4 8), .build], .call (.addComponent (ent 0) tA (val 4 2)), .despawn ⟨1, 5⟩,
   .call (.addComponent (ent 0) tA (val 4 6)), .call (.write (ent 0) (ent 1) (val 4 9)), .call (.write (ent 3) (ent 1) (val 4 7))]

def storyAnswers : List (Except Fault Answer) :=
  [.ok .unit, .ok (.id ⟨1, 5⟩), .ok .unit, .ok (.bool true), .error .alreadyPresent, .ok .unit, .ok .unit]

theorem story_told : (converse story demo).isSome = true := by decide +kernel
def storyEnd : World := ((converse story demo).get story_told).2
theorem story_talk : FreeTalk demo (story.zip storyAnswers) storyEnd :=
  C89_covers.1 (converse_get demo_reachable story_told (by decide +kernel))

theorem story_spares (i : BitVec 32) (hi : i ≠ 5) : ¬ Despawned (story.zip storyAnswers) (ent i) := by
  rintro ⟨p, hp, h | h⟩ <;> subst h <;> revert hp <;> simp [story, storyAnswers, ent, hi]

theorem story_old : ∀ bs, demo.Has (ent 0) (ent 1) bs ↔ some (val 4 1) = some bs := by
  have ha := view_shows demo_reachable.sound.inv
  have h1 : demo.view.cell (ent 0) (ent 1) = some (val 4 1) := (ha.cell _ _ _).2 (by decide +kernel)
  intro bs
  rw [← ha.cell, h1]

theorem story_info : demo.InfoIs (ent 1) (.fromGeneric tA) := demo_reachable.sound.inv.type_info demo_typeA (Entities.isAlive_iff.1 (by decide +kernel))

example : storyEnd.Has (ent 0) (ent 1) (val 4 9) := by
  refine (C90_latest demo_safe (by decide +kernel) story_info story_talk (story_spares 0 (by decide +kernel)) (story_spares 1 (by decide +kernel)) story_old _).2 ?_
  decide +kernel

example := C90_look demo_safe (by decide +kernel) story_info story_talk (story_spares 0 (by decide +kernel)) (story_spares 1 (by decide +kernel)) story_old

/-- Entity 6 is not mentioned. -/
example : (∀ p ∈ story.zip storyAnswers, ¬ Involves (ent 6) p.1) ∧ ∀ c bs, storyEnd.Has (ent 6) c bs ↔ demo.Has (ent 6) c bs := by
  have h : ∀ p ∈ story.zip storyAnswers, ¬ Involves (ent 6) p.1 := by simp [story, storyAnswers, Involves, ent]
  exact ⟨h, (C90_untouched demo_safe (by decide +kernel) story_talk h).2.2⟩

example : storyEnd.InfoIs (ent 1) (.fromGeneric tA) := C90_metadata demo_safe story_info story_talk (story_spares 1 (by decide +kernel))

end Ellecs.WorldSpec
