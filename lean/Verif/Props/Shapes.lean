import Verif.Proofs.Shapes
import Verif.Proofs.Demo
/-!
# C66: tables are created only for entities

A table is created only when an entity goes there, and there are at most as many tables as there were different combinations
of components.
-/
namespace Ellecs.WorldSpec
open World Demo

/-- C66: after a call, every table was there before, or holds an entity with exactly these components. -/
theorem C66_needed {w w' : World} (hw : Reachable w) {c : Call} (hc : c.Ok w) (h : c.exec w = .ok () w') : TablesNeeded w w' :=
  (exec_needed hw.sound.inv hw.sound.nowrap hw.sound.idle hc).ok h

/-- C66 after a panic. -/
theorem C66_panic {w w' : World} (hw : Reachable w) {c : Call} (hc : c.Ok w) {f : Fault} (h : c.exec w = .error f w') (hl : ¬ Limit f) (hd : f ≠ .deadlock) :
    TablesNeeded w w' :=
  (exec_needed hw.sound.inv hw.sound.nowrap hw.sound.idle hc).error h (fun hs => hs.elim hl hd)

theorem _root_.Ellecs.ReachableIn.reachable {S : List (List EcsId)} {w : World} (h : ReachableIn S w) : Reachable w := by
  induction h with
  | new => exact .new
  | ok c _ hc he hn _ ih => exact .ok c ih hc he hn
  | panic c f _ hc he hl hd hn _ ih => exact .panic c f ih hc he hl hd hn

/-- C66: every table has the components some entity had at some time. -/
theorem C66_covers {S : List (List EcsId)} {w : World} (h : ReachableIn S w) : Covers S w := by
  induction h with
  | new => intro t ht; cases ht
  | ok c hr hc he _ hs ih => exact (C66_needed hr.reachable hc he).covers ih hs
  | panic c f hr hc he hl hd _ hs ih => exact (C66_panic hr.reachable hc he hl hd).covers ih hs

/-- C66: there are at most as many tables as there were combinations of components. -/
theorem C66_count {S : List (List EcsId)} {w : World} (h : ReachableIn S w) (hS : S.length < 2 ^ 32) : w.archetypes.length ≤ S.length :=
  (C66_covers h).count h.reachable.sound.inv hS

/-! ### a case -/

/-- `Shaped`, as a check of the tables that have entities. -/
def shapedB (S : List (List EcsId)) (w : World) : Bool :=
  w.archetypes.all fun a => a.entities.isEmpty || S.any fun l => l.all (a.compIds.contains ·) && a.compIds.all (l.contains ·)

theorem shapedB_spec {S : List (List EcsId)} {w : World} (hi : Inv w) (h : shapedB S w = true) : Shaped S w := by
  rintro x ⟨k, r, a, ha, hr⟩
  have := List.all_eq_true.1 h a (List.mem_of_getElem? ha)
  rcases Bool.or_eq_true _ _ ▸ this with h1 | h1
  · rw [List.isEmpty_iff.1 h1] at hr; cases hr
  · obtain ⟨l, hl, h2⟩ := List.any_eq_true.1 h1
    obtain ⟨h2, h3⟩ := Bool.and_eq_true_iff.1 h2
    refine ⟨l, hl, fun c => ?_⟩
    rw [hasComp_at hi ha hr]
    exact ⟨fun hc => by simpa using List.all_eq_true.1 h2 c hc, fun hc => by simpa using List.all_eq_true.1 h3 c hc⟩

def runIn (S : List (List EcsId)) : List Call → World → Option World
  | [], w => some w
  | c :: cs, w =>
    match okB w c, c.exec w with
    | true, .ok _ w' => if w'.NoFullSlot ∧ shapedB S w' = true then runIn S cs w' else none
    | _, _ => none

theorem runIn_spec {S : List (List EcsId)} {cs : List Call} {w w' : World} (hw : ReachableIn S w) (h : runIn S cs w = some w') : ReachableIn S w' := by
  induction cs generalizing w with
  | nil => cases h; exact hw
  | cons c cs ih =>
    unfold runIn at h
    split at h
    · rename_i w1 h1 h2
      split at h
      · rename_i hn
        have hok := okB_ok hw.reachable.sound h1
        have hi := (Reachable.ok c hw.reachable hok h2 hn.1).sound.inv
        exact ih (.ok c hw hok h2 hn.1 (shapedB_spec hi hn.2)) h
      · cases h
    · cases h

/-- Five combinations of components, five tables: the bound is met. -/
def demoShapes : List (List EcsId) := [[ent 4, ent 1], [], [ent 1], [ent 2, ent 1], [ent 1, ent 2, ent 4]]

theorem demo_in_run : (runIn demoShapes calls World.new).isSome = true := by decide +kernel

example : ∃ w, ReachableIn demoShapes w ∧ w.archetypes.length = 5 :=
  ⟨_, runIn_spec .new (Option.some_get demo_in_run).symm, by decide +kernel⟩

/-! ### The theorems at work -/

example := C66_needed demo_reachable (c := .addComponent (ent 6) tZ []) rfl (eq_of_endsOk (by decide +kernel))
example := C66_panic demo_reachable (c := .removeComponent (ent 0) tB) trivial (f := .notPresent) (eq_of_endsWith (by decide +kernel)) (by rintro (h | h | h) <;> cases h) (by decide)
example := C66_covers (runIn_spec .new (Option.some_get demo_in_run).symm)
example := C66_count (runIn_spec .new (Option.some_get demo_in_run).symm) (by decide)

end Ellecs.WorldSpec
