import Verif.Props.Refine
import Verif.Proofs.Split
/-!
# C73
-/
namespace Ellecs.WorldSpec
open World Demo

/-- C73: any of the last calls of a chain may be made before `build` or, as calls on the entity, after it: the entity gets
the same id, every call after `build` returns, and the two worlds cannot be told apart. -/
theorem C73_split {w w1 w2 : World} (hw : Reachable w) {kind : SpawnKind} {xs ys : List BAct} (hx : BAct.build ∉ xs) (hy : BAct.build ∉ ys) {e : EcsId}
    (h1 : Talk w [(.spawn kind (xs ++ (ys ++ [.build])), .ok (.id e))] w1) {tr : List (Ask × Except Fault Answer)} (h2 : Talk w tr w2)
    (hq : tr.map Prod.fst = .spawn kind (xs ++ [.build]) :: (ys.filterMap (asAdd e)).map .call) :
    tr.map Prod.snd = .ok (.id e) :: ys.map (fun _ => .ok .unit) ∧ SameView w1 w2 := by
  have hs := hw.sound
  have ha := view_shows hs.inv
  cases h1 with
  | ok hok hex _ hd =>
    cases hd
    obtain ⟨e', w', q1, q2⟩ := bind_ok (f := fun e => (pure (Answer.id e) : M Answer)) hex
    simp only [pure, EStateM.pure, EStateM.Result.ok.injEq, Answer.id.injEq] at q2
    obtain ⟨rfl, rfl⟩ := q2
    obtain ⟨a1, k1, k2⟩ := spawn_split hs.inv hs.nowrap.ready ha hx hy hok q1
    obtain ⟨r1, r2⟩ := h2.shows hw ha
    rw [hq, k2] at r1 r2
    exact ⟨r1.symm, a1, k1, r2⟩

/-- C73: building an entity with components is the same as building it without any and adding them one by one. -/
theorem C73_one_by_one {w w1 w2 : World} (hw : Reachable w) {kind : SpawnKind} {xs : List BAct} (hx : BAct.build ∉ xs) {e : EcsId}
    (h1 : Talk w [(.spawn kind (xs ++ [.build]), .ok (.id e))] w1) {tr : List (Ask × Except Fault Answer)} (h2 : Talk w tr w2)
    (hq : tr.map Prod.fst = .spawn kind [.build] :: (xs.filterMap (asAdd e)).map .call) :
    tr.map Prod.snd = .ok (.id e) :: xs.map (fun _ => .ok .unit) ∧ SameView w1 w2 :=
  C73_split hw (xs := []) (by simp) hx h1 h2 hq

/-! ## Examples -/

/-- The chain of the example below, made of `xs` and `ys`. -/
def splitXs : List BAct := [.with tA (val 4 7)]
def splitYs : List BAct := [.with tC (val 2 9), .withDynamicWithData (ent 2) (val 8 3), .withDynamic (ent 4)]

/-- C73: four components, one of a type the world does not know yet, two of them dynamic. -/
example : ∃ w1 w2, Talk demo [(.spawn .plain (splitXs ++ (splitYs ++ [.build])), .ok (.id ⟨1, 5⟩))] w1 ∧
    Talk demo [(.spawn .plain (splitXs ++ [.build]), .ok (.id ⟨1, 5⟩)), (.call (.addComponent ⟨1, 5⟩ tC (val 2 9)), .ok .unit),
      (.call (.addDynamicWithData ⟨1, 5⟩ (ent 2) (val 8 3)), .ok .unit), (.call (.addDynamic ⟨1, 5⟩ (ent 4)), .ok .unit)] w2 ∧ SameView w1 w2 := by
  obtain ⟨⟨x1, w1⟩, h1⟩ := Option.isSome_iff_exists.1 (show (converse [.spawn .plain (splitXs ++ (splitYs ++ [.build]))] demo).isSome = true by decide +kernel)
  obtain ⟨⟨x2, w2⟩, h2⟩ := Option.isSome_iff_exists.1 (show (converse (.spawn .plain (splitXs ++ [.build]) :: (splitYs.filterMap (asAdd ⟨1, 5⟩)).map .call) demo).isSome = true by decide +kernel)
  have e1 : (converse [.spawn .plain (splitXs ++ (splitYs ++ [.build]))] demo).map (fun r => r.1.map plain) = some ([.ok (.id ⟨1, 5⟩)].map plain) := by decide +kernel
  have e2 : (converse (.spawn .plain (splitXs ++ [.build]) :: (splitYs.filterMap (asAdd ⟨1, 5⟩)).map .call) demo).map (fun r => r.1.map plain) =
    some ([.ok (.id ⟨1, 5⟩), .ok .unit, .ok .unit, .ok .unit].map plain) := by decide +kernel
  rw [h1] at e1
  rw [h2] at e2
  have e1 := plains_inj (Option.some.inj e1)
  have e2 := plains_inj (Option.some.inj e2)
  simp only at e1 e2
  subst e1 e2
  have t1 := (converse_talk demo_reachable h1).1
  have t2 := (converse_talk demo_reachable h2).1
  exact ⟨w1, w2, t1, t2, (C73_split demo_reachable (by simp [splitXs]) (by simp [splitYs]) t1 t2 rfl).2⟩

end Ellecs.WorldSpec
