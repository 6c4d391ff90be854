import Verif.Props.Refine
import Verif.Props.Meta
import Verif.Props.Safety
import Verif.Proofs.Undo
import Verif.Spec.Undo
/-!
# C74
-/
namespace Ellecs.WorldSpec
open World Demo

theorem unit_ok {r : Except Fault Unit} (h : r.map (fun _ => Answer.unit) = .ok .unit) : r = .ok () := by
  cases r with | ok u => rfl | error f => cases h

theorem used_marks {w : World} (hi : Inv w) {a : AWorld} (ha : w.Shows a) {c : EcsId} (hu : w.Used c) : a.used c = true ∧ a.lock c ≠ none := by
  refine ⟨(ha.used c).2 hu, ?_⟩
  obtain ⟨k, k1, k2⟩ := hu
  obtain ⟨i, h⟩ := Option.ne_none_iff_exists'.1 (hi.lock.used k k1 c k2)
  rw [ha.lockOf, ne_eq, lockOf_none hi, h]
  simp

/-- C74: writing the value that is there changes nothing. -/
theorem C74_write_same {w w1 : World} (hw : Reachable w) {e c : EcsId} {bs : Bytes} (hb : w.Has e c bs) {x : Except Fault Answer}
    (h : Talk w [(.call (.write e c bs), x)] w1) : SameView w w1 := by
  have ha := view_shows hw.sound.inv
  obtain ⟨_, q2⟩ := h.shows hw ha
  simp only [List.map_cons, List.map_nil, AWorld.answers, AWorld.ask, AWorld.step] at q2
  rw [AWorld.write_same ((ha.cell e c bs).2 hb)] at q2
  exact ⟨_, ha, q2⟩

/-- C74: removing a component and adding it again with the value it had changes nothing. -/
theorem C74_remove_add {w w2 : World} (hw : Reachable w) {e c : EcsId} {bs : Bytes} (hb : w.Has e c bs)
    (h : Talk w [(.call (.removeDynamic e c), .ok .unit), (.call (.addDynamicWithData e c bs), .ok .unit)] w2) : SameView w w2 := by
  have hi := hw.sound.inv
  have ha := view_shows hi
  obtain ⟨q1, q2⟩ := h.shows hw ha
  simp only [List.map_cons, List.map_nil, AWorld.answers, AWorld.ask, List.cons.injEq, and_true, AWorld.step] at q1 q2
  have hu := has_used hi hb
  obtain ⟨k, k1, k2⟩ := hu
  obtain ⟨hl, m, hm⟩ := hi.live_comp k1 k2
  have hm := live_info hi hl hm
  obtain ⟨u1, u2⟩ := used_marks hi ha ⟨k, k1, k2⟩
  have := AWorld.remove_add (a := w.view) (e := e) (c := c) (by rw [ha.alive]; exact alive_iff.2 (hi.row_live (hi.has_live hb)))
    (by rw [ha.alive]; exact alive_iff.2 hl) ((ha.cell e c bs).2 hb) ((ha.info c m).2 hm) ((C55_columns hw hm).2 e bs hb) u1 u2
    (pair_eq (unit_ok q1.1)) (pair_eq (unit_ok q1.2))
  rw [this] at q2
  exact ⟨_, ha, q2⟩

/-- C74: a value that is overwritten before the component is removed is not missed. -/
theorem C74_write_remove {w w1 w2 : World} (hw : Reachable w) {e c : EcsId} {bs : Bytes} {x y y' : Except Fault Answer}
    (h1 : Talk w [(.call (.write e c bs), x), (.call (.removeDynamic e c), y)] w1) (h2 : Talk w [(.call (.removeDynamic e c), y')] w2) :
    y = y' ∧ SameView w1 w2 := by
  have ha := view_shows hw.sound.inv
  obtain ⟨q1, q2⟩ := h1.shows hw ha
  obtain ⟨r1, r2⟩ := h2.shows hw ha
  simp only [List.map_cons, List.map_nil, AWorld.answers, AWorld.ask, List.cons.injEq, and_true, AWorld.step] at q1 q2 r1 r2
  rw [AWorld.write_remove] at q1 q2
  exact ⟨q1.2.symm.trans r1, _, q2, r2⟩

/-- C74: whatever is done to the components of an entity before it is despawned, nothing remains of it (if the components
added to it were in use before). -/
theorem C74_then_despawn {w w1 w2 : World} (hw : Reachable w) {e : EcsId} {cs : List Call}
    (hc : ∀ c ∈ cs, Concerns e c ∧ w.Registered c ∧ ∀ x, w.Adds c x → w.Used x) {tr : List (Ask × Except Fault Answer)} (h1 : Talk w tr w1)
    (hq : tr.map Prod.fst = cs.map .call ++ [.despawn e]) {y : Except Fault Answer} (h2 : Talk w [(.despawn e, y)] w2) :
    (tr.map Prod.snd).getLast? = some y ∧ (y = .ok (.bool true) → SameView w1 w2) := by
  have hi := hw.sound.inv
  have ha := view_shows hi
  obtain ⟨q1, q2⟩ := h1.shows hw ha
  obtain ⟨r1, r2⟩ := h2.shows hw ha
  rw [hq, AWorld.answers_append] at q1 q2
  obtain ⟨r, hr⟩ := AWorld.steps_row (e := e) (a := w.view) cs (fun c hm => by
    obtain ⟨k1, k2, k3⟩ := hc c hm
    refine ⟨k1, fun x hx => used_marks hi ha (k3 x ?_), fun t ht => ?_⟩
    · cases c <;> first | exact hx | (exact (by rw [← ha.types]; exact hx))
    · rw [ha.types]
      cases c <;> cases ht
      · exact k2
      · exact k2)
  rw [hr] at q1 q2
  simp only [AWorld.answers, AWorld.ask, AWorld.despawn_row, List.map_cons, List.map_nil] at q1 q2 r1 r2
  rw [← q1]
  simp only [List.getLast?_append, List.getLast?_singleton, Option.some_or, Option.some.injEq]
  injection r1 with r1
  revert q2 r1 r2
  cases w.view.despawn e with
  | mk x b =>
    cases x with
    | error f => intro q2 r2 r1; exact ⟨r1, fun hy => by rw [hy] at r1; cases r1⟩
    | ok t =>
      cases t with
      | false => intro q2 r2 r1; exact ⟨r1, fun hy => by rw [hy] at r1; cases r1⟩
      | true => intro q2 r2 r1; exact ⟨r1, fun _ => ⟨b, q2, r2⟩⟩

/-- C74: of an entity that was spawned and despawned only its id remains (if its components were in use before). -/
theorem C74_spawn_despawn {w w2 : World} (hw : Reachable w) {kind : SpawnKind} {xs : List BAct} (hx : ∀ x ∈ xs, ∃ c, Names w x c ∧ w.Used c) {e : EcsId}
    (h : Talk w [(.spawn kind (xs ++ [.build]), .ok (.id e)), (.despawn e, .ok (.bool true))] w2) :
    ∃ a s, w.Shows a ∧ w2.Shows { a with ents := s } ∧ ∀ x, s.isAlive x = .ok true ↔ a.ents.isAlive x = .ok true := by
  have hi := hw.sound.inv
  have ha := view_shows hi
  obtain ⟨q1, q2⟩ := h.shows hw ha
  simp only [List.map_cons, List.map_nil, AWorld.answers, AWorld.ask, List.cons.injEq, and_true] at q1 q2
  have hb : BAct.build ∉ xs := fun hh => by obtain ⟨c, hc, _⟩ := hx _ hh; exact hc
  revert q1 q2
  unfold AWorld.spawn AWorld.spawnId
  rcases Entities.spawn_spec hi.ent with ⟨s', e1, _⟩ | ⟨e', s', e1, e2, e3, e4, _⟩
  · rw [ha.ents, e1]; simp only; rintro ⟨q1, _⟩; cases q1
  · rw [ha.ents, e1]
    simp only [AWorld.acts_append]
    cases hk : AWorld.acts ⟨e', AWorld.metaOf kind, []⟩ xs { w.view with ents := s' } with
    | mk r a' =>
      cases r with
      | error f => simp only; rintro ⟨q1, _⟩; cases q1
      | ok d =>
        obtain ⟨k1, k2, k3, k4⟩ := AWorld.acts_known xs hb (fun t v hm => by
          obtain ⟨c, hc, _⟩ := hx _ hm
          have hc : w.typeMap t = some c := hc
          show w.view.types t ≠ none
          rw [ha.types, hc]; simp) hk
        subst k1
        have hf := AWorld.finish_known (a := { w.view with ents := s' }) (d := d) (fun c hc => by
          rcases k4 c hc with h1 | ⟨x, x1, x2⟩
          · cases h1
          · obtain ⟨c', n1, n2⟩ := hx x x1
            have : c' = c := by
              cases x with
              | build => exact absurd n1 id
              | «with» t v =>
                have n1 : w.typeMap t = some c' := n1
                have x2 : w.view.types t = some c := x2
                rw [ha.types, n1] at x2; exact Option.some.inj x2
              | withDynamic y => exact Eq.trans n1 x2
              | withDynamicWithData y v => exact Eq.trans n1 x2
            subst this
            exact used_marks hi ha n2)
        simp only [AWorld.acts, AWorld.act, hf]
        rintro ⟨q1, q3⟩ q2
        simp only [Except.map, Except.ok.injEq, Answer.id.injEq] at q1
        subst q1
        have hk2 : d.entity = e' := k2
        subst hk2
        have hnl : ¬ w.entities.Live d.entity := fun hl => e4 _ hl rfl
        have hl : s'.Live d.entity := (e3 _).2 (Or.inr rfl)
        obtain ⟨s2, f1, f2, f3, _⟩ := Entities.despawn_spec e2 hl
        have hin : w.view.info d.entity = none := (ha.infoNone hi).2 (fun hr => hnl (hi.row_live hr))
        refine ⟨w.view, s2, ha, ?_, ?_⟩
        · have hd : ∀ b : AWorld, b.ents = s' → b.info d.entity ≠ none → (b.despawn d.entity).1 = .ok true → (b.despawn d.entity).2 = { b with
              ents := s2
              info := fun x => if x = d.entity then none else b.info x
              cell := fun x y => if x = d.entity then none else b.cell x y } := by
            intro b b1 b2 b3
            obtain ⟨m, b2⟩ := Option.ne_none_iff_exists'.1 b2
            have b4 : b.isAlive d.entity = .ok true := by unfold AWorld.isAlive; rw [b1]; exact Entities.isAlive_live hl
            unfold AWorld.despawn at b3 ⊢
            rw [b4] at b3 ⊢
            simp only at b3 ⊢
            cases hu : b.used d.entity with
            | true => rw [hu] at b3; simp only [if_true] at b3; cases b3
            | false => simp only [Bool.false_eq_true, if_false, b2, b1, f1]
          have hcell : ∀ y, w.view.cell d.entity y = none := fun y => ha.cellNone.2 (fun ⟨bs, hh⟩ => hnl (hi.row_live (hi.has_live hh)))
          rw [hd _ rfl (by simp) (by
            revert q3
            generalize (AWorld.despawn d.entity _).1 = z
            intro q3
            cases z with
            | error f => cases q3
            | ok t => simp only [Except.map, Except.ok.injEq, Answer.bool.injEq] at q3; rw [q3])] at q2
          have heq : ∀ b : AWorld, b = { w.view with ents := s2 } → w2.Shows b → w2.Shows { w.view with ents := s2 } := fun b hb hh => by rw [← hb]; exact hh
          refine heq _ ?_ q2
          refine AWorld.ext' rfl rfl ?_ ?_ (fun _ => rfl) (fun _ => rfl)
          · intro x
            by_cases hxe : x = d.entity
            · subst hxe; simp [hin]
            · simp [hxe]
          · intro x y
            by_cases hxe : x = d.entity
            · subst hxe; simp [hcell y]
            · simp [hxe]
        · intro x
          rw [ha.ents, Entities.isAlive_iff, Entities.isAlive_iff, f3, e3]
          constructor
          · rintro ⟨h1 | h1, h2⟩
            · exact h1
            · exact absurd h1 h2
          · exact fun h1 => ⟨Or.inl h1, fun hh => hnl (by rw [← hh]; exact h1)⟩

/-! ## Examples -/

theorem talk_demo {tr : List (Ask × Except Fault Answer)}
    (h : (converse (tr.map Prod.fst) demo).map (fun r => r.1.map plain) = some (tr.map (fun p => plain p.2))) : ∃ w, Talk demo tr w := by
  obtain ⟨⟨ys, w'⟩, h1, h2⟩ := Option.map_eq_some_iff.1 h
  have : ys = tr.map Prod.snd := plains_inj (by rw [List.map_map]; exact h2)
  subst this
  have := (converse_talk demo_reachable h1).1
  rw [← List.unzip_fst, ← List.unzip_snd, List.zip_unzip] at this
  exact ⟨w', this⟩

theorem zero_A : demo.Has (ent 0) (ent 1) (val 4 1) := by decide +kernel

/-- C74: entity 0 gets the bytes it has. -/
example : ∃ w, Talk demo [(.call (.write (ent 0) (ent 1) (val 4 1)), .ok .unit)] w ∧ SameView demo w := by
  obtain ⟨w, h⟩ := talk_demo (tr := [(.call (.write (ent 0) (ent 1) (val 4 1)), .ok .unit)]) (by decide +kernel)
  exact ⟨w, h, C74_write_same demo_reachable zero_A h⟩

/-- C74: entity 0 loses a component and gets it back. -/
example : ∃ w, Talk demo [(.call (.removeDynamic (ent 0) (ent 1)), .ok .unit), (.call (.addDynamicWithData (ent 0) (ent 1) (val 4 1)), .ok .unit)] w ∧
    SameView demo w := by
  obtain ⟨w, h⟩ := talk_demo (tr := [(.call (.removeDynamic (ent 0) (ent 1)), .ok .unit), (.call (.addDynamicWithData (ent 0) (ent 1) (val 4 1)), .ok .unit)])
    (by decide +kernel)
  exact ⟨w, h, C74_remove_add demo_reachable zero_A h⟩

/-- C74: other bytes are written to a component that goes. -/
example : ∃ w1 w2, Talk demo [(.call (.write (ent 0) (ent 1) (val 4 9)), .ok .unit), (.call (.removeDynamic (ent 0) (ent 1)), .ok .unit)] w1 ∧
    Talk demo [(.call (.removeDynamic (ent 0) (ent 1)), .ok .unit)] w2 ∧ SameView w1 w2 := by
  obtain ⟨w1, h1⟩ := talk_demo (tr := [(.call (.write (ent 0) (ent 1) (val 4 9)), .ok .unit), (.call (.removeDynamic (ent 0) (ent 1)), .ok .unit)])
    (by decide +kernel)
  obtain ⟨w2, h2⟩ := talk_demo (tr := [(.call (.removeDynamic (ent 0) (ent 1)), .ok .unit)]) (by decide +kernel)
  exact ⟨w1, w2, h1, h2, (C74_write_remove demo_reachable h1 h2).2⟩

/-- C74: three calls before an entity is despawned; one of them panics. -/
example : ∃ w1 w2, Talk demo [(.call (.addComponent (ent 3) tB (val 8 1)), .ok .unit), (.call (.removeDynamic (ent 3) (ent 4)), .error .notPresent),
      (.call (.removeComponent (ent 3) tA), .ok .unit), (.despawn (ent 3), .ok (.bool true))] w1 ∧
    Talk demo [(.despawn (ent 3), .ok (.bool true))] w2 ∧ SameView w1 w2 := by
  have hB : demo.typeMap tB = some (ent 2) := by decide +kernel
  have hA : demo.typeMap tA = some (ent 1) := by decide +kernel
  have hc : ∀ c ∈ [Call.addComponent (ent 3) tB (val 8 1), .removeDynamic (ent 3) (ent 4), .removeComponent (ent 3) tA],
      Concerns (ent 3) c ∧ demo.Registered c ∧ ∀ x, demo.Adds c x → demo.Used x := by
    intro c hc
    simp only [List.mem_cons, List.not_mem_nil, or_false] at hc
    rcases hc with rfl | rfl | rfl
    · refine ⟨rfl, by show demo.typeMap tB ≠ none; rw [hB]; simp, ?_⟩
      intro x hx
      have hx : demo.typeMap tB = some x := hx
      rw [hB] at hx
      cases hx
      decide +kernel
    · exact ⟨rfl, trivial, fun x hx => absurd hx id⟩
    · exact ⟨rfl, by show demo.typeMap tA ≠ none; rw [hA]; simp, fun x hx => absurd hx id⟩
  obtain ⟨w1, h1⟩ := talk_demo (tr := [(.call (.addComponent (ent 3) tB (val 8 1)), .ok .unit), (.call (.removeDynamic (ent 3) (ent 4)), .error .notPresent),
    (.call (.removeComponent (ent 3) tA), .ok .unit), (.despawn (ent 3), .ok (.bool true))]) (by decide +kernel)
  obtain ⟨w2, h2⟩ := talk_demo (tr := [(.despawn (ent 3), .ok (.bool true))]) (by decide +kernel)
  exact ⟨w1, w2, h1, h2, (C74_then_despawn demo_reachable hc h1 rfl h2).2 rfl⟩

/-- C74: an entity with two components that comes and goes. -/
example : ∃ w a s,
    Talk demo [(.spawn .plain ([.with tB (val 8 1), .withDynamic (ent 4)] ++ [.build]), .ok (.id ⟨1, 5⟩)), (.despawn ⟨1, 5⟩, .ok (.bool true))] w ∧
    demo.Shows a ∧ w.Shows { a with ents := s } ∧ ∀ x, s.isAlive x = .ok true ↔ a.ents.isAlive x = .ok true := by
  have hx : ∀ x ∈ [BAct.with tB (val 8 1), .withDynamic (ent 4)], ∃ c, Names demo x c ∧ demo.Used c := by
    intro x hx
    simp only [List.mem_cons, List.not_mem_nil, or_false] at hx
    rcases hx with rfl | rfl
    · exact ⟨ent 2, by show demo.typeMap tB = _; decide +kernel, by decide +kernel⟩
    · exact ⟨ent 4, rfl, by decide +kernel⟩
  obtain ⟨w, h⟩ := talk_demo (tr := [(.spawn .plain ([.with tB (val 8 1), .withDynamic (ent 4)] ++ [.build]), .ok (.id ⟨1, 5⟩)), (.despawn ⟨1, 5⟩, .ok (.bool true))])
    (by decide +kernel)
  obtain ⟨a, s, h1, h2, h3⟩ := C74_spawn_despawn demo_reachable hx h
  exact ⟨w, a, s, h, h1, h2, h3⟩

end Ellecs.WorldSpec
