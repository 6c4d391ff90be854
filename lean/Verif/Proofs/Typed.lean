import Verif.Proofs.SpawnWith
/-! # Adding and removing components by type, and the zero sized dynamic add -/
namespace Ellecs
namespace World

/-- `get_or_create_type_id_ecsid::<T>` returned `id` and left `w1`. -/
structure GotId (w : World) (t : Ty) (id : EcsId) (w1 : World) : Prop where
  grow : Grow w w1
  typ : w1.typeMap t = some id
  same : w.typeMap t = some id → w1 = w
  live : w.typeMap t = none → w1.entities.Live id
  other : ∀ t', t' ≠ t → w1.typeMap t' = w.typeMap t'

theorem GotId.cases {w w1 : World} {t : Ty} {id : EcsId} (h : GotId w t id w1) :
    (w.typeMap t = some id ∧ w1 = w) ∨ (w.typeMap t = none ∧ w1.entities.Live id) := by
  cases ht : w.typeMap t with
  | none => exact Or.inr ⟨rfl, h.live ht⟩
  | some x =>
    have := h.grow.typ t x ht
    rw [h.typ] at this
    injection this with this
    subst this
    exact Or.inl ⟨rfl, h.same ht⟩

theorem GotId.alive {w w1 : World} {t : Ty} {id : EcsId} (h : GotId w t id w1) :
    w1.isAlive id = .ok true ∨ w1.isAlive id = .ok false := by
  have hk := h.grow.inv.type.known t id h.typ
  obtain ⟨a, g, hg, _⟩ := hk
  unfold World.isAlive Entities.isAlive
  rw [hg]
  show Except.ok (a && id.gen == g) = _ ∨ Except.ok (a && id.gen == g) = _
  generalize (a && id.gen == g) = b
  cases b <;> simp

theorem GotId.info {w w1 : World} {t : Ty} {id : EcsId} (h : GotId w t id w1) (hl : w1.entities.Live id) :
    compOf w1.metas id.uindex = some (ComponentMeta.fromGeneric t) :=
  h.grow.inv.type.comp t id h.typ hl

theorem Grow.alive {w w1 : World} (h : Grow w w1) {e : EcsId} (hl : w.isAlive e = .ok true) : w1.isAlive e = .ok true :=
  alive_iff.2 ((h.live e).2 (Or.inl (alive_iff.1 hl)))

theorem Grow.rowOld {w w1 : World} (h : Grow w w1) {e : EcsId} (hl : w.entities.Live e) : w1.Row e ↔ w.Row e := by
  rw [h.row]
  constructor
  · rintro (hr | hr)
    · exact hr
    · exact absurd rfl (h.fresh e hr e hl)
  · exact Or.inl

theorem dropEvs_generic (t : Ty) (v : Bytes) :
    UVec.dropEvs (ComponentMeta.fromGeneric t).info [v] = [⟨.generic t, v⟩] := rfl

/-- What `add_component` does. -/
theorem addComponent_spec {w : World} (h : Inv w) (hn : w.Ready) (e : EcsId) (t : Ty) {v : Bytes} (hv : v.length = t.size) :
    Tri (addComponent e t v) w
      (fun _ w' => w.entities.Live e ∧ ∃ id w1, GotId w t id w1 ∧
        ((¬ w1.entities.Live id ∧ w' = w1) ∨
        (w1.Row e ∧ w1.entities.Live id ∧ ¬ w1.HasComp e id ∧ w'.log = w1.log ∧
          Upd w1 w' e (fun c bs => if c = id then bs = v else w1.Has e c bs) ∧
          w'.storedEvs.Perm (w1.storedEvs ++ [⟨.generic t, v⟩]))))
      (fun f w' => (∃ w0, w' = { w0 with log := w0.log ++ [⟨.generic t, v⟩] } ∧
          ((w0 = w ∧ ((f = .noGeneration ∧ w.isAlive e = .error .noGeneration) ∨ (f = .notAlive ∧ w.isAlive e = .ok false))) ∨
          (f = .outOfIds ∧ 2 ^ 32 ≤ w.entities.generations.length ∧ w.typeMap t = none ∧ Grow w w0 ∧ w0.typeMap = w.typeMap))) ∨
        (∃ id w1, GotId w t id w1 ∧ w.entities.Live e ∧
          ((f = .unwrapNone ∧ ¬ w1.Row e ∧ w1.entities.Live id ∧ w' = w1) ∨
          (f = .alreadyPresent ∧ w1.Row e ∧ w1.entities.Live id ∧ w1.HasComp e id ∧ w' = w1) ∨
          (Limit f ∧ w1.Row e ∧ w1.entities.Live id ∧ ¬ w1.Roomy)))) := by
  unfold addComponent
  rw [tri_bind]
  have hdrop : ∀ {α : Type} {x : M α} {Q : α → World → Prop} {E' E : Fault → World → Prop}, Tri x w Q E' →
      (∀ f w', E' f w' → E f { w' with log := w'.log ++ [⟨.generic t, v⟩] }) → Tri (orDropValue t v x) w Q E := by
    intro α x Q E' E hx hE
    unfold Tri orDropValue at *
    cases hh : x w with
    | ok a w' => rw [hh] at hx; exact hx
    | error f w' => rw [hh] at hx; exact hE f w' hx
  refine hdrop (Q := fun id w1 => w.entities.Live e ∧ GotId w t id w1)
    (E' := fun f w0 => (w0 = w ∧ ((f = .noGeneration ∧ w.isAlive e = .error .noGeneration) ∨ (f = .notAlive ∧ w.isAlive e = .ok false))) ∨
          (f = .outOfIds ∧ 2 ^ 32 ≤ w.entities.generations.length ∧ w.typeMap t = none ∧ Grow w w0 ∧ w0.typeMap = w.typeMap)) ?_ ?_
    |>.imp ?_ (fun _ _ hh => hh)
  · simp only [tri_bind, tri_get, tri_liftE]
    rcases isAlive_answer h e with ⟨h1, h2⟩ | ⟨h1, h2⟩ | ⟨h1, h2⟩
    · rw [h1]; exact Or.inl ⟨by first | rfl | trivial, Or.inl ⟨rfl, by first | rfl | trivial⟩⟩
    · rw [h1]; simp only [Bool.not_false, if_true]; exact Or.inl ⟨rfl, Or.inr ⟨rfl, by first | rfl | trivial⟩⟩
    · rw [h1]
      simp only [Bool.not_true, Bool.false_eq_true, if_false]
      refine (getOrCreate_spec h hn t).imp ?_ ?_
      · rintro id w1 ⟨g1, g2, g3, g4, g5⟩
        exact ⟨h2, g1, g2, g3, g4, g5⟩
      · rintro f w1 hh; exact Or.inr hh
  · intro f w0 hh; exact Or.inl ⟨w0, rfl, hh⟩
  · rintro id w1 ⟨hl, g⟩
    have hsz : ∀ m, compOf w1.metas id.uindex = some m → w1.entities.Live id → m = ComponentMeta.fromGeneric t := by
      intro m hm hl
      rw [g.info hl] at hm; injection hm with hm; exact hm.symm
    have hl1 : w1.entities.Live e := (g.grow.live e).2 (Or.inl hl)
    rcases g.alive with ha | ha
    · have hli := alive_iff.1 ha
      refine (addDyn_spec g.grow.inv e id (src := v) ?_).imp ?_ ?_
      · intro m _ hm; rw [hsz m hm hli, hv]; exact Nat.le_refl _
      · rintro _ w' (⟨hh, _⟩ | ⟨_, q2, q3, q4, q5, m, q6, q7, q8⟩)
        · rcases hh with hh | ⟨_, hh⟩
          · rw [alive_iff.2 hl1] at hh; cases hh
          · rw [ha] at hh; cases hh
        · refine ⟨hl, id, w1, g, Or.inr ⟨q2, q3, q4, q5, ?_⟩⟩
          have hm := hsz m q6 hli
          subst hm
          have ht : v.take (ComponentMeta.fromGeneric t).layout.size = v := List.take_of_length_le (by rw [hv]; exact Nat.le_refl _)
          rw [ht] at q7 q8
          exact ⟨q7, q8⟩
      · rintro f w' (⟨_, hh, _⟩ | ⟨q1, q2, q3, q4⟩ | ⟨q1, q2, q3, q4, q5⟩ | ⟨q1, q2, q3, q4, _⟩ | ⟨q1, q2, q3, q4, _⟩)
        · rcases hh with hh | hh
          · rw [alive_iff.2 hl1] at hh; cases hh
          · rw [ha] at hh; cases hh
        · exact Or.inr ⟨id, w1, g, hl, Or.inl ⟨q1, q3, hli, q4⟩⟩
        · exact Or.inr ⟨id, w1, g, hl, Or.inr (Or.inl ⟨q1, q2, hli, q4, q5⟩)⟩
        · rw [g.info hli] at q4; cases q4
        · exact Or.inr ⟨id, w1, g, hl, Or.inr (Or.inr ⟨q1, q2, hli, q4⟩)⟩
    · have hli : ¬ w1.entities.Live id := by
        intro hh; rw [alive_iff.2 hh] at ha; cases ha
      have h1 : w1.isAlive e = .ok true := alive_iff.2 hl1
      unfold addComponentDynamicWithData
      simp only [tri_bind, tri_get, tri_liftE, h1, ha, Bool.not_true, Bool.not_false, Bool.false_eq_true, if_false, if_true, tri_pure]
      exact ⟨hl, id, w1, g, Or.inl ⟨hli, rfl⟩⟩

/-- What `remove_component` does. -/
theorem removeComponent_spec {w : World} (h : Inv w) (hn : w.Ready) (e : EcsId) (t : Ty) :
    Tri (removeComponent e t) w
      (fun _ w' => w.entities.Live e ∧ ∃ id, w.typeMap t = some id ∧
        ((¬ w.entities.Live id ∧ w' = w) ∨
        (w.Row e ∧ w.entities.Live id ∧ ∃ bs, w.Has e id bs ∧ w'.log = w.log ++ [⟨.generic t, bs⟩] ∧
          Upd w w' e (fun c bs => c ≠ id ∧ w.Has e c bs) ∧
          (w'.storedEvs ++ [DropEv.mk (.generic t) bs]).Perm w.storedEvs)))
      (fun f w' => (f = .noGeneration ∧ w.isAlive e = .error .noGeneration ∧ w' = w) ∨ (f = .notAlive ∧ w.isAlive e = .ok false ∧ w' = w) ∨
        (f = .outOfIds ∧ 2 ^ 32 ≤ w.entities.generations.length ∧ w.typeMap t = none ∧ Grow w w' ∧ w'.typeMap = w.typeMap) ∨
        (∃ id w1, GotId w t id w1 ∧ w.entities.Live e ∧
          ((f = .unwrapNone ∧ ¬ w1.Row e ∧ w1.entities.Live id ∧ w' = w1) ∨
          (f = .notPresent ∧ w1.Row e ∧ w1.entities.Live id ∧ ¬ w1.HasComp e id ∧ w' = w1) ∨
          (Limit f ∧ w1.Row e ∧ w1.entities.Live id ∧ ¬ w1.Roomy)))) := by
  unfold removeComponent
  simp only [tri_bind, tri_get, tri_liftE]
  rcases isAlive_answer h e with ⟨h1, h2⟩ | ⟨h1, h2⟩ | ⟨h1, h2⟩
  · rw [h1]; exact Or.inl ⟨rfl, by first | rfl | trivial, by first | rfl | trivial⟩
  · rw [h1]; simp only [Bool.not_false, if_true]; exact Or.inr (Or.inl ⟨rfl, by first | rfl | trivial, by first | rfl | trivial⟩)
  · rw [h1]
    simp only [Bool.not_true, Bool.false_eq_true, if_false]
    rw [tri_bind]
    refine (getOrCreate_spec h hn t).imp ?_ ?_
    · rintro id w1 ⟨g1, g2, g3, g4, g5⟩
      have g : GotId w t id w1 := ⟨g1, g2, g3, g4, g5⟩
      have hl1 : w1.entities.Live e := (g.grow.live e).2 (Or.inl h2)
      rcases g.alive with ha | ha
      · have hli := alive_iff.1 ha
        refine (removeDyn_spec g1.inv e id).imp ?_ ?_
        · rintro _ w' (⟨hh, _⟩ | ⟨_, q2, q3, m, bs, q4, q5, q6, q7, q8⟩)
          · rcases hh with hh | ⟨_, hh⟩
            · rw [alive_iff.2 hl1] at hh; cases hh
            · rw [ha] at hh; cases hh
          · refine ⟨h2, id, ?_⟩
            rcases g.cases with ⟨c1, c2⟩ | ⟨c1, c2⟩
            · subst c2
              rw [g.info hli] at q4
              injection q4 with q4; subst q4
              exact ⟨c1, Or.inr ⟨q2, hli, bs, q5, q6, q7, q8⟩⟩
            · exfalso
              have hu : w1.Used id := has_used g1.inv q5
              rw [g1.used] at hu
              obtain ⟨a, ha', hc⟩ := hu
              exact g1.unknown id ⟨t, c1, g2⟩ (h.live_comp ha' hc).1.kept
        · rintro f w' (⟨_, hh, _⟩ | ⟨q1, q2, q3, q4⟩ | ⟨q1, q2, q3, q4, q5⟩ | ⟨q1, q2, q3, q4, _⟩)
          · rcases hh with hh | hh
            · rw [alive_iff.2 hl1] at hh; cases hh
            · rw [ha] at hh; cases hh
          · exact Or.inr (Or.inr (Or.inr ⟨id, w1, g, h2, Or.inl ⟨q1, q3, hli, q4⟩⟩))
          · exact Or.inr (Or.inr (Or.inr ⟨id, w1, g, h2, Or.inr (Or.inl ⟨q1, q2, hli, q4, q5⟩)⟩))
          · exact Or.inr (Or.inr (Or.inr ⟨id, w1, g, h2, Or.inr (Or.inr ⟨q1, q2, hli, q4⟩)⟩))
      · have hli : ¬ w1.entities.Live id := by
          intro hh; rw [alive_iff.2 hh] at ha; cases ha
        have h1 : w1.isAlive e = .ok true := alive_iff.2 hl1
        unfold removeComponentDynamic
        simp only [tri_bind, tri_get, tri_liftE, h1, ha, Bool.not_true, Bool.not_false, Bool.false_eq_true, if_false, if_true, tri_pure]
        rcases g.cases with ⟨c1, c2⟩ | ⟨c1, c2⟩
        · subst c2
          exact ⟨h2, id, c1, Or.inl ⟨hli, rfl⟩⟩
        · exact absurd c2 hli
    · rintro f w1 hh; exact Or.inr (Or.inr (Or.inl hh))

/-- What `add_component_dynamic` does. -/
theorem addZst_spec {w : World} (h : Inv w) (e c : EcsId) :
    Tri (addComponentDynamic e c) w
      (fun _ w' => w.Row e ∧ ¬ w.HasComp e c ∧ w'.log = w.log ∧
          ∃ m, w.InfoIs c m ∧ m.layout.size = 0 ∧ Upd w w' e (fun c' bs => if c' = c then bs = [] else w.Has e c' bs) ∧
          w'.storedEvs.Perm (w.storedEvs ++ UVec.dropEvs m.info [[]]))
      (fun f w' => (w' = w ∧ ((f = .noGeneration ∧ (w.isAlive e = .error .noGeneration ∨ w.isAlive c = .error .noGeneration)) ∨
        (f = .notAlive ∧ (¬ w.Alive e ∨ ¬ w.Alive c)) ∨
        (f = .unwrapNone ∧ (¬ w.Row c ∨ ¬ w.Row e)) ∨
        (f = .componentHasData ∧ ∃ m, w.InfoIs c m ∧ m.layout.size ≠ 0) ∨
        (f = .alreadyPresent ∧ w.HasComp e c))) ∨
        (Limit f ∧ ¬ w.Roomy)) := by
  unfold addComponentDynamic
  simp only [tri_bind, tri_get, tri_liftE]
  rcases isAlive_answer h e with ⟨h1, h2⟩ | ⟨h1, h2⟩ | ⟨h1, h2⟩
  · rw [h1]; exact Or.inl ⟨by first | rfl | trivial, Or.inl ⟨rfl, Or.inl rfl⟩⟩
  · rw [h1]; simp only [Bool.not_false, if_true]
    exact Or.inl ⟨rfl, Or.inr (Or.inl ⟨rfl, Or.inl (fun hh => h2 (alive_iff.1 hh))⟩)⟩
  · rw [h1]
    simp only [Bool.not_true, Bool.false_eq_true, if_false, tri_bind, tri_liftE]
    rcases isAlive_answer h c with ⟨h3, h4⟩ | ⟨h3, h4⟩ | ⟨h3, h4⟩
    · rw [h3]; exact Or.inl ⟨by first | rfl | trivial, Or.inl ⟨rfl, Or.inr rfl⟩⟩
    · rw [h3]; simp only [Bool.not_false, if_true]
      exact Or.inl ⟨rfl, Or.inr (Or.inl ⟨rfl, Or.inr (fun hh => h4 (alive_iff.1 hh))⟩)⟩
    · rw [h3]
      simp only [Bool.not_true, Bool.false_eq_true, if_false, tri_bind, tri_liftE]
      rcases getEntityMeta_spec h c with ⟨g1, g2⟩ | ⟨g1, g2⟩ | ⟨g1, g2, g3, g4⟩ | ⟨im, cm, g1, g2, g3, g4, g5⟩
      · have := h4.lt; omega
      · exact absurd h4 g2
      · rw [g1]; exact Or.inl ⟨by first | rfl | trivial, Or.inr (Or.inr (Or.inl ⟨rfl, Or.inl g4⟩))⟩
      · rw [g1]
        simp only [unwrap]
        have hinfo : w.InfoIs c cm := ⟨im, g1⟩
        by_cases hz : cm.layout.size ≠ 0
        · rw [if_pos hz]
          exact Or.inl ⟨by first | rfl | trivial, Or.inr (Or.inr (Or.inr (Or.inl ⟨rfl, cm, hinfo, hz⟩)))⟩
        · rw [if_neg hz]
          have hz' : cm.layout.size = 0 := by omega
          refine (addDyn_spec h e c (src := []) ?_).imp ?_ ?_
          · intro m _ hm; rw [g4] at hm; injection hm with hm; subst hm; simp [hz']
          · rintro _ w' (⟨hh, _⟩ | ⟨_, q2, q3, q4, q5, m, q6, q7, q8⟩)
            · rcases hh with hh | ⟨_, hh⟩
              · rw [alive_iff.2 h2] at hh; cases hh
              · rw [alive_iff.2 h4] at hh; cases hh
            · rw [g4] at q6; injection q6 with q6; subst q6
              rw [List.take_nil] at q7 q8
              exact ⟨q2, q4, q5, cm, hinfo, hz', q7, q8⟩
          · rintro f w' (⟨_, hh, _⟩ | ⟨q1, q2, q3, q4⟩ | ⟨q1, q2, q3, q4, q5⟩ | ⟨q1, q2, q3, q4, _⟩ | ⟨q1, q2, q3, q4, _⟩)
            · rcases hh with hh | hh
              · rw [alive_iff.2 h2] at hh; cases hh
              · rw [alive_iff.2 h4] at hh; cases hh
            · exact Or.inl ⟨q4, Or.inr (Or.inr (Or.inl ⟨q1, Or.inr q3⟩))⟩
            · exact Or.inl ⟨q5, Or.inr (Or.inr (Or.inr (Or.inr ⟨q1, q4⟩)))⟩
            · rw [g4] at q4; cases q4
            · exact Or.inr ⟨q1, q4⟩

end World
end Ellecs
