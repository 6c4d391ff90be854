import Verif.Spec.Population
import Verif.Proofs.Query
/-!
# The rows of a world are its population
-/
namespace Ellecs.WorldSpec
open World

theorem rows_keep {w w' : World} {c : Call} {r : Prop} (hc : ∀ x, c ≠ .despawn x) (hs : ∀ k as, c ≠ .spawn k as) (hr : ∀ x, w'.Row x ↔ w.Row x ∨ NewTy w w' x) :
    Changes w w' c r w.Row w'.Row := by
  intro x
  rw [hr]
  constructor
  · rintro (h | h)
    · exact Or.inl ⟨h, fun hh => hc x hh.1⟩
    · exact Or.inr (Or.inl h)
  · rintro (h | h | ⟨k, as, h, _⟩)
    · exact Or.inl h.1
    · exact Or.inr h
    · exact absurd h (hs k as)

theorem rows_same {w w' : World} (ht : w'.typeMap = w.typeMap) (hr : ∀ x, w'.Row x ↔ w.Row x) (x : EcsId) : w'.Row x ↔ w.Row x ∨ NewTy w w' x := by
  rw [hr]
  exact ⟨Or.inl, fun h => h.elim (fun h => h) (fun h => absurd h (newTy_same ht))⟩

theorem builds_iff_ok {w w' : World} {kind : SpawnKind} {acts : List BAct} {e : EcsId} (h : spawnWith kind acts w = .ok e w') (x : EcsId) :
    Builds w kind acts x ↔ .build ∈ acts ∧ x = e := by
  rw [spawnWith_eq] at h
  change EStateM.bind spawnId _ w = _ at h
  unfold EStateM.bind at h
  cases h1 : spawnId w with
  | error f w1 => rw [h1] at h; cases h
  | ok e1 w1 =>
    rw [h1] at h
    change EStateM.bind (mkBuilder kind e1) _ w1 = _ at h
    unfold EStateM.bind at h
    cases h2 : mkBuilder kind e1 w1 with
    | error f w1 => rw [h2] at h; cases h
    | ok b w2 =>
      rw [h2] at h
      change EStateM.bind (b.acts acts) _ w2 = _ at h
      unfold EStateM.bind at h
      cases h3 : b.acts acts w2 with
      | error f w1 => rw [h3] at h; cases h
      | ok b3 w3 =>
        rw [h3] at h
        change EStateM.bind b3.drop _ w3 = _ at h
        unfold EStateM.bind at h
        cases h4 : b3.drop w3 with
        | error f w1 => rw [h4] at h; cases h
        | ok u w4 =>
          rw [h4] at h
          have he : e1 = e := by injection h
          subst he
          constructor
          · rintro ⟨w1', b', w2', pre, post, _, _, q1, q2, q3, q4, q5⟩
            rw [h1] at q1; injection q1 with q1 q1'
            exact ⟨by rw [q3]; exact List.mem_append_left _ q4, q1.symm⟩
          · rintro ⟨hb, rfl⟩
            exact ⟨w1, b, w2, acts, [], b3, w3, h1, h2, by simp, hb, h3⟩

theorem builds_iff_fail {w w1 w2 w3 : World} {kind : SpawnKind} {pre post : List BAct} {a : BAct} {e : EcsId} {b b1 : Builder} {f : Fault} {w4 : World}
    (h1 : spawnId w = .ok e w1) (h2 : mkBuilder kind e w1 = .ok b w2) (h3 : b.acts pre w2 = .ok b1 w3) (h4 : b1.act a w3 = .error f w4) (x : EcsId) :
    Builds w kind (pre ++ a :: post) x ↔ .build ∈ pre ∧ x = e := by
  constructor
  · rintro ⟨w1', b', w2', pre', post', b3, w3', q1, q2, q3, q4, q5⟩
    rw [h1] at q1; injection q1 with q1 q1'; subst q1 q1'
    rw [h2] at q2; injection q2 with q2 q2'; subst q2 q2'
    refine ⟨?_, rfl⟩
    rcases List.append_eq_append_iff.1 q3 with ⟨as, r1, r2⟩ | ⟨as, r1, r2⟩
    · cases as with
      | nil => rw [r1] at q4; simpa using q4
      | cons y ys =>
        exfalso
        injection r2 with r2 r3
        subst r2
        rw [r1, acts_append, h3] at q5
        change EStateM.bind (b1.act a) _ w3 = _ at q5
        unfold EStateM.bind at q5
        rw [h4] at q5
        cases q5
    · rw [r1]; exact List.mem_append_left _ q4
  · rintro ⟨hb, rfl⟩
    exact ⟨w1, b, w2, pre, a :: post, b1, w3, h1, h2, rfl, hb, h3⟩

theorem rows_spawn {w w' : World} {kind : SpawnKind} {acts : List BAct} {r : Prop} (hr : ∀ x, w'.Row x ↔ w.Row x ∨ NewTy w w' x ∨ Builds w kind acts x) :
    Changes w w' (.spawn kind acts) r w.Row w'.Row := by
  intro x
  rw [hr]
  refine or_congr ⟨fun h => ⟨h, fun hh => by cases hh.1⟩, fun h => h.1⟩ (or_congr_right ⟨fun h => ⟨kind, acts, rfl, h⟩, ?_⟩)
  rintro ⟨k, as, h1, h2⟩
  cases h1
  exact h2

/-- One call. -/
theorem exec_rows {w : World} (h : Inv w) (hn : w.entities.NoWrap) {c : Call} (hc : c.Ok w) :
    Tri c.exec w (fun _ w' => Changes w w' c True w.Row w'.Row) (fun f w' => Stop f ∨ Changes w w' c False w.Row w'.Row) := by
  have refl : ∀ c r, (∀ x, c ≠ .despawn x) → (∀ k as, c ≠ .spawn k as) → Changes w w c r w.Row w.Row :=
    fun c r h1 h2 => rows_keep h1 h2 (rows_same rfl (fun _ => Iff.rfl))
  cases c with
  | spawn kind acts =>
    unfold Call.exec
    rw [tri_bind]
    refine (spawnWith_spec h hn.ready hc).with_eq.imp ?_ ?_
    · rintro e w' ⟨hx, _, ⟨hb, hm⟩ | ⟨pre, post, vals, v1, v2, v3, v4, v5, hm⟩⟩
      · rw [tri_pure]
        refine rows_spawn (fun x => ?_)
        rw [hm.row, builds_iff_ok hx]
        simp [hb]
      · rw [tri_pure]
        refine rows_spawn (fun x => ?_)
        rw [hm.row, builds_iff_ok hx]
        simp [v1]
    · rintro f w' ⟨hx, ⟨_, ⟨rfl, _, hg, hx1⟩ | ⟨e, rfl, ⟨n, hk, hl⟩, hm⟩ | ⟨e, w1, b, w2, pre, a, post, b1, w3, x1, x2, x3, x4, ⟨_, ⟨w4, x5⟩, _⟩, hm | ⟨pre', post', vals, v1, v2, v3, v4, v5, hm⟩⟩⟩ | ⟨hl, _⟩⟩
      · right
        refine rows_spawn (fun x => ?_)
        rw [hg.row]
        refine or_congr_right ⟨Or.inl, fun hh => hh.elim (fun hh => hh) ?_⟩
        rintro ⟨_, _, _, _, _, _, _, q1, _⟩
        rw [hx1] at q1
        cases q1
      · exact Or.inl (Or.inl (Or.inr (Or.inl rfl)))
      · right
        refine rows_spawn (fun x => ?_)
        rw [x3, builds_iff_fail x1 x2 x4 x5, hm.2.row]
        simp [hm.1]
      · right
        refine rows_spawn (fun x => ?_)
        rw [x3, builds_iff_fail x1 x2 x4 x5, hm.row]
        simp [v1]
      · exact Or.inl (Or.inl hl)
  | addComponent e t v =>
    have hk : ∀ {w'' r}, (∀ x, w''.Row x ↔ w.Row x ∨ NewTy w w'' x) → Changes w w'' (.addComponent e t v) r w.Row w''.Row :=
      fun hh => rows_keep (by simp) (by simp) hh
    refine (addComponent_spec h hn.ready e t hc).imp ?_ ?_
    · rintro _ w' ⟨hl, id, w1, hg, ⟨hd, rfl⟩ | ⟨hr, hl', hnc, hlog, hu, hev⟩⟩
      · exact hk hg.grow.row
      · refine hk (fun x => ?_)
        rw [hu.row, hg.grow.row]
        unfold NewTy; rw [hu.typ]
    · rintro f w' (⟨w0, rfl, ⟨rfl, hf⟩ | ⟨rfl, _, _, hg, _⟩⟩ | ⟨id, w1, hg, hl, ⟨rfl, _, _, rfl⟩ | ⟨rfl, _, _, _, rfl⟩ | ⟨hlim, _⟩⟩)
      · exact Or.inr (hk (rows_same rfl (fun _ => Iff.rfl)))
      · exact Or.inr (hk hg.row)
      · exact Or.inr (hk hg.grow.row)
      · exact Or.inr (hk hg.grow.row)
      · exact Or.inl (Or.inl hlim)
  | removeComponent e t =>
    have hk : ∀ {w'' r}, (∀ x, w''.Row x ↔ w.Row x ∨ NewTy w w'' x) → Changes w w'' (.removeComponent e t) r w.Row w''.Row :=
      fun hh => rows_keep (by simp) (by simp) hh
    refine (removeComponent_spec h hn.ready e t).imp ?_ ?_
    · rintro _ w' ⟨hl, id, hty, ⟨hd, rfl⟩ | ⟨hr, hl', bs, hh, hlog, hu, hev⟩⟩
      · exact refl _ _ (by simp) (by simp)
      · exact hk (rows_same hu.typ hu.row)
    · rintro f w' (⟨rfl, _, rfl⟩ | ⟨rfl, _, rfl⟩ | ⟨rfl, _, _, hg, _⟩ | ⟨id, w1, hg, _, ⟨rfl, _, _, rfl⟩ | ⟨rfl, _, _, _, rfl⟩ | ⟨hlim, _⟩⟩)
      · exact Or.inr (refl _ _ (by simp) (by simp))
      · exact Or.inr (refl _ _ (by simp) (by simp))
      · exact Or.inr (hk hg.row)
      · exact Or.inr (hk hg.grow.row)
      · exact Or.inr (hk hg.grow.row)
      · exact Or.inl (Or.inl hlim)
  | addDynamic e c =>
    refine (addZst_spec h e c).imp ?_ ?_
    · rintro _ w' ⟨hr, hnc, hlog, m, hm, hz, hu, hev⟩
      exact rows_keep (by simp) (by simp) (rows_same hu.typ hu.row)
    · rintro f w' (⟨rfl, hf⟩ | ⟨hlim, _⟩)
      · exact Or.inr (refl _ _ (by simp) (by simp))
      · exact Or.inl (Or.inl hlim)
  | addDynamicWithData e c src =>
    have hlive : ∀ m, w.entities.Live c → compOf w.metas c.uindex = some m → m.layout.size ≤ src.length := by
      intro m hl hm
      refine hc m ((infoIs_iff h).2 ⟨?_, hm⟩)
      rcases getEntityMeta_spec h c with ⟨g1, g2⟩ | ⟨g1, g2⟩ | ⟨g1, g2, g3, g4⟩ | ⟨im, cm, g1, g2, g3, g4, g5⟩
      · have := hl.lt; omega
      · exact absurd hl g2
      · rw [inst_none_iff_comp.1 g3] at hm; cases hm
      · exact (row_iff c).2 ⟨_, _, g5⟩
    refine (addDyn_spec h e c hlive).imp ?_ ?_
    · rintro _ w' (⟨hd, rfl⟩ | ⟨hl, hr, hlc, hnc, hlog, m, hm, hu, hev⟩)
      · exact refl _ _ (by simp) (by simp)
      · exact rows_keep (by simp) (by simp) (rows_same hu.typ hu.row)
    · rintro f w' (⟨rfl, _, rfl⟩ | ⟨rfl, _, _, rfl⟩ | ⟨rfl, _, _, _, rfl⟩ | ⟨rfl, _, hl, hm, hi, hs, hx⟩ | ⟨hlim, _⟩)
      · exact Or.inr (refl _ _ (by simp) (by simp))
      · exact Or.inr (refl _ _ (by simp) (by simp))
      · exact Or.inr (refl _ _ (by simp) (by simp))
      · exact Or.inr (rows_keep (by simp) (by simp) (rows_same hs.typ hs.hasRow))
      · exact Or.inl (Or.inl hlim)
  | removeDynamic e c =>
    refine (removeDyn_spec h e c).imp ?_ ?_
    · rintro _ w' (⟨hd, rfl⟩ | ⟨hl, hr, hlc, m, bs, hm, hh, hlog, hu, hev⟩)
      · exact refl _ _ (by simp) (by simp)
      · exact rows_keep (by simp) (by simp) (rows_same hu.typ hu.row)
    · rintro f w' (⟨rfl, _, rfl⟩ | ⟨rfl, _, _, rfl⟩ | ⟨rfl, _, _, _, rfl⟩ | ⟨hlim, _⟩)
      · exact Or.inr (refl _ _ (by simp) (by simp))
      · exact Or.inr (refl _ _ (by simp) (by simp))
      · exact Or.inr (refl _ _ (by simp) (by simp))
      · exact Or.inl (Or.inl hlim)
  | despawn e =>
    unfold Call.exec
    rw [tri_bind]
    refine (despawn_spec h e).imp ?_ ?_
    · rintro b w' (⟨_, hd, rfl⟩ | ⟨_, _, _, _, hg, evs, L, hd, hlog, hev⟩)
      · rw [tri_pure]
        intro x
        constructor
        · intro hx
          refine Or.inl ⟨hx, ?_⟩
          rintro ⟨he, _⟩
          injection he with he; subst he
          rw [alive_iff.2 (h.row_live hx)] at hd
          cases hd
        · rintro (hh | hh | ⟨_, _, hh, _⟩)
          · exact hh.1
          · exact absurd hh newTy_refl
          · cases hh
      · rw [tri_pure]
        intro x
        rw [hg.row]
        constructor
        · rintro ⟨h1, h2⟩
          refine Or.inl ⟨h1, ?_⟩
          rintro ⟨he, _⟩
          injection he with he; exact h2 he.symm
        · rintro (hh | hh | ⟨_, _, hh, _⟩)
          · exact ⟨hh.1, by rintro rfl; exact hh.2 ⟨rfl, trivial⟩⟩
          · exact absurd hh (newTy_same hg.typ)
          · cases hh
    · rintro f w' ⟨rfl, hf⟩
      right
      intro x
      constructor
      · exact fun hx => Or.inl ⟨hx, fun hh => hh.2⟩
      · rintro (hh | hh | ⟨_, _, hh, _⟩)
        · exact hh.1
        · exact absurd hh newTy_refl
        · cases hh
  | register t =>
    unfold Call.exec
    rw [tri_bind]
    refine (getOrCreate_spec h hn.ready t).imp ?_ ?_
    · rintro id w' ⟨hg, _⟩
      rw [tri_pure]; exact rows_keep (by simp) (by simp) hg.row
    · rintro f w' ⟨rfl, _, _, hg, _⟩
      exact Or.inr (rows_keep (by simp) (by simp) hg.row)
  | write e c bs =>
    unfold Call.exec
    simp only [tri_bind, tri_get, tri_liftE]
    rcases getComponentMut_spec h e c with ⟨h1, h2⟩ | ⟨h1, h2⟩ | ⟨h1, h2, h3, h4⟩ | ⟨p, h1, hp⟩
    · rw [h1]; exact Or.inr (refl _ _ (by simp) (by simp))
    · rw [h1]; simp only [tri_pure]; exact refl _ _ (by simp) (by simp)
    · rw [h1]; exact Or.inr (refl _ _ (by simp) (by simp))
    · rw [h1]
      simp only [tri_step]
      obtain ⟨m, hm⟩ := hp.info h
      obtain ⟨w', w1, w2⟩ := writePtr_spec h hp hm (hc m hm)
      rw [w1]
      exact rows_keep (by simp) (by simp) (rows_same w2.typ w2.row)
  | query ps b =>
    unfold Call.exec
    rw [tri_bind]
    unfold Tri World.query
    cases hf : allFetches w ps with
    | none => exact rows_keep (by simp) (by simp) (rows_same rfl (fun _ => Iff.rfl))
    | some fs =>
      simp only
      cases ha : acquireAllStatic w [] w.locks fs with
      | ok x => exact rows_keep (by simp) (by simp) (rows_same rfl (fun _ => Iff.rfl))
      | error x => exact Or.inr (rows_keep (by simp) (by simp) (rows_same rfl (fun _ => Iff.rfl)))
  | queryDynamic fs b =>
    unfold Call.exec
    rw [tri_bind]
    unfold Tri World.queryDynamic
    cases ha : acquireAllDyn w [] false w.locks fs with
    | ok x => exact rows_keep (by simp) (by simp) (rows_same rfl (fun _ => Iff.rfl))
    | error x => exact Or.inr (rows_keep (by simp) (by simp) (rows_same rfl (fun _ => Iff.rfl)))

theorem new_row {x : EcsId} : ¬ World.new.Row x := by
  simp [World.Row, World.new]

theorem Population.reachable {w : World} {P : EcsId → Prop} (h : Population w P) : Reachable w := by
  induction h with
  | new => exact .new
  | ok c _ hc he hn _ ih => exact .ok c ih hc he hn
  | panic c f _ hc he hl hd hn _ ih => exact .panic c f ih hc he hl hd hn

theorem Changes.congr {w w' : World} {c : Call} {r : Prop} {P P' Q Q' : EcsId → Prop} (h : Changes w w' c r P P') (h' : Changes w w' c r Q Q')
    (hp : ∀ x, P x ↔ Q x) : ∀ x, P' x ↔ Q' x := by
  intro x
  rw [h x, h' x, hp x]

/-- The rows of the world are the entities built and not despawned. -/
theorem Population.rows {w : World} {P : EcsId → Prop} (h : Population w P) : ∀ x, w.Row x ↔ P x := by
  induction h with
  | new =>
    intro x
    constructor
    · exact fun hx => absurd hx new_row
    · exact fun h => h.elim
  | ok c h0 hc he hn hch ih =>
    have hs := h0.reachable.sound
    exact Changes.congr ((exec_rows hs.inv hs.nowrap hc).ok he) hch ih
  | panic c f h0 hc he hl hd hn hch ih =>
    have hs := h0.reachable.sound
    rcases (exec_rows hs.inv hs.nowrap hc).error he with (hh | hh) | hh
    · exact absurd hh hl
    · exact absurd hh hd
    · exact Changes.congr hh hch ih

end Ellecs.WorldSpec
