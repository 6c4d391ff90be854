import Verif.Spec.Lasting
import Verif.Proofs.Effect
import Verif.Proofs.Safe
/-!
# The ids of types stay alive
-/
namespace Ellecs
namespace World

/-- The id of every type is alive. -/
def TypesLive (w : World) : Prop := ∀ t id, w.typeMap t = some id → w.entities.Live id

theorem TypesLive.ready {w : World} (h : TypesLive w) : w.Ready := fun t id hid => (h t id hid).kept.2

theorem Grow.types {w w' : World} (h : Grow w w') (ht : TypesLive w) : TypesLive w' := by
  intro t id hid
  cases hw : w.typeMap t with
  | none => exact (h.live id).2 (Or.inr ⟨t, hw, hid⟩)
  | some id' =>
    rw [h.typ t id' hw] at hid
    injection hid with hid; subst hid
    exact (h.live _).2 (Or.inl (ht t _ hw))

theorem Made.types {w w' : World} {e : EcsId} {built : Prop} {P : EcsId → Bytes → Prop} {E : List DropEv} {cm : ComponentMeta}
    (h : Made w w' e built P E cm) (ht : TypesLive w) : TypesLive w' := by
  intro t id hid
  cases hw : w.typeMap t with
  | none => exact (h.live id).2 (Or.inr (Or.inl ⟨t, hw, hid⟩))
  | some id' =>
    rw [h.typ t id' hw] at hid
    injection hid with hid; subst hid
    exact (h.live _).2 (Or.inl (ht t _ hw))

theorem Upd.types {w w' : World} {e : EcsId} {P : EcsId → Bytes → Prop} (h : Upd w w' e P) (ht : TypesLive w) : TypesLive w' := by
  intro t id hid
  rw [h.typ] at hid
  rw [h.ent]; exact ht t id hid

theorem Same.types {w w' : World} (h : Same w w') (ht : TypesLive w) : TypesLive w' := by
  intro t id hid
  rw [h.typ] at hid
  rw [h.ent]; exact ht t id hid

theorem Gone.types {w w' : World} {e : EcsId} (h : Gone w w' e) (he : ∀ t id, w.typeMap t = some id → e ≠ id) (ht : TypesLive w) : TypesLive w' := by
  intro t id hid
  rw [h.typ] at hid
  exact (h.live id).2 ⟨ht t id hid, (he t id hid).symm⟩

/-- One call. -/
theorem exec_types {w : World} (h : Inv w) (hn : w.Ready) {c : Call} (hc : c.Ok w) (hs : w.Spares c) (ht : TypesLive w) :
    Tri c.exec w (fun _ w' => TypesLive w') (fun f w' => Stop f ∨ TypesLive w') := by
  cases c with
  | spawn kind acts =>
    unfold Call.exec
    rw [tri_bind]
    refine (spawnWith_spec h hn hc).imp ?_ ?_
    · rintro e w' ⟨_, ⟨_, hm⟩ | ⟨pre, post, vals, v1, v2, v3, v4, v5, hm⟩⟩
      · rw [tri_pure]; exact hm.types ht
      · rw [tri_pure]; exact hm.types ht
    · rintro f w' (⟨_, ⟨rfl, _, hg, _⟩ | ⟨e, rfl, _, hm⟩ | ⟨e, w1, b, w2, pre, a, post, b1, w3, x1, x2, x3, x4, x5, hm | ⟨pre', post', vals, v1, v2, v3, v4, v5, hm⟩⟩⟩ | ⟨hl, _⟩)
      · exact Or.inr (hg.types ht)
      · exact Or.inr (hm.types ht)
      · exact Or.inr (hm.2.types ht)
      · exact Or.inr (hm.types ht)
      · exact Or.inl (Or.inl hl)
  | addComponent e t v =>
    refine (addComponent_spec h hn e t hc).imp ?_ ?_
    · rintro _ w' ⟨hl, id, w1, hg, ⟨hd, rfl⟩ | ⟨hr, hl', hnc, hlog, hu, hev⟩⟩
      · exact hg.grow.types ht
      · exact hu.types (hg.grow.types ht)
    · rintro f w' (⟨w0, rfl, ⟨rfl, hf⟩ | ⟨rfl, _, _, hg, _⟩⟩ | ⟨id, w1, hg, hl, ⟨rfl, _, _, rfl⟩ | ⟨rfl, _, _, _, rfl⟩ | ⟨hlim, _⟩⟩)
      · exact Or.inr ht
      · exact Or.inr (show TypesLive _ from (hg.types ht : TypesLive w0))
      · exact Or.inr (hg.grow.types ht)
      · exact Or.inr (hg.grow.types ht)
      · exact Or.inl (Or.inl hlim)
  | removeComponent e t =>
    refine (removeComponent_spec h hn e t).imp ?_ ?_
    · rintro _ w' ⟨hl, id, hty, ⟨hd, rfl⟩ | ⟨hr, hl', bs, hh, hlog, hu, hev⟩⟩
      · exact ht
      · exact hu.types ht
    · rintro f w' (⟨rfl, _, rfl⟩ | ⟨rfl, _, rfl⟩ | ⟨rfl, _, _, hg, _⟩ | ⟨id, w1, hg, _, ⟨rfl, _, _, rfl⟩ | ⟨rfl, _, _, _, rfl⟩ | ⟨hlim, _⟩⟩)
      · exact Or.inr ht
      · exact Or.inr ht
      · exact Or.inr (hg.types ht)
      · exact Or.inr (hg.grow.types ht)
      · exact Or.inr (hg.grow.types ht)
      · exact Or.inl (Or.inl hlim)
  | addDynamic e c =>
    refine (addZst_spec h e c).imp ?_ ?_
    · rintro _ w' ⟨hr, hnc, hlog, m, hm, hz, hu, hev⟩
      exact hu.types ht
    · rintro f w' (⟨rfl, hf⟩ | ⟨hlim, _⟩)
      · exact Or.inr ht
      · exact Or.inl (Or.inl hlim)
  | addDynamicWithData e c src =>
    have hlive : ∀ m, w.entities.Live c → compOf w.metas c.uindex = some m → m.layout.size ≤ src.length := by
      intro m hl hm
      refine hc m ((infoIs_iff h).2 ⟨?_, hm⟩)
      rcases getEntityMeta_spec h c with ⟨g1, g2⟩ | ⟨g1, g2⟩ | ⟨g1, g2, g3, g4⟩ | ⟨im, cm, g1, g2, g3, g4, g5⟩
      · have := hl.lt; omega
      · exact absurd hl g2
      · rw [inst_none_iff_comp.1 g3] at hm; cases hm
      · exact (row_iff c).2 ⟨_, _, g5⟩
    refine (addDyn_spec h e c hlive).imp ?_ ?_
    · rintro _ w' (⟨hd, rfl⟩ | ⟨hl, hr, hlc, hnc, hlog, m, hm, hu, hev⟩)
      · exact ht
      · exact hu.types ht
    · rintro f w' (⟨rfl, _, rfl⟩ | ⟨rfl, _, _, rfl⟩ | ⟨rfl, _, _, _, rfl⟩ | ⟨rfl, _, hl, hm, hi, hs, hx⟩ | ⟨hlim, _⟩)
      · exact Or.inr ht
      · exact Or.inr ht
      · exact Or.inr ht
      · exact Or.inr (hs.types ht)
      · exact Or.inl (Or.inl hlim)
  | removeDynamic e c =>
    refine (removeDyn_spec h e c).imp ?_ ?_
    · rintro _ w' (⟨hd, rfl⟩ | ⟨hl, hr, hlc, m, bs, hm, hh, hlog, hu, hev⟩)
      · exact ht
      · exact hu.types ht
    · rintro f w' (⟨rfl, _, rfl⟩ | ⟨rfl, _, _, rfl⟩ | ⟨rfl, _, _, _, rfl⟩ | ⟨hlim, _⟩)
      · exact Or.inr ht
      · exact Or.inr ht
      · exact Or.inr ht
      · exact Or.inl (Or.inl hlim)
  | despawn e =>
    unfold Call.exec
    rw [tri_bind]
    refine (despawn_spec h e).imp ?_ ?_
    · rintro b w' (⟨_, _, rfl⟩ | ⟨_, _, _, _, hg, evs, L, hd, hlog, hev⟩)
      · rw [tri_pure]; exact ht
      · rw [tri_pure]; exact hg.types (fun t id h0 h1 => hs t id h0 (by rw [h1])) ht
    · rintro f w' ⟨rfl, hf⟩
      exact Or.inr ht
  | register t =>
    unfold Call.exec
    rw [tri_bind]
    refine (getOrCreate_spec h hn t).imp ?_ ?_
    · rintro id w' ⟨hg, _⟩
      rw [tri_pure]; exact hg.types ht
    · rintro f w' ⟨rfl, _, _, hg, _⟩
      exact Or.inr (hg.types ht)
  | write e c bs =>
    unfold Call.exec
    simp only [tri_bind, tri_get, tri_liftE]
    rcases getComponentMut_spec h e c with ⟨h1, h2⟩ | ⟨h1, h2⟩ | ⟨h1, h2, h3, h4⟩ | ⟨p, h1, hp⟩
    · rw [h1]; exact Or.inr ht
    · rw [h1]; simp only [tri_pure]; exact ht
    · rw [h1]; exact Or.inr ht
    · rw [h1]
      simp only [tri_step]
      obtain ⟨m, hm⟩ := hp.info h
      obtain ⟨w', w1, w2⟩ := writePtr_spec h hp hm (hc m hm)
      rw [w1]
      intro t id hid
      rw [w2.typ] at hid
      rw [w2.ent]; exact ht t id hid
  | query ps b =>
    unfold Call.exec
    rw [tri_bind]
    unfold Tri World.query
    cases hf : allFetches w ps with
    | none => exact ht
    | some fs =>
      simp only
      cases ha : acquireAllStatic w [] w.locks fs with
      | ok x => exact ht
      | error x => exact Or.inr ht
  | queryDynamic fs b =>
    unfold Call.exec
    rw [tri_bind]
    unfold Tri World.queryDynamic
    cases ha : acquireAllDyn w [] false w.locks fs with
    | ok x => exact ht
    | error x => exact Or.inr ht


theorem Lasting.both {w : World} {gs : List Guard} (h : Lasting w gs) : Safe w gs ∧ TypesLive w := by
  induction h with
  | new => exact ⟨.new, fun t id hid => by cases hid⟩
  | ok c _ hc hs he ih =>
    have ht := (exec_types ih.1.inv.inv ih.1.inv.ready hc hs ih.2).ok he
    exact ⟨.ok c ih.1 hc he ht.ready, ht⟩
  | panic c f _ hc hs he hl hd ih =>
    rcases (exec_types ih.1.inv.inv ih.1.inv.ready hc hs ih.2).error he with (h1 | h1) | ht
    · exact absurd h1 hl
    · exact absurd h1 hd
    · exact ⟨.panic c f ih.1 hc he hl hd ht.ready, ht⟩
  | keep ps q _ hq ih =>
    obtain ⟨_, ⟨ls, h1, h2⟩, _⟩ := query_ok hq
    exact ⟨.keep ps q ih.1 hq, by rw [h2]; exact ih.2⟩
  | keepDynamic fs q _ hq ih =>
    obtain ⟨_, ⟨ls, h1, h2⟩, _⟩ := queryDynamic_ok hq
    exact ⟨.keepDynamic fs q ih.1 hq, by rw [h2]; exact ih.2⟩
  | release p _ hp hd ih =>
    refine ⟨.release p ih.1 hp hd, ?_⟩
    injection hd with _ hd
    subst hd
    exact ih.2
  | @forget w w1 w2 w' gs kind as e b b' _ hc h1 h2 h3 ih =>
    have hx := exec_spec ih.1.inv.inv ih.1.inv.ready ih.1.inv.held (c := .spawn kind as) hc
    have hy := exec_types ih.1.inv.inv ih.1.inv.ready (c := .spawn kind as) hc (fun _ _ _ hh => by cases hh) ih.2
    have he := spawnWith_run h1 h2 h3
    have hex : Call.exec (.spawn kind as) w = (do let _ ← spawnWith kind as : M Unit) w := rfl
    rcases drop_cases (b := b') (u := w') with ⟨x, hd⟩ | ⟨r, hd, hr⟩
    · simp only [bind, EStateM.bind, hd, he] at hex
      exact absurd rfl ((hx.error hex).1.1 x)
    · simp only [bind, EStateM.bind, hd, he, pure, EStateM.pure] at hex
      have h4 := hy.ok hex
      have ht : TypesLive w' := h4
      exact ⟨.forget kind as e b b' ih.1 hc h1 h2 h3 ht.ready, ht⟩
  | @rejected w u w' gs kind as e f _ hv hd hu hf hx hl ih =>
    have hc : Call.Ok w (.spawn kind as) := chainOk_nobuild ih.1.inv.inv ih.1.inv.ready hv
    have hex : Call.exec (.spawn kind as) w = .ok () u := by
      show (do let _ ← spawnWith kind as : M Unit) w = _
      simp only [bind, EStateM.bind, hu]; rfl
    have hy : TypesLive u := (exec_types ih.1.inv.inv ih.1.inv.ready hc (fun _ _ _ hh => by cases hh) ih.2).ok hex
    have ht : TypesLive w' := by
      obtain ⟨f', w'', h1, h2⟩ := chain_dup_exact ih.1.inv.inv ih.1.inv.ready hv hd hu
      rw [hx] at h1
      injection h1 with h1 h1'
      subst h1 h1'
      rcases h2 with ⟨_, ⟨h2, _⟩ | ⟨rfl, h2, h3, _⟩⟩ | ⟨h2, _⟩
      · exact absurd h2 hl
      · rw [h3]; exact hy
      · exact absurd h2 hf
    exact ⟨.rejected kind as e f ih.1 hv hd hu hf hx hl ht.ready, ht⟩

end World
end Ellecs
