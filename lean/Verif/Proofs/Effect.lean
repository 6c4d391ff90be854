import Verif.Proofs.History
/-! # What every call preserves: type ids; and, if it panics, all entities -/
namespace Ellecs
namespace World

/-- Types keep their ids. -/
structure Keeps (w w' : World) : Prop where
  typ : ∀ t c, w.typeMap t = some c → w'.typeMap t = some c
  known : ∀ x, w.entities.Known x → w'.entities.Known x

/-- All entities are as they were. -/
structure Intact (w w' : World) : Prop where
  nowrap : w'.entities.NoWrap
  live : ∀ x, w.entities.Live x → w'.entities.Live x
  old : ∀ x, w'.entities.Live x → w.entities.Known x → w.entities.Live x
  row : ∀ x, w.entities.Known x → (w'.Row x ↔ w.Row x)
  has : ∀ x, w.entities.Known x → ∀ c bs, w'.Has x c bs ↔ w.Has x c bs
  comp : ∀ x, w.entities.Live x → compOf w'.metas x.uindex = compOf w.metas x.uindex

theorem Keeps.refl (w : World) : Keeps w w := ⟨fun _ _ h => h, fun _ h => h⟩

theorem Intact.refl {w : World} (hn : w.entities.NoWrap) : Intact w w :=
  ⟨hn, fun _ h => h, fun _ h _ => h, fun _ _ => Iff.rfl, fun _ _ _ _ => Iff.rfl, fun _ _ => rfl⟩

theorem Grow.keeps {w w' : World} (hn : w.entities.NoWrap) (h : Grow w w') : Keeps w w' := ⟨h.typ, fun x hx => (h.known x (hx.kept hn)).1⟩

theorem Grow.intact {w w' : World} (hn : w.entities.NoWrap) (h : Grow w w') : Intact w w' := by
  refine ⟨h.nowrap hn, fun x hx => (h.live x).2 (Or.inl hx), ?_, ?_, fun x _ c bs => h.has x c bs, h.comp⟩
  · intro x hx hk
    rcases (h.live x).1 hx with hh | hh
    · exact hh
    · exact absurd (hk.kept hn) (h.unknown x hh)
  · intro x hk
    rw [h.row]
    exact or_iff_left (fun hh => h.unknown x hh (hk.kept hn))

theorem Made.keeps {w w' : World} {e : EcsId} {b : Prop} {P : EcsId → Bytes → Prop} {E : List DropEv} {cm : ComponentMeta}
    (hn : w.entities.NoWrap) (h : Made w w' e b P E cm) : Keeps w w' := ⟨h.typ, fun x hx => (h.known x (hx.kept hn)).1⟩

theorem Made.intact {w w' : World} {e : EcsId} {b : Prop} {P : EcsId → Bytes → Prop} {E : List DropEv} {cm : ComponentMeta}
    (hn : w.entities.NoWrap) (h : Made w w' e b P E cm) : Intact w w' := by
  have hne : ∀ x, w.entities.Known x → x ≠ e := by rintro x hk rfl; exact h.unknown (hk.kept hn)
  refine ⟨h.nowrap hn, fun x hx => (h.live x).2 (Or.inl hx), ?_, ?_, fun x hk c bs => h.others x (hne x hk) c bs, h.comp⟩
  · intro x hx hk
    rcases (h.live x).1 hx with hh | hh | hh
    · exact hh
    · exact absurd (hk.kept hn) (h.newUnknown x hh)
    · exact absurd hh (hne x hk)
  · intro x hk
    rw [h.row]
    constructor
    · rintro (hh | hh | hh)
      · exact hh
      · exact absurd (hk.kept hn) (h.newUnknown x hh)
      · exact absurd hh.2 (hne x hk)
    · exact Or.inl

theorem Upd.keeps {w w' : World} {e : EcsId} {P : EcsId → Bytes → Prop} (h : Upd w w' e P) : Keeps w w' :=
  ⟨fun t c ht => by rw [h.typ]; exact ht, fun x hx => by rw [h.ent]; exact hx⟩

theorem Keeps.trans {w w' w'' : World} (h : Keeps w w') (h' : Keeps w' w'') : Keeps w w'' :=
  ⟨fun t c ht => h'.typ t c (h.typ t c ht), fun x hx => h'.known x (h.known x hx)⟩

theorem Intact.withLog {w w' : World} (h : Intact w w') (l : List DropEv) : Intact w { w' with log := l } :=
  ⟨h.nowrap, h.live, h.old, h.row, h.has, h.comp⟩

theorem Keeps.withLog {w w' : World} (h : Keeps w w') (l : List DropEv) : Keeps w { w' with log := l } := ⟨h.typ, h.known⟩

theorem Intact.withLocks {w w' : World} (h : Intact w w') (l : List RwLock) : Intact w { w' with locks := l } :=
  ⟨h.nowrap, h.live, h.old, h.row, h.has, h.comp⟩

theorem Keeps.withLocks {w w' : World} (h : Keeps w w') (l : List RwLock) : Keeps w { w' with locks := l } := ⟨h.typ, h.known⟩

theorem Same.intact {w w' : World} (hn : w.entities.NoWrap) (hi : Inv w) (hi' : Inv w') (h : Same w w') : Intact w w' :=
  ⟨by rw [h.ent]; exact hn, fun x hx => by rw [h.ent]; exact hx, fun x hx _ => by rw [h.ent] at hx; exact hx, fun x _ => h.hasRow x,
    fun x _ c bs => h.has hi.shape hi'.shape x c bs, fun x _ => by rw [h.metas]⟩

theorem Same.keeps {w w' : World} (h : Same w w') : Keeps w w' :=
  ⟨fun t c ht => by rw [h.typ]; exact ht, fun x hx => by rw [h.ent]; exact hx⟩

/-- One call. -/
theorem exec_keeps {w : World} (h : Inv w) (hn : w.entities.NoWrap) {c : Call} (hc : c.Ok w) :
    Tri c.exec w (fun _ w' => Keeps w w') (fun f w' => Stop f ∨ (Keeps w w' ∧ Intact w w')) := by
  have self : Keeps w w ∧ Intact w w := ⟨.refl w, .refl hn⟩
  cases c with
  | spawn kind acts =>
    unfold Call.exec
    rw [tri_bind]
    refine (spawnWith_spec h hn.ready hc).imp ?_ ?_
    · rintro e w' ⟨_, ⟨_, hm⟩ | ⟨pre, post, vals, v1, v2, v3, v4, v5, hm⟩⟩
      · rw [tri_pure]; exact (hm.keeps hn)
      · rw [tri_pure]; exact (hm.keeps hn)
    · rintro f w' (⟨_, ⟨rfl, _, hg, _⟩ | ⟨e, rfl, _, hm⟩ | ⟨e, w1, b, w2, pre, a, post, b1, w3, x1, x2, x3, x4, x5, hm | ⟨pre', post', vals, v1, v2, v3, v4, v5, hm⟩⟩⟩ | ⟨hl, _⟩)
      · exact Or.inr ⟨(hg.keeps hn), (hg.intact hn)⟩
      · exact Or.inr ⟨(hm.keeps hn), (hm.intact hn)⟩
      · exact Or.inr ⟨(hm.2.keeps hn), (hm.2.intact hn)⟩
      · exact Or.inr ⟨(hm.keeps hn), (hm.intact hn)⟩
      · exact Or.inl (Or.inl hl)
  | addComponent e t v =>
    refine (addComponent_spec h hn.ready e t hc).imp ?_ ?_
    · rintro _ w' ⟨hl, id, w1, hg, ⟨hd, rfl⟩ | ⟨hr, hl', hnc, hlog, hu, hev⟩⟩
      · exact (hg.grow.keeps hn)
      · exact (hg.grow.keeps hn).trans hu.keeps
    · rintro f w' (⟨w0, rfl, ⟨rfl, hf⟩ | ⟨rfl, _, _, hg, _⟩⟩ | ⟨id, w1, hg, hl, ⟨rfl, _, _, rfl⟩ | ⟨rfl, _, _, _, rfl⟩ | ⟨hlim, _⟩⟩)
      · exact Or.inr ⟨self.1.withLog _, self.2.withLog _⟩
      · exact Or.inr ⟨(hg.keeps hn).withLog _, (hg.intact hn).withLog _⟩
      · exact Or.inr ⟨(hg.grow.keeps hn), (hg.grow.intact hn)⟩
      · exact Or.inr ⟨(hg.grow.keeps hn), (hg.grow.intact hn)⟩
      · exact Or.inl (Or.inl hlim)
  | removeComponent e t =>
    refine (removeComponent_spec h hn.ready e t).imp ?_ ?_
    · rintro _ w' ⟨hl, id, hty, ⟨hd, rfl⟩ | ⟨hr, hl', bs, hh, hlog, hu, hev⟩⟩
      · exact self.1
      · exact hu.keeps
    · rintro f w' (⟨rfl, _, rfl⟩ | ⟨rfl, _, rfl⟩ | ⟨rfl, _, _, hg, _⟩ | ⟨id, w1, hg, _, ⟨rfl, _, _, rfl⟩ | ⟨rfl, _, _, _, rfl⟩ | ⟨hlim, _⟩⟩)
      · exact Or.inr self
      · exact Or.inr self
      · exact Or.inr ⟨(hg.keeps hn), (hg.intact hn)⟩
      · exact Or.inr ⟨(hg.grow.keeps hn), (hg.grow.intact hn)⟩
      · exact Or.inr ⟨(hg.grow.keeps hn), (hg.grow.intact hn)⟩
      · exact Or.inl (Or.inl hlim)
  | addDynamic e c =>
    refine (addZst_spec h e c).imp ?_ ?_
    · rintro _ w' ⟨hr, hnc, hlog, m, hm, hz, hu, hev⟩
      exact hu.keeps
    · rintro f w' (⟨rfl, hf⟩ | ⟨hlim, _⟩)
      · exact Or.inr self
      · exact Or.inl (Or.inl hlim)
  | addDynamicWithData e c src =>
    have hlive : ∀ m, w.entities.Live c → compOf w.metas c.uindex = some m → m.layout.size ≤ src.length := by
      intro m hl hm
      refine hc m ((infoIs_iff h).2 ⟨?_, hm⟩)
      rcases getEntityMeta_spec h c with ⟨g1, g2⟩ | ⟨g1, g2⟩ | ⟨g1, g2, g3, g4⟩ | ⟨im, cm, g1, g2, g3, g4, g5⟩
      · have := hl.lt; omega
      · exact absurd hl g2
      · unfold compOf at hm; unfold instOf at g3
        cases hx : (w.metas[c.uindex]?).join with
        | none => rw [hx] at hm; cases hm
        | some y => rw [hx] at g3; cases g3
      · exact (row_iff c).2 ⟨_, _, g5⟩
    refine (addDyn_spec h e c hlive).imp ?_ ?_
    · rintro _ w' (⟨hd, rfl⟩ | ⟨hl, hr, hlc, hnc, hlog, m, hm, hu, hev⟩)
      · exact self.1
      · exact hu.keeps
    · rintro f w' (⟨rfl, _, rfl⟩ | ⟨rfl, _, _, rfl⟩ | ⟨rfl, _, _, _, rfl⟩ | ⟨rfl, _, _, _, hi, hs, _⟩ | ⟨hlim, _⟩)
      · exact Or.inr self
      · exact Or.inr self
      · exact Or.inr self
      · exact Or.inr ⟨hs.keeps, hs.intact hn h hi⟩
      · exact Or.inl (Or.inl hlim)
  | removeDynamic e c =>
    refine (removeDyn_spec h e c).imp ?_ ?_
    · rintro _ w' (⟨hd, rfl⟩ | ⟨hl, hr, hlc, m, bs, hm, hh, hlog, hu, hev⟩)
      · exact self.1
      · exact hu.keeps
    · rintro f w' (⟨rfl, _, rfl⟩ | ⟨rfl, _, _, rfl⟩ | ⟨rfl, _, _, _, rfl⟩ | ⟨hlim, _⟩)
      · exact Or.inr self
      · exact Or.inr self
      · exact Or.inr self
      · exact Or.inl (Or.inl hlim)
  | despawn e =>
    unfold Call.exec
    rw [tri_bind]
    refine (despawn_spec h e).imp ?_ ?_
    · rintro b w' (⟨_, _, rfl⟩ | ⟨_, _, _, _, hg, evs, L, hd, hlog, hev⟩)
      · rw [tri_pure]; exact self.1
      · rw [tri_pure]; exact ⟨fun t c ht => by rw [hg.typ]; exact ht, hg.known⟩
    · rintro f w' ⟨rfl, hf⟩
      exact Or.inr self
  | register t =>
    unfold Call.exec
    rw [tri_bind]
    refine (getOrCreate_spec h hn.ready t).imp ?_ ?_
    · rintro id w' ⟨hg, _⟩
      rw [tri_pure]; exact (hg.keeps hn)
    · rintro f w' ⟨rfl, _, _, hg, _⟩
      exact Or.inr ⟨(hg.keeps hn), (hg.intact hn)⟩
  | write e c bs =>
    unfold Call.exec
    simp only [tri_bind, tri_get, tri_liftE]
    rcases getComponentMut_spec h e c with ⟨h1, h2⟩ | ⟨h1, h2⟩ | ⟨h1, h2, h3, h4⟩ | ⟨p, h1, hp⟩
    · rw [h1]; exact Or.inr self
    · rw [h1]; simp only [tri_pure]; exact self.1
    · rw [h1]; exact Or.inr self
    · rw [h1]
      simp only [tri_step]
      obtain ⟨m, hm⟩ := hp.info h
      obtain ⟨w', w1, w2⟩ := writePtr_spec h hp hm (hc m hm)
      rw [w1]
      exact ⟨fun t c ht => by rw [w2.typ]; exact ht, fun x hx => by rw [w2.ent]; exact hx⟩
  | query ps b =>
    unfold Call.exec
    rw [tri_bind]
    unfold Tri World.query
    cases hf : allFetches w ps with
    | none => exact ⟨fun _ _ h => h, fun _ h => h⟩
    | some fs =>
      simp only
      cases ha : acquireAllStatic w [] w.locks fs with
      | ok x => exact ⟨fun _ _ h => h, fun _ h => h⟩
      | error x => exact Or.inr ⟨self.1.withLocks _, self.2.withLocks _⟩
  | queryDynamic fs b =>
    unfold Call.exec
    rw [tri_bind]
    unfold Tri World.queryDynamic
    cases ha : acquireAllDyn w [] false w.locks fs with
    | ok x => exact ⟨fun _ _ h => h, fun _ h => h⟩
    | error x => exact Or.inr ⟨self.1.withLocks _, self.2.withLocks _⟩

/-! ## Locks -/

/-- A lock belongs to a component in use or to an entity that was spawned but never built (see C26). -/
def Tidy (w : World) : Prop := ∀ c, w.lockLookup c ≠ none → w.Used c ∨ (w.entities.Known c ∧ ¬ w.Row c ∧ ∀ t, w.typeMap t ≠ some c)

theorem Made.tidy {w w' : World} {e : EcsId} {b : Prop} {P : EcsId → Bytes → Prop} {E : List DropEv} {cm : ComponentMeta}
    (hn : w.entities.NoWrap) (h : Made w w' e b P E cm) (ht : Tidy w) : Tidy w' := by
  intro c hc
  rw [h.used]
  rcases h.tight c hc with hh | hh
  · rcases ht c hh with h1 | ⟨h1, h2, h3⟩
    · exact Or.inl (Or.inl h1)
    · refine Or.inr ⟨(h.known c (h1.kept hn)).1, ?_, ?_⟩
      · rw [(h.intact hn).row c h1]; exact h2
      · intro t htt
        cases hw : w.typeMap t with
        | none => exact h.newUnknown c ⟨t, hw, htt⟩ (h1.kept hn)
        | some id =>
          rw [h.typ t id hw] at htt
          injection htt with htt; subst htt
          exact h3 t hw
  · exact Or.inl (Or.inr hh)

theorem Grow.tidy {w w' : World} (hn : w.entities.NoWrap) (h : Grow w w') (ht : Tidy w) : Tidy w' := by
  intro c hc
  rw [h.used]
  rcases ht c (h.tight c hc) with h1 | ⟨h1, h2, h3⟩
  · exact Or.inl h1
  · refine Or.inr ⟨(h.known c (h1.kept hn)).1, ?_, ?_⟩
    · rw [(h.intact hn).row c h1]; exact h2
    · intro t htt
      cases hw : w.typeMap t with
      | none => exact h.unknown c ⟨t, hw, htt⟩ (h1.kept hn)
      | some id =>
        rw [h.typ t id hw] at htt
        injection htt with htt; subst htt
        exact h3 t hw

theorem Upd.tidy {w w' : World} {e : EcsId} {P : EcsId → Bytes → Prop} (h : Upd w w' e P) (ht : Tidy w) : Tidy w' := by
  intro c hc
  rcases h.tight c hc with hh | ⟨bs, hh⟩
  · rcases ht c hh with h1 | ⟨h1, h2, h3⟩
    · exact Or.inl (h.used c h1)
    · exact Or.inr ⟨by rw [h.ent]; exact h1, by rw [h.row]; exact h2, by rw [h.typ]; exact h3⟩
  · exact Or.inl (has_used h.inv ((h.self c bs).2 hh))

theorem Same.tidy {w w' : World} (hi : Inv w) (h : Same w w') {c : EcsId} (hl : w.entities.Live c) (hc : compOf w.metas c.uindex = none)
    (hx : ∀ x, w'.lockLookup x ≠ none → w.lockLookup x ≠ none ∨ x = c) (ht : Tidy w) : Tidy w' := by
  intro x hxl
  rcases hx x hxl with hh | rfl
  · rcases ht x hh with h1 | ⟨h1, h2, h3⟩
    · exact Or.inl (h.used h1)
    · exact Or.inr ⟨by rw [h.ent]; exact h1, by rw [h.hasRow]; exact h2, by rw [h.typ]; exact h3⟩
  · refine Or.inr ⟨by rw [h.ent]; exact hl.known, ?_, ?_⟩
    · rw [h.hasRow]
      rintro hr
      obtain ⟨k, r, hr⟩ := (row_iff x).1 hr
      have := (hi.loc.ent k r x hr).2
      rw [inst_none_iff_comp.2 hc] at this
      cases this
    · rw [h.typ]
      intro t htt
      rw [hi.type.comp t x htt hl] at hc
      cases hc

theorem used_of_ids {w w' : World} (h : w'.archetypes.map Archetype.compIds = w.archetypes.map Archetype.compIds) {c : EcsId} (hc : w.Used c) : w'.Used c := by
  obtain ⟨a, ha, hca⟩ := hc
  have : a.compIds ∈ w'.archetypes.map Archetype.compIds := by rw [h]; exact List.mem_map_of_mem ha
  obtain ⟨a', ha', he⟩ := List.mem_map.1 this
  exact ⟨a', ha', by rw [he]; exact hca⟩

theorem Gone.tidy {w w' : World} {e : EcsId} (h : Gone w w' e) (ht : Tidy w) : Tidy w' := by
  intro c hc
  rw [h.look] at hc
  rcases ht c hc with h1 | ⟨h1, h2, h3⟩
  · exact Or.inl (used_of_ids h.ids h1)
  · exact Or.inr ⟨h.known c h1, by rw [h.row]; exact fun hh => h2 hh.1, by rw [h.typ]; exact h3⟩

/-- One call. -/
theorem exec_tidy {w : World} (h : Inv w) (hn : w.entities.NoWrap) {c : Call} (hc : c.Ok w) (ht : Tidy w) :
    Tri c.exec w (fun _ w' => Tidy w') (fun f w' => Stop f ∨ Tidy w') := by
  cases c with
  | spawn kind acts =>
    unfold Call.exec
    rw [tri_bind]
    refine (spawnWith_spec h hn.ready hc).imp ?_ ?_
    · rintro e w' ⟨_, ⟨_, hm⟩ | ⟨pre, post, vals, v1, v2, v3, v4, v5, hm⟩⟩
      · rw [tri_pure]; exact hm.tidy hn ht
      · rw [tri_pure]; exact hm.tidy hn ht
    · rintro f w' (⟨_, ⟨rfl, _, hg, _⟩ | ⟨e, rfl, _, hm⟩ | ⟨e, w1, b, w2, pre, a, post, b1, w3, x1, x2, x3, x4, x5, hm | ⟨pre', post', vals, v1, v2, v3, v4, v5, hm⟩⟩⟩ | ⟨hl, _⟩)
      · exact Or.inr (hg.tidy hn ht)
      · exact Or.inr (hm.tidy hn ht)
      · exact Or.inr (hm.2.tidy hn ht)
      · exact Or.inr (hm.tidy hn ht)
      · exact Or.inl (Or.inl hl)
  | addComponent e t v =>
    refine (addComponent_spec h hn.ready e t hc).imp ?_ ?_
    · rintro _ w' ⟨hl, id, w1, hg, ⟨hd, rfl⟩ | ⟨hr, hl', hnc, hlog, hu, hev⟩⟩
      · exact hg.grow.tidy hn ht
      · exact hu.tidy (hg.grow.tidy hn ht)
    · rintro f w' (⟨w0, rfl, ⟨rfl, hf⟩ | ⟨rfl, _, _, hg, _⟩⟩ | ⟨id, w1, hg, hl, ⟨rfl, _, _, rfl⟩ | ⟨rfl, _, _, _, rfl⟩ | ⟨hlim, _⟩⟩)
      · exact Or.inr ht
      · exact Or.inr (show Tidy _ from (hg.tidy hn ht : Tidy w0))
      · exact Or.inr (hg.grow.tidy hn ht)
      · exact Or.inr (hg.grow.tidy hn ht)
      · exact Or.inl (Or.inl hlim)
  | removeComponent e t =>
    refine (removeComponent_spec h hn.ready e t).imp ?_ ?_
    · rintro _ w' ⟨hl, id, hty, ⟨hd, rfl⟩ | ⟨hr, hl', bs, hh, hlog, hu, hev⟩⟩
      · exact ht
      · exact hu.tidy ht
    · rintro f w' (⟨rfl, _, rfl⟩ | ⟨rfl, _, rfl⟩ | ⟨rfl, _, _, hg, _⟩ | ⟨id, w1, hg, _, ⟨rfl, _, _, rfl⟩ | ⟨rfl, _, _, _, rfl⟩ | ⟨hlim, _⟩⟩)
      · exact Or.inr ht
      · exact Or.inr ht
      · exact Or.inr (hg.tidy hn ht)
      · exact Or.inr (hg.grow.tidy hn ht)
      · exact Or.inr (hg.grow.tidy hn ht)
      · exact Or.inl (Or.inl hlim)
  | addDynamic e c =>
    refine (addZst_spec h e c).imp ?_ ?_
    · rintro _ w' ⟨hr, hnc, hlog, m, hm, hz, hu, hev⟩
      exact hu.tidy ht
    · rintro f w' (⟨rfl, hf⟩ | ⟨hlim, _⟩)
      · exact Or.inr ht
      · exact Or.inl (Or.inl hlim)
  | addDynamicWithData e c src =>
    have hlive : ∀ m, w.entities.Live c → compOf w.metas c.uindex = some m → m.layout.size ≤ src.length := by
      intro m hl hm
      refine hc m ((infoIs_iff h).2 ⟨?_, hm⟩)
      rcases getEntityMeta_spec h c with ⟨g1, g2⟩ | ⟨g1, g2⟩ | ⟨g1, g2, g3, g4⟩ | ⟨im, cm, g1, g2, g3, g4, g5⟩
      · have := hl.lt; omega
      · exact absurd hl g2
      · rw [inst_none_iff_comp.1 g3] at hm; cases hm
      · exact (row_iff c).2 ⟨_, _, g5⟩
    refine (addDyn_spec h e c hlive).imp ?_ ?_
    · rintro _ w' (⟨hd, rfl⟩ | ⟨hl, hr, hlc, hnc, hlog, m, hm, hu, hev⟩)
      · exact ht
      · exact hu.tidy ht
    · rintro f w' (⟨rfl, _, rfl⟩ | ⟨rfl, _, _, rfl⟩ | ⟨rfl, _, _, _, rfl⟩ | ⟨rfl, _, hl, hm, hi, hs, hx⟩ | ⟨hlim, _⟩)
      · exact Or.inr ht
      · exact Or.inr ht
      · exact Or.inr ht
      · exact Or.inr (hs.tidy h hl hm hx.1 ht)
      · exact Or.inl (Or.inl hlim)
  | removeDynamic e c =>
    refine (removeDyn_spec h e c).imp ?_ ?_
    · rintro _ w' (⟨hd, rfl⟩ | ⟨hl, hr, hlc, m, bs, hm, hh, hlog, hu, hev⟩)
      · exact ht
      · exact hu.tidy ht
    · rintro f w' (⟨rfl, _, rfl⟩ | ⟨rfl, _, _, rfl⟩ | ⟨rfl, _, _, _, rfl⟩ | ⟨hlim, _⟩)
      · exact Or.inr ht
      · exact Or.inr ht
      · exact Or.inr ht
      · exact Or.inl (Or.inl hlim)
  | despawn e =>
    unfold Call.exec
    rw [tri_bind]
    refine (despawn_spec h e).imp ?_ ?_
    · rintro b w' (⟨_, _, rfl⟩ | ⟨_, _, _, _, hg, evs, L, hd, hlog, hev⟩)
      · rw [tri_pure]; exact ht
      · rw [tri_pure]; exact hg.tidy ht
    · rintro f w' ⟨rfl, hf⟩
      exact Or.inr ht
  | register t =>
    unfold Call.exec
    rw [tri_bind]
    refine (getOrCreate_spec h hn.ready t).imp ?_ ?_
    · rintro id w' ⟨hg, _⟩
      rw [tri_pure]; exact hg.tidy hn ht
    · rintro f w' ⟨rfl, _, _, hg, _⟩
      exact Or.inr (hg.tidy hn ht)
  | write e c bs =>
    unfold Call.exec
    simp only [tri_bind, tri_get, tri_liftE]
    rcases getComponentMut_spec h e c with ⟨h1, h2⟩ | ⟨h1, h2⟩ | ⟨h1, h2, h3, h4⟩ | ⟨p, h1, hp⟩
    · rw [h1]; exact Or.inr ht
    · rw [h1]; simp only [tri_pure]; exact ht
    · rw [h1]; exact Or.inr ht
    · rw [h1]
      simp only [tri_step]
      obtain ⟨m, hm⟩ := hp.info h
      obtain ⟨w', w1, w2⟩ := writePtr_spec h hp hm (hc m hm)
      rw [w1]
      intro c' hc'
      rw [w2.look] at hc'
      rcases ht c' hc' with q1 | ⟨q1, q2, q3⟩
      · exact Or.inl (used_of_ids w2.ids q1)
      · exact Or.inr ⟨by rw [w2.ent]; exact q1, by rw [w2.row]; exact q2, by rw [w2.typ]; exact q3⟩
  | query ps b =>
    unfold Call.exec
    rw [tri_bind]
    unfold Tri World.query
    cases hf : allFetches w ps with
    | none => exact ht
    | some fs =>
      simp only
      cases ha : acquireAllStatic w [] w.locks fs with
      | ok x => exact ht
      | error x => exact Or.inr ht
  | queryDynamic fs b =>
    unfold Call.exec
    rw [tri_bind]
    unfold Tri World.queryDynamic
    cases ha : acquireAllDyn w [] false w.locks fs with
    | ok x => exact ht
    | error x => exact Or.inr ht

theorem Reachable.tidy {w : World} (h : Reachable w) : Tidy w := by
  induction h with
  | new => intro c hc; exact absurd rfl hc
  | ok c h1 hc he hn ih =>
    have hs := h1.sound
    exact (exec_tidy hs.inv hs.nowrap hc ih).ok he
  | panic c f h1 hc he hl hd hn ih =>
    have hs := h1.sound
    rcases (exec_tidy hs.inv hs.nowrap hc ih).error he with (hh | hh) | hh
    · exact absurd hh hl
    · exact absurd hh hd
    · exact hh

theorem Later.reachable {w w' : World} (h : Reachable w) (hl : Later w w') : Reachable w' := by
  induction hl with
  | refl => exact h
  | ok c _ hc he hn ih => exact .ok c ih hc he hn
  | panic c f _ hc he hl hd hn ih => exact .panic c f ih hc he hl hd hn

theorem Later.keeps {w w' : World} (h : Reachable w) (hl : Later w w') : Keeps w w' := by
  induction hl with
  | refl => exact .refl w
  | ok c h1 hc he hn ih =>
    have hs := (h1.reachable h).sound
    exact ih.trans ((exec_keeps hs.inv hs.nowrap hc).ok he)
  | panic c f h1 hc he hl hd hn ih =>
    have hs := (h1.reachable h).sound
    rcases (exec_keeps hs.inv hs.nowrap hc).error he with (hh | hh) | hh
    · exact absurd hh hl
    · exact absurd hh hd
    · exact ih.trans hh.1

end World

theorem Tri.cases {α : Type} {x : M α} {w : World} {Q : α → World → Prop} {E : Fault → World → Prop} (h : Tri x w Q E) :
    (∃ a w', x w = .ok a w' ∧ Q a w') ∨ ∃ f w', x w = .error f w' ∧ E f w' := by
  unfold Tri at h
  cases hx : x w with
  | ok a w' => rw [hx] at h; exact Or.inl ⟨a, w', rfl, h⟩
  | error f w' => rw [hx] at h; exact Or.inr ⟨f, w', rfl, h⟩

end Ellecs
