import Verif.Proofs.Effect
/-! # What calls do to the metadata of components -/
namespace Ellecs
namespace World

/-- Entities that are still alive were alive, and are built with the metadata they had. -/
structure Stays (w w' : World) : Prop where
  old : ∀ x, w'.entities.Live x → w.entities.Known x → w.entities.Live x
  info : ∀ x m, w.InfoIs x m → w'.entities.Live x → w'.InfoIs x m

theorem Stays.refl (w : World) : Stays w w := ⟨fun _ h _ => h, fun _ _ h _ => h⟩

theorem Stays.of {w w' : World} (hi : Inv w) (hi' : Inv w') (ho : ∀ x, w'.entities.Live x → w.entities.Known x → w.entities.Live x)
    (hr : ∀ x, w.entities.Live x → w'.entities.Live x → w.Row x → w'.Row x)
    (hc : ∀ x, w.entities.Live x → w'.entities.Live x → compOf w'.metas x.uindex = compOf w.metas x.uindex) : Stays w w' := by
  refine ⟨ho, fun x m hm hl => ?_⟩
  rw [infoIs_iff hi] at hm
  rw [infoIs_iff hi']
  have := hi.row_live hm.1
  exact ⟨hr x this hl hm.1, by rw [hc x this hl]; exact hm.2⟩

theorem Intact.stays {w w' : World} (hi : Inv w) (hi' : Inv w') (h : Intact w w') : Stays w w' :=
  .of hi hi' h.old (fun x hx _ hr => (h.row x hx.known).2 hr) (fun x hx _ => h.comp x hx)

theorem Grow.stays {w w' : World} (hi : Inv w) (hn : w.entities.NoWrap) (h : Grow w w') : Stays w w' := (h.intact hn).stays hi h.inv

theorem Made.stays {w w' : World} {e : EcsId} {b : Prop} {P : EcsId → Bytes → Prop} {E : List DropEv} {cm : ComponentMeta}
    (hi : Inv w) (hn : w.entities.NoWrap) (h : Made w w' e b P E cm) : Stays w w' := (h.intact hn).stays hi h.inv

theorem Upd.stays {w w' : World} {e : EcsId} {P : EcsId → Bytes → Prop} (hi : Inv w) (h : Upd w w' e P) : Stays w w' :=
  .of hi h.inv (fun x hx _ => by rw [h.ent] at hx; exact hx) (fun x _ _ hr => (h.row x).2 hr) (fun x _ _ => h.comp _)

theorem Gone.stays {w w' : World} {e : EcsId} (hi : Inv w) (he : w.entities.Live e) (h : Gone w w' e) : Stays w w' :=
  .of hi h.inv (fun x hx _ => ((h.live x).1 hx).1) (fun x _ hl hr => (h.row x).2 ⟨hr, ((h.live x).1 hl).2⟩)
    (fun x hx hl => h.comp _ (fun hh => ((h.live x).1 hl).2 (hx.uniq he hh)))

theorem Stays.trans {w w' w'' : World} (h : Stays w w') (hk : ∀ x, w.entities.Known x → w'.entities.Known x) (hi : Inv w) (h' : Stays w' w'') : Stays w w'' := by
  refine ⟨fun x hx hkn => h.old x (h'.old x hx (hk x hkn)) hkn, fun x m hm hl => ?_⟩
  have h1 := ((infoIs_iff hi).1 hm).1
  have h2 := h'.old x hl (hk x (hi.row_live h1).known)
  exact h'.info x m (h.info x m hm h2) hl

/-- One call. -/
theorem exec_stays {w : World} (h : Inv w) (hn : w.entities.NoWrap) (hid : Idle w) {c : Call} (hc : c.Ok w) :
    Tri c.exec w (fun _ w' => Stays w w') (fun f w' => Stop f ∨ Stays w w') := by
  refine tri_of (fun a w' hx => ?_) (fun f w' hx => ?_)
  · have hi' := ((exec_spec h hn.ready hid hc).ok hx).1.inv
    revert hx
    suffices ht : Tri c.exec w (fun _ w' => Inv w' → Stays w w') (fun _ _ => True) from fun hx => ht.ok hx hi'
    cases c with
    | spawn kind acts =>
      unfold Call.exec
      rw [tri_bind]
      refine (spawnWith_spec h hn.ready hc).imp ?_ (fun _ _ _ => trivial)
      rintro e w' ⟨_, ⟨_, hm⟩ | ⟨pre, post, vals, v1, v2, v3, v4, v5, hm⟩⟩
      · rw [tri_pure]; exact fun _ => hm.stays h hn
      · rw [tri_pure]; exact fun _ => hm.stays h hn
    | addComponent e t v =>
      refine (addComponent_spec h hn.ready e t hc).imp ?_ (fun _ _ _ => trivial)
      rintro _ w' ⟨hl, id, w1, hg, ⟨hd, rfl⟩ | ⟨hr, hl', hnc, hlog, hu, hev⟩⟩
      · exact fun _ => hg.grow.stays h hn
      · exact fun _ => (hg.grow.stays h hn).trans (hg.grow.keeps hn).known h (hu.stays hg.grow.inv)
    | removeComponent e t =>
      refine (removeComponent_spec h hn.ready e t).imp ?_ (fun _ _ _ => trivial)
      rintro _ w' ⟨hl, id, hty, ⟨hd, rfl⟩ | ⟨hr, hl', bs, hh, hlog, hu, hev⟩⟩
      · exact fun _ => .refl _
      · exact fun _ => hu.stays h
    | addDynamic e c =>
      refine (addZst_spec h e c).imp ?_ (fun _ _ _ => trivial)
      rintro _ w' ⟨hr, hnc, hlog, m, hm, hz, hu, hev⟩
      exact fun _ => hu.stays h
    | addDynamicWithData e c src =>
      have hlive : ∀ m, w.entities.Live c → compOf w.metas c.uindex = some m → m.layout.size ≤ src.length := by
        intro m hl hm
        refine hc m ((infoIs_iff h).2 ⟨?_, hm⟩)
        rcases getEntityMeta_spec h c with ⟨g1, g2⟩ | ⟨g1, g2⟩ | ⟨g1, g2, g3, g4⟩ | ⟨im, cm, g1, g2, g3, g4, g5⟩
        · have := hl.lt; omega
        · exact absurd hl g2
        · rw [inst_none_iff_comp.1 g3] at hm; cases hm
        · exact (row_iff c).2 ⟨_, _, g5⟩
      refine (addDyn_spec h e c hlive).imp ?_ (fun _ _ _ => trivial)
      rintro _ w' (⟨hd, rfl⟩ | ⟨hl, hr, hlc, hnc, hlog, m, hm, hu, hev⟩)
      · exact fun _ => .refl _
      · exact fun _ => hu.stays h
    | removeDynamic e c =>
      refine (removeDyn_spec h e c).imp ?_ (fun _ _ _ => trivial)
      rintro _ w' (⟨hd, rfl⟩ | ⟨hl, hr, hlc, m, bs, hm, hh, hlog, hu, hev⟩)
      · exact fun _ => .refl _
      · exact fun _ => hu.stays h
    | despawn e =>
      unfold Call.exec
      rw [tri_bind]
      refine (despawn_spec h e).imp ?_ (fun _ _ _ => trivial)
      rintro b w' (⟨_, _, rfl⟩ | ⟨_, hl, _, _, hg, evs, L, hd, hlog, hev⟩)
      · rw [tri_pure]; exact fun _ => .refl _
      · rw [tri_pure]; exact fun _ => hg.stays h hl
    | register t =>
      unfold Call.exec
      rw [tri_bind]
      refine (getOrCreate_spec h hn.ready t).imp ?_ (fun _ _ _ => trivial)
      rintro id w' ⟨hg, _⟩
      rw [tri_pure]; exact fun _ => hg.stays h hn
    | write e c bs =>
      unfold Call.exec
      simp only [tri_bind, tri_get, tri_liftE]
      rcases getComponentMut_spec h e c with ⟨h1, h2⟩ | ⟨h1, h2⟩ | ⟨h1, h2, h3, h4⟩ | ⟨p, h1, hp⟩
      · rw [h1]; trivial
      · rw [h1]; simp only [tri_pure]; exact fun _ => .refl _
      · rw [h1]; trivial
      · rw [h1]
        simp only [tri_step]
        obtain ⟨m, hm⟩ := hp.info h
        obtain ⟨w', w1, w2⟩ := writePtr_spec h hp hm (hc m hm)
        rw [w1]
        exact fun _ => .of h w2.inv (fun x hx _ => by rw [w2.ent] at hx; exact hx) (fun x _ _ hr => (w2.row x).2 hr) (fun x _ _ => by rw [w2.metas])
    | query ps b =>
      unfold Call.exec
      rw [tri_bind]
      unfold Tri World.query
      cases hf : allFetches w ps with
      | none => exact fun _ => ⟨fun _ h _ => h, fun _ _ h _ => h⟩
      | some fs =>
        simp only
        cases ha : acquireAllStatic w [] w.locks fs with
        | ok x => exact fun _ => ⟨fun _ h _ => h, fun _ _ h _ => h⟩
        | error x => trivial
    | queryDynamic fs b =>
      unfold Call.exec
      rw [tri_bind]
      unfold Tri World.queryDynamic
      cases ha : acquireAllDyn w [] false w.locks fs with
      | ok x => exact fun _ => ⟨fun _ h _ => h, fun _ _ h _ => h⟩
      | error x => trivial
  · rcases (exec_keeps h hn hc).error hx with hs | ⟨_, hk⟩
    · exact Or.inl hs
    · rcases ((exec_spec h hn.ready hid hc).error hx).2 with hs | ha
      · exact Or.inl hs
      · exact Or.inr (hk.stays h ha.inv)

theorem Later.stays {w w' : World} (h : Reachable w) (hl : Later w w') : Stays w w' := by
  induction hl with
  | refl => exact .refl w
  | ok c h1 hc he hn ih =>
    have hs := (h1.reachable h).sound
    exact ih.trans (h1.keeps h).known h.sound.inv ((exec_stays hs.inv hs.nowrap hs.idle hc).ok he)
  | panic c f h1 hc he hl hd hn ih =>
    have hs := (h1.reachable h).sound
    rcases (exec_stays hs.inv hs.nowrap hs.idle hc).error he with (hh | hh) | hh
    · exact absurd hh hl
    · exact absurd hh hd
    · exact ih.trans (h1.keeps h).known h.sound.inv hh

end World
end Ellecs
