import Verif.Proofs.Meta
import Verif.Proofs.Peak
/-!
# Ids that were not built
-/
namespace Ellecs
namespace World

/-- Ids that are alive without an entity stay so. -/
def Strays (w w' : World) : Prop := ∀ x, w.entities.Live x → ¬ w.Row x → w'.entities.Live x ∧ ¬ w'.Row x

theorem Intact.strays {w w' : World} (h : Intact w w') : Strays w w' :=
  fun x hl hr => ⟨h.live x hl, fun hh => hr ((h.row x hl.known).1 hh)⟩

theorem Upd.strays {w w' : World} {e : EcsId} {P : EcsId → Bytes → Prop} (h : Upd w w' e P) : Strays w w' :=
  fun x hl hr => ⟨by rw [h.ent]; exact hl, fun hh => hr ((h.row x).1 hh)⟩

theorem Strays.trans {w w1 w' : World} (h : Strays w w1) (h' : Strays w1 w') : Strays w w' :=
  fun x hl hr => h' x (h x hl hr).1 (h x hl hr).2

theorem Strays.refl (w : World) : Strays w w := fun _ h h' => ⟨h, h'⟩

/-- One call. -/
theorem exec_strays {w : World} (h : Inv w) (hn : w.entities.NoWrap) {c : Call} (hc : c.Ok w) :
    Tri c.exec w (fun _ w' => Strays w w') (fun f w' => Stop f ∨ Strays w w') := by
  refine tri_of (fun a w' hx => ?_) (fun f w' hx => ?_)
  · revert hx
    suffices ht : Tri c.exec w (fun _ w' => Strays w w') (fun _ _ => True) from fun hx => ht.ok hx
    cases c with
    | spawn kind acts =>
      unfold Call.exec
      rw [tri_bind]
      refine (spawnWith_spec h hn.ready hc).imp ?_ (fun _ _ _ => trivial)
      rintro e w' ⟨_, ⟨_, hm⟩ | ⟨pre, post, vals, v1, v2, v3, v4, v5, hm⟩⟩
      · rw [tri_pure]; exact (hm.intact hn).strays
      · rw [tri_pure]; exact (hm.intact hn).strays
    | addComponent e t v =>
      refine (addComponent_spec h hn.ready e t hc).imp ?_ (fun _ _ _ => trivial)
      rintro _ w' ⟨hl, id, w1, hg, ⟨hd, rfl⟩ | ⟨hr, hl', hnc, hlog, hu, hev⟩⟩
      · exact (hg.grow.intact hn).strays
      · exact (hg.grow.intact hn).strays.trans hu.strays
    | removeComponent e t =>
      refine (removeComponent_spec h hn.ready e t).imp ?_ (fun _ _ _ => trivial)
      rintro _ w' ⟨hl, id, hty, ⟨hd, rfl⟩ | ⟨hr, hl', bs, hh, hlog, hu, hev⟩⟩
      · exact .refl _
      · exact hu.strays
    | addDynamic e c =>
      refine (addZst_spec h e c).imp ?_ (fun _ _ _ => trivial)
      rintro _ w' ⟨hr, hnc, hlog, m, hm, hz, hu, hev⟩
      exact hu.strays
    | addDynamicWithData e c src =>
      have hlive : ∀ m, w.entities.Live c → compOf w.metas c.uindex = some m → m.layout.size ≤ src.length := by
        intro m hl hm
        refine hc m ((infoIs_iff h).2 ⟨?_, hm⟩)
        rcases getEntityMeta_spec h c with ⟨g1, g2⟩ | ⟨g1, g2⟩ | ⟨g1, g2, g3, g4⟩ | ⟨im, cm, g1, g2, g3, g4, g5⟩
        · have := hl.lt; omega
        · exact absurd hl g2
        · rw [inst_none_iff_comp.1 g3] at hm; cases hm
        · exact (row_iff c).2 ⟨_, _, g5⟩
      refine (addDyn_spec h e c hlive).imp ?_ (fun _ _ _ => trivial)
      rintro _ w' (⟨hd, rfl⟩ | ⟨hl, hr, hlc, hnc, hlog, m, hm, hu, hev⟩)
      · exact .refl _
      · exact hu.strays
    | removeDynamic e c =>
      refine (removeDyn_spec h e c).imp ?_ (fun _ _ _ => trivial)
      rintro _ w' (⟨hd, rfl⟩ | ⟨hl, hr, hlc, m, bs, hm, hh, hlog, hu, hev⟩)
      · exact .refl _
      · exact hu.strays
    | despawn e =>
      unfold Call.exec
      rw [tri_bind]
      refine (despawn_spec h e).imp ?_ (fun _ _ _ => trivial)
      rintro b w' (⟨_, _, rfl⟩ | ⟨_, hl, hr, _, hg, evs, L, hd, hlog, hev⟩)
      · rw [tri_pure]; exact .refl _
      · rw [tri_pure]
        exact fun x hx hnr => ⟨(hg.live x).2 ⟨hx, fun hh => hnr (hh ▸ hr)⟩, fun hh => hnr ((hg.row x).1 hh).1⟩
    | register t =>
      unfold Call.exec
      rw [tri_bind]
      refine (getOrCreate_spec h hn.ready t).imp ?_ (fun _ _ _ => trivial)
      rintro id w' ⟨hg, _⟩
      rw [tri_pure]; exact (hg.intact hn).strays
    | write e c bs =>
      unfold Call.exec
      simp only [tri_bind, tri_get, tri_liftE]
      rcases getComponentMut_spec h e c with ⟨h1, h2⟩ | ⟨h1, h2⟩ | ⟨h1, h2, h3, h4⟩ | ⟨p, h1, hp⟩
      · rw [h1]; trivial
      · rw [h1]; simp only [tri_pure]; exact .refl _
      · rw [h1]; trivial
      · rw [h1]
        simp only [tri_step]
        obtain ⟨m, hm⟩ := hp.info h
        obtain ⟨w', w1, w2⟩ := writePtr_spec h hp hm (hc m hm)
        rw [w1]
        exact fun x hx hr => ⟨by rw [w2.ent]; exact hx, fun hh => hr ((w2.row x).1 hh)⟩
    | query ps b =>
      unfold Call.exec
      rw [tri_bind]
      unfold Tri World.query
      cases hf : allFetches w ps with
      | none => exact .refl w
      | some fs =>
        simp only
        cases ha : acquireAllStatic w [] w.locks fs with
        | ok x => exact .refl w
        | error x => trivial
    | queryDynamic fs b =>
      unfold Call.exec
      rw [tri_bind]
      unfold Tri World.queryDynamic
      cases ha : acquireAllDyn w [] false w.locks fs with
      | ok x => exact .refl w
      | error x => trivial
  · rcases (exec_keeps h hn hc).error hx with hs | ⟨_, hk⟩
    · exact Or.inl hs
    · exact Or.inr hk.strays

theorem Later.strays {w w' : World} (h : Reachable w) (hl : Later w w') : Strays w w' := by
  induction hl with
  | refl => exact .refl w
  | ok c h1 hc he hn ih =>
    have hs := (h1.reachable h).sound
    exact ih.trans ((exec_strays hs.inv hs.nowrap hc).ok he)
  | panic c f h1 hc he hl hd hn ih =>
    have hs := (h1.reachable h).sound
    rcases (exec_strays hs.inv hs.nowrap hc).error he with (hh | hh) | hh
    · exact absurd hh hl
    · exact absurd hh hd
    · exact ih.trans hh

/-- A world with `n` ids and nothing else. -/
def hollow (n : Nat) : World := { World.new with entities := ⟨List.replicate n (true, 0), []⟩ }

theorem hollow_step {n : Nat} (hn : n < 2 ^ 32) : Call.exec (.spawn .plain []) (hollow n) = .ok () (hollow (n + 1)) := by
  have h1 : (hollow n).entities.spawn = (.ok (EcsId.new (BitVec.ofNat 32 n) 0), ⟨List.replicate (n + 1) (true, 0), []⟩) := by
    unfold Entities.spawn hollow
    simp only [List.length_replicate]
    rw [if_neg (by omega), ← List.replicate_succ']
  have h2 : spawnId (hollow n) = .ok (EcsId.new (BitVec.ofNat 32 n) 0) (hollow (n + 1)) := by
    unfold spawnId
    rw [h1]
    rfl
  simp only [Call.exec, spawnWith, bind, EStateM.bind, h2]
  rfl

end World
end Ellecs
