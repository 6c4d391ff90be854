import Verif.Proofs.Stray
import Verif.Props.Entity
import Verif.Props.Peak
/-!
# C85: an id without an entity is lost for ever

`spawn` takes an id before the entity exists; `build` makes the entity.  When the builder is dropped in between, or a
call on it panics, the id is alive and nothing can be done with it.
-/
namespace Ellecs.WorldSpec
open World Demo

/-- C85: a builder that was dropped without `build`, or one of whose calls panicked before `build`, leaves an id that is
alive and has no entity (unless no id was left). -/
theorem C85_arises {w : World} (hw : Reachable w) {kind : SpawnKind} {as : List BAct} (hok : ChainOk w kind as) (hnb : .build ∉ as) :
    (∀ e w', spawnWith kind as w = .ok e w' → ¬ w.Alive e ∧ w'.Alive e ∧ ¬ w'.Row e) ∧
    (∀ f w', spawnWith kind as w = .error f w' → f = .outOfIds ∨ ∃ e, ¬ w.Alive e ∧ w'.Alive e ∧ ¬ w'.Row e) := by
  have hs := hw.sound
  have hmade : ∀ {e : EcsId} {w' : World} {cm : ComponentMeta}, Made w w' e False (fun _ _ => False) [] cm →
      ¬ w.Alive e ∧ w'.Alive e ∧ ¬ w'.Row e := by
    intro e w' cm hm
    refine ⟨fun hh => hm.unknown (alive_iff.1 hh).kept, alive_iff.2 ((hm.live e).2 (Or.inr (Or.inr rfl))), ?_⟩
    rw [hm.row]
    rintro (hr | hr | ⟨hr, _⟩)
    · exact hm.unknown (hs.inv.row_live hr).kept
    · exact hm.notType hr
    · exact hr
  constructor
  · intro e w' he
    rcases ((spawnWith_spec hs.inv hs.nowrap.ready hok).ok he).made with ⟨_, hm⟩ | ⟨pre, post, _, h1, _⟩
    · exact hmade hm
    · exact absurd (by rw [h1]; exact List.mem_append_right _ List.mem_cons_self) hnb
  · intro f w' he
    rcases (spawnWith_spec hs.inv hs.nowrap.ready hok).error he with hf | ⟨_, hb, _⟩
    · rcases hf.made with ⟨hf, _⟩ | ⟨e, _, _, hm⟩ | ⟨e, w1, b, w2, pre, a, post, b1, w3, _, _, he, _, _, ⟨_, hm⟩ | ⟨pre', post', _, h1, _⟩⟩
      · exact .inl hf
      · exact .inr ⟨e, hmade hm⟩
      · exact .inr ⟨e, hmade hm⟩
      · exact absurd (by rw [he, h1]; simp) hnb
    · exact absurd hb hnb

/-- C85: such an id stays alive without an entity for ever: no call, whether it returns or panics, builds it or frees
its slot. -/
theorem C85_forever {w w' : World} (hw : Reachable w) (hl : Later w w') {e : EcsId} (ha : w.Alive e) (hr : ¬ w.Row e) : w'.Alive e ∧ ¬ w'.Row e :=
  ⟨alive_iff.2 (hl.strays hw e (alive_iff.1 ha) hr).1, (hl.strays hw e (alive_iff.1 ha) hr).2⟩

/-- C85: it cannot be despawned: the call panics and changes nothing. -/
theorem C85_despawn {w : World} (hw : Reachable w) {e : EcsId} (ha : w.Alive e) (hr : ¬ w.Row e) : World.despawn e w = .error .unwrapNone w := by
  have hi := hw.sound.inv
  have hs := despawn_spec hi e
  unfold Tri at hs
  cases hx : World.despawn e w with
  | ok b w' =>
    rw [hx] at hs
    rcases hs with ⟨_, h1, _⟩ | ⟨_, _, h1, _⟩
    · rw [show w.isAlive e = .ok true from ha] at h1; injection h1 with h1; cases h1
    · exact absurd h1 hr
  | error f w' =>
    rw [hx] at hs
    obtain ⟨rfl, ⟨_, h1⟩ | ⟨_, _, a, h1, h2⟩ | ⟨rfl, _⟩⟩ := hs
    · rw [show w'.isAlive e = .ok true from ha] at h1; cases h1
    · obtain ⟨h3, m, h4⟩ := hi.live_comp h1 h2
      rcases getEntityMeta_spec hi e with ⟨g1, g2⟩ | ⟨g1, g2⟩ | ⟨g1, g2, g3, g4⟩ | ⟨im, cm, g1, g2, g3, g4, g5⟩
      · have := h3.lt; omega
      · exact absurd h3 g2
      · rw [inst_none_iff_comp.1 g3] at h4; cases h4
      · exact absurd ((row_iff e).2 ⟨_, _, g5⟩) hr
    · rfl

/-- C85: it has no components and gets none: no call that adds or removes one returns, except those that do nothing
because the component is dead (C36). -/
theorem C85_components {w : World} (hw : Reachable w) {e : EcsId} (ha : w.Alive e) (hr : ¬ w.Row e) :
    (∀ c bs, ¬ w.Has e c bs) ∧ (∀ t, w.hasComponent t e = .ok false) ∧ (∀ c, w.Alive c → w.getComponentMutDynamic e c = .ok none) ∧
    (∀ c w', Call.exec (.addDynamic e c) w ≠ .ok () w') ∧
    (∀ c src w', Call.Ok w (.addDynamicWithData e c src) → w.Alive c → Call.exec (.addDynamicWithData e c src) w ≠ .ok () w') ∧
    (∀ c w', w.Alive c → Call.exec (.removeDynamic e c) w ≠ .ok () w') ∧
    (∀ t v w', v.length = t.size → (∀ c, w.typeMap t = some c → w.Alive c) → Call.exec (.addComponent e t v) w ≠ .ok () w') ∧
    (∀ t w', (∀ c, w.typeMap t = some c → w.Alive c) → Call.exec (.removeComponent e t) w ≠ .ok () w') := by
  have hs := hw.sound
  have hi := hs.inv
  have hnh : ∀ c bs, ¬ w.Has e c bs := fun c bs hh => hr (hi.has_live hh)
  have hal : ∀ {x b}, w.Alive x → w.isAlive x = .ok b → b = true := by
    intro x b hx hb
    rw [show w.isAlive x = .ok true from hx] at hb; injection hb with hb; exact hb.symm
  refine ⟨hnh, fun t => ?_, fun c hc => ?_, fun c w' hx => ?_, fun c src w' hok hc hx => ?_, fun c w' hc hx => ?_, fun t v w' hv ht hx => ?_,
    fun t w' ht hx => ?_⟩
  · rcases hasComponent_spec hi t e with ⟨_, h, _⟩ | ⟨b, h1, h2⟩
    · rw [show w.isAlive e = .ok true from ha] at h; cases h
    · cases b with
      | false => exact h1
      | true =>
        obtain ⟨c, _, bs, hb⟩ := h2.1 rfl
        exact absurd hb (hnh c bs)
  · rcases getComponentMut_spec hi e c with ⟨h1, h2⟩ | ⟨h1, h2⟩ | ⟨h1, h2, h3, h4⟩ | ⟨p, h1, hp⟩
    · rcases h2 with h2 | h2
      · rw [show w.isAlive e = .ok true from ha] at h2; cases h2
      · rw [show w.isAlive c = .ok true from hc] at h2; cases h2
    · exact h1
    · exact absurd h2 hr
    · obtain ⟨k, _, r, a, _, h1, h2, _⟩ := hp
      exact absurd ⟨k, r, a, h1, h2⟩ hr
  · exact hr ((addZst_spec hi e c).ok hx).1
  · have hlive : ∀ m, w.entities.Live c → compOf w.metas c.uindex = some m → m.layout.size ≤ src.length := by
      intro m hl hm
      refine hok m ((infoIs_iff hi).2 ⟨?_, hm⟩)
      rcases getEntityMeta_spec hi c with ⟨g1, g2⟩ | ⟨g1, g2⟩ | ⟨g1, g2, g3, g4⟩ | ⟨im, cm, g1, g2, g3, g4, g5⟩
      · have := hl.lt; omega
      · exact absurd hl g2
      · rw [inst_none_iff_comp.1 g3] at hm; cases hm
      · exact (row_iff c).2 ⟨_, _, g5⟩
    rcases (addDyn_spec hi e c hlive).ok hx with ⟨h1 | ⟨_, h1⟩, _⟩ | ⟨_, h1, _⟩
    · cases hal ha h1
    · cases hal hc h1
    · exact hr h1
  · rcases (removeDyn_spec hi e c).ok hx with ⟨h1 | ⟨_, h1⟩, _⟩ | ⟨_, h1, _⟩
    · cases hal ha h1
    · cases hal hc h1
    · exact hr h1
  · obtain ⟨hl, id, w1, hg, ⟨hd, _⟩ | ⟨h1, _⟩⟩ := (addComponent_spec hi hs.nowrap.ready e t hv).ok hx
    · rcases hg.cases with ⟨h1, rfl⟩ | ⟨_, h1⟩
      · exact hd (alive_iff.1 (ht id h1))
      · exact hd h1
    · exact ((hg.grow.intact hs.nowrap).strays e (alive_iff.1 ha) hr).2 h1
  · obtain ⟨hl, id, hty, ⟨hd, _⟩ | ⟨h1, _⟩⟩ := (removeComponent_spec hi hs.nowrap.ready e t).ok hx
    · exact hd (alive_iff.1 (ht id hty))
    · exact hr h1

theorem nothing_ok (w : World) : Call.Ok w (.spawn .plain []) := fun _ _ _ _ _ _ pre _ _ h => by cases pre <;> cases h

/-- C85: so a program can use up all slots without making a single entity. -/
theorem C85_leak {n : Nat} (hn : n ≤ 2 ^ 32) : ∃ w, Peak w n ∧ w.slots = n ∧ w.archetypes = [] ∧ w.metas = [] := by
  have key : Reachable (hollow n) := by
    induction n with
    | zero => exact .new
    | succ n ih =>
      refine .ok (.spawn .plain []) (ih (by omega)) (nothing_ok _) (hollow_step (by omega)) ?_
      intro p hp hf
      obtain ⟨_, rfl⟩ := List.mem_replicate.1 hp
      cases hf
  have hsl : (hollow n).slots = n := List.length_replicate
  obtain ⟨k, hk, _⟩ := C84_peak key
  have := C84_slots hk
  rw [hsl, Nat.min_eq_left hn] at this
  exact ⟨hollow n, this ▸ hk, hsl, rfl, rfl⟩

/-! ### Concrete cases -/

theorem stray_alive : stray.Alive ⟨1, 5⟩ := by decide +kernel
theorem stray_norow : ¬ stray.Row ⟨1, 5⟩ := by decide +kernel

example := C85_arises demo_reachable (kind := .plain) (as := []) (nothing_ok demo) (by simp)
/-- A call on the builder that panics. -/
example : ∃ f w', spawnWith .plain [.withDynamic (ent 5)] demo = .error f w' ∧ f ≠ .outOfIds ∧ .build ∉ [BAct.withDynamic (ent 5)] :=
  ⟨.unwrapNone, after (spawnWith .plain [.withDynamic (ent 5)] demo), eq_of_endsWith (by decide +kernel), by decide, by simp⟩
/-- Nine calls later, some of which name it, it is still there. -/
theorem stray_later : (runP [.despawn ⟨1, 5⟩, .spawn .plain [.build], .despawn (ent 6), .addDynamic ⟨1, 5⟩ (ent 2), .addComponent ⟨1, 5⟩ tC (val 2 1),
    .spawn .plain [.with tA (val 4 1), .build], .despawn ⟨1, 5⟩, .removeComponent ⟨1, 5⟩ tA, .query [.ids] false] stray).map
    (fun w => decide (w.Alive ⟨1, 5⟩ ∧ ¬ w.Row ⟨1, 5⟩)) = some true := by decide +kernel
example := C85_forever stray_reachable (w' := after (Call.exec (.despawn ⟨1, 5⟩) stray))
  (Later.panic (.despawn ⟨1, 5⟩) .unwrapNone (.refl stray) trivial (eq_of_endsWith (by decide +kernel)) (by decide) (by decide) (by decide +kernel))
  stray_alive stray_norow
example := C85_despawn stray_reachable stray_alive stray_norow
example := C85_components stray_reachable stray_alive stray_norow
example := (C85_leak (n := 2 ^ 32) (Nat.le_refl _))

end Ellecs.WorldSpec
