import Verif.Spec.Abstract
import Verif.Proofs.History
/-! # The world and the world without tables -/
namespace Ellecs
namespace World

/-- A call of the world and one of the map world end alike. -/
def Sim {α : Type} (x : M α) (w : World) (s : Except Fault α × AWorld) : Prop :=
  Tri x w (fun v w' => s.1 = .ok v ∧ w'.Shows s.2) (fun f w' => OutOfMemory f ∨ (s.1 = .error f ∧ w'.Shows s.2))

theorem alike_iff {α : Type} {x : M α} {w : World} {s : Except Fault α × AWorld} : Alike (x w) s ↔ Sim x w s := by
  unfold Alike Sim Tri
  cases x w <;> exact Iff.rfl

/-- Whether the lock of a component is poisoned, if it has one. -/
def lockOf (w : World) (c : EcsId) : Option Bool := (w.lockLookup c).bind (fun i => (w.locks[i]?).map RwLock.poisoned)

theorem lockOf_some {w : World} {c : EcsId} {p : Bool} :
    w.lockOf c = some p ↔ ∃ (i : Nat) (l : RwLock), w.lockLookup c = some i ∧ w.locks[i]? = some l ∧ l.poisoned = p := by
  unfold lockOf
  simp only [Option.bind_eq_some_iff, Option.map_eq_some_iff]
  constructor
  · rintro ⟨i, h1, l, h2, h3⟩; exact ⟨i, l, h1, h2, h3⟩
  · rintro ⟨i, l, h1, h2, h3⟩; exact ⟨i, h1, l, h2, h3⟩

theorem Shows.lockOf {w : World} {a : AWorld} (h : w.Shows a) (c : EcsId) : a.lock c = w.lockOf c := by
  apply Option.ext
  intro p
  rw [h.lock, lockOf_some]

theorem lockOf_none {w : World} (h : Inv w) {c : EcsId} : w.lockOf c = none ↔ w.lockLookup c = none := by
  unfold World.lockOf
  cases hl : w.lockLookup c with
  | none => simp
  | some i =>
    have := h.lock.range c i hl
    simp [List.getElem?_eq_getElem this]

/-- Locks after some components got one. -/
theorem lockOf_grow {w w' : World} (hi : Inv w) (hi' : Inv w') (hk : ∀ id i, w.lockLookup id = some i → w'.lockLookup id = some i)
    (hl : ∃ n, w'.locks = w.locks ++ List.replicate n RwLock.new) {S : EcsId → Prop} [DecidablePred S]
    (ht : ∀ c, w'.lockLookup c ≠ none → w.lockLookup c ≠ none ∨ S c) (hs : ∀ c, S c → w'.lockLookup c ≠ none) (c : EcsId) :
    w'.lockOf c = if S c ∧ w.lockOf c = none then some false else w.lockOf c := by
  obtain ⟨n, hn⟩ := hl
  cases hc : w.lockLookup c with
  | some i =>
    have hr := hi.lock.range c i hc
    have h1 : w.lockOf c ≠ none := by rw [Ne, lockOf_none hi, hc]; simp
    rw [if_neg (fun hh => h1 hh.2)]
    unfold lockOf
    rw [hk c i hc, hc, hn]
    simp only [Option.bind_some]
    rw [List.getElem?_append_left hr]
  | none =>
    have h1 : w.lockOf c = none := (lockOf_none hi).2 hc
    by_cases hS : S c
    · rw [if_pos ⟨hS, h1⟩]
      cases hc' : w'.lockLookup c with
      | none => exact absurd hc' (hs c hS)
      | some i =>
        have hr := hi'.lock.range c i hc'
        have hge : w.locks.length ≤ i := by
          apply Classical.byContradiction
          intro hlt
          obtain ⟨id, hid⟩ := hi.lock.surj i (by omega)
          have := hi'.lock.inj _ _ _ (hk id i hid) hc'
          subst this
          rw [hc] at hid; cases hid
        unfold lockOf
        rw [hc', hn]
        rw [hn, List.length_append, List.length_replicate] at hr
        simp only [Option.bind_some]
        rw [List.getElem?_append_right hge, List.getElem?_replicate, if_pos (by omega)]
        rfl
    · rw [if_neg (fun hh => hS hh.1), h1, lockOf_none hi']
      apply Classical.byContradiction
      intro hh
      rcases ht c hh with h2 | h2
      · exact h2 hc
      · exact hS h2

theorem Shows.alive {w : World} {a : AWorld} (h : w.Shows a) (e : EcsId) : a.isAlive e = w.isAlive e := by
  unfold AWorld.isAlive World.isAlive; rw [h.ents]

theorem Shows.infoRow {w : World} {a : AWorld} (h : w.Shows a) (hi : Inv w) {e : EcsId} (hr : w.Row e) :
    ∃ m, a.info e = some m ∧ w.InfoIs e m := by
  obtain ⟨m, hm⟩ := hi.row_info hr
  exact ⟨m, (h.info e m).2 hm, hm⟩

theorem Shows.infoNone {w : World} {a : AWorld} (h : w.Shows a) (hi : Inv w) {e : EcsId} : a.info e = none ↔ ¬ w.Row e := by
  constructor
  · intro h1 h2
    obtain ⟨m, h3, _⟩ := h.infoRow hi h2
    rw [h1] at h3; cases h3
  · intro h1
    cases h2 : a.info e with
    | none => rfl
    | some m => exact absurd ((infoIs_iff hi).1 ((h.info e m).1 h2)).1 h1

theorem Shows.cellNone {w : World} {a : AWorld} (h : w.Shows a) {e c : EcsId} : a.cell e c = none ↔ ¬ w.HasComp e c := by
  constructor
  · rintro h1 ⟨bs, h2⟩
    rw [(h.cell e c bs).2 h2] at h1; cases h1
  · intro h1
    cases h2 : a.cell e c with
    | none => rfl
    | some bs => exact absurd ⟨bs, (h.cell e c bs).1 h2⟩ h1

theorem Shows.usedIff {w : World} {a : AWorld} (h : w.Shows a) {b : Bool} {c : EcsId} : a.used c = b ↔ (b = true ↔ w.Used c) := by
  rw [← h.used]
  cases a.used c <;> cases b <;> simp

/-- What cannot be seen. -/
theorem Shows.reuse {w : World} {a : AWorld} (h : w.Shows a) (r : Option (List EcsId × Bytes × Nat)) (l : List DropEv) :
    Shows { w with reuse := r, log := l } a := ⟨h.ents, h.types, h.info, h.cell, h.used, h.lock⟩

theorem shows_lock {w : World} {l : EcsId → Option Bool} (h : ∀ c, l c = w.lockOf c) (c : EcsId) (p : Bool) :
    l c = some p ↔ ∃ (i : Nat) (l : RwLock), w.lockLookup c = some i ∧ w.locks[i]? = some l ∧ l.poisoned = p := by
  rw [h, lockOf_some]

theorem infoIs_congr {w w' : World} (h : Inv w) (h' : Inv w') (hr : ∀ x, w'.Row x ↔ w.Row x)
    (hc : ∀ i, compOf w'.metas i = compOf w.metas i) (x : EcsId) (m : ComponentMeta) : w'.InfoIs x m ↔ w.InfoIs x m := by
  rw [infoIs_iff h, infoIs_iff h', hr, hc]

theorem Same.shows {w w' : World} {a : AWorld} (h : w.Shows a) (hi : Inv w) (hi' : Inv w') (hs : Same w w') {c : EcsId}
    (ht : ∀ x, w'.lockLookup x ≠ none → w.lockLookup x ≠ none ∨ x = c) (hl : w'.lockLookup c ≠ none)
    (hu : ∀ x, w'.Used x → w.Used x) : w'.Shows (a.addLocks [c]) where
  ents := h.ents.trans hs.ent.symm
  types := h.types.trans hs.typ.symm
  info := fun x m => (h.info x m).trans (infoIs_congr hi hi' hs.hasRow (fun i => by rw [hs.metas]) x m).symm
  cell := fun e c bs => (h.cell e c bs).trans (hs.has hi.shape hi'.shape e c bs).symm
  used := fun x => (h.used x).trans ⟨hs.used, hu x⟩
  lock := shows_lock (fun x => by
    rw [lockOf_grow hi hi' hs.look hs.locks (S := fun x => x = c) ht (by rintro x rfl; exact hl) x]
    simp only [AWorld.addLocks, List.mem_singleton, h.lockOf])

/-- `add_component_dynamic_with_data` -/
theorem sim_addDyn {w : World} {a : AWorld} (h : Inv w) (ha : w.Shows a) (e c : EcsId) {src : Bytes}
    (hsrc : ∀ m, w.entities.Live c → compOf w.metas c.uindex = some m → m.layout.size ≤ src.length) :
    Sim (addComponentDynamicWithData e c src) w (a.addDyn e c src) := by
  unfold AWorld.addDyn
  rw [ha.alive, ha.alive]
  rcases isAlive_answer h e with ⟨h1, h2⟩ | ⟨h1, h2⟩ | ⟨h1, h2⟩
  · unfold Sim addComponentDynamicWithData
    simp only [tri_bind, tri_get, tri_liftE, h1]
    exact Or.inr ⟨trivial, ha⟩
  · unfold Sim addComponentDynamicWithData
    simp only [tri_bind, tri_get, tri_liftE, h1, Bool.not_false, if_true, tri_pure]
    exact ⟨trivial, ha⟩
  · rcases isAlive_answer h c with ⟨h3, h4⟩ | ⟨h3, h4⟩ | ⟨h3, h4⟩
    · unfold Sim addComponentDynamicWithData
      simp only [tri_bind, tri_get, tri_liftE, h1, h3, Bool.not_true, Bool.false_eq_true, if_false]
      exact Or.inr ⟨trivial, ha⟩
    · unfold Sim addComponentDynamicWithData
      simp only [tri_bind, tri_get, tri_liftE, h1, h3, Bool.not_true, Bool.false_eq_true, if_false, Bool.not_false, if_true, tri_pure]
      exact ⟨trivial, ha⟩
    · rw [h1, h3]
      simp only
      refine (addDyn_spec h e c hsrc).imp ?_ ?_
      · rintro _ w' (⟨hh, _⟩ | ⟨_, q2, q3, q4, q5, m, q6, q7, q8⟩)
        · rcases hh with hh | ⟨_, hh⟩
          · rw [h1] at hh; cases hh
          · rw [h3] at hh; cases hh
        · obtain ⟨me, e1, _⟩ := ha.infoRow h q2
          have e2 := ha.cellNone.2 q4
          have hrc : w.Row c := by
            apply Classical.byContradiction
            intro hr
            have := (h.inst_none h4).2 hr
            rw [inst_none_iff_comp, q6] at this; cases this
          have e3 : a.info c = some m := (ha.info c m).2 ((infoIs_iff h).2 ⟨hrc, q6⟩)
          rw [e1, e2, e3]
          have hself : w'.Has e c (src.take m.layout.size) := (q7.self c _).2 (by rw [if_pos rfl])
          have huc : w'.Used c := has_used q7.inv hself
          refine ⟨rfl, ⟨ha.ents.trans q7.ent.symm, ha.types.trans q7.typ.symm, ?_, ?_, ?_, shows_lock ?_⟩⟩
          · intro x m'
            exact (ha.info x m').trans (infoIs_congr h q7.inv q7.row q7.comp x m').symm
          · intro x y bs
            simp only [AWorld.addLocks, AWorld.use]
            by_cases hx : x = e
            · subst hx
              rw [q7.self]
              by_cases hy : y = c
              · subst hy; simp only [and_self, if_true, Option.some.injEq]; exact eq_comm
              · simp only [hy, and_false, if_false]; exact ha.cell x y bs
            · simp only [hx, false_and, if_false]
              rw [q7.others x hx]; exact ha.cell x y bs
          · intro x
            simp only [AWorld.addLocks, AWorld.use, Bool.or_eq_true, ha.used, List.contains_eq_mem, List.mem_singleton,
              decide_eq_true_eq]
            constructor
            · rintro (hx | rfl)
              · exact q7.used x hx
              · exact huc
            · intro hx
              rcases q7.usedOnly x hx with hx | ⟨bs, hx⟩
              · exact Or.inl hx
              · by_cases hxc : x = c
                · exact Or.inr hxc
                · rw [if_neg hxc] at hx; exact Or.inl (has_used h hx)
          · intro x
            rw [lockOf_grow h q7.inv q7.look q7.locks (S := fun x => x = c) ?_ ?_ x]
            · simp only [AWorld.addLocks, AWorld.use, List.mem_singleton, ha.lockOf]
            · intro x hx
              rcases q7.tight x hx with hx | ⟨bs, hx⟩
              · exact Or.inl hx
              · by_cases hxc : x = c
                · exact Or.inr hxc
                · rw [if_neg hxc] at hx
                  obtain ⟨aa, a1, a2⟩ := has_used h hx
                  exact Or.inl (h.lock.used aa a1 x a2)
            · rintro x rfl
              obtain ⟨aa, a1, a2⟩ := huc
              exact q7.inv.lock.used aa a1 x a2
      · rintro f w' (⟨_, hh, _⟩ | ⟨q1, q2, q3, q4⟩ | ⟨q1, q2, q3, q4, q5⟩ | ⟨q1, q2, q3, q4, q5, q6, q7, q8, q9⟩ | ⟨q1, q2, q3, q4, _⟩)
        · rcases hh with hh | hh
          · rw [h1] at hh; cases hh
          · rw [h3] at hh; cases hh
        · rw [(ha.infoNone h).2 q3]
          exact Or.inr ⟨by rw [q1], by rw [q4]; exact ha⟩
        · obtain ⟨me, e1, _⟩ := ha.infoRow h q2
          obtain ⟨bs, hb⟩ := q4
          rw [e1, (ha.cell e c bs).2 hb]
          exact Or.inr ⟨by rw [q1], by rw [q5]; exact ha⟩
        · obtain ⟨me, e1, _⟩ := ha.infoRow h q2
          have hnr : ¬ w.Row c := fun hr => by
            obtain ⟨m, hm⟩ := h.row_info hr
            rw [((infoIs_iff h).1 hm).2] at q4; cases q4
          have hnc : ¬ w.HasComp e c := by
            rintro ⟨bs, hb⟩
            obtain ⟨aa, a1, a2⟩ := has_used h hb
            obtain ⟨_, m, hm⟩ := h.live_comp a1 a2
            rw [q4] at hm; cases hm
          rw [e1, ha.cellNone.2 hnc, (ha.infoNone h).2 hnr]
          exact Or.inr ⟨by rw [q1], Same.shows ha h q5 q6 q7 q8 q9.1⟩
        · exact Or.inl (Or.inl q1)

/-- `remove_component_dynamic` -/
theorem sim_removeDyn {w : World} {a : AWorld} (h : Inv w) (ha : w.Shows a) (e c : EcsId) :
    Sim (removeComponentDynamic e c) w (a.removeDyn e c) := by
  unfold AWorld.removeDyn
  rw [ha.alive, ha.alive]
  rcases isAlive_answer h e with ⟨h1, h2⟩ | ⟨h1, h2⟩ | ⟨h1, h2⟩
  · unfold Sim removeComponentDynamic
    simp only [tri_bind, tri_get, tri_liftE, h1]
    exact Or.inr ⟨trivial, ha⟩
  · unfold Sim removeComponentDynamic
    simp only [tri_bind, tri_get, tri_liftE, h1, Bool.not_false, if_true, tri_pure]
    exact ⟨trivial, ha⟩
  · rcases isAlive_answer h c with ⟨h3, h4⟩ | ⟨h3, h4⟩ | ⟨h3, h4⟩
    · unfold Sim removeComponentDynamic
      simp only [tri_bind, tri_get, tri_liftE, h1, h3, Bool.not_true, Bool.false_eq_true, if_false]
      exact Or.inr ⟨trivial, ha⟩
    · unfold Sim removeComponentDynamic
      simp only [tri_bind, tri_get, tri_liftE, h1, h3, Bool.not_true, Bool.false_eq_true, if_false, Bool.not_false, if_true, tri_pure]
      exact ⟨trivial, ha⟩
    · rw [h1, h3]
      simp only
      refine (removeDyn_spec h e c).imp ?_ ?_
      · rintro _ w' (⟨hh, _⟩ | ⟨_, q2, q3, m, bs, q4, q5, q6, q7, q8⟩)
        · rcases hh with hh | ⟨_, hh⟩
          · rw [h1] at hh; cases hh
          · rw [h3] at hh; cases hh
        · obtain ⟨me, e1, _⟩ := ha.infoRow h q2
          rw [e1, (ha.cell e c bs).2 q5]
          refine ⟨rfl, ⟨ha.ents.trans q7.ent.symm, ha.types.trans q7.typ.symm, ?_, ?_, ?_, shows_lock ?_⟩⟩
          · intro x m'
            exact (ha.info x m').trans (infoIs_congr h q7.inv q7.row q7.comp x m').symm
          · intro x y bs
            simp only
            by_cases hx : x = e
            · subst hx
              rw [q7.self]
              by_cases hy : y = c
              · subst hy; simp
              · simp only [hy, and_false, if_false, ne_eq, not_false_eq_true, true_and]; exact ha.cell x y bs
            · simp only [hx, false_and, if_false]
              rw [q7.others x hx]; exact ha.cell x y bs
          · intro x
            rw [ha.used]
            refine ⟨q7.used x, fun hx => ?_⟩
            rcases q7.usedOnly x hx with hx | ⟨bs, _, hx⟩
            · exact hx
            · exact has_used h hx
          · intro x
            rw [lockOf_grow h q7.inv q7.look q7.locks (S := fun _ => False) ?_ (fun _ hh => hh.elim) x]
            · simp only [false_and, if_false]; exact ha.lockOf x
            · intro x hx
              rcases q7.tight x hx with hx | ⟨bs, _, hx⟩
              · exact Or.inl hx
              · obtain ⟨aa, a1, a2⟩ := has_used h hx
                exact Or.inl (h.lock.used aa a1 x a2)
      · rintro f w' (⟨_, hh, _⟩ | ⟨q1, q2, q3, q4⟩ | ⟨q1, q2, q3, q4, q5⟩ | ⟨q1, q2, q3, q4, _⟩)
        · rcases hh with hh | hh
          · rw [h1] at hh; cases hh
          · rw [h3] at hh; cases hh
        · rw [(ha.infoNone h).2 q3]
          exact Or.inr ⟨by rw [q1], by rw [q4]; exact ha⟩
        · obtain ⟨me, e1, _⟩ := ha.infoRow h q2
          rw [e1, ha.cellNone.2 q4]
          exact Or.inr ⟨by rw [q1], by rw [q5]; exact ha⟩
        · exact Or.inl (Or.inl q1)

/-- `add_component_dynamic` -/
theorem sim_addZst {w : World} {a : AWorld} (h : Inv w) (ha : w.Shows a) (e c : EcsId) :
    Sim (addComponentDynamic e c) w (a.addZst e c) := by
  unfold AWorld.addZst addComponentDynamic
  rw [ha.alive, ha.alive]
  unfold Sim
  simp only [tri_bind, tri_get, tri_liftE]
  rcases isAlive_answer h e with ⟨h1, h2⟩ | ⟨h1, h2⟩ | ⟨h1, h2⟩
  · rw [h1]; exact Or.inr ⟨rfl, ha⟩
  · rw [h1]; simp only [Bool.not_false, if_true]
    exact Or.inr ⟨rfl, ha⟩
  · rw [h1]
    simp only [Bool.not_true, Bool.false_eq_true, if_false, tri_bind, tri_liftE]
    rcases isAlive_answer h c with ⟨h3, h4⟩ | ⟨h3, h4⟩ | ⟨h3, h4⟩
    · rw [h3]; exact Or.inr ⟨rfl, ha⟩
    · rw [h3]; simp only [Bool.not_false, if_true]
      exact Or.inr ⟨rfl, ha⟩
    · rw [h3]
      simp only [Bool.not_true, Bool.false_eq_true, if_false, tri_bind, tri_liftE]
      rcases getEntityMeta_spec h c with ⟨g1, g2⟩ | ⟨g1, g2⟩ | ⟨g1, g2, g3, g4⟩ | ⟨im, cm, g1, g2, g3, g4, g5⟩
      · have := h4.lt; omega
      · exact absurd h4 g2
      · rw [g1, (ha.infoNone h).2 g4]; exact Or.inr ⟨rfl, ha⟩
      · rw [g1, (ha.info c cm).2 ⟨im, g1⟩]
        simp only [unwrap]
        by_cases hz : cm.layout.size ≠ 0
        · rw [if_pos hz, if_pos hz]
          exact Or.inr ⟨rfl, ha⟩
        · rw [if_neg hz, if_neg hz]
          refine sim_addDyn h ha e c ?_
          intro m _ hm; rw [g4] at hm; injection hm with hm; subst hm; simp; omega

/-- `despawn` -/
theorem sim_despawn {w : World} {a : AWorld} (h : Inv w) (ha : w.Shows a) (e : EcsId) :
    Sim (World.despawn e) w (a.despawn e) := by
  unfold AWorld.despawn World.despawn
  rw [ha.alive]
  unfold Sim
  simp only [tri_bind, tri_get, tri_liftE]
  rcases isAlive_answer h e with ⟨h1, h2⟩ | ⟨h1, h2⟩ | ⟨h1, h2⟩
  · rw [h1]; exact Or.inr ⟨rfl, ha⟩
  · rw [h1]; simp only [Bool.not_false, if_true, tri_pure]; exact ⟨trivial, ha⟩
  · rw [h1]
    simp only [Bool.not_true, Bool.false_eq_true, if_false]
    by_cases hany : ∃ a ∈ w.archetypes, e ∈ a.compIds
    · have hu : a.used e = true := (ha.used e).2 hany
      obtain ⟨A, hA, hea⟩ := hany
      rw [if_pos (by
        rw [List.any_eq_true]
        exact ⟨A, hA, (looksUp_mem (h.shape A hA).look e).2 hea⟩), if_pos hu]
      exact Or.inr ⟨rfl, ha⟩
    · have hu : ¬ a.used e = true := fun hh => hany ((ha.used e).1 hh)
      rw [if_neg (by
        rw [List.any_eq_true]
        rintro ⟨A, hA, hea⟩
        exact hany ⟨A, hA, (looksUp_mem (h.shape A hA).look e).1 hea⟩), if_neg hu]
      have hun : ∀ a ∈ w.archetypes, e ∉ a.compIds := fun a ha hea => hany ⟨a, ha, hea⟩
      simp only [tri_bind, tri_liftE]
      rcases getEntityMeta_spec h e with ⟨g1, g2⟩ | ⟨g1, g2⟩ | ⟨g1, g2, g3, g4⟩ | ⟨im, cm, g1, g2, g3, g4, g5⟩
      · have := h2.lt; omega
      · exact absurd h2 g2
      · rw [g1, (ha.infoNone h).2 g4]; exact Or.inr ⟨rfl, ha⟩
      · rw [g1, (ha.info e cm).2 ⟨im, g1⟩]
        simp only [unwrap, tri_step]
        obtain ⟨A, a1, a2⟩ := rowOf_some g5
        obtain ⟨A', metas', es', q1, q2, q3, q4⟩ := archDespawn_spec h a1 a2 hun
        rw [a1, ha.ents]
        simp only [q1, q2, tri_pure]
        generalize hw' : ({ w with
          archetypes := w.archetypes.set im.archetype A'
          metas := metas'
          log := w.log ++ rowEvs A.storages im.index
          entities := es' } : World) = w' at q3
        have he : w'.entities = es' := by rw [← hw']
        have : w'.Shows { a with
            ents := es'
            info := fun x => if x = e then none else a.info x
            cell := fun x y => if x = e then none else a.cell x y } := by
          refine ⟨he.symm, ha.types.trans q3.typ.symm, ?_, ?_, ?_, shows_lock ?_⟩
          · intro x m
            simp only
            rw [infoIs_iff q3.inv, q3.row]
            by_cases hx : x = e
            · subst hx; simp
            · rw [if_neg hx, ha.info, infoIs_iff h]
              constructor
              · rintro ⟨r1, r2⟩
                refine ⟨⟨r1, hx⟩, ?_⟩
                rw [q3.comp _ (fun hh => hx (Entities.Live.uniq (h.row_live r1) h2 hh))]; exact r2
              · rintro ⟨⟨r1, _⟩, r2⟩
                refine ⟨r1, ?_⟩
                rw [q3.comp _ (fun hh => hx (Entities.Live.uniq (h.row_live r1) h2 hh))] at r2; exact r2
          · intro x y bs
            simp only
            rw [q3.has]
            by_cases hx : x = e
            · subst hx; simp
            · rw [if_neg hx, ha.cell]; simp [hx]
          · intro x
            rw [ha.used]
            exact ⟨used_ids q3.ids, fun hh => (used_ids_iff q3.ids x).1 hh⟩
          · intro x
            simp only
            rw [ha.lockOf]
            unfold lockOf
            rw [q3.look, q3.locks]
        exact ⟨trivial, this⟩

/-- A write through the pointer of `get_component_mut_dynamic`. -/
theorem sim_write {w : World} {a : AWorld} (h : Inv w) (ha : w.Shows a) (e c : EcsId) {bs : Bytes}
    (hb : ∀ m, w.InfoIs c m → bs.length = m.layout.size) : Sim (Call.write e c bs).exec w (a.write e c bs) := by
  unfold AWorld.write Sim Call.exec
  rw [ha.alive, ha.alive]
  simp only [tri_bind, tri_get, tri_liftE]
  rcases isAlive_answer h e with ⟨h1, h2⟩ | ⟨h1, h2⟩ | ⟨h1, h2⟩
  · have : w.getComponentMutDynamic e c = .error .noGeneration := by unfold getComponentMutDynamic; rw [h1]
    rw [this, h1]; exact Or.inr ⟨rfl, ha⟩
  · have : w.getComponentMutDynamic e c = .ok none := by unfold getComponentMutDynamic; rw [h1]
    rw [this, h1]; exact ⟨rfl, ha⟩
  · rcases isAlive_answer h c with ⟨h3, h4⟩ | ⟨h3, h4⟩ | ⟨h3, h4⟩
    · have : w.getComponentMutDynamic e c = .error .noGeneration := by unfold getComponentMutDynamic; rw [h1, h3]
      rw [this, h1, h3]; exact Or.inr ⟨rfl, ha⟩
    · have : w.getComponentMutDynamic e c = .ok none := by unfold getComponentMutDynamic; rw [h1, h3]
      rw [this, h1, h3]; exact ⟨rfl, ha⟩
    · rw [h1, h3]
      simp only
      rcases getComponentMut_spec h e c with ⟨_, q2⟩ | ⟨q1, q2⟩ | ⟨q1, q2, q3, q4⟩ | ⟨p, q1, q2⟩
      · rw [h1, h3] at q2
        rcases q2 with q2 | q2 <;> cases q2
      · have hr : ¬ w.Row e := by
          rcases q2 with q2 | q2 | q2
          · exact absurd h1 q2
          · exact absurd h3 q2
          · exact q2
        rw [q1, (ha.infoNone h).2 hr]
        exact ⟨rfl, ha⟩
      · obtain ⟨me, e1, _⟩ := ha.infoRow h q2
        rw [q1, e1, ha.cellNone.2 q4]
        exact Or.inr ⟨rfl, ha⟩
      · obtain ⟨k, j, r, A, v, c1, c2, c3, c4, c5, c6, c7, c8, hh⟩ := q2.cell h
        have hr : w.Row e := h.has_live hh
        obtain ⟨me, e1, _⟩ := ha.infoRow h hr
        obtain ⟨_, m, hm, _⟩ := infoFn_some.1 c8
        have hrc : w.Row c := by
          apply Classical.byContradiction
          intro hr
          have := (h.inst_none h4).2 hr
          rw [inst_none_iff_comp, hm] at this; cases this
        have hinf : w.InfoIs c m := (infoIs_iff h).2 ⟨hrc, hm⟩
        obtain ⟨w', d1, d2⟩ := writePtr_spec h q2 hinf (hb m hinf)
        rw [q1, e1, (ha.cell e c _).2 hh]
        simp only [tri_step, d1]
        refine ⟨trivial, ⟨ha.ents.trans d2.ent.symm, ha.types.trans d2.typ.symm, ?_, ?_, ?_, shows_lock ?_⟩⟩
        · intro x m'
          exact (ha.info x m').trans (infoIs_congr h d2.inv d2.row (fun i => by rw [d2.metas]) x m').symm
        · intro x y bs'
          simp only
          by_cases hx : x = e ∧ y = c
          · obtain ⟨rfl, rfl⟩ := hx
            rw [d2.self, if_pos ⟨rfl, rfl⟩]
            simp only [Option.some.injEq]; exact eq_comm
          · rw [if_neg hx, d2.others x y (by
              by_cases h1 : x = e
              · exact Or.inr (fun h2 => hx ⟨h1, h2⟩)
              · exact Or.inl h1)]
            exact ha.cell x y bs'
        · intro x
          rw [ha.used]
          exact ⟨used_ids d2.ids, fun hh => (used_ids_iff d2.ids x).1 hh⟩
        · intro x
          simp only
          rw [ha.lockOf]
          unfold lockOf
          rw [d2.look, d2.locks]

/-! ### registering types -/

/-- The allocator after `get_or_create_type_id_ecsid` of a new type. -/
theorem getOrCreate_ents {w : World} (h : Inv w) (hn : w.Ready) {t : Ty} (ht : w.typeMap t = none) :
    Tri (getOrCreate t) w (fun id w' => ∃ s, w.entities.spawn = (.ok id, s) ∧ w'.entities = s)
      (fun f w' => ∃ s, w.entities.spawn = (.error f, s) ∧ w'.entities = s) := by
  unfold getOrCreate
  simp only [tri_bind (x := get), tri_get, ht]
  rw [tri_bind]
  refine (spawnId_spec h hn).with_eq.imp ?_ ?_
  · rintro e w1 ⟨x1, s', rfl, i1, n1, l1, f1, k1, u1, m1⟩
    have hsp : w.entities.spawn = (.ok e, s') := by
      unfold spawnId at x1
      cases hs : w.entities.spawn with
      | mk r s =>
        rw [hs] at x1
        cases r with
        | error f => simp only at x1; cases x1
        | ok y =>
          simp only [EStateM.Result.ok.injEq] at x1
          obtain ⟨rfl, x2⟩ := x1
          have : s = s' := congrArg World.entities x2
          rw [this]
    obtain ⟨b, r, b1, b2, b3, b4, b5⟩ := Builder.new_spec e ComponentMeta.unit i1
    rw [tri_bind]
    unfold Tri
    rw [b1]
    simp only
    have i2 : Inv { w with entities := s', reuse := r } := i1.withReuse b5
    have hle : s'.Live e := (l1 e).2 (Or.inr rfl)
    have hbs := build_spec (w := { w with entities := s', reuse := r }) i2 b2 (by intro p hp; cases hp) List.nodup_nil
      (by rw [b3]; exact hle) (by rw [b3]; exact m1)
    rw [b3, b4] at hbs
    apply tri_bind.2
    refine tri_orDrop hbs ?_ |>.imp ?_ (fun _ _ hh => hh)
    · rintro f w3 ⟨hh, _⟩; exact absurd rfl hh
    · rintro b' w3 ⟨hb', hB⟩
      have hblk : Builder.Blk b' := by
        rcases hb' with rfl | rfl
        · exact b2.blk
        · exact ⟨b2.block, b2.len⟩
      have hent : w3.entities = s' := hB.ent
      obtain ⟨r', d1, d2⟩ := Builder.drop_spec hblk hB.inv
      rw [tri_bind]
      unfold Tri
      rw [d1]
      simp only
      apply tri_bind.2
      rw [tri_step]
      simp only
      have hrow : w3.Row e := (hB.row e).2 (Or.inr rfl)
      have hle3 : w3.entities.Live e := by rw [hent]; exact hle
      cases hme : w3.metas[e.uindex]? with
      | none => exact absurd hrow ((hB.inv.inst_none hle3).1 (by simp [instOf, hme]))
      | some o =>
        cases o with
        | none => exact absurd hrow ((hB.inv.inst_none hle3).1 (by simp [instOf, hme]))
        | some m =>
          simp only [tri_bind, tri_modify, tri_pure]
          exact ⟨s', hsp, hent⟩
  · rintro f w1 ⟨x1, _, _, s', rfl, _⟩
    refine ⟨s', ?_, rfl⟩
    unfold spawnId at x1
    cases hs : w.entities.spawn with
    | mk r s =>
      rw [hs] at x1
      cases r with
      | ok y => simp only at x1; cases x1
      | error y =>
        simp only [EStateM.Result.error.injEq] at x1
        obtain ⟨rfl, x2⟩ := x1
        have : s = s' := congrArg World.entities x2
        rw [this]

theorem tri_and2 {α : Type} {x : M α} {w : World} {Q Q' : α → World → Prop} {E E' : Fault → World → Prop} (h : Tri x w Q E)
    (h' : Tri x w Q' E') : Tri x w (fun a w' => Q a w' ∧ Q' a w') (fun f w' => E f w' ∧ E' f w') :=
  tri_of (fun _ _ hx => ⟨h.ok hx, h'.ok hx⟩) (fun _ _ hx => ⟨h.error hx, h'.error hx⟩)

/-- `Grow`, without new types. -/
theorem Grow.shows {w w' : World} {a : AWorld} (g : Grow w w') (h : Inv w) (ha : w.Shows a) (ht : w'.typeMap = w.typeMap) :
    w'.Shows { a with ents := w'.entities } where
  ents := rfl
  types := ha.types.trans ht.symm
  info := fun x m => by
    show a.info x = some m ↔ _
    rw [ha.info, infoIs_iff h, infoIs_iff g.inv, g.row]
    constructor
    · rintro ⟨h1, h2⟩; exact ⟨Or.inl h1, by rw [g.comp x (h.row_live h1)]; exact h2⟩
    · rintro ⟨h1 | h1, h2⟩
      · exact ⟨h1, by rw [g.comp x (h.row_live h1)] at h2; exact h2⟩
      · exact absurd h1 (newTy_same ht)
  cell := fun e c bs => (ha.cell e c bs).trans (g.has e c bs).symm
  used := fun c => (ha.used c).trans (g.used c).symm
  lock := shows_lock (fun x => by
    rw [lockOf_grow h g.inv g.look g.locks (S := fun _ => False) (fun c hc => Or.inl (g.tight c hc)) (fun _ hh => hh.elim) x]
    simp only [false_and, if_false]; exact ha.lockOf x)

/-- `get_or_create_type_id_ecsid`, with what is needed to go on. -/
theorem register_spec {w : World} {a : AWorld} (h : Inv w) (hn : w.Ready) (ha : w.Shows a) (t : Ty) :
    Tri (getOrCreate t) w
      (fun id w' => GotId w t id w' ∧ (a.register t).1 = .ok id ∧ w'.Shows (a.register t).2)
      (fun f w' => Grow w w' ∧ (a.register t).1 = .error f ∧ w'.Shows (a.register t).2) := by
  unfold AWorld.register
  rw [ha.types]
  cases ht : w.typeMap t with
  | some id =>
    have : getOrCreate t w = .ok id w := by
      unfold getOrCreate
      show EStateM.bind get _ w = _
      unfold EStateM.bind
      show (match w.typeMap t with | some id => (pure id : M EcsId) | none => _) w = _
      rw [ht]
      rfl
    unfold Tri
    rw [this]
    exact ⟨⟨Grow.refl h hn, ht, fun _ => rfl, (by intro hh; rw [ht] at hh; cases hh), fun _ _ => rfl⟩, rfl, ha⟩
  | none =>
    refine (tri_and2 (getOrCreate_spec h hn t) (getOrCreate_ents h hn ht)).imp ?_ ?_
    · rintro id w' ⟨⟨g, q1, q2, q3, q4⟩, s, e1, rfl⟩
      unfold AWorld.spawnId
      rw [ha.ents, e1]
      have hl := q3 ht
      have hNT : ∀ x, NewTy w w' x ↔ x = id := by
        intro x
        constructor
        · rintro ⟨t', r1, r2⟩
          by_cases htt : t' = t
          · subst htt; rw [q1] at r2; injection r2 with r2; exact r2.symm
          · rw [q4 t' htt, r1] at r2; cases r2
        · rintro rfl; exact ⟨t, ht, q1⟩
      refine ⟨⟨g, q1, q2, q3, q4⟩, rfl, ⟨rfl, ?_, ?_, ?_, ?_, shows_lock ?_⟩⟩
      · funext t'
        simp only [ha.types]
        by_cases htt : t' = t
        · rw [if_pos htt, htt, q1]
        · rw [if_neg htt, q4 t' htt]
      · intro x m
        simp only
        by_cases hx : x = id
        · subst hx
          rw [if_pos rfl]
          have hi := g.inv.type_info q1 hl
          constructor
          · intro hm; injection hm with hm; subst hm; exact hi
          · intro hm; rw [hi.uniq hm]
        · rw [if_neg hx, ha.info, infoIs_iff h, infoIs_iff g.inv, g.row, hNT]
          constructor
          · rintro ⟨h1, h2⟩; exact ⟨Or.inl h1, by rw [g.comp x (h.row_live h1)]; exact h2⟩
          · rintro ⟨h1 | h1, h2⟩
            · exact ⟨h1, by rw [g.comp x (h.row_live h1)] at h2; exact h2⟩
            · exact absurd h1 hx
      · intro e c bs; exact (ha.cell e c bs).trans (g.has e c bs).symm
      · intro c; exact (ha.used c).trans (g.used c).symm
      · intro x
        rw [lockOf_grow h g.inv g.look g.locks (S := fun _ => False) (fun c hc => Or.inl (g.tight c hc)) (fun _ hh => hh.elim) x]
        simp only [false_and, if_false]; exact ha.lockOf x
    · rintro f w' ⟨⟨rfl, _, _, g, q⟩, s, e1, rfl⟩
      unfold AWorld.spawnId
      rw [ha.ents, e1]
      exact ⟨g, rfl, g.shows h ha q⟩

theorem sim_register {w : World} {a : AWorld} (h : Inv w) (hn : w.Ready) (ha : w.Shows a) (t : Ty) :
    Sim (getOrCreate t) w (a.register t) :=
  (register_spec h hn ha t).imp (fun _ _ hh => hh.2) (fun _ _ hh => Or.inr hh.2)

/-- Two results of a step. -/
theorem pair_eq {α : Type} {s : Except Fault α × AWorld} {r : Except Fault α} (h : s.1 = r) : s = (r, s.2) := by rw [← h]

/-- `add_component` -/
theorem sim_addComponent {w : World} {a : AWorld} (h : Inv w) (hn : w.Ready) (ha : w.Shows a) (e : EcsId) (t : Ty)
    {v : Bytes} (hv : v.length = t.size) : Sim (World.addComponent e t v) w (a.addComponent e t v) := by
  unfold AWorld.addComponent World.addComponent Sim
  rw [ha.alive, tri_bind]
  have hdrop : ∀ {α : Type} {x : M α} {Q : α → World → Prop} {E' E : Fault → World → Prop}, Tri x w Q E' →
      (∀ f w', E' f w' → E f { w' with log := w'.log ++ [⟨.generic t, v⟩] }) → Tri (orDropValue t v x) w Q E := by
    intro α x Q E' E hx hE
    unfold Tri orDropValue at *
    cases hh : x w with
    | ok a w' => rw [hh] at hx; exact hx
    | error f w' => rw [hh] at hx; exact hE f w' hx
  rcases isAlive_answer h e with ⟨h1, h2⟩ | ⟨h1, h2⟩ | ⟨h1, h2⟩
  · refine hdrop (E' := fun f w' => f = .noGeneration ∧ w' = w) ?_ ?_
    · simp only [tri_bind, tri_get, tri_liftE, h1]; exact ⟨trivial, trivial⟩
    · rintro f w' ⟨rfl, rfl⟩; rw [h1]; exact Or.inr ⟨rfl, ha.reuse _ _⟩
  · refine hdrop (E' := fun f w' => f = .notAlive ∧ w' = w) ?_ ?_
    · simp only [tri_bind, tri_get, tri_liftE, h1, Bool.not_false, if_true]; exact ⟨rfl, rfl⟩
    · rintro f w' ⟨rfl, rfl⟩; rw [h1]; exact Or.inr ⟨rfl, ha.reuse _ _⟩
  · rw [h1]
    refine hdrop (Q := fun id w' => GotId w t id w' ∧ (a.register t).1 = .ok id ∧ w'.Shows (a.register t).2)
      (E' := fun f w' => Grow w w' ∧ (a.register t).1 = .error f ∧ w'.Shows (a.register t).2) ?_ ?_ |>.imp ?_ (fun _ _ hh => hh)
    · simp only [tri_bind, tri_get, tri_liftE, h1, Bool.not_true, Bool.false_eq_true, if_false]
      exact register_spec h hn ha t
    · rintro f w' ⟨_, q1, q2⟩
      rw [pair_eq q1]
      exact Or.inr ⟨rfl, q2.reuse _ _⟩
    · rintro id w' ⟨g, q1, q2⟩
      rw [pair_eq q1]
      refine sim_addDyn g.grow.inv q2 e id ?_
      intro m hl hm
      rw [g.info hl] at hm
      injection hm with hm
      subst hm
      rw [hv]; exact Nat.le_refl _

/-- `remove_component` -/
theorem sim_removeComponent {w : World} {a : AWorld} (h : Inv w) (hn : w.Ready) (ha : w.Shows a) (e : EcsId) (t : Ty) :
    Sim (World.removeComponent e t) w (a.removeComponent e t) := by
  unfold AWorld.removeComponent World.removeComponent Sim
  rw [ha.alive]
  simp only [tri_bind, tri_get, tri_liftE]
  rcases isAlive_answer h e with ⟨h1, h2⟩ | ⟨h1, h2⟩ | ⟨h1, h2⟩
  · rw [h1]; exact Or.inr ⟨rfl, ha⟩
  · rw [h1]; simp only [Bool.not_false, if_true]; exact Or.inr ⟨rfl, ha⟩
  · rw [h1]
    simp only [Bool.not_true, Bool.false_eq_true, if_false]
    rw [tri_bind]
    refine (register_spec h hn ha t).imp ?_ ?_
    · rintro id w' ⟨g, q1, q2⟩
      rw [pair_eq q1]
      exact sim_removeDyn g.grow.inv q2 e id
    · rintro f w' ⟨_, q1, q2⟩
      rw [pair_eq q1]
      exact Or.inr ⟨rfl, q2⟩

/-! ### builders -/

/-- The builder `b` and the draft `d` agree. -/
structure Drafts (w : World) (b : Builder) (d : AWorld.Draft) : Prop where
  blk : Builder.Blk b
  entity : b.entity = d.entity
  vals : (BOk w b d.vals ∧ b.cmeta = d.cmeta) ∨ w.Row b.entity

theorem Drafts.grow {w w' : World} (g : Grow w w') (h : Inv w) {b : Builder} {d : AWorld.Draft} (hd : Drafts w b d) :
    Drafts w' b d :=
  ⟨hd.blk, hd.entity, hd.vals.imp (fun hh => ⟨hh.1.grow g h, hh.2⟩) (fun hh => (g.row _).2 (Or.inl hh))⟩

theorem Drafts.ext {w : World} {b b' : Builder} {d : AWorld.Draft} {c : EcsId} {v : Bytes} (hd : Drafts w b d)
    (he : Builder.Ext b b' c v) {m : ComponentMeta} (hm : w.InfoIs c m) (hv : v.length = m.layout.size) :
    Drafts w b' { d with vals := d.vals ++ [(c, v)] } := by
  refine ⟨he.blk, he.entity.trans hd.entity, hd.vals.imp ?_ ?_⟩
  · rintro ⟨hb, hcm⟩
    refine ⟨⟨he.packed hb.packed, ?_, by rw [he.entity]; exact hb.live, by rw [he.entity]; exact hb.unbuilt⟩, he.cmeta.trans hcm⟩
    rw [valsOk_iff]
    intro p hp
    rcases List.mem_append.1 hp with hp | hp
    · exact valsOk_iff.1 hb.vals p hp
    · rw [List.mem_singleton] at hp; subst hp; exact ⟨m, hm, hv⟩
  · intro hr; rw [he.entity]; exact hr

/-- What is left of a step of a builder. -/
def BSim (x : M Builder) (w : World) (s : Except Fault AWorld.Draft × AWorld) : Prop :=
  Tri x w (fun b w' => ∃ d, s.1 = .ok d ∧ w'.Shows s.2 ∧ Inv w' ∧ w'.Ready ∧ Drafts w' b d)
    (fun f w' => OutOfMemory f ∨ (s.1 = .error f ∧ w'.Shows s.2))

theorem give_spec {w : World} {a : AWorld} (h : Inv w) (hn : w.Ready) (ha : w.Shows a) {b : Builder} {d : AWorld.Draft}
    (hd : Drafts w b d) {c : EcsId} {v : Bytes} (hv : ∀ m, w.InfoIs c m → m.layout.size ≤ v.length) :
    (match b.withDynamicWithData v c w with
      | .ok b' => ∃ d', (a.give c v d) = (.ok d', a) ∧ Inv w ∧ w.Ready ∧ Drafts w b' d'
      | .error f => OutOfMemory f ∨ a.give c v d = (.error f, a)) := by
  unfold AWorld.give
  rw [ha.alive]
  rcases isAlive_answer h c with ⟨h1, h2⟩ | h12
  · have : b.withDynamicWithData v c w = .error .noGeneration := by
      unfold Builder.withDynamicWithData getEntityMeta
      have h1' : w.entities.isAlive c = .error .noGeneration := h1
      rw [h1']
    rw [this, h1]
    exact Or.inr rfl
  · have hne : ∃ y, w.isAlive c = .ok y := by
      rcases h12 with ⟨h1, _⟩ | ⟨h1, _⟩ <;> exact ⟨_, h1⟩
    obtain ⟨y, hy⟩ := hne
    rw [hy]
    simp only
    rcases Builder.withDynamicWithData_spec hd.blk h hv with ⟨r1, r2⟩ | ⟨r1, r2⟩ | ⟨m, r1, r2, r3⟩ | ⟨b', m, r1, r2, r3⟩
    · rw [hy] at r2; cases r2
    · rw [r1, (ha.infoNone h).2 r2]; exact Or.inr rfl
    · rw [r2]; exact Or.inl (Or.inr rfl)
    · rw [r1, (ha.info c m).2 r2]
      exact ⟨_, rfl, h, hn, hd.ext r3 r2 (by rw [List.length_take]; have := hv m r2; omega)⟩

theorem bsim_orDrop {w : World} {b : Builder} (hb : Builder.Blk b) {x : M Builder} {s : Except Fault AWorld.Draft × AWorld}
    (h : Tri x w (fun b w' => ∃ d, s.1 = .ok d ∧ w'.Shows s.2 ∧ Inv w' ∧ w'.Ready ∧ Drafts w' b d)
      (fun f w' => Inv w' ∧ w'.Ready ∧ (OutOfMemory f ∨ (s.1 = .error f ∧ w'.Shows s.2)))) : BSim (b.orDrop x) w s := by
  refine tri_orDrop h ?_
  rintro f w' ⟨h1, h2, h3⟩
  obtain ⟨r, d1, d2⟩ := Builder.drop_spec hb h1
  exact ⟨r, d1, h3.imp_right (fun hh => ⟨hh.1, hh.2.reuse _ _⟩)⟩

theorem lookup_iff {vals : List (EcsId × Bytes)} (h : (vals.map Prod.fst).Nodup) (c : EcsId) (bs : Bytes) :
    vals.lookup c = some bs ↔ (c, bs) ∈ vals := by
  induction vals with
  | nil => simp
  | cons p ps ih =>
    obtain ⟨c', bs'⟩ := p
    simp only [List.map_cons, List.nodup_cons] at h
    rw [List.lookup_cons]
    by_cases hc : c = c'
    · subst hc
      simp only [beq_self_eq_true]
      constructor
      · intro hh; injection hh with hh; subst hh; exact List.mem_cons_self
      · intro hh
        rcases List.mem_cons.1 hh with hh | hh
        · injection hh with _ hh; rw [hh]
        · exact absurd (List.mem_map_of_mem (f := Prod.fst) hh) h.1
    · have : (c == c') = false := by simpa using hc
      rw [this]
      simp only
      rw [ih h.2]
      constructor
      · exact List.mem_cons_of_mem _
      · intro hh
        rcases List.mem_cons.1 hh with hh | hh
        · injection hh with hh; exact absurd hh hc
        · exact hh

/-- `build` -/
theorem Built.shows {w w' : World} {a : AWorld} {d : AWorld.Draft} (h : Inv w) (ha : w.Shows a) (hB : Built w w' d.entity d.vals d.cmeta)
    (hl : w.entities.Live d.entity) (hnd : (d.vals.map Prod.fst).Nodup) : w'.Shows (a.finish d) := by
  refine ⟨ha.ents.trans hB.ent.symm, ha.types.trans hB.typ.symm, ?_, ?_, ?_, shows_lock ?_⟩
  · intro x m
    simp only [AWorld.finish, AWorld.addLocks, AWorld.use]
    rw [infoIs_iff hB.inv, hB.row, hB.comp]
    by_cases hx : x = d.entity
    · subst hx; simp
    · rw [if_neg hx, ha.info, infoIs_iff h]
      constructor
      · rintro ⟨h1, h2⟩
        refine ⟨Or.inl h1, ?_⟩
        rw [if_neg (fun hh => hx (Entities.Live.uniq (h.row_live h1) hl hh))]; exact h2
      · rintro ⟨h1 | h1, h2⟩
        · rw [if_neg (fun hh => hx (Entities.Live.uniq (h.row_live h1) hl hh))] at h2; exact ⟨h1, h2⟩
        · exact absurd h1 hx
  · intro x y bs
    simp only [AWorld.finish, AWorld.addLocks, AWorld.use]
    by_cases hx : x = d.entity
    · subst hx
      rw [if_pos rfl, hB.self, lookup_iff hnd]
    · rw [if_neg hx, hB.others x hx]; exact ha.cell x y bs
  · intro x
    simp only [AWorld.finish, AWorld.addLocks, AWorld.use, Bool.or_eq_true, ha.used, List.contains_eq_mem, decide_eq_true_eq, hB.used]
  · intro x
    rw [lockOf_grow h hB.inv hB.look hB.locks (S := fun x => x ∈ d.vals.map Prod.fst) hB.tight ?_ x]
    · simp only [AWorld.finish, AWorld.addLocks, AWorld.use, ha.lockOf]
    · intro x hx
      obtain ⟨aa, a1, a2⟩ := (hB.used x).2 (Or.inr hx)
      exact hB.inv.lock.used aa a1 x a2

/-- One call on a builder. -/
theorem bsim_act {w : World} {a : AWorld} (h : Inv w) (hn : w.Ready) (ha : w.Shows a) {b : Builder} {d : AWorld.Draft}
    (hd : Drafts w b d) {x : BAct} (hc : CallOk w b x) : BSim (b.act x) w (a.act d x) := by
  cases x with
  | «with» t v =>
    refine bsim_orDrop hd.blk ?_
    simp only [AWorld.act]
    rw [tri_bind]
    refine (register_spec h hn ha t).imp ?_ ?_
    · rintro id w' ⟨g, q1, q2⟩
      rw [pair_eq q1]
      simp only [tri_bind, tri_get, tri_liftE]
      have := give_spec g.grow.inv (g.grow.ready) q2 (hd.grow g.grow h) (c := id) (v := v) (by
        intro m hm
        have hm' := (infoIs_iff g.grow.inv).1 hm
        have := g.info (g.grow.inv.row_live hm'.1)
        rw [hm'.2] at this
        injection this with this
        subst this
        have hv : v.length = t.size := hc
        rw [hv]; exact Nat.le_refl _)
      cases hx : b.withDynamicWithData v id w' with
      | ok b' =>
        rw [hx] at this
        obtain ⟨d', e1, e2, e3, e4⟩ := this
        simp only [e1]
        exact ⟨d', rfl, q2, e2, e3, e4⟩
      | error f =>
        rw [hx] at this
        simp only
        refine ⟨g.grow.inv, g.grow.ready, this.imp_right ?_⟩
        intro e1; rw [e1]; exact ⟨rfl, q2⟩
    · rintro f w' ⟨g, q1, q2⟩
      rw [pair_eq q1]
      exact ⟨g.inv, g.ready, Or.inr ⟨rfl, q2⟩⟩
  | withDynamicWithData c v =>
    refine bsim_orDrop hd.blk ?_
    simp only [AWorld.act]
    simp only [tri_bind, tri_get, tri_liftE]
    have := give_spec h hn ha hd (c := c) (v := v) hc
    cases hx : b.withDynamicWithData v c w with
    | ok b' =>
      rw [hx] at this
      obtain ⟨d', e1, e2, e3, e4⟩ := this
      simp only [e1]
      exact ⟨d', rfl, ha, e2, e3, e4⟩
    | error f =>
      rw [hx] at this
      simp only
      refine ⟨h, hn, this.imp_right ?_⟩
      intro e1; rw [e1]; exact ⟨rfl, ha⟩
  | withDynamic c =>
    refine bsim_orDrop hd.blk ?_
    simp only [AWorld.act]
    simp only [tri_bind, tri_get, tri_liftE]
    rw [ha.alive]
    rcases isAlive_answer h c with ⟨h1, h2⟩ | h12
    · have : b.withDynamic c w = .error .noGeneration := by
        unfold Builder.withDynamic getEntityMeta
        have h1' : w.entities.isAlive c = .error .noGeneration := h1
        rw [h1']
      rw [this, h1]
      exact ⟨h, hn, Or.inr ⟨rfl, ha⟩⟩
    · have hne : ∃ y, w.isAlive c = .ok y := by
        rcases h12 with ⟨h1, _⟩ | ⟨h1, _⟩ <;> exact ⟨_, h1⟩
      obtain ⟨y, hy⟩ := hne
      rw [hy]
      simp only
      rcases Builder.withDynamic_spec hd.blk h (id := c) with ⟨r1, r2⟩ | ⟨r1, r2⟩ | ⟨m, r1, r2, r3⟩ | ⟨b', m, r1, r2, r3, r4⟩
      · rw [hy] at r2; cases r2
      · rw [r1, (ha.infoNone h).2 r2]; exact ⟨h, hn, Or.inr ⟨rfl, ha⟩⟩
      · rw [r2, (ha.info c m).2 r1]
        simp only [if_pos r3]
        exact ⟨h, hn, Or.inr ⟨trivial, ha⟩⟩
      · rw [r1, (ha.info c m).2 r2]
        simp only [r3, ne_eq, not_true_eq_false, if_false]
        exact ⟨_, rfl, ha, h, hn, hd.ext r4 r2 (by rw [r3]; rfl)⟩
  | build =>
    obtain ⟨hc1, hc2⟩ := hc
    obtain ⟨hb, hcm⟩ := hd.vals.resolve_right hc1
    have hids : (d.vals.map Prod.fst).Nodup := by rw [← hb.packed.ids]; exact hc2
    refine (act_build_spec h hb hc2).imp ?_ ?_
    · rintro b' w' ⟨k1, k2, k3⟩
      have hsh : w'.Shows (a.finish d) := by
        have hl := hb.live
        rw [hd.entity, hcm] at k3
        rw [hd.entity] at hl
        exact Built.shows h ha k3 hl hids
      exact ⟨d, rfl, hsh, k3.inv, fun t id ht => by rw [k3.typ] at ht; rw [k3.ent]; exact hn t id ht, k1, k2.trans hd.entity, Or.inr (by rw [k2]; exact (k3.row _).2 (Or.inr rfl))⟩
    · rintro f w' ⟨_, q, _⟩
      exact Or.inl (Or.inl q)

/-- A chain of calls on a builder. -/
theorem bsim_acts (xs : List BAct) : ∀ {w : World} {a : AWorld} {b : Builder} {d : AWorld.Draft} (_ : Inv w) (_ : w.Ready)
    (_ : w.Shows a) (_ : Drafts w b d) (_ : CallsOk w b xs), BSim (b.acts xs) w (AWorld.acts d xs a) := by
  induction xs with
  | nil =>
    intro w a b d h hn ha hd _
    exact ⟨d, rfl, ha, h, hn, hd⟩
  | cons x xs ih =>
    intro w a b d h hn ha hd hc
    have heq : b.acts (x :: xs) = (b.act x >>= fun b => b.acts xs) := rfl
    unfold BSim
    rw [heq, tri_bind]
    refine (bsim_act h hn ha hd hc.head).with_eq.imp ?_ ?_
    · rintro b1 w1 ⟨x1, d1, e1, e2, e3, e4, e5⟩
      have : AWorld.acts d (x :: xs) a = AWorld.acts d1 xs (a.act d x).2 := by
        rw [AWorld.acts, pair_eq e1]
      rw [this]
      exact ih e3 e4 e2 e5 (hc.tail x1)
    · rintro f w1 ⟨_, e1⟩
      refine e1.imp_right ?_
      rintro ⟨e1, e2⟩
      have : AWorld.acts d (x :: xs) a = (.error f, (a.act d x).2) := by
        rw [AWorld.acts, pair_eq e1]
      rw [this]
      exact ⟨rfl, e2⟩

theorem metaOf_eq (kind : SpawnKind) : AWorld.metaOf kind = kind.cmeta := by cases kind <;> rfl

/-- `spawn` and the calls on the builder. -/
theorem sim_spawn {w : World} {a : AWorld} (h : Inv w) (hn : w.Ready) (ha : w.Shows a) {kind : SpawnKind} {xs : List BAct}
    (hc : ChainOk w kind xs) : Sim (spawnWith kind xs) w (a.spawn kind xs) := by
  unfold Sim
  rw [spawnWith_eq, tri_bind]
  have hsp : ∀ r, spawnId w = r → r = (match w.entities.spawn with
      | (.ok e, s) => .ok e { w with entities := s }
      | (.error f, s) => .error f { w with entities := s }) := fun r hr => hr.symm
  unfold AWorld.spawn AWorld.spawnId
  rw [ha.ents]
  refine (spawnId_spec h hn).with_eq.imp ?_ ?_
  · rintro e w1 ⟨x1, s', rfl, i1, n1, l1, f1, k1, u1, m1⟩
    have h1 := hsp _ x1
    have hs : w.entities.spawn = (.ok e, s') := by
      cases hs : w.entities.spawn with
      | mk r s =>
        rw [hs] at h1
        cases r with
        | error f => simp only at h1; cases h1
        | ok y =>
          simp only [EStateM.Result.ok.injEq] at h1
          obtain ⟨rfl, x2⟩ := h1
          have : s' = s := congrArg World.entities x2
          rw [this]
    rw [hs]
    simp only
    have hs1 : Shows { w with entities := s' } { a with ents := s' } := by
      refine ⟨rfl, ha.types, ?_, ha.cell, ha.used, ha.lock⟩
      intro x m
      rw [infoIs_iff i1]
      show a.info x = some m ↔ _
      rw [ha.info, infoIs_iff h]
      exact Iff.rfl
    rw [tri_bind]
    refine (mkBuilder_spec i1 kind e).with_eq.imp ?_ ?_
    · rintro b w2 ⟨x2, r, rfl, p1, p2, p3, p4⟩
      have hcalls := hc e _ b _ x1 x2
      have i2 : Inv { w with entities := s', reuse := r } := i1.withReuse p4
      have hle : s'.Live e := (l1 e).2 (Or.inr rfl)
      have hnr : ¬ World.Row { w with entities := s', reuse := r } e := (i2.inst_none hle).1 m1
      have hb0 : BOk { w with entities := s', reuse := r } b [] :=
        ⟨p1, (by intro p hp; cases hp), by rw [p2]; exact hle, by rw [p2]; exact hnr⟩
      have hd : Drafts { w with entities := s', reuse := r } b ⟨e, AWorld.metaOf kind, []⟩ :=
        ⟨p1.blk, p2, Or.inl ⟨hb0, by rw [p3, metaOf_eq]⟩⟩
      rw [tri_bind]
      refine (bsim_acts xs i2 n1.1 (hs1.reuse r w.log) hd hcalls).imp ?_ ?_
      · rintro b3 w3 ⟨d3, e1, e2, e3, e4, e5⟩
        rw [pair_eq e1]
        obtain ⟨r3, d1, d2⟩ := Builder.drop_spec e5.blk e3
        rw [tri_bind]
        unfold Tri
        rw [d1]
        exact ⟨rfl, e2.reuse _ _⟩
      · rintro f w3 e1
        refine e1.imp_right ?_
        rintro ⟨e1, e2⟩
        rw [pair_eq e1]
        exact ⟨rfl, e2⟩
    · rintro f w2 ⟨_, rfl, rfl, _⟩
      exact Or.inl (Or.inl (Or.inr (Or.inl rfl)))
  · rintro f w1 ⟨x1, _, _, s', rfl, i1, n1, l1, k1⟩
    have h1 := hsp _ x1
    have hs : w.entities.spawn = (.error f, s') := by
      cases hs : w.entities.spawn with
      | mk r s =>
        rw [hs] at h1
        cases r with
        | ok f => simp only at h1; cases h1
        | error y =>
          simp only [EStateM.Result.error.injEq] at h1
          obtain ⟨rfl, x2⟩ := h1
          have : s' = s := congrArg World.entities x2
          rw [this]
    rw [hs]
    simp only
    refine Or.inr ⟨trivial, rfl, ha.types, ?_, ha.cell, ha.used, ha.lock⟩
    intro x m
    rw [infoIs_iff i1]
    show a.info x = some m ↔ _
    rw [ha.info, infoIs_iff h]
    exact Iff.rfl

/-! ### queries -/

/-- `held` are the components of the guards `gs`. -/
def HeldAs (w : World) (held : List (EcsId × Bool)) (gs : List Guard) : Prop :=
  ∀ c i, w.lockLookup c = some i → ((c, true) ∈ held ↔ Guard.write i ∈ gs) ∧ ((c, false) ∈ held ↔ Guard.read i ∈ gs)

theorem acquireAt_exact {ls : List RwLock} {gs : List Guard} (h : Held ls gs) (wr : Bool) {i : Nat} (hi : i < ls.length) :
    acquireAt ls wr i = .error .poisoned → Guard.write i ∉ gs ∧ (wr = true → Guard.read i ∉ gs) := by
  have h1 := h i
  unfold acquireAt
  cases hl : ls[i]? with
  | none => rw [List.getElem?_eq_none_iff] at hl; omega
  | some l =>
    rw [hl] at h1
    simp only [LockHeld] at h1
    obtain ⟨h1, h2, h3⟩ := h1
    have hw : l.writer = true ↔ Guard.write i ∈ gs := by
      rw [← List.count_pos_iff, h2]
      cases l.writer <;> simp
    have hr : l.readers > 0 ↔ Guard.read i ∈ gs := by rw [← List.count_pos_iff, h1]
    rw [← hw, ← hr]
    cases wr with
    | true =>
      simp only [if_true]
      unfold RwLock.write
      by_cases hb : l.writer = true ∨ l.readers > 0
      · intro hh; simp [hb] at hh
      · intro _
        exact ⟨fun hh => hb (Or.inl hh), fun _ hh => hb (Or.inr hh)⟩
    | false =>
      simp only [Bool.false_eq_true, if_false]
      unfold RwLock.read
      by_cases hb : l.writer = true
      · intro hh; simp [hb] at hh
      · intro _
        exact ⟨hb, fun hh => by cases hh⟩

/-- What taking one lock does, in terms of the map world. -/
theorem take_one {w : World} {a : AWorld} (h : Inv w) {ls : List RwLock} {held : List (EcsId × Bool)} {gs : List Guard}
    (hl : Held ls gs) (hlen : ls.length = w.locks.length) (hp : ∀ j, poisonAt ls j = poisonAt w.locks j) (hs : w.Shows a)
    (hh : HeldAs w held gs) {c : EcsId} {i : Nat} (hc : w.lockLookup c = some i) (wr : Bool) :
    ∃ p, a.lock c = some p ∧
      ((((c, true) ∈ held ∨ (wr = true ∧ (c, false) ∈ held)) ∧ acquireAt ls wr i = .error .deadlock) ∨
      (¬ ((c, true) ∈ held ∨ (wr = true ∧ (c, false) ∈ held)) ∧ p = true ∧ acquireAt ls wr i = .error .poisoned) ∨
      (¬ ((c, true) ∈ held ∨ (wr = true ∧ (c, false) ∈ held)) ∧ p = false ∧ ∃ g ls', acquireAt ls wr i = .ok (g, ls') ∧
        Held ls' (gs ++ [g]) ∧ ls'.length = ls.length ∧ (∀ j, poisonAt ls' j = poisonAt ls j) ∧ HeldAs w (held ++ [(c, wr)]) (gs ++ [g]))) := by
  have hr := h.lock.range c i hc
  have hlock : a.lock c = poisonAt w.locks i := by
    rw [hs.lockOf]; unfold lockOf poisonAt; rw [hc]; rfl
  rw [(hh c i hc).1, (hh c i hc).2]
  rcases acquireAt_spec hl wr (by rw [hlen]; exact hr) with ⟨g, ls', a1, a2, a3, a4, a5, a6, a7, a8⟩ | ⟨a1, a2⟩ | ⟨a1, a2⟩
  · rw [hp] at a6
    refine ⟨false, hlock.trans a6, Or.inr (Or.inr ⟨?_, rfl, g, ls', a1, a3, a4, a5, ?_⟩)⟩
    · rintro (hx | ⟨hx, hy⟩)
      · exact a7 hx
      · exact a8 hx hy
    · intro c' i' hc'
      simp only [List.mem_append, List.mem_singleton, Prod.mk.injEq, (hh c' i' hc').1, (hh c' i' hc').2]
      have key : ∀ b : Bool, (c' = c ∧ b = wr) ↔ (if b then Guard.write i' else Guard.read i') = g := by
        intro b
        rw [a2]
        constructor
        · rintro ⟨rfl, rfl⟩
          rw [hc] at hc'; injection hc' with hc'; subst hc'; rfl
        · intro hg
          cases b <;> cases wr <;> simp only [if_true, Bool.false_eq_true, if_false] at hg
          · injection hg with hg; subst hg; exact ⟨h.lock.inj _ _ _ hc' hc, rfl⟩
          · cases hg
          · cases hg
          · injection hg with hg; subst hg; exact ⟨h.lock.inj _ _ _ hc' hc, rfl⟩
      have k1 := key true
      have k2 := key false
      simp only [if_true, Bool.false_eq_true, if_false] at k1 k2
      rw [k1, k2]
      exact ⟨Iff.rfl, Iff.rfl⟩
  · have : ∃ p, a.lock c = some p := by
      rw [hlock]; unfold poisonAt; rw [List.getElem?_eq_getElem hr]; exact ⟨_, rfl⟩
    obtain ⟨p, hp⟩ := this
    exact ⟨p, hp, Or.inl ⟨a2, a1⟩⟩
  · rw [hp] at a2
    obtain ⟨b1, b2⟩ := acquireAt_exact hl wr (by rw [hlen]; exact hr) a1
    refine ⟨true, hlock.trans a2, Or.inr (Or.inl ⟨?_, rfl, a1⟩)⟩
    rintro (hx | ⟨hx, hy⟩)
    · exact b1 hx
    · exact b2 hx hy

theorem Shows.withLocks {w : World} {a : AWorld} (h : Inv w) (ha : w.Shows a) {ls : List RwLock} {held : List (EcsId × Bool)}
    {gs : List Guard} {p : Bool} (hh : HeldAs w held gs)
    (hp : ∀ j, poisonAt ls j = (poisonAt w.locks j).map (fun b => b || (p && decide (Guard.write j ∈ gs)))) :
    Shows { w with locks := ls } (if p then a.poison held else a) := by
  have hlock : ∀ c, World.lockOf { w with locks := ls } c = if p = true ∧ (c, true) ∈ held then (a.lock c).map (fun _ => true) else a.lock c := by
    intro c
    rw [ha.lockOf]
    unfold World.lockOf
    cases hc : w.lockLookup c with
    | none => simp
    | some i =>
      have e1 := hp i
      unfold poisonAt at e1
      simp only [Option.bind_some]
      rw [e1]
      simp only [(hh c i hc).1]
      have hr := h.lock.range c i hc
      rw [List.getElem?_eq_getElem hr]
      cases p <;> by_cases hm : Guard.write i ∈ gs <;> simp [hm]
  cases p with
  | false =>
    refine ⟨ha.ents, ha.types, ha.info, ha.cell, ha.used, shows_lock ?_⟩
    intro c; rw [hlock]; simp
  | true =>
    refine ⟨ha.ents, ha.types, ha.info, ha.cell, ha.used, shows_lock ?_⟩
    intro c; rw [hlock]; simp [AWorld.poison]

theorem want_some {f : Fetch} {c : EcsId} {wr : Bool} (h : AWorld.want f = some (c, wr)) : f = (if wr then Fetch.mut c else .immut c) := by
  cases f with
  | ecsId => cases h
  | «mut» x => unfold AWorld.want at h; injection h with h; injection h with h1 h2; subst h1; subst h2; rfl
  | immut x => unfold AWorld.want at h; injection h with h; injection h with h1 h2; subst h1; subst h2; rfl

theorem want_none {f : Fetch} (h : AWorld.want f = none) : f = .ecsId := by
  cases f with
  | ecsId => rfl
  | «mut» x => cases h
  | immut x => cases h

/-- What taking all locks of a static query does. -/
theorem takeStatic {w : World} {a : AWorld} (h : Inv w) (hs : w.Shows a) (fs : List Fetch) : ∀ {ls : List RwLock} {gs : List Guard}
    {held : List (EcsId × Bool)}, Held ls gs → ls.length = w.locks.length → (∀ j, poisonAt ls j = poisonAt w.locks j) →
    HeldAs w held gs →
    (∃ gs' ls' held', acquireAllStatic w gs ls fs = .ok (gs', ls') ∧ a.take true held fs = (none, held') ∧ Held ls' gs' ∧
      HeldAs w held' gs' ∧ ∀ j, poisonAt ls' j = poisonAt w.locks j) ∨
    (∃ f gs' ls' held', acquireAllStatic w gs ls fs = .error (f, ls') ∧ a.take true held fs = (some f, held') ∧ HeldAs w held' gs' ∧
      ∀ j, poisonAt ls' j = (poisonAt w.locks j).map (fun b => b || decide (Guard.write j ∈ gs'))) := by
  induction fs with
  | nil =>
    intro ls gs held hl hlen hp hh
    exact Or.inl ⟨gs, ls, held, rfl, rfl, hl, hh, hp⟩
  | cons f fs ih =>
    intro ls gs held hl hlen hp hh
    have hfail : ∀ j, poisonAt (releaseAll true ls gs) j = (poisonAt w.locks j).map (fun b => b || decide (Guard.write j ∈ gs)) := by
      intro j
      obtain ⟨_, _, c3⟩ := releaseAll_spec (p := true) (base := []) gs (ls := ls) hl
      rw [c3, hp]; simp
    unfold acquireAllStatic AWorld.take
    cases hw : AWorld.want f with
    | none =>
      have := want_none hw
      subst this
      simp only [Fetch.acquireStatic]
      have hh' : HeldAs w held (gs ++ [.none]) := by
        intro c i hc
        rw [(hh c i hc).1, (hh c i hc).2]; simp
      exact ih hl.noneL hlen hp hh'
    | some p =>
      obtain ⟨c, wr⟩ := p
      have hf := want_some hw
      cases hc : w.lockLookup c with
      | none =>
        have hln : a.lock c = none := by rw [hs.lockOf, lockOf_none h]; exact hc
        have : f.acquireStatic w ls = .error .indexOob := by
          subst hf; cases wr <;> simp [Fetch.acquireStatic, hc]
        simp only [hln, this, if_true]
        exact Or.inr ⟨_, gs, _, held, rfl, rfl, hh, hfail⟩
      | some i =>
        have : f.acquireStatic w ls = acquireAt ls wr i := by
          subst hf; cases wr <;> simp [Fetch.acquireStatic, hc]
        rw [this]
        obtain ⟨p, q1, ⟨q2, q3⟩ | ⟨q2, q3, q4⟩ | ⟨q2, q3, g, ls', q4, q5, q6, q7, q8⟩⟩ := take_one h hl hlen hp hs hh hc wr
        · simp only [q1, q3, if_pos q2]
          exact Or.inr ⟨_, gs, _, held, rfl, rfl, hh, hfail⟩
        · simp only [q1, q4, if_neg q2, q3, if_true]
          exact Or.inr ⟨_, gs, _, held, rfl, rfl, hh, hfail⟩
        · simp only [q1, q4, if_neg q2, q3, Bool.false_eq_true, if_false]
          exact ih q5 (q6.trans hlen) (fun j => (q7 j).trans (hp j)) q8

/-- What taking all locks of a dynamic query does. -/
theorem takeDyn {w : World} {a : AWorld} (h : Inv w) (hs : w.Shows a) (fs : List Fetch) : ∀ {ls : List RwLock} {gs : List Guard}
    {held : List (EcsId × Bool)} {inc : Bool}, Held ls gs → ls.length = w.locks.length → (∀ j, poisonAt ls j = poisonAt w.locks j) →
    HeldAs w held gs →
    (∃ gs' ls' inc' held', acquireAllDyn w gs inc ls fs = .ok (gs', inc', ls') ∧ a.take false held fs = (none, held') ∧ Held ls' gs' ∧
      HeldAs w held' gs' ∧ ∀ j, poisonAt ls' j = poisonAt w.locks j) ∨
    (∃ f gs' ls' held', acquireAllDyn w gs inc ls fs = .error (f, ls') ∧ a.take false held fs = (some f, held') ∧ HeldAs w held' gs' ∧
      ∀ j, poisonAt ls' j = (poisonAt w.locks j).map (fun b => b || decide (Guard.write j ∈ gs'))) := by
  induction fs with
  | nil =>
    intro ls gs held inc hl hlen hp hh
    exact Or.inl ⟨gs, ls, inc, held, rfl, rfl, hl, hh, hp⟩
  | cons f fs ih =>
    intro ls gs held inc hl hlen hp hh
    have hfail : ∀ j, poisonAt (releaseAll true ls gs) j = (poisonAt w.locks j).map (fun b => b || decide (Guard.write j ∈ gs)) := by
      intro j
      obtain ⟨_, _, c3⟩ := releaseAll_spec (p := true) (base := []) gs (ls := ls) hl
      rw [c3, hp]; simp
    have hh' : HeldAs w held (gs ++ [.none]) := by
      intro c i hc
      rw [(hh c i hc).1, (hh c i hc).2]; simp
    unfold acquireAllDyn AWorld.take
    cases hw : AWorld.want f with
    | none =>
      have := want_none hw
      subst this
      simp only [Fetch.acquireDyn]
      exact ih hl.noneL hlen hp hh'
    | some p =>
      obtain ⟨c, wr⟩ := p
      have hf := want_some hw
      cases hc : w.lockLookup c with
      | none =>
        have hln : a.lock c = none := by rw [hs.lockOf, lockOf_none h]; exact hc
        have : f.acquireDyn w ls = .ok (.none, ls, true) := by
          subst hf; cases wr <;> simp [Fetch.acquireDyn, hc]
        simp only [hln, this, Bool.false_eq_true, if_false]
        exact ih hl.noneL hlen hp hh'
      | some i =>
        have : f.acquireDyn w ls = (match acquireAt ls wr i with | .error f => .error f | .ok (g, ls) => .ok (g, ls, false)) := by
          rw [acquireDyn_eq]; subst hf; cases wr <;> simp only [Fetch.acquireStatic, Fetch.getId, hc, if_true, Bool.false_eq_true, if_false] <;> (cases acquireAt ls _ i <;> rfl)
        rw [this]
        obtain ⟨p, q1, ⟨q2, q3⟩ | ⟨q2, q3, q4⟩ | ⟨q2, q3, g, ls', q4, q5, q6, q7, q8⟩⟩ := take_one h hl hlen hp hs hh hc wr
        · simp only [q1, q3, if_pos q2]
          exact Or.inr ⟨_, gs, _, held, rfl, rfl, hh, hfail⟩
        · simp only [q1, q4, if_neg q2, q3, if_true]
          exact Or.inr ⟨_, gs, _, held, rfl, rfl, hh, hfail⟩
        · simp only [q1, q4, if_neg q2, q3, Bool.false_eq_true, if_false]
          exact ih q5 (q6.trans hlen) (fun j => (q7 j).trans (hp j)) q8

theorem allFetches_eq {w : World} {a : AWorld} (hs : w.Shows a) (ps : List Param) : ps.mapM a.fetch = allFetches w ps := by
  induction ps with
  | nil => rfl
  | cons p ps ih =>
    have : a.fetch p = p.fetchType w := by
      cases p with
      | ids => rfl
      | «mut» t => unfold AWorld.fetch Param.fetchType; rw [hs.types]; cases h : w.typeMap t <;> simp [h]
      | ref t => unfold AWorld.fetch Param.fetchType; rw [hs.types]; cases h : w.typeMap t <;> simp [h]
    rw [List.mapM_cons, this, ih]
    rw [allFetches]
    cases p.fetchType w with
    | none => rfl
    | some f => cases allFetches w ps <;> rfl

theorem heldAs_nil (w : World) : HeldAs w [] [] := fun _ _ _ => ⟨by simp, by simp⟩

theorem releaseAll_nones (p : Bool) (ps : List Param) : ∀ ls, releaseAll p ls (ps.map (fun _ => Guard.none)) = ls := by
  induction ps with
  | nil => intro ls; rfl
  | cons x xs ih => intro ls; exact ih ls

theorem sim_query {w : World} {a : AWorld} (h : Inv w) (hid : Idle w) (ha : w.Shows a) (ps : List Param) (p : Bool) :
    Sim (Call.query ps p).exec w (a.query ps p) := by
  unfold Sim Call.exec AWorld.query
  rw [allFetches_eq ha, tri_bind]
  unfold Tri World.query
  cases hf : allFetches w ps with
  | none =>
    simp only
    unfold dropGuards
    rw [releaseAll_nones]
    exact ⟨trivial, ha⟩
  | some fs =>
    simp only
    unfold AWorld.lockAll
    rcases takeStatic h ha fs (ls := w.locks) (gs := []) (held := []) hid rfl (fun _ => rfl) (heldAs_nil w) with
      ⟨gs', ls', held', a1, a2, a3, a4, a5⟩ | ⟨f, gs', ls', held', a1, a2, a3, a4⟩
    · rw [a1, a2]
      simp only
      unfold dropGuards
      obtain ⟨_, _, c3⟩ := releaseAll_spec (p := p) (base := []) gs' (ls := ls') a3
      exact ⟨trivial, ha.withLocks h (ls := releaseAll p ls' gs') a4 (fun j => by rw [c3, a5])⟩
    · rw [a1, a2]
      exact Or.inr ⟨rfl, ha.withLocks (p := true) h a3 (fun j => by rw [a4]; simp)⟩

theorem sim_queryDynamic {w : World} {a : AWorld} (h : Inv w) (hid : Idle w) (ha : w.Shows a) (fs : List Fetch) (p : Bool) :
    Sim (Call.queryDynamic fs p).exec w (a.lockAll false fs p) := by
  unfold Sim Call.exec AWorld.lockAll
  rw [tri_bind]
  unfold Tri World.queryDynamic
  rcases takeDyn h ha fs (ls := w.locks) (gs := []) (held := []) (inc := false) hid rfl (fun _ => rfl) (heldAs_nil w) with
    ⟨gs', ls', inc', held', a1, a2, a3, a4, a5⟩ | ⟨f, gs', ls', held', a1, a2, a3, a4⟩
  · rw [a1, a2]
    simp only
    unfold dropGuards
    obtain ⟨_, _, c3⟩ := releaseAll_spec (p := p) (base := []) gs' (ls := ls') a3
    exact ⟨trivial, ha.withLocks h (ls := releaseAll p ls' gs') a4 (fun j => by rw [c3, a5])⟩
  · rw [a1, a2]
    exact Or.inr ⟨rfl, ha.withLocks (p := true) h a3 (fun j => by rw [a4]; simp)⟩

theorem sim_void {α : Type} {x : M α} {w : World} {s : Except Fault α × AWorld} (h : Sim x w s) :
    Sim (do let _ ← x) w (AWorld.void s) := by
  unfold Sim at *
  rw [tri_bind]
  refine h.imp ?_ ?_
  · rintro v w' ⟨h1, h2⟩; rw [pair_eq h1]; exact ⟨rfl, h2⟩
  · rintro f w' hh
    refine hh.imp_right ?_
    rintro ⟨h1, h2⟩
    rw [pair_eq h1]; exact ⟨rfl, h2⟩

/-- Every call. -/
theorem sim_exec {w : World} {a : AWorld} (h : Inv w) (hn : w.Ready) (hid : Idle w) (ha : w.Shows a) {c : Call} (hc : c.Ok w) :
    Sim c.exec w (a.step c) := by
  cases c with
  | spawn kind acts => exact sim_void (sim_spawn h hn ha hc)
  | addComponent e t v => exact sim_addComponent h hn ha e t hc
  | removeComponent e t => exact sim_removeComponent h hn ha e t
  | addDynamic e c => exact sim_addZst h ha e c
  | addDynamicWithData e c src => 
    refine sim_addDyn h ha e c ?_
    intro m hl hm
    refine hc m ((infoIs_iff h).2 ⟨?_, hm⟩)
    apply Classical.byContradiction
    intro hr
    have := (h.inst_none hl).2 hr
    rw [inst_none_iff_comp, hm] at this; cases this
  | removeDynamic e c => exact sim_removeDyn h ha e c
  | despawn e => exact sim_void (sim_despawn h ha e)
  | register t => exact sim_void (sim_register h hn ha t)
  | write e c bs => exact sim_write h ha e c hc
  | query ps b => exact sim_query h hid ha ps b
  | queryDynamic fs b => exact sim_queryDynamic h hid ha fs b

/-! ### looking -/

theorem has_eq {w : World} {a : AWorld} (h : Inv w) (ha : w.Shows a) (t : Ty) (e : EcsId) : w.hasComponent t e = a.hasComponent t e := by
  unfold AWorld.hasComponent
  rw [ha.types]
  cases ht : w.typeMap t with
  | none => unfold World.hasComponent; rw [ht]
  | some c =>
    rw [ha.alive]
    have hval : ∀ b, w.hasComponent t e = .ok b → (b = true ↔ ∃ c, w.typeMap t = some c ∧ w.HasComp e c) → b = (a.cell e c).isSome := by
      intro b _ hb
      rw [ht] at hb
      cases hc : a.cell e c with
      | none =>
        cases b with
        | false => rfl
        | true =>
          obtain ⟨c', h1, h2⟩ := hb.1 rfl
          injection h1 with h1; subst h1
          exact absurd h2 (ha.cellNone.1 hc)
      | some bs => exact hb.2 ⟨c, rfl, bs, (ha.cell e c bs).1 hc⟩
    rcases hasComponent_spec h t e with ⟨h1, h2, _⟩ | ⟨b, h1, h2⟩
    · rw [h1, h2]
    · rcases isAlive_answer h e with ⟨h3, h4⟩ | ⟨h3, h4⟩ | ⟨h3, h4⟩
      · exfalso
        unfold World.isAlive at h3
        unfold World.hasComponent World.getEntityMeta at h1
        simp only [ht, h3] at h1
        cases h1
      · rw [h1, h3]; simp only; rw [← hval b h1 h2]
      · rw [h1, h3]; simp only; rw [← hval b h1 h2]

theorem look_eq {w : World} {a : AWorld} (h : Inv w) (ha : w.Shows a) {e c : EcsId} {n : Nat} (hn : ∀ m, w.InfoIs c m → n = m.layout.size) :
    w.look e c n = a.look e c := by
  unfold World.look AWorld.look
  rw [ha.alive, ha.alive]
  rcases isAlive_answer h e with ⟨h1, h2⟩ | ⟨h1, h2⟩ | ⟨h1, h2⟩
  · unfold getComponentMutDynamic; simp only [h1]
  · unfold getComponentMutDynamic; simp only [h1]
  · rcases isAlive_answer h c with ⟨h3, h4⟩ | ⟨h3, h4⟩ | ⟨h3, h4⟩
    · unfold getComponentMutDynamic; simp only [h1, h3]
    · unfold getComponentMutDynamic; simp only [h1, h3]
    · rw [h1, h3]
      simp only
      rcases getComponentMut_spec h e c with ⟨g1, g2⟩ | ⟨g1, g2⟩ | ⟨g1, g2, g3, g4⟩ | ⟨p, g1, hp⟩
      · rcases g2 with g2 | g2
        · rw [h1] at g2; cases g2
        · rw [h3] at g2; cases g2
      · have : ¬ w.Row e := by
          rcases g2 with g2 | g2 | g2
          · exact absurd (alive_iff.2 h2) g2
          · exact absurd (alive_iff.2 h4) g2
          · exact g2
        rw [g1, (ha.infoNone h).2 this]
      · obtain ⟨m, q1, _⟩ := ha.infoRow h g2
        rw [g1, q1, ha.cellNone.2 g4]
      · obtain ⟨_, _, _, _, _, _, _, _, _, _, _, _, _, hh⟩ := hp.cell h
        obtain ⟨m, q1, _⟩ := ha.infoRow h (h.has_live hh)
        obtain ⟨aa, a1, a2⟩ := has_used h hh
        obtain ⟨hlc, mc, hmc⟩ := h.live_comp a1 a2
        have q2 : w.InfoIs c mc := by
          refine (infoIs_iff h).2 ⟨?_, hmc⟩
          apply Classical.byContradiction
          intro hr
          have := (h.inst_none hlc).2 hr
          rw [inst_none_iff_comp, hmc] at this; cases this
        obtain ⟨bs, r1, r2⟩ := readPtr_spec h hp q2
        rw [g1, q1, (ha.cell e c bs).2 r2]
        simp only
        rw [hn mc q2, r1]

theorem sim_map {α β : Type} {x : M α} {w : World} {s : Except Fault α × AWorld} (h : Sim x w s) (g : α → β) :
    Sim (do let v ← x; pure (g v)) w (s.1.map g, s.2) := by
  unfold Sim at *
  rw [tri_bind]
  refine h.imp ?_ ?_
  · rintro v w' ⟨h1, h2⟩; rw [tri_pure, h1]; exact ⟨rfl, h2⟩
  · rintro f w' hh
    refine hh.imp_right ?_
    rintro ⟨h1, h2⟩
    rw [h1]; exact ⟨rfl, h2⟩

theorem sim_look {α : Type} {g : World → Except Fault α} {w : World} {a : AWorld} (ha : w.Shows a) {r : Except Fault α} (hr : g w = r) :
    Sim (do let w ← get; liftE (g w)) w (r, a) := by
  unfold Sim
  rw [tri_bind, tri_get, tri_liftE, hr]
  cases r with
  | ok v => exact ⟨rfl, ha⟩
  | error f => exact Or.inr ⟨rfl, ha⟩

/-- Every question. -/
theorem sim_ask {w : World} {a : AWorld} (h : Inv w) (hn : w.Ready) (hid : Idle w) (ha : w.Shows a) {q : Ask} (hc : q.Ok w) :
    Sim q.exec w (a.ask q) := by
  cases q with
  | call c => exact sim_map (sim_exec h hn hid ha hc) (fun _ => Answer.unit)
  | spawn kind acts => exact sim_map (sim_spawn h hn ha hc) Answer.id
  | despawn e => exact sim_map (sim_despawn h ha e) Answer.bool
  | register t => exact sim_map (sim_register h hn ha t) Answer.id
  | isAlive e => exact sim_map (sim_look (g := fun w => w.isAlive e) ha (ha.alive e).symm) Answer.bool
  | has t e => exact sim_map (sim_look (g := fun w => w.hasComponent t e) ha (has_eq h ha t e)) Answer.bool
  | look e c n => exact sim_map (sim_look (g := fun w => w.look e c n) ha (look_eq h ha hc)) Answer.value

/-! ### conversations -/

theorem exec_map_ok {α β : Type} {x : M α} {g : α → β} {w w' : World} {b : β} (h : (do let v ← x; pure (g v) : M β) w = .ok b w') :
    ∃ v, x w = .ok v w' ∧ b = g v := by
  have h : EStateM.bind x (fun v => EStateM.pure (g v)) w = .ok b w' := h
  unfold EStateM.bind at h
  cases hx : x w with
  | ok v w1 =>
    rw [hx] at h
    simp only [EStateM.pure] at h
    injection h with h1 h2
    subst h1 h2
    exact ⟨v, rfl, rfl⟩
  | error f w1 => rw [hx] at h; cases h

theorem exec_map_error {α β : Type} {x : M α} {g : α → β} {w w' : World} {f : Fault} (h : (do let v ← x; pure (g v) : M β) w = .error f w') :
    x w = .error f w' := by
  have h : EStateM.bind x (fun v => EStateM.pure (g v)) w = .error f w' := h
  unfold EStateM.bind at h
  cases hx : x w with
  | ok v w1 => rw [hx] at h; cases h
  | error f w1 => rw [hx] at h; injection h with h1 h2; subst h1 h2; rfl

theorem exec_map_of_ok {α β : Type} {x : M α} {g : α → β} {w w' : World} {v : α} (h : x w = .ok v w') :
    (do let v ← x; pure (g v) : M β) w = .ok (g v) w' := by
  show EStateM.bind x (fun v => EStateM.pure (g v)) w = _
  unfold EStateM.bind
  rw [h]; rfl

theorem exec_map_of_error {α β : Type} {x : M α} {g : α → β} {w w' : World} {f : Fault} (h : x w = .error f w') :
    (do let v ← x; pure (g v) : M β) w = .error f w' := by
  show EStateM.bind x (fun v => EStateM.pure (g v)) w = _
  unfold EStateM.bind
  rw [h]

theorem look_same {α : Type} {g : World → Except Fault α} {w : World} :
    (∀ v w', (do let w ← get; liftE (g w) : M α) w = .ok v w' → w' = w) ∧ (∀ f w', (do let w ← get; liftE (g w) : M α) w = .error f w' → w' = w) := by
  have : (do let w ← get; liftE (g w) : M α) w = (match g w with | .ok a => .ok a w | .error f => .error f w) := rfl
  rw [this]
  constructor
  · intro v w' h; split at h <;> cases h; rfl
  · intro v w' h; split at h <;> cases h; rfl

/-- A question either changes nothing, or is a call. -/
theorem ask_call (q : Ask) {w : World} (hq : q.Ok w) :
    ((∀ x w', q.exec w = .ok x w' → w' = w) ∧ (∀ f w', q.exec w = .error f w' → w' = w)) ∨
    ∃ c : Call, c.Ok w ∧ (∀ x w', q.exec w = .ok x w' → c.exec w = .ok () w') ∧ (∀ f w', q.exec w = .error f w' → c.exec w = .error f w') := by
  have key : ∀ {α : Type} (x : M α) (g : α → Answer),
      (∀ y w', (do let v ← x; pure (g v) : M Answer) w = .ok y w' → (do let _ ← x : M Unit) w = .ok () w') ∧
      (∀ f w', (do let v ← x; pure (g v) : M Answer) w = .error f w' → (do let _ ← x : M Unit) w = .error f w') := by
    intro α x g
    refine ⟨fun y w' h => ?_, fun f w' h => ?_⟩
    · obtain ⟨v, h1, _⟩ := exec_map_ok h
      exact exec_map_of_ok (g := fun _ => ()) h1
    · exact exec_map_of_error (g := fun _ => ()) (exec_map_error h)
  have key2 : ∀ {α : Type} (g : World → Except Fault α) (k : α → Answer),
      (∀ x w', (do let v ← (do let w ← get; liftE (g w) : M α); pure (k v) : M Answer) w = .ok x w' → w' = w) ∧
      (∀ f w', (do let v ← (do let w ← get; liftE (g w) : M α); pure (k v) : M Answer) w = .error f w' → w' = w) := by
    intro α g k
    refine ⟨fun x w' h => ?_, fun f w' h => ?_⟩
    · obtain ⟨v, h1, _⟩ := exec_map_ok h
      exact look_same.1 v w' h1
    · exact look_same.2 f w' (exec_map_error h)
  cases q with
  | call c =>
    refine Or.inr ⟨c, hq, fun x w' h => ?_, fun f w' h => exec_map_error (g := fun _ => Answer.unit) h⟩
    obtain ⟨v, h1, _⟩ := exec_map_ok (g := fun _ => Answer.unit) h
    exact h1
  | spawn kind acts => exact Or.inr ⟨.spawn kind acts, hq, key (spawnWith kind acts) Answer.id⟩
  | despawn e => exact Or.inr ⟨.despawn e, trivial, key (World.despawn e) Answer.bool⟩
  | register t => exact Or.inr ⟨.register t, trivial, key (getOrCreate t) Answer.id⟩
  | isAlive e => exact Or.inl (key2 (fun w => w.isAlive e) Answer.bool)
  | has t e => exact Or.inl (key2 (fun w => w.hasComponent t e) Answer.bool)
  | look e c n => exact Or.inl (key2 (fun w => w.look e c n) Answer.value)

theorem ask_reachable {q : Ask} {w : World} (hw : Reachable w) (hq : q.Ok w) :
    (∀ x w', q.exec w = .ok x w' → w'.NoFullSlot → Reachable w') ∧
    (∀ f w', q.exec w = .error f w' → ¬ Limit f → f ≠ .deadlock → w'.NoFullSlot → Reachable w') := by
  rcases ask_call q hq with ⟨h1, h2⟩ | ⟨c, h1, h2, h3⟩
  · refine ⟨fun x w' h _ => ?_, fun f w' h _ _ _ => ?_⟩
    · rw [h1 x w' h]; exact hw
    · rw [h2 f w' h]; exact hw
  · exact ⟨fun x w' h hn => .ok c hw h1 (h2 x w' h) hn, fun f w' h hl hd hn => .panic c f hw h1 (h3 f w' h) hl hd hn⟩

theorem Talk.reachable {w w' : World} {tr : List (Ask × Except Fault Answer)} (hw : Reachable w) (h : Talk w tr w') : Reachable w' := by
  induction h with
  | done w => exact hw
  | ok h1 h2 h3 _ ih => exact ih ((ask_reachable hw h1).1 _ _ h2 h3)
  | panic h1 h2 h3 h4 h5 _ ih => exact ih ((ask_reachable hw h1).2 _ _ h2 (fun hh => h3 (Or.inl hh)) h4 h5)

theorem Talk.shows {w w' : World} {tr : List (Ask × Except Fault Answer)} (hw : Reachable w) (h : Talk w tr w') :
    ∀ {a : AWorld}, w.Shows a → (a.answers (tr.map Prod.fst)).1 = tr.map Prod.snd ∧ w'.Shows (a.answers (tr.map Prod.fst)).2 := by
  induction h with
  | done w => intro a ha; exact ⟨rfl, ha⟩
  | @ok w w1 w2 q x rest h1 h2 h3 _ ih =>
    intro a ha
    have hs := hw.sound
    obtain ⟨s1, s2⟩ := (sim_ask hs.inv hs.nowrap.ready hs.idle ha h1).ok h2
    obtain ⟨k1, k2⟩ := ih ((ask_reachable hw h1).1 _ _ h2 h3) s2
    simp only [List.map_cons, AWorld.answers]
    rw [pair_eq s1]
    exact ⟨by simp only [k1], k2⟩
  | @panic w w1 w2 q x rest h1 h2 h3 h4 h5 _ ih =>
    intro a ha
    have hs := hw.sound
    obtain ⟨s1, s2⟩ := ((sim_ask hs.inv hs.nowrap.ready hs.idle ha h1).error h2).resolve_left h3
    obtain ⟨k1, k2⟩ := ih ((ask_reachable hw h1).2 _ _ h2 (fun hh => h3 (Or.inl hh)) h4 h5) s2
    simp only [List.map_cons, AWorld.answers]
    rw [pair_eq s1]
    exact ⟨by simp only [k1], k2⟩

/-! ### rows of queries -/

theorem typed_info' {w : World} (h : Inv w) {t : Ty} {c e : EcsId} (ht : w.typeMap t = some c) {bs : Bytes} (hh : w.Has e c bs) :
    w.InfoIs c (ComponentMeta.fromGeneric t) := by
  obtain ⟨aa, a1, a2⟩ := has_used h hh
  obtain ⟨hlc, mc, hmc⟩ := h.live_comp a1 a2
  refine (infoIs_iff h).2 ⟨?_, h.type.comp t c ht hlc⟩
  apply Classical.byContradiction
  intro hr
  have := (h.inst_none hlc).2 hr
  rw [inst_none_iff_comp, hmc] at this; cases this

theorem readItem_eq {w : World} {a : AWorld} (h : Inv w) (ha : w.Shows a) {e : EcsId} {p : Param} {i : Item} (hd : Denotes w e p i) :
    ∃ s, w.readItem i = .ok s ∧ a.seen e p = some s := by
  cases p with
  | ids =>
    have : i = .id e := hd
    subst this
    exact ⟨_, rfl, rfl⟩
  | «mut» t =>
    obtain ⟨p, c, rfl, hc, hp⟩ := hd
    obtain ⟨_, _, _, _, _, _, _, _, _, _, _, _, _, hh⟩ := hp.cell h
    obtain ⟨bs, r1, r2⟩ := readPtr_spec h hp (typed_info' h hc hh)
    refine ⟨.value bs, ?_, ?_⟩
    · unfold readItem
      have r1 : w.readPtr p t.size = .ok bs := r1
      simp only [r1]
    · unfold AWorld.seen
      simp only [ha.types, hc, Option.bind_some]
      rw [(ha.cell e c bs).2 r2]; rfl
  | ref t =>
    obtain ⟨p, c, rfl, hc, hp⟩ := hd
    obtain ⟨_, _, _, _, _, _, _, _, _, _, _, _, _, hh⟩ := hp.cell h
    obtain ⟨bs, r1, r2⟩ := readPtr_spec h hp (typed_info' h hc hh)
    refine ⟨.value bs, ?_, ?_⟩
    · unfold readItem
      have r1 : w.readPtr p t.size = .ok bs := r1
      simp only [r1]
    · unfold AWorld.seen
      simp only [ha.types, hc, Option.bind_some]
      rw [(ha.cell e c bs).2 r2]; rfl

theorem mapM_ok {α β : Type} {g : α → Except Fault β} {x : α} {xs : List α} {y : β} {ys : List β} (h1 : g x = .ok y) (h2 : xs.mapM g = .ok ys) :
    (x :: xs).mapM g = .ok (y :: ys) := by
  rw [List.mapM_cons, h1, h2]; rfl

theorem mapM_some {α β : Type} {g : α → Option β} {x : α} {xs : List α} {y : β} {ys : List β} (h1 : g x = some y) (h2 : xs.mapM g = some ys) :
    (x :: xs).mapM g = some (y :: ys) := by
  rw [List.mapM_cons, h1, h2]; rfl

theorem readRow_eq {w : World} {a : AWorld} (h : Inv w) (ha : w.Shows a) {e : EcsId} {ps : List Param} {is : List Item}
    (hd : Pairs (Denotes w e) ps is) : ∃ ss, is.mapM w.readItem = .ok ss ∧ ps.mapM (a.seen e) = some ss := by
  induction hd with
  | nil => exact ⟨[], rfl, rfl⟩
  | cons h1 _ ih =>
    obtain ⟨s, s1, s2⟩ := readItem_eq h ha h1
    obtain ⟨ss, s3, s4⟩ := ih
    exact ⟨s :: ss, mapM_ok s1 s3, mapM_some s2 s4⟩

theorem seen_isSome {w : World} {a : AWorld} (ha : w.Shows a) {e : EcsId} {p : Param} :
    (a.seen e p).isSome = true ↔ ∀ t, p.Of t → ∃ bs, w.HasT e t bs := by
  have key : ∀ t, (((a.types t).bind (a.cell e)).map AWorld.Seen.value).isSome = true ↔ ∃ bs, w.HasT e t bs := by
    intro t
    rw [ha.types]
    constructor
    · intro hs
      cases ht : w.typeMap t with
      | none => rw [ht] at hs; cases hs
      | some c =>
        rw [ht, Option.bind_some] at hs
        cases hc : a.cell e c with
        | none => rw [hc] at hs; cases hs
        | some bs => exact ⟨bs, c, ht, (ha.cell e c bs).1 hc⟩
    · rintro ⟨bs, c, hc, hh⟩
      rw [hc, Option.bind_some, (ha.cell e c bs).2 hh]; rfl
  cases p with
  | ids =>
    refine ⟨fun _ t ht => ?_, fun _ => rfl⟩
    rcases ht with ht | ht <;> cases ht
  | «mut» t =>
    refine (key t).trans ⟨fun hh t' ht => ?_, fun hh => hh t (Or.inl rfl)⟩
    rcases ht with ht | ht <;> cases ht
    exact hh
  | ref t =>
    refine (key t).trans ⟨fun hh t' ht => ?_, fun hh => hh t (Or.inr rfl)⟩
    rcases ht with ht | ht <;> cases ht
    exact hh

theorem mapM_isSome {α β : Type} {g : α → Option β} (xs : List α) : (xs.mapM g).isSome = true ↔ ∀ x ∈ xs, (g x).isSome = true := by
  induction xs with
  | nil => simp
  | cons x xs ih =>
    rw [List.mapM_cons]
    cases hx : g x with
    | none => simp [hx]
    | some y =>
      rw [List.forall_mem_cons, ← ih, hx]
      cases xs.mapM g <;> simp

theorem row_isSome {w : World} {a : AWorld} (h : Inv w) (ha : w.Shows a) {ps : List Param} {e : EcsId} :
    (a.row ps e).isSome = true ↔ HasTypes w ps e := by
  unfold AWorld.row HasTypes
  by_cases hr : w.Row e
  · obtain ⟨m, hm, _⟩ := ha.infoRow h hr
    rw [if_pos (by rw [hm]; rfl), mapM_isSome]
    refine ⟨fun hh => ⟨hr, fun p hp => (seen_isSome ha).1 (hh p hp)⟩, fun hh p hp => (seen_isSome ha).2 (hh.2 p hp)⟩
  · rw [(ha.infoNone h).2 hr]
    simp [hr]

theorem row_eq {w : World} {a : AWorld} (h : Inv w) (ha : w.Shows a) {ps : List Param} {e : EcsId} (hr : w.Row e) : a.row ps e = ps.mapM (a.seen e) := by
  obtain ⟨m, hm, _⟩ := ha.infoRow h hr
  unfold AWorld.row
  rw [if_pos (by rw [hm]; rfl)]

theorem readFetch_eq {w : World} {a : AWorld} (h : Inv w) (ha : w.Shows a) {e : EcsId} {f : Fetch} {p : Ptr} (hd : FetchAt w e f p) :
    ∃ s, w.readFetch f p = .ok s ∧ a.seenDyn e f = some s := by
  have key : ∀ c, w.PointsAt p e c → ∃ s, w.readFetch (.mut c) p = .ok s ∧ (a.cell e c).map AWorld.Seen.value = some s := by
    intro c hp
    obtain ⟨_, _, _, _, _, _, _, _, _, _, _, _, _, hh⟩ := hp.cell h
    obtain ⟨aa, a1, a2⟩ := has_used h hh
    obtain ⟨hlc, mc, hmc⟩ := h.live_comp a1 a2
    have q2 : w.InfoIs c mc := by
      refine (infoIs_iff h).2 ⟨?_, hmc⟩
      apply Classical.byContradiction
      intro hr
      have := (h.inst_none hlc).2 hr
      rw [inst_none_iff_comp, hmc] at this; cases this
    obtain ⟨bs, r1, r2⟩ := readPtr_spec h hp q2
    obtain ⟨im, q3⟩ := q2
    refine ⟨.value bs, ?_, by rw [(ha.cell e c bs).2 r2]; rfl⟩
    unfold readFetch
    simp only [q3, r1]
  cases f with
  | ecsId =>
    obtain ⟨k, r, aa, h1, h2, rfl⟩ := hd
    refine ⟨.id e, ?_, rfl⟩
    unfold readFetch
    have : 8 * r / 8 = r := Nat.mul_div_cancel_left r (by omega)
    simp only [h1, this, h2, Nat.dvd_mul_right, if_true]
  | «mut» c => exact key c hd
  | immut c => exact key c hd

theorem readDyn_eq {w : World} {a : AWorld} (h : Inv w) (ha : w.Shows a) {e : EcsId} {fs : List Fetch} {is : List Ptr}
    (hd : Pairs (FetchAt w e) fs is) : ∃ ss, (fs.zip is).mapM (fun x => w.readFetch x.1 x.2) = .ok ss ∧ fs.mapM (a.seenDyn e) = some ss := by
  induction hd with
  | nil => exact ⟨[], rfl, rfl⟩
  | cons h1 _ ih =>
    obtain ⟨s, s1, s2⟩ := readFetch_eq h ha h1
    obtain ⟨ss, s3, s4⟩ := ih
    exact ⟨s :: ss, by rw [List.zip_cons_cons]; exact mapM_ok s1 s3, mapM_some s2 s4⟩

theorem rowDyn_isSome {w : World} {a : AWorld} (h : Inv w) (ha : w.Shows a) {fs : List Fetch} {e : EcsId} :
    (a.rowDyn fs e).isSome = true ↔ HasAll w fs e := by
  have key : ∀ f, (a.seenDyn e f).isSome = true ↔ ∀ c, f.Of c → w.HasComp e c := by
    have k1 : ∀ c, ((a.cell e c).map AWorld.Seen.value).isSome = true ↔ w.HasComp e c := by
      intro c
      have := ha.cellNone (e := e) (c := c)
      cases hc : a.cell e c with
      | none => simp [this.1 hc]
      | some bs => simp; exact ⟨bs, (ha.cell e c bs).1 hc⟩
    intro f
    cases f with
    | ecsId =>
      refine ⟨fun _ t ht => ?_, fun _ => rfl⟩
      rcases ht with ht | ht <;> cases ht
    | «mut» t =>
      refine (k1 t).trans ⟨fun hh t' ht => ?_, fun hh => hh t (Or.inl rfl)⟩
      rcases ht with ht | ht <;> cases ht
      exact hh
    | immut t =>
      refine (k1 t).trans ⟨fun hh t' ht => ?_, fun hh => hh t (Or.inr rfl)⟩
      rcases ht with ht | ht <;> cases ht
      exact hh
  unfold AWorld.rowDyn HasAll
  by_cases hr : w.Row e
  · obtain ⟨m, hm, _⟩ := ha.infoRow h hr
    rw [if_pos (by rw [hm]; rfl), mapM_isSome]
    refine ⟨fun hh => ⟨hr, fun p hp => (key p).1 (hh p hp)⟩, fun hh p hp => (key p).2 (hh.2 p hp)⟩
  · rw [(ha.infoNone h).2 hr]
    simp [hr]

theorem rowDyn_eq {w : World} {a : AWorld} (h : Inv w) (ha : w.Shows a) {fs : List Fetch} {e : EcsId} (hr : w.Row e) : a.rowDyn fs e = fs.mapM (a.seenDyn e) := by
  obtain ⟨m, hm, _⟩ := ha.infoRow h hr
  unfold AWorld.rowDyn
  rw [if_pos (by rw [hm]; rfl)]

/-- Rows that can be read one by one can be read together. -/
theorem pairs_mapM {α β γ : Type} {R : α → β → Prop} {g : β → Except Fault γ} {k : α → Option γ} {as : List α} {bs : List β} (h : Pairs R as bs)
    (hk : ∀ a b, a ∈ as → R a b → ∃ s, g b = .ok s ∧ k a = some s) : ∃ ss, bs.mapM g = .ok ss ∧ as.map k = ss.map some := by
  induction h with
  | nil => exact ⟨[], rfl, rfl⟩
  | cons h1 _ ih =>
    obtain ⟨s, s1, s2⟩ := hk _ _ List.mem_cons_self h1
    obtain ⟨ss, s3, s4⟩ := ih (fun a b ha => hk a b (List.mem_cons_of_mem _ ha))
    exact ⟨s :: ss, mapM_ok s1 s3, by rw [List.map_cons, List.map_cons, s2, s4]⟩

/-! ### the map world of a world -/

open Classical in
/-- The maps. -/
noncomputable def view (w : World) : AWorld :=
    ⟨w.entities, w.typeMap, fun x => if h : ∃ m, w.InfoIs x m then some h.choose else none,
      fun e c => if h : ∃ bs, w.Has e c bs then some h.choose else none, fun c => decide (w.Used c), w.lockOf⟩

open Classical in
theorem view_shows {w : World} (h : Inv w) : w.Shows w.view := by
  refine ⟨rfl, rfl, ?_, ?_, ?_, shows_lock (fun _ => rfl)⟩
  · intro x m
    show (if h : ∃ m, w.InfoIs x m then some h.choose else none) = some m ↔ _
    constructor
    · intro hh
      split at hh
      · rename_i h1
        injection hh with hh
        rw [← hh]; exact h1.choose_spec
      · cases hh
    · intro hm
      have h1 : ∃ m, w.InfoIs x m := ⟨m, hm⟩
      rw [dif_pos h1]
      have h2 := h1.choose_spec
      rw [infoIs_iff h] at hm h2
      rw [hm.2] at h2
      exact h2.2.symm
  · intro e c bs
    show (if h : ∃ bs, w.Has e c bs then some h.choose else none) = some bs ↔ _
    constructor
    · intro hh
      split at hh
      · rename_i h1
        injection hh with hh
        rw [← hh]; exact h1.choose_spec
      · cases hh
    · intro hm
      have h1 : ∃ m, w.Has e c m := ⟨bs, hm⟩
      rw [dif_pos h1, has_uniq h h1.choose_spec hm]
  · intro c
    show decide (w.Used c) = true ↔ _
    exact decide_eq_true_iff

theorem shows_unique {w : World} {a b : AWorld} (ha : w.Shows a) (hb : w.Shows b) : a = b := by
  obtain ⟨a1, a2, a3, a4, a5, a6⟩ := a
  obtain ⟨b1, b2, b3, b4, b5, b6⟩ := b
  have e1 : a1 = b1 := ha.ents.trans hb.ents.symm
  have e2 : a2 = b2 := ha.types.trans hb.types.symm
  have e3 : a3 = b3 := by
    funext x; apply Option.ext; intro m
    exact (ha.info x m).trans (hb.info x m).symm
  have e4 : a4 = b4 := by
    funext x y; apply Option.ext; intro m
    exact (ha.cell x y m).trans (hb.cell x y m).symm
  have e5 : a5 = b5 := by
    funext c
    exact Bool.eq_iff_iff.2 ((ha.used c).trans (hb.used c).symm)
  have e6 : a6 = b6 := by
    funext c
    exact (Shows.lockOf ha c).trans (Shows.lockOf hb c).symm
  subst e1 e2 e3 e4 e5 e6
  rfl

end World
end Ellecs
