import Verif.Props.Fate
import Verif.Props.Locks
import Verif.Props.Refine
import Verif.Props.Build
import Verif.Proofs.BuildRows
/-!
# C18, C26, C27, C35, C36: exactly when the claims fail

The files of these properties prove the parts that hold and show one world in which the claim fails.  Here the line
between the two is drawn, for all reachable worlds.
-/
namespace Ellecs.WorldSpec
open World Demo

/-! ## C18 -/

/-- C18 for static queries: why their creation fails.  The panic `indexOob` is the violation: every type of the query has a
component entity, and one of them was never a component of anything. -/
theorem C18_static_creation {w w' : World} (hw : Reachable w) {ps : List Param} {f : Fault} (hq : query ps w = .error f w') :
    (∀ p ∈ ps, ∀ t, p.Of t → ∃ c, w.typeMap t = some c) ∧
    ((f = .indexOob ∧ ∃ p ∈ ps, ∃ t c, p.Of t ∧ w.typeMap t = some c ∧ ¬ w.Used c) ∨
    (f = .poisoned ∧ ∃ p ∈ ps, ∃ t c, p.Of t ∧ w.typeMap t = some c ∧ Poisoned w c) ∨
    (f = .deadlock ∧ ∃ fs, Pairs (Bound w) ps fs ∧ SelfClash fs)) := by
  have hi := hw.sound.inv
  have hr : LockRun w w.locks [] := .refl _ _
  have hq' : query ps { w with locks := w.locks } = .error f w' := hq
  rw [query_locks] at hq'
  cases hfs : allFetches w ps with
  | none => simp only [hfs] at hq'; cases hq'
  | some fs =>
    simp only [hfs] at hq'
    have hb := allFetches_bound.1 hfs
    refine ⟨fun p hp t ht => ?_, ?_⟩
    · obtain ⟨i, hp⟩ := List.mem_iff_getElem?.1 hp
      obtain ⟨g, _, hg⟩ := hb.get' hp
      rcases ht with rfl | rfl
      · obtain ⟨c, hc, _⟩ := hg; exact ⟨c, hc⟩
      · obtain ⟨c, hc, _⟩ := hg; exact ⟨c, hc⟩
    · rcases static_made hi (hr.inv hw) fs with ⟨gs, ls', a1, a2, _⟩ | ⟨e, ls', a1, a2⟩
      · simp only [a1] at hq'; cases hq'
      · simp only [a1] at hq'
        injection hq' with h1 h2; subst h1
        rcases a2 with ⟨rfl, x, h1, c, h2, h3⟩ | ⟨rfl, x, h1, c, h2, h3⟩ | ⟨rfl, n, x, h1, x', h2, _, h3 | ⟨i, h3, h4⟩⟩
        · obtain ⟨p, q1, t, q2, q3⟩ := bound_mem hb h1 h2
          refine Or.inl ⟨rfl, p, q1, t, c, q2, q3, ?_⟩
          rintro ⟨a, u1, u2⟩
          exact hi.lock.used a u1 c u2 h3
        · obtain ⟨p, q1, t, q2, q3⟩ := bound_mem hb h1 h2
          exact Or.inr (Or.inl ⟨rfl, p, q1, t, c, q2, q3, h3⟩)
        · cases h3
        · exact Or.inr (Or.inr ⟨rfl, fs, hb, n, i, x, x', by omega, h1, h4, h2⟩)

/-- C18 fails for static queries in exactly that case: if every type has a component entity and one was never a component of
anything, the query cannot be created, whatever else it asks for and whatever else is alive. -/
theorem C18_static_unused_fails {w v : World} (hw : Reachable w) (hv : SameButLocks w v) {ps : List Param}
    (hall : ∀ p ∈ ps, ∀ t, p.Of t → ∃ c, w.typeMap t = some c) {p : Param} (hp : p ∈ ps) {t : Ty} (ht : p.Of t) {c : EcsId}
    (hc : w.typeMap t = some c) (hu : ¬ w.Used c) : ∃ f v', query ps v = .error f v' := by
  obtain ⟨ls, _, rfl⟩ := hv
  cases hq : query ps { w with locks := ls } with
  | error f w' => exact ⟨f, w', rfl⟩
  | ok q w' =>
    exfalso
    rw [query_locks] at hq
    cases hfs : allFetches w ps with
    | none =>
      obtain ⟨p', h1, t', h2, h3⟩ := allFetches_none.1 hfs
      obtain ⟨c', h4⟩ := hall p' h1 t' h2
      rw [h3] at h4; cases h4
    | some fs =>
      simp only [hfs] at hq
      cases ha : acquireAllStatic w [] ls fs with
      | error x => simp only [ha] at hq; cases hq
      | ok x =>
        obtain ⟨i, hpi⟩ := List.mem_iff_getElem?.1 hp
        obtain ⟨g, hg, hb⟩ := (allFetches_bound.1 hfs).get' hpi
        have hgc : g.Of c := by
          rcases ht with rfl | rfl
          · obtain ⟨c', h1, h2⟩ := hb
            rw [hc] at h1; injection h1 with h1; subst h1; exact Or.inl h2
          · obtain ⟨c', h1, h2⟩ := hb
            rw [hc] at h1; injection h1 with h1; subst h1; exact Or.inr h2
        exact hu (typesUsed hw hc ((acquireAllStatic_ok fs ha).2 g (List.mem_of_getElem? hg) c hgc))

/-- The queries that fail so in `unused`: also with types that are in use, and in any order. -/
example : (∃ w', query [.ref tC, .mut tA] unused = .error .indexOob w') ∧ (∃ w', query [.ids, .ref tA, .mut tC] unused = .error .indexOob w') ∧
    ∃ c, unused.typeMap tC = some c ∧ ¬ unused.Used c :=
  ⟨⟨_, eq_of_endsWith (by decide +kernel)⟩, ⟨_, eq_of_endsWith (by decide +kernel)⟩, ⟨1, 5⟩, by decide +kernel, by decide +kernel⟩

/-! ## C36 -/

/-- C36: a call of `add_component` for a live entity that returns takes effect exactly if the component entity of the type has
not been despawned; otherwise nothing at all changes. -/
theorem C36_exact {w w' : World} (hw : Reachable w) {e : EcsId} {t : Ty} {v : Bytes} (hv : v.length = t.size)
    (hr : addComponent e t v w = .ok () w') : (w.TypeAlive t ∧ ∀ bs, w'.HasT e t bs ↔ bs = v) ∨ (¬ w.TypeAlive t ∧ w' = w) := by
  by_cases ht : w.TypeAlive t
  · exact Or.inl ⟨ht, C36_add_takes_effect_partial hw hv ht hr⟩
  · refine Or.inr ⟨ht, ?_⟩
    obtain ⟨_, id, w1, hg, h | h⟩ := (addComponent_spec hw.sound.inv hw.sound.nowrap.ready e t hv).ok hr
    · rcases hg.cases with ⟨_, h1⟩ | ⟨h1, _⟩
      · rw [h.2, h1]
      · exact absurd (fun c hc => by rw [h1] at hc; cases hc) ht
    · exfalso
      apply ht
      intro c hc
      rcases hg.cases with ⟨h1, h2⟩ | ⟨h1, _⟩
      · rw [h1] at hc; injection hc with hc; subst hc; subst h2
        exact alive_iff.2 h.2.1
      · rw [h1] at hc; cases hc

/-- C36 fails whenever the component entity of the type was despawned: for every live entity and every value, the call returns
and has done nothing (the value is leaked). -/
theorem C36_lost_always {w : World} (hw : Reachable w) {e : EcsId} (he : w.Alive e) {t : Ty} (ht : ¬ w.TypeAlive t) {v : Bytes} (hv : v.length = t.size) :
    addComponent e t v w = .ok () w := by
  have hl := alive_iff.1 he
  have hsome : ∃ c, w.typeMap t = some c ∧ ¬ w.entities.Live c := by
    apply Classical.byContradiction
    intro hno
    apply ht
    intro c hc
    apply Classical.byContradiction
    intro ha
    exact hno ⟨c, hc, fun h => ha (alive_iff.2 h)⟩
  obtain ⟨c, hc, hd⟩ := hsome
  have hid : ∀ {id w1}, GotId w t id w1 → ¬ w1.entities.Live id := by
    intro id w1 hg
    rcases hg.cases with ⟨h1, h2⟩ | ⟨h1, _⟩
    · rw [hc] at h1; injection h1 with h1; subst h1; subst h2; exact hd
    · rw [hc] at h1; cases h1
  rcases (addComponent_spec hw.sound.inv hw.sound.nowrap.ready e t hv).cases with ⟨u, w', hx, _⟩ | ⟨f, w', hx, ⟨w0, _, ⟨_, ⟨_, h⟩ | ⟨_, h⟩⟩ | ⟨_, _, h, _⟩⟩ | ⟨id, w1, hg, _, ⟨_, _, h, _⟩ | ⟨_, _, h, _⟩ | ⟨_, _, h, _⟩⟩⟩
  · rcases C36_exact hw hv hx with ⟨h, _⟩ | ⟨_, h⟩
    · exact absurd h ht
    · rw [hx, h]
  · exact nomatch he.symm.trans h
  · exact nomatch he.symm.trans h
  · rw [hc] at h; cases h
  · exact absurd h (hid hg)
  · exact absurd h (hid hg)
  · exact absurd h (hid hg)

/-- Both cases of `C36_exact`: in `demo` the type gets its id with the call, in `stale` that id is dead. -/
example : (∃ w, addComponent (ent 0) tC (val 2 5) demo = .ok () w) ∧ demo.TypeAlive tC ∧ stale.Alive (ent 0) ∧ ¬ stale.TypeAlive tC :=
  ⟨⟨_, eq_of_endsOk (by decide +kernel)⟩, by decide +kernel, by decide +kernel, by decide +kernel⟩

/-! ## C26 -/

/-- Locks are only made for components that are in use then. -/
def LocksUse (a a' : AWorld) : Prop := (∀ x, a.used x = true → a'.used x = true) ∧ ∀ x, a'.lock x ≠ none → a.lock x ≠ none ∨ a'.used x = true

theorem LocksUse.refl (a : AWorld) : LocksUse a a := ⟨fun _ h => h, fun _ h => Or.inl h⟩

theorem LocksUse.trans {a b c : AWorld} (h : LocksUse a b) (h' : LocksUse b c) : LocksUse a c :=
  ⟨fun x hx => h'.1 x (h.1 x hx), fun x hx => (h'.2 x hx).elim (fun hb => (h.2 x hb).imp_right (h'.1 x)) Or.inr⟩

theorem LocksUse.of_eq {a a' : AWorld} (h : a'.lock = a.lock) (hu : a'.used = a.used) : LocksUse a a' :=
  ⟨fun x hx => by rw [hu]; exact hx, fun x hx => Or.inl (by rw [← h]; exact hx)⟩

theorem spawnId_locks {a a' : AWorld} {r : Except Fault EcsId} (h : a.spawnId = (r, a')) : a'.lock = a.lock ∧ a'.used = a.used ∧ a'.types = a.types := by
  unfold AWorld.spawnId at h
  injection h with _ h; subst h; exact ⟨rfl, rfl, rfl⟩

theorem register_locks {a a' : AWorld} {t : Ty} {r : Except Fault EcsId} (h : a.register t = (r, a')) : a'.lock = a.lock ∧ a'.used = a.used := by
  unfold AWorld.register at h
  split at h
  · injection h with _ h; subst h; exact ⟨rfl, rfl⟩
  · split at h
    · rename_i h1
      injection h with _ h; subst h
      exact ⟨(spawnId_locks h1).1, (spawnId_locks h1).2.1⟩
    · rename_i h1
      injection h with _ h; subst h
      exact ⟨(spawnId_locks h1).1, (spawnId_locks h1).2.1⟩

theorem register_info {a a' : AWorld} {t : Ty} {c : EcsId} (ht : ∀ t c, a.types t = some c → a.isAlive c = .ok true → a.info c ≠ none)
    (h : a.register t = (.ok c, a')) (hc : a'.isAlive c = .ok true) : a'.info c ≠ none := by
  unfold AWorld.register at h
  split at h
  · rename_i id h1
    injection h with h2 h; injection h2 with h2; subst h2; subst h
    exact ht t _ h1 hc
  · split at h
    · injection h with h2 _; cases h2
    · injection h with h2 h; injection h2 with h2; subst h2; subst h
      simp

theorem give_locks {a a' : AWorld} {c : EcsId} {v : Bytes} {b : AWorld.Draft} {r : Except Fault AWorld.Draft} (h : a.give c v b = (r, a')) : a' = a := by
  unfold AWorld.give at h
  split at h
  · injection h with _ h; exact h.symm
  · split at h
    · injection h with _ h; exact h.symm
    · injection h with _ h; exact h.symm

theorem finish_locks (a : AWorld) (b : AWorld.Draft) : LocksUse a (a.finish b) := by
  refine ⟨fun x hx => ?_, fun x hx => ?_⟩
  · simp [AWorld.finish, AWorld.addLocks, AWorld.use, hx]
  · by_cases hm : x ∈ b.vals.map Prod.fst
    · right
      simpa [AWorld.finish, AWorld.addLocks, AWorld.use] using Or.inr hm
    · left
      unfold AWorld.finish AWorld.addLocks AWorld.use at hx
      dsimp only at hx
      rw [if_neg (fun h => hm h.1)] at hx
      exact hx

theorem act_locks {a a' : AWorld} {b : AWorld.Draft} {x : BAct} {r : Except Fault AWorld.Draft} (h : a.act b x = (r, a')) : LocksUse a a' := by
  cases x with
  | «with» t v =>
    unfold AWorld.act at h
    dsimp only at h
    split at h
    · rename_i h1
      injection h with _ h; subst h
      exact .of_eq (register_locks h1).1 (register_locks h1).2
    · rename_i h1
      rw [give_locks h]
      exact .of_eq (register_locks h1).1 (register_locks h1).2
  | withDynamicWithData c v =>
    unfold AWorld.act at h
    rw [give_locks h]; exact .refl a
  | withDynamic c =>
    unfold AWorld.act at h
    dsimp only at h
    split at h
    · injection h with _ h; subst h; exact .refl _
    · split at h
      · injection h with _ h; subst h; exact .refl _
      · split at h
        · injection h with _ h; subst h; exact .refl _
        · injection h with _ h; subst h; exact .refl _
  | build =>
    unfold AWorld.act at h
    injection h with _ h; subst h
    exact finish_locks a b

theorem acts_locks (xs : List BAct) : ∀ {a a' : AWorld} {b : AWorld.Draft} {r : Except Fault AWorld.Draft}, a.acts b xs = (r, a') → LocksUse a a' := by
  induction xs with
  | nil => intro a a' b r h; injection h with _ h; subst h; exact .refl _
  | cons x xs ih =>
    intro a a' b r h
    unfold AWorld.acts at h
    split at h
    · rename_i h1
      injection h with _ h; subst h; exact act_locks h1
    · rename_i h1
      exact (act_locks h1).trans (ih h)

theorem poison_locks (a : AWorld) (held : List (EcsId × Bool)) : LocksUse a (a.poison held) := by
  refine ⟨fun x hx => hx, fun x hx => Or.inl ?_⟩
  intro h0
  apply hx
  unfold AWorld.poison
  dsimp only
  rw [h0]
  split <;> rfl

theorem lockAll_locks {a a' : AWorld} {s p : Bool} {fs : List Fetch} {r : Except Fault Unit} (h : a.lockAll s fs p = (r, a')) : LocksUse a a' := by
  unfold AWorld.lockAll at h
  split at h
  · injection h with _ h; subst h; exact poison_locks a _
  · injection h with _ h; subst h
    split
    · exact poison_locks a _
    · exact .refl a

theorem void_snd {α : Type} (x : Except Fault α × AWorld) : (AWorld.void x).2 = x.2 := by
  obtain ⟨r, b⟩ := x
  cases r <;> rfl

/-- The locks that a call on the maps makes. -/
theorem step_locks {a a' : AWorld} {call : Call} {r : Except Fault Unit} (ht : ∀ t c, a.types t = some c → a.isAlive c = .ok true → a.info c ≠ none)
    (h : a.step call = (r, a')) {x : EcsId} (hx : a'.lock x ≠ none) (hu : a'.used x = false) :
    a.lock x ≠ none ∨ ∃ e src, call = .addDynamicWithData e x src ∧ a.info e ≠ none ∧ a.isAlive x = .ok true ∧ a.info x = none := by
  have use : LocksUse a a' → a.lock x ≠ none := fun hl => (hl.2 x hx).elim id (fun h => by rw [hu] at h; cases h)
  have hadd : ∀ {b b' : AWorld} {r : Except Fault Unit} {e c : EcsId} {src : Bytes}, b.addDyn e c src = (r, b') → b'.lock x ≠ none → b'.used x = false →
      b.lock x ≠ none ∨ (c = x ∧ b.info e ≠ none ∧ b.isAlive x = .ok true ∧ b.info x = none) := by
    intro b b' r e c src h hx hu
    unfold AWorld.addDyn at h
    split at h
    · injection h with _ h; subst h; exact Or.inl hx
    · injection h with _ h; subst h; exact Or.inl hx
    · split at h
      · injection h with _ h; subst h; exact Or.inl hx
      · injection h with _ h; subst h; exact Or.inl hx
      · rename_i hc
        split at h
        · injection h with _ h; subst h; exact Or.inl hx
        · injection h with _ h; subst h; exact Or.inl hx
        · rename_i h1 _ h3
          injection h with _ h; subst h
          by_cases hxc : x = c
          · subst hxc
            exact Or.inr ⟨rfl, by rw [h1]; simp, hc, h3⟩
          · left
            simpa [AWorld.addLocks, hxc] using hx
        · injection h with _ h; subst h
          by_cases hxc : x = c
          · subst hxc
            simp [AWorld.addLocks, AWorld.use] at hu
          · left
            simpa [AWorld.addLocks, AWorld.use, hxc] using hx
  cases call with
  | spawn kind xs =>
    left
    refine use ?_
    have h2 : a' = (a.spawn kind xs).2 := by rw [← void_snd]; exact (congrArg Prod.snd h).symm
    unfold AWorld.spawn at h2
    split at h2
    · rename_i h1
      subst h2
      exact .of_eq (spawnId_locks h1).1 (spawnId_locks h1).2.1
    · rename_i e a1 h1
      refine LocksUse.trans (.of_eq (spawnId_locks h1).1 (spawnId_locks h1).2.1) ?_
      split at h2
      · rename_i h3; subst h2; exact acts_locks xs h3
      · rename_i h3; subst h2; exact acts_locks xs h3
  | addComponent e t v =>
    unfold AWorld.step AWorld.addComponent at h
    dsimp only at h
    split at h
    · injection h with _ h; subst h; exact Or.inl hx
    · injection h with _ h; subst h; exact Or.inl hx
    · split at h
      · rename_i h1
        injection h with _ h; subst h
        rw [(register_locks h1).1] at hx; exact Or.inl hx
      · rename_i c a1 h1
        rcases hadd h hx hu with h2 | ⟨rfl, h2, h3, h4⟩
        · rw [(register_locks h1).1] at h2; exact Or.inl h2
        · exact absurd h4 (register_info ht h1 h3)
  | removeComponent e t =>
    left
    refine use ?_
    unfold AWorld.step AWorld.removeComponent at h
    dsimp only at h
    split at h
    · injection h with _ h; subst h; exact .refl _
    · injection h with _ h; subst h; exact .refl _
    · split at h
      · rename_i h1
        injection h with _ h; subst h
        exact .of_eq (register_locks h1).1 (register_locks h1).2
      · rename_i h1
        refine LocksUse.trans (.of_eq (register_locks h1).1 (register_locks h1).2) ?_
        unfold AWorld.removeDyn at h
        split at h
        · injection h with _ h; subst h; exact .refl _
        · injection h with _ h; subst h; exact .refl _
        · split at h
          · injection h with _ h; subst h; exact .refl _
          · injection h with _ h; subst h; exact .refl _
          · split at h
            · injection h with _ h; subst h; exact .refl _
            · injection h with _ h; subst h; exact .refl _
            · injection h with _ h; subst h; exact .of_eq rfl rfl
  | addDynamic e c =>
    unfold AWorld.step AWorld.addZst at h
    dsimp only at h
    split at h
    · injection h with _ h; subst h; exact Or.inl hx
    · injection h with _ h; subst h; exact Or.inl hx
    · split at h
      · injection h with _ h; subst h; exact Or.inl hx
      · injection h with _ h; subst h; exact Or.inl hx
      · split at h
        · injection h with _ h; subst h; exact Or.inl hx
        · rename_i hi
          split at h
          · injection h with _ h; subst h; exact Or.inl hx
          · rcases hadd h hx hu with h2 | ⟨rfl, _, _, h4⟩
            · exact Or.inl h2
            · rw [hi] at h4; cases h4
  | addDynamicWithData e c src =>
    rcases hadd h hx hu with h2 | ⟨rfl, h2, h3, h4⟩
    · exact Or.inl h2
    · exact Or.inr ⟨e, src, rfl, h2, h3, h4⟩
  | removeDynamic e c =>
    left
    refine use ?_
    unfold AWorld.step AWorld.removeDyn at h
    dsimp only at h
    split at h
    · injection h with _ h; subst h; exact .refl _
    · injection h with _ h; subst h; exact .refl _
    · split at h
      · injection h with _ h; subst h; exact .refl _
      · injection h with _ h; subst h; exact .refl _
      · split at h
        · injection h with _ h; subst h; exact .refl _
        · injection h with _ h; subst h; exact .refl _
        · injection h with _ h; subst h; exact .of_eq rfl rfl
  | despawn e =>
    left
    refine use ?_
    have h2 : a' = (a.despawn e).2 := by rw [← void_snd]; exact (congrArg Prod.snd h).symm
    unfold AWorld.despawn at h2
    split at h2
    · subst h2; exact .refl _
    · subst h2; exact .refl _
    · split at h2
      · subst h2; exact .refl _
      · split at h2
        · subst h2; exact .refl _
        · subst h2; exact .refl _
        · subst h2; exact .of_eq rfl rfl
  | register t =>
    left
    refine use ?_
    have h2 : a' = (a.register t).2 := by rw [← void_snd]; exact (congrArg Prod.snd h).symm
    have := register_locks (a := a) (t := t) (r := (a.register t).1) (a' := a') (by rw [h2])
    exact .of_eq this.1 this.2
  | write e c bs =>
    left
    refine use ?_
    unfold AWorld.step AWorld.write at h
    dsimp only at h
    split at h
    · injection h with _ h; subst h; exact .refl _
    · injection h with _ h; subst h; exact .refl _
    · split at h
      · injection h with _ h; subst h; exact .refl _
      · injection h with _ h; subst h; exact .refl _
      · split at h
        · injection h with _ h; subst h; exact .refl _
        · injection h with _ h; subst h; exact .refl _
        · injection h with _ h; subst h; exact .of_eq rfl rfl
  | query ps p =>
    left
    refine use ?_
    unfold AWorld.step AWorld.query at h
    dsimp only at h
    split at h
    · injection h with _ h; subst h; exact .refl _
    · exact lockAll_locks h
  | queryDynamic fs p => exact Or.inl (use (lockAll_locks h))

theorem lock_shown {w : World} {a : AWorld} (hi : Inv w) (ha : w.Shows a) (x : EcsId) : a.lock x ≠ none ↔ w.lockLookup x ≠ none := by
  constructor
  · intro h h0
    cases hl : a.lock x with
    | none => exact h hl
    | some p =>
      obtain ⟨i, l, h1, _⟩ := (ha.lock x p).1 hl
      rw [h0] at h1; cases h1
  · intro h h0
    cases hl : w.lockLookup x with
    | none => exact h hl
    | some i =>
      have hlt := hi.lock.range x i hl
      have := (ha.lock x w.locks[i].poisoned).2 ⟨i, w.locks[i], hl, List.getElem?_eq_getElem hlt, rfl⟩
      rw [h0] at this; cases this

theorem used_row {w : World} (hi : Inv w) {x : EcsId} (hu : w.Used x) : w.Row x := by
  obtain ⟨a, h1, h2⟩ := hu
  rw [← (hi.shape a h1).ids] at h2
  obtain ⟨⟨c, v⟩, hp, rfl⟩ := List.mem_map.1 h2
  obtain ⟨hl, m, hm, _⟩ := infoFn_some.1 (hi.col a h1 (c, v) hp).2.2
  exact ((infoIs_iff hi).1 (liveInfo hi m hl hm)).1

/-- C26: the stray lock is left by one call only.  Whatever call is made, and whether it returns or panics: if afterwards there
is a lock for a component that no table has, and before there was none, the call was `add_component_dynamic_with_data`, for an
entity that is built and an id that is alive but not built. -/
theorem C26_stray_only {w w' : World} (hw : Reachable w) {c : Call} (hc : c.Ok w)
    (h : c.exec w = .ok () w' ∨ ∃ f, c.exec w = .error f w' ∧ ¬ OutOfMemory f ∧ f ≠ .deadlock) {x : EcsId} (hl : w'.lockLookup x ≠ none)
    (hu : ¬ w'.Used x) (h0 : w.lockLookup x = none) : ∃ e src, c = .addDynamicWithData e x src ∧ w.Row e ∧ w.Alive x ∧ ¬ w.Row x := by
  have hs := hw.sound
  have hi := hs.inv
  obtain ⟨a, ha, _⟩ := C57_view hw
  have hal := C57_call hw ha (q := .call c) hc
  have he := exec_spec hi hs.nowrap.ready hs.idle hc
  have key : ∃ r a', a.step c = (r, a') ∧ w'.Shows a' ∧ Inv w' := by
    cases hst : a.step c with
    | mk r a' =>
      refine ⟨r, a', rfl, ?_⟩
      have h2 : (a.ask (.call c)).2 = a' := by show (match a.step c with | (r, a) => (r.map (fun _ => Answer.unit), a)).2 = a'; rw [hst]
      rcases h with h | ⟨f, h, hf, hd⟩
      · have hx : Ask.exec (.call c) w = .ok .unit w' := by
          show (c.exec >>= fun _ => pure Answer.unit) w = _
          simp only [bind, EStateM.bind, h]; rfl
        rw [hx] at hal
        exact ⟨h2 ▸ hal.2, (he.ok h).1.inv⟩
      · have hx : Ask.exec (.call c) w = .error f w' := by
          show (c.exec >>= fun _ => pure Answer.unit) w = _
          simp only [bind, EStateM.bind, h]
        rw [hx] at hal
        rcases hal with hal | ⟨_, hal⟩
        · exact absurd hal hf
        · refine ⟨h2 ▸ hal, ?_⟩
          rcases (he.error h).2 with (h3 | h3) | h3
          · exact absurd (Or.inl h3) hf
          · exact absurd h3 hd
          · exact h3.inv
  obtain ⟨r, a', hst, ha', hi'⟩ := key
  have ht : ∀ t c, a.types t = some c → a.isAlive c = .ok true → a.info c ≠ none := by
    intro t c h1 h2 h3
    rw [ha.types] at h1
    rw [ha.alive] at h2
    have h4 := alive_iff.1 h2
    have := (ha.info c _).2 (liveInfo hi _ h4 (hi.type.comp t c h1 h4))
    rw [h3] at this; cases this
  have hu' : a'.used x = false := by
    cases hx : a'.used x with
    | false => rfl
    | true => exact absurd ((ha'.used x).1 hx) hu
  rcases step_locks ht hst ((lock_shown hi' ha' x).2 hl) hu' with h1 | ⟨e, src, h1, h2, h3, h4⟩
  · exact absurd h0 ((lock_shown hi ha x).1 h1)
  · refine ⟨e, src, h1, ?_, ?_, (ha.infoNone hi).1 h4⟩
    · apply Classical.byContradiction
      intro hr; exact h2 ((ha.infoNone hi).2 hr)
    · rw [ha.alive] at h3; exact h3

/-- C26: and it always leaves one, in every world, unless the memory is exhausted.  Nothing else changes. -/
theorem C26_stray_always {w : World} (hw : Reachable w) (hroom : w.Roomy) {e x : EcsId} (he : w.Row e) (hx : w.Alive x) (hn : ¬ w.Row x) (src : Bytes) :
    ∃ w', addComponentDynamicWithData e x src w = .error .unwrapNone w' ∧ w'.lockLookup x ≠ none ∧ ¬ w'.Used x ∧
      (∀ y, w'.lockLookup y ≠ none → w.lockLookup y ≠ none ∨ y = x) ∧ (∀ y d bs, w'.Has y d bs ↔ w.Has y d bs) := by
  have hi := hw.sound.inv
  have hlx := alive_iff.1 hx
  have hcn : compOf w.metas x.uindex = none := by
    rw [← inst_none_iff_comp]; exact (hi.inst_none hlx).2 hn
  have hae : w.isAlive e = .ok true := alive_iff.2 (hi.row_live he)
  have hnc : ¬ w.HasComp e x := by
    rintro ⟨bs, hh⟩
    obtain ⟨m, hm⟩ := Inv.infoOf hi hh
    exact hn ((infoIs_iff hi).1 hm).1
  rcases (addDyn_spec hi e x (src := src) (fun m _ hm => by rw [hcn] at hm; cases hm)).cases with
    ⟨_, w', h1, ⟨hd, _⟩ | ⟨_, _, _, _, _, m, hm, _⟩⟩ | ⟨f, w', h1, ⟨_, hd, _⟩ | ⟨_, _, hr, _⟩ | ⟨_, _, _, hc, _⟩ | ⟨rfl, _, _, _, hi', hs, h2, h3, h4, _⟩ | ⟨_, _, _, hr, _⟩⟩
  · rcases hd with hd | ⟨_, hd⟩
    · rw [hae] at hd; cases hd
    · rw [hx] at hd; cases hd
  · rw [hcn] at hm; cases hm
  · rcases hd with hd | hd
    · rw [hae] at hd; cases hd
    · rw [hx] at hd; cases hd
  · exact absurd he hr
  · exact absurd hc hnc
  · refine ⟨w', h1, h3, fun hu => hn (used_row hi (h4 x hu)), h2, fun y d bs => ?_⟩
    exact hs.has hi.shape hi'.shape y d bs
  · exact absurd hroom hr

/-- The hypotheses of `C26_stray_always` are met in `stray`, those of `C26_stray_only` by the call that follows. -/
example : Reachable stray ∧ stray.Roomy ∧ stray.Row (ent 0) ∧ stray.Alive ⟨1, 5⟩ ∧ ¬ stray.Row ⟨1, 5⟩ ∧ stray.lockLookup ⟨1, 5⟩ = none ∧
    Call.exec (.addDynamicWithData (ent 0) ⟨1, 5⟩ []) stray = .error .unwrapNone stray' ∧ stray'.lockLookup ⟨1, 5⟩ ≠ none ∧ ¬ stray'.Used ⟨1, 5⟩ :=
  ⟨stray_reachable, by decide +kernel, by decide +kernel, by decide +kernel, by decide +kernel, by decide +kernel, eq_of_endsWith (by decide +kernel),
    by decide +kernel, by decide +kernel⟩

/-! ## C27 -/

/-- C27: the entity of a builder ends up in exactly as many rows as `build` was called on the builder.  So the claim holds for the chains with
one `build`, and for no chain with more.  Nothing is assumed about the chain but that it returned. -/
theorem C27_rows {w w' : World} (hw : Reachable w) {kind : SpawnKind} {as : List BAct} {e : EcsId} (h : spawnWith kind as w = .ok e w') :
    (w'.archetypes.flatMap Archetype.entities).count e = as.countP (· matches .build) := by
  have hi := hw.sound.inv
  unfold spawnWith at h
  obtain ⟨x, w1, h1, hx⟩ := bind_ok h
  obtain ⟨s1, s2, s3, s4⟩ := spawnId_rows hi.ent h1
  obtain ⟨b, w2, h2, hy⟩ := bind_ok hx
  have hb : b.entity = x ∧ RowsStay w1 w2 := by
    cases kind with
    | plain => exact new_rows h2
    | capacity n => exact withCapacity_rows h2
    | withMeta m => exact new_rows h2
  obtain ⟨b', w3, h3, hz⟩ := bind_ok hy
  have ha := acts_rows as (hb.2.1 ▸ s1) (by rw [hb.1, hb.2.1]; exact (s2 x).2 (Or.inr rfl)) h3
  obtain ⟨_, w4, h4, h5⟩ := bind_ok hz
  have hd := drop_rows h4
  injection h5 with h6 h7
  subst h6 h7
  have h0 : w.rows x = 0 := List.count_eq_zero_of_not_mem (fun hm => s3 (hi.row_live (by
    obtain ⟨a, ha, he⟩ := List.mem_flatMap.1 hm
    obtain ⟨k, hk⟩ := List.mem_iff_getElem?.1 ha
    obtain ⟨r, hr⟩ := List.mem_iff_getElem?.1 he
    exact ⟨k, r, a, hk, hr⟩)))
  have h8 : w1.rows x = 0 := by unfold World.rows; rw [s4]; exact h0
  have h9 : w4.rows x = as.countP BAct.isBuild := by
    rw [hd.2 x, ← hb.1, ha, hb.1, hb.2.2, h8, Nat.zero_add]
  have h10 : (fun a : BAct => (a matches .build)) = BAct.isBuild := by
    funext a; cases a <;> rfl
  rw [h10]
  exact h9

/-- Such chains return. -/
example : Reachable demo ∧ (∃ w', spawnWith .plain [.with tC (val 2 5), .build] demo = .ok ⟨1, 5⟩ w') ∧
    (∃ w', spawnWith .plain [.with tA (val 4 9), .build, .build, .build] demo = .ok ⟨1, 5⟩ w') :=
  ⟨demo_reachable, ⟨_, eq_of_endsOk (by decide +kernel)⟩, ⟨_, eq_of_endsOk (by decide +kernel)⟩⟩

/-- C27 fails: the second `build` after one that made a table finds no ids in the builder and puts the entity into the table without
components as well.  The entity is in two tables, has no component any more as far as the world can tell, and still has a row once it is despawned. -/
theorem C27_build_elsewhere : ∃ w, Reachable w ∧ ∃ e w1 w2 w3, spawnWith .plain [.with tC (val 2 5), .build] w = .ok e w1 ∧
    w1.hasComponent tC e = .ok true ∧
    spawnWith .plain [.with tC (val 2 5), .build, .build] w = .ok e w2 ∧ w2.hasComponent tC e = .ok false ∧
    (∃ a ∈ w2.archetypes, ∃ a' ∈ w2.archetypes, a.compIds ≠ a'.compIds ∧ e ∈ a.entities ∧ e ∈ a'.entities) ∧
    despawn e w2 = .ok true w3 ∧ ¬ w3.Alive e ∧ w3.Row e := by
  refine ⟨demo, demo_reachable, ⟨1, 5⟩, after (spawnWith .plain [.with tC (val 2 5), .build] demo),
    after (spawnWith .plain [.with tC (val 2 5), .build, .build] demo),
    after (despawn ⟨1, 5⟩ (after (spawnWith .plain [.with tC (val 2 5), .build, .build] demo))),
    eq_of_endsOk (by decide +kernel), by decide +kernel, eq_of_endsOk (by decide +kernel), by decide +kernel, by decide +kernel,
    eq_of_endsOk (by decide +kernel), by decide +kernel, by decide +kernel⟩

/-! ## C35 -/

theorem unsized_owed (m : ComponentMeta) (bs : Bytes) : unsized (owed m bs) = if bs.length = 0 then owed m bs else [] := by
  unfold owed unsized
  cases m.dropFn with
  | none => simp
  | some f => cases bs <;> simp

theorem perm_flatMap {α β : Type} {f g : α → List β} {l : List α} (h : ∀ x ∈ l, (f x).Perm (g x)) : (l.flatMap f).Perm (l.flatMap g) := by
  induction l with
  | nil => exact .refl _
  | cons x l ih =>
    rw [List.flatMap_cons, List.flatMap_cons]
    exact (h x List.mem_cons_self).append (ih (fun y hy => h y (List.mem_cons_of_mem _ hy)))

/-- The drop calls owed for one column. -/
theorem column_due {w : World} {a : AWorld} (h : Inv w) (ha : w.Shows a) {k : Nat} {ar : Archetype} (hk : w.archetypes[k]? = some ar) {c : EcsId} {v : UVec}
    (hp : (c, v) ∈ ar.storages) : UVec.dropEvs v.info v.elems = ar.entities.flatMap (fun e => a.due e c) := by
  have hmem := List.mem_of_getElem? hk
  obtain ⟨hv, hcnt, hinfo⟩ := h.col ar hmem (c, v) hp
  obtain ⟨hl, m, hm, hmi⟩ := infoFn_some.1 hinfo
  have hcnt : v.count = ar.entities.length := hcnt
  have hI : w.InfoIs c m := liveInfo h m hl hm
  have hel : elemsOf ar.storages c = some v.elems := elemsOf_of_mem (by rw [(h.shape ar hmem).ids]; exact (h.shape ar hmem).sorted.nodup) hp
  have key : ar.entities.map (fun e => a.due e c) = v.elems.map (fun bs => owed m bs) := by
    refine List.ext_getElem? fun r => ?_
    rw [List.getElem?_map, List.getElem?_map]
    by_cases hr : r < v.count
    · rw [elems_row hr]
      have hr' : r < ar.entities.length := by rw [← hcnt]; exact hr
      rw [List.getElem?_eq_getElem hr']
      have hrow : rowOf w.archetypes k r = some ar.entities[r] := by unfold rowOf; rw [hk]; exact List.getElem?_eq_getElem hr'
      have hhas : w.Has ar.entities[r] c (v.elem r) := by
        rw [has_at h hrow, cellOf_eq hk, hel]
        exact elems_row hr
      simp only [Option.map_some]
      rw [due_has ha hhas hI]
    · rw [UVec.getElem?_elems, if_neg hr, List.getElem?_eq_none (by rw [← hcnt]; exact Nat.le_of_not_lt hr)]
      rfl
  rw [List.flatMap_def, key, ← List.flatMap_def, show v.info = m.info from hmi.symm, dropEvs_flat]

theorem stored_due {w : World} {a : AWorld} (h : Inv w) (ha : w.Shows a) : w.storedEvs.Perm ((pairs w).flatMap (fun x => a.due x.1 x.2)) := by
  unfold storedEvs pairs
  rw [List.flatMap_assoc]
  apply perm_flatMap
  intro ar har
  obtain ⟨k, hk⟩ := List.mem_iff_getElem?.1 har
  rw [List.flatMap_assoc, ← (h.shape ar har).ids]
  unfold stEvs stIds
  rw [List.flatMap_map]
  apply perm_flatMap
  rintro ⟨c, v⟩ hp
  rw [List.flatMap_map]
  simp only
  rw [column_due h ha hk hp]
  exact List.Perm.flatMap_right _ (List.reverse_perm _).symm

/-- C35: exactly which values are never dropped.  Whatever the history of the world: dropping it drops no zero-sized value at
all, and what is missing then is one drop call for each zero-sized component (with a drop function) that an entity has at that
time. -/
theorem C35_exact {w : World} {d : Deal} (hd : Hist w d) {a : AWorld} (ha : w.Shows a) :
    ∃ (evs : List DropEv) (L : List (EcsId × EcsId)), dropWorld w = .ok evs ∧ unsized evs = [] ∧ L.Nodup ∧ (∀ e c, (e, c) ∈ L ↔ w.Has e c []) ∧
      (unsized (w.log ++ d.taken ++ d.lost) ++ L.flatMap (fun x => a.due x.1 x.2)).Perm (unsized d.given) := by
  have hi := hd.reachable.sound.inv
  obtain ⟨evs, h1, _, h3, _⟩ := dropWorld_spec hd.reachable
  refine ⟨evs, (pairs w).filter (fun x => decide (a.cell x.1 x.2 = some [])), h1, h3, (pairs_nodup hi).filter _, fun e c => ?_, ?_⟩
  · rw [List.mem_filter, mem_pairs hi, decide_eq_true_iff, ha.cell]
    exact ⟨fun h => h.2, fun h => ⟨⟨_, h⟩, h⟩⟩
  · have e1 : unsized ((pairs w).flatMap (fun x => a.due x.1 x.2)) =
        ((pairs w).filter (fun x => decide (a.cell x.1 x.2 = some []))).flatMap (fun x => a.due x.1 x.2) := by
      generalize pairs w = L
      induction L with
      | nil => rfl
      | cons x l ih =>
        have e2 : unsized (a.due x.1 x.2) = if a.cell x.1 x.2 = some [] then a.due x.1 x.2 else [] := by
          unfold AWorld.due
          split
          · rename_i bs m hb hm
            rw [unsized_owed]
            rw [hb]
            cases bs <;> simp
          · split <;> rfl
        rw [List.flatMap_cons, unsized_append, ih, e2, List.filter_cons]
        by_cases hx : a.cell x.1 x.2 = some []
        · simp [hx]
        · simp [hx]
    have e3 : (unsized w.storedEvs).Perm (unsized ((pairs w).flatMap (fun x => a.due x.1 x.2))) := (stored_due hi ha).filter _
    have e4 : (unsized (w.log ++ w.storedEvs ++ d.taken ++ d.lost)).Perm (unsized d.given) := hd.conserved.filter _
    rw [e1] at e3
    refine List.Perm.trans ?_ e4
    simp only [unsized_append]
    rw [List.perm_iff_count]
    intro ev
    have := List.perm_iff_count.1 e3 ev
    simp only [List.count_append]
    omega

/-- In `demo` one entity has the zero-sized component `Z`, which has a drop function: one drop call is missing. -/
example : (∃ d, Hist demo d) ∧ (∃ a, demo.Shows a) ∧ demo.Has (ent 0) (ent 4) [] ∧ demo.typeMap tZ = some (ent 4) :=
  ⟨demo_reachable.hist, (C57_view demo_reachable).imp fun _ h => h.1, by decide +kernel, by decide +kernel⟩

/-! ### The theorems at work -/

example := C36_exact demo_reachable (e := ent 0) (t := tC) (v := val 2 5) rfl (eq_of_endsOk (by decide +kernel))
example := C27_rows demo_reachable (kind := .plain) (as := [.with tA (val 4 9), .build, .build]) (e := ⟨1, 5⟩) (eq_of_endsOk (by decide +kernel))
example := C26_stray_always stray_reachable (by decide +kernel) (e := ent 0) (x := ⟨1, 5⟩) (by decide +kernel) (by decide +kernel) (by decide +kernel) []
example := C18_static_creation unused_reachable (ps := [.ids, .ref tA, .mut tC]) (f := .indexOob) (eq_of_endsWith (by decide +kernel))
example := C26_stray_only stray_reachable (c := .addDynamicWithData (ent 0) ⟨1, 5⟩ []) (x := ⟨1, 5⟩)
  (fun _ hm => absurd ((infoIs_iff stray_reachable.sound.inv).1 hm).1 (by decide +kernel : ¬ stray.Row ⟨1, 5⟩))
  (.inr ⟨.unwrapNone, C26_stray_lock.2.1, by decide, by decide⟩) (by decide +kernel) (by decide +kernel) (by decide +kernel)

end Ellecs.WorldSpec
