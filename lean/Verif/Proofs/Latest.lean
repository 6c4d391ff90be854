import Verif.Spec.Latest
import Verif.Proofs.Rebirth
/-!
# Components of an entity during a conversation
-/
namespace Ellecs
namespace World
open WorldSpec

namespace AW

/-- The entity `x`, if alive, stays as it is. -/
def Fr (x : EcsId) (a b : AWorld) : Prop := a.isAlive x = .ok true → b.isAlive x = .ok true ∧ b.info x = a.info x ∧ b.cell x = a.cell x

theorem Fr.rfl {x : EcsId} {a : AWorld} : Fr x a a := fun h => ⟨h, Eq.refl _, Eq.refl _⟩

theorem Fr.trans {x : EcsId} {a b c : AWorld} (h : Fr x a b) (h' : Fr x b c) : Fr x a c := fun hh => by
  obtain ⟨h1, h2, h3⟩ := h hh
  obtain ⟨k1, k2, k3⟩ := h' h1
  exact ⟨k1, k2.trans h2, k3.trans h3⟩

theorem Fr.of_eq {x : EcsId} {a b : AWorld} (h1 : b.ents = a.ents) (h2 : b.info = a.info) (h3 : b.cell = a.cell) : Fr x a b := fun h => by
  unfold AWorld.isAlive at *
  rw [h1, h2, h3]; exact ⟨h, Eq.refl _, Eq.refl _⟩

theorem alive_iff {a : AWorld} {x : EcsId} : a.isAlive x = .ok true ↔ a.ents.generations[x.idx.toNat]? = some (true, x.gen) :=
  Entities.isAlive_iff

theorem spawn_alive {a : AWorld} {x : EcsId} (h : a.isAlive x = .ok true) : a.ents.spawn.2.isAlive x = .ok true ∧ ∀ e, a.ents.spawn.1 = .ok e → e ≠ x := by
  have h' := alive_iff.1 h
  constructor
  · refine Entities.isAlive_iff.2 ?_
    show a.ents.spawn.2.generations[x.idx.toNat]? = _
    rcases spawn_slot a.ents x.idx with hs | ⟨g, hs, _⟩ | ⟨hs, _⟩
    · rw [hs, h']
    · rw [h'] at hs; cases hs
    · rw [h'] at hs; cases hs
  · rintro e he rfl
    rcases (spawned_slot he).2 with hs | hs <;> rw [h'] at hs <;> cases hs

theorem register_fr (x : EcsId) (t : Ty) (a : AWorld) : Fr x a (a.register t).2 := by
  intro h
  obtain ⟨h1, h2⟩ := spawn_alive h
  unfold AWorld.register
  cases a.types t with
  | some id => exact ⟨h, rfl, rfl⟩
  | none =>
    simp only
    unfold AWorld.spawnId
    cases hs : a.ents.spawn with
    | mk r s =>
      rw [hs] at h1 h2
      cases r with
      | error f => exact ⟨h1, rfl, rfl⟩
      | ok e =>
        refine ⟨h1, ?_, rfl⟩
        simp only
        rw [if_neg (fun hh => h2 e rfl hh.symm)]

theorem addDyn_fr {x e : EcsId} (hx : e ≠ x) (c : EcsId) (src : Bytes) (a : AWorld) : Fr x a (a.addDyn e c src).2 := by
  unfold AWorld.addDyn
  split <;> try exact .rfl
  split <;> try exact .rfl
  split <;> try exact .rfl
  intro h
  refine ⟨h, rfl, ?_⟩
  funext y
  show (if x = e ∧ y = c then _ else a.cell x y) = _
  rw [if_neg (fun hh => hx hh.1.symm)]

theorem removeDyn_fr {x e : EcsId} (hx : e ≠ x) (c : EcsId) (a : AWorld) : Fr x a (a.removeDyn e c).2 := by
  unfold AWorld.removeDyn
  split <;> try exact .rfl
  split <;> try exact .rfl
  split <;> try exact .rfl
  intro h
  refine ⟨h, rfl, ?_⟩
  funext y
  show (if x = e ∧ y = c then _ else a.cell x y) = _
  rw [if_neg (fun hh => hx hh.1.symm)]

theorem write_fr {x e : EcsId} (hx : e ≠ x) (c : EcsId) (bs : Bytes) (a : AWorld) : Fr x a (a.write e c bs).2 := by
  unfold AWorld.write
  split <;> try exact .rfl
  split <;> try exact .rfl
  split <;> try exact .rfl
  intro h
  refine ⟨h, rfl, ?_⟩
  funext y
  show (if x = e ∧ y = c then _ else a.cell x y) = _
  rw [if_neg (fun hh => hx hh.1.symm)]

theorem addZst_fr {x e : EcsId} (hx : e ≠ x) (c : EcsId) (a : AWorld) : Fr x a (a.addZst e c).2 := by
  unfold AWorld.addZst
  split <;> try exact .rfl
  split <;> try exact .rfl
  split <;> try exact .rfl
  split
  · exact .rfl
  · exact addDyn_fr hx c [] a

theorem addComponent_fr {x e : EcsId} (hx : e ≠ x) (t : Ty) (v : Bytes) (a : AWorld) : Fr x a (a.addComponent e t v).2 := by
  unfold AWorld.addComponent
  split <;> try exact .rfl
  have h := register_fr x t a
  split
  · next h' => rw [h'] at h; exact h
  · next h' => rw [h'] at h; exact h.trans (addDyn_fr hx _ _ _)

theorem removeComponent_fr {x e : EcsId} (hx : e ≠ x) (t : Ty) (a : AWorld) : Fr x a (a.removeComponent e t).2 := by
  unfold AWorld.removeComponent
  split <;> try exact .rfl
  have h := register_fr x t a
  split
  · next h' => rw [h'] at h; exact h
  · next h' => rw [h'] at h; exact h.trans (removeDyn_fr hx _ _)

theorem despawn_fr {x e : EcsId} (a : AWorld) (hx : e ≠ x ∨ (a.despawn e).1 ≠ .ok true) : Fr x a (a.despawn e).2 := by
  unfold AWorld.despawn at hx ⊢
  split
  · exact .rfl
  · exact .rfl
  · next hal =>
    simp only [hal] at hx
    split
    · exact .rfl
    · next hu =>
      rw [if_neg hu] at hx
      split
      · exact .rfl
      · exact .rfl
      · next b s h1 h2 =>
        simp only [h1, h2, ne_eq, not_true, or_false] at hx
        intro h
        have h' := alive_iff.1 h
        refine ⟨?_, ?_, ?_⟩
        · refine Entities.isAlive_iff.2 ?_
          show s.generations[x.idx.toNat]? = _
          rcases despawn_slot h2 x.idx with hs | ⟨hi, hs, _⟩
          · rw [hs, h']
          · rw [h'] at hs
            exfalso
            apply hx
            cases e; cases x
            simp only at hi
            simp only [Option.some.injEq, Prod.mk.injEq, true_and] at hs
            rw [hi, hs]
        · show (if x = e then _ else _) = _
          rw [if_neg (fun hh => hx hh.symm)]
        · funext y
          show (if x = e then _ else _) = _
          rw [if_neg (fun hh => hx hh.symm)]

theorem lockAll_fr (x : EcsId) (b : Bool) (fs : List Fetch) (p : Bool) (a : AWorld) : Fr x a (a.lockAll b fs p).2 := by
  unfold AWorld.lockAll AWorld.poison
  split
  · exact .of_eq rfl rfl rfl
  · simp only; split <;> exact .of_eq rfl rfl rfl

theorem query_fr (x : EcsId) (ps : List Param) (p : Bool) (a : AWorld) : Fr x a (a.query ps p).2 := by
  unfold AWorld.query
  split
  · exact .rfl
  · exact lockAll_fr _ _ _ _ _

theorem give_fr (x c : EcsId) (v : Bytes) (b : AWorld.Draft) (a : AWorld) : Fr x a (a.give c v b).2 ∧
    ∀ b', (a.give c v b).1 = .ok b' → b'.entity = b.entity := by
  unfold AWorld.give
  split
  · exact ⟨.rfl, fun b' h => by cases h⟩
  · split
    · exact ⟨.rfl, fun b' h => by cases h⟩
    · exact ⟨.rfl, fun b' h => by cases h; rfl⟩

theorem act_fr {x : EcsId} (b : AWorld.Draft) (hb : b.entity ≠ x) (y : BAct) (a : AWorld) : Fr x a (a.act b y).2 ∧
    ∀ b', (a.act b y).1 = .ok b' → b'.entity = b.entity := by
  unfold AWorld.act
  cases y with
  | «with» t v =>
    simp only
    have h := register_fr x t a
    split
    · next h' => rw [h'] at h; exact ⟨h, fun b' hh => by cases hh⟩
    · next h' => rw [h'] at h; exact ⟨h.trans (give_fr ..).1, (give_fr x _ v b _).2⟩
  | withDynamicWithData c v => exact give_fr ..
  | withDynamic c =>
    simp only
    split
    · exact ⟨.rfl, fun b' h => by cases h⟩
    · split
      · exact ⟨.rfl, fun b' h => by cases h⟩
      · split
        · exact ⟨.rfl, fun b' h => by cases h⟩
        · exact ⟨.rfl, fun b' h => by cases h; rfl⟩
  | build =>
    refine ⟨fun h => ⟨h, ?_, ?_⟩, fun b' h => by cases h; rfl⟩
    · show (if x = b.entity then _ else _) = _
      rw [if_neg (fun hh => hb hh.symm)]
    · funext z
      show (if x = b.entity then _ else _) = _
      rw [if_neg (fun hh => hb hh.symm)]

theorem acts_fr {x : EcsId} (ys : List BAct) : ∀ (b : AWorld.Draft) (a : AWorld), b.entity ≠ x → Fr x a (AWorld.acts b ys a).2 := by
  induction ys with
  | nil => intro b a _; exact .rfl
  | cons y ys ih =>
    intro b a hb
    unfold AWorld.acts
    obtain ⟨h, h2⟩ := act_fr b hb y a
    split
    · next h' => rw [h'] at h; exact h
    · next h' => rw [h'] at h h2; exact h.trans (ih _ _ (by rw [h2 _ rfl]; exact hb))

theorem spawn_fr (x : EcsId) (kind : SpawnKind) (ys : List BAct) (a : AWorld) : Fr x a (a.spawn kind ys).2 := by
  intro h
  obtain ⟨h1, h2⟩ := spawn_alive h
  unfold AWorld.spawn AWorld.spawnId
  cases hs : a.ents.spawn with
  | mk r s =>
    rw [hs] at h1 h2
    cases r with
    | error f => exact ⟨h1, rfl, rfl⟩
    | ok e =>
      simp only
      have h := acts_fr ys ⟨e, AWorld.metaOf kind, []⟩ { a with ents := s } (h2 e rfl) h1
      split
      · next h' => rw [h'] at h; exact h
      · next h' => rw [h'] at h; exact h

end AW

/-- A question that does not concern `x`. -/
theorem ask_fr {q : Ask} {x : EcsId} (a : AWorld) (hq : ¬ Involves x q) : AW.Fr x a (a.ask q).2 := by
  cases q with
  | spawn kind acts => exact AW.spawn_fr x kind acts a
  | despawn e => exact AW.despawn_fr a (Or.inl hq)
  | register t => exact AW.register_fr x t a
  | isAlive e => exact .rfl
  | has t e => exact .rfl
  | look e c n => exact .rfl
  | call c =>
    show AW.Fr x a (a.step c).2
    cases c with
    | spawn kind acts => unfold AWorld.step; rw [AW.void_snd]; exact AW.spawn_fr x kind acts a
    | addComponent e t v => exact AW.addComponent_fr hq t v a
    | removeComponent e t => exact AW.removeComponent_fr hq t a
    | addDynamic e c => exact AW.addZst_fr hq c a
    | addDynamicWithData e c src => exact AW.addDyn_fr hq c src a
    | removeDynamic e c => exact AW.removeDyn_fr hq c a
    | despawn e => unfold AWorld.step; rw [AW.void_snd]; exact AW.despawn_fr a (Or.inl hq)
    | register t => unfold AWorld.step; rw [AW.void_snd]; exact AW.register_fr x t a
    | write e c bs => exact AW.write_fr hq c bs a
    | query ps p => exact AW.query_fr x ps p a
    | queryDynamic fs p => exact AW.lockAll_fr _ _ _ _ _

namespace AW

/-- Liveness and metadata only change by despawning. -/
def Stays (x : EcsId) (a b : AWorld) : Prop := a.isAlive x = .ok true → b.isAlive x = .ok true ∧ b.info x = a.info x

theorem Fr.stays {x : EcsId} {a b : AWorld} (h : Fr x a b) : Stays x a b := fun hh => ⟨(h hh).1, (h hh).2.1⟩

theorem Stays.of_eq {x : EcsId} {a b : AWorld} (h1 : b.ents = a.ents) (h2 : b.info = a.info) : Stays x a b := fun h => by
  unfold AWorld.isAlive at *
  rw [h1, h2]; exact ⟨h, rfl⟩

theorem Stays.trans {x : EcsId} {a b c : AWorld} (h : Stays x a b) (h' : Stays x b c) : Stays x a c := fun hh => by
  obtain ⟨h1, h2⟩ := h hh
  obtain ⟨k1, k2⟩ := h' h1
  exact ⟨k1, k2.trans h2⟩

theorem addDyn_info (e c : EcsId) (src : Bytes) (a : AWorld) : (a.addDyn e c src).2.info = a.info := by
  unfold AWorld.addDyn AWorld.addLocks AWorld.use
  split <;> try rfl
  split <;> try rfl
  split <;> rfl

theorem removeDyn_info (e c : EcsId) (a : AWorld) : (a.removeDyn e c).2.info = a.info := by
  unfold AWorld.removeDyn
  split <;> try rfl
  split <;> try rfl
  split <;> rfl

theorem addZst_info (e c : EcsId) (a : AWorld) : (a.addZst e c).2.info = a.info := by
  unfold AWorld.addZst
  split <;> try rfl
  split <;> try rfl
  split <;> try rfl
  split
  · rfl
  · exact addDyn_info e c [] a

theorem write_info (e c : EcsId) (bs : Bytes) (a : AWorld) : (a.write e c bs).2.info = a.info := by
  unfold AWorld.write
  split <;> try rfl
  split <;> try rfl
  split <;> rfl

theorem addComponent_stays (x e : EcsId) (t : Ty) (v : Bytes) (a : AWorld) : Stays x a (a.addComponent e t v).2 := by
  unfold AWorld.addComponent
  split <;> try exact Fr.rfl.stays
  have h := (register_fr x t a).stays
  split
  · next h' => rw [h'] at h; exact h
  · next h' => rw [h'] at h; exact h.trans (.of_eq (addDyn_ents ..) (addDyn_info ..))

theorem removeComponent_stays (x e : EcsId) (t : Ty) (a : AWorld) : Stays x a (a.removeComponent e t).2 := by
  unfold AWorld.removeComponent
  split <;> try exact Fr.rfl.stays
  have h := (register_fr x t a).stays
  split
  · next h' => rw [h'] at h; exact h
  · next h' => rw [h'] at h; exact h.trans (.of_eq (removeDyn_ents ..) (removeDyn_info ..))

end AW

theorem ask_stays {q : Ask} {x : EcsId} (a : AWorld) (hk : ¬ Kills (q, (a.ask q).1) x) : AW.Stays x a (a.ask q).2 := by
  have hd : ∀ e, (a.despawn e).1 ≠ .ok true ∨ e ≠ x → AW.Stays x a (a.despawn e).2 := fun e h => (AW.despawn_fr a h.symm).stays
  cases q with
  | spawn kind acts => exact (AW.spawn_fr x kind acts a).stays
  | despawn e =>
    refine hd e (Classical.byContradiction fun hh => hk ?_)
    simp only [ne_eq, not_or, Classical.not_not] at hh
    obtain ⟨h1, rfl⟩ := hh
    left
    show (Ask.despawn e, Except.map Answer.bool (a.despawn e).1) = _
    rw [h1]; rfl
  | register t => exact (AW.register_fr x t a).stays
  | isAlive e => exact AW.Fr.rfl.stays
  | has t e => exact AW.Fr.rfl.stays
  | look e c n => exact AW.Fr.rfl.stays
  | call c =>
    show AW.Stays x a (a.step c).2
    cases c with
    | spawn kind acts => unfold AWorld.step; rw [AW.void_snd]; exact (AW.spawn_fr x kind acts a).stays
    | addComponent e t v => exact AW.addComponent_stays x e t v a
    | removeComponent e t => exact AW.removeComponent_stays x e t a
    | addDynamic e c => exact .of_eq (AW.addZst_ents ..) (AW.addZst_info ..)
    | addDynamicWithData e c src => exact .of_eq (AW.addDyn_ents ..) (AW.addDyn_info ..)
    | removeDynamic e c => exact .of_eq (AW.removeDyn_ents ..) (AW.removeDyn_info ..)
    | despawn e =>
      unfold AWorld.step; rw [AW.void_snd]
      refine hd e (Classical.byContradiction fun hh => hk ?_)
      simp only [ne_eq, not_or, Classical.not_not] at hh
      obtain ⟨h1, rfl⟩ := hh
      right
      show (Ask.call (.despawn e), Except.map (fun _ => Answer.unit) (AWorld.void (a.despawn e)).1) = _
      rw [AW.void_fst, h1]; rfl
    | register t => unfold AWorld.step; rw [AW.void_snd]; exact (AW.register_fr x t a).stays
    | write e c bs => exact .of_eq (AW.write_ents ..) (AW.write_info ..)
    | query ps p => exact (AW.query_fr x ps p a).stays
    | queryDynamic fs p => exact (AW.lockAll_fr _ _ _ _ _).stays

/-! ## One cell -/

namespace AW

theorem addDyn_cell {e c : EcsId} {m : ComponentMeta} (src : Bytes) {a : AWorld} (he : a.isAlive e = .ok true) (hc : a.isAlive c = .ok true) (hm : a.info c = some m)
    (y : EcsId) (hy : a.isAlive y = .ok true) :
    (a.addDyn e y src).2.cell e c = if y = c then (match (a.addDyn e c src).1 with | .ok _ => some (src.take m.layout.size) | .error _ => a.cell e c) else a.cell e c := by
  by_cases h : y = c
  · subst h
    rw [if_pos rfl]
    unfold AWorld.addDyn
    simp only [he, hc, hm]
    cases h1 : a.info e with
    | none => rfl
    | some m' =>
      cases h2 : a.cell e y with
      | none => simp [AWorld.addLocks, AWorld.use]
      | some bs => simp only; rw [h2]
  · rw [if_neg h]
    unfold AWorld.addDyn
    simp only [he, hy]
    split
    · rfl
    · rfl
    · rfl
    · show (if e = e ∧ c = y then _ else _) = _
      rw [if_neg (fun hh => h hh.2.symm)]

theorem addDyn_dead {e y : EcsId} (src : Bytes) {a : AWorld} (hy : a.isAlive y ≠ .ok true) : (a.addDyn e y src).2 = a := by
  unfold AWorld.addDyn
  split <;> try rfl
  split
  · rfl
  · rfl
  · next h => exact absurd h hy

theorem removeDyn_cell {e c : EcsId} {a : AWorld} (he : a.isAlive e = .ok true) (hc : a.isAlive c = .ok true) (y : EcsId) :
    (a.removeDyn e y).2.cell e c = if y = c then (match (a.removeDyn e c).1 with | .ok _ => none | .error _ => a.cell e c) else a.cell e c := by
  by_cases h : y = c
  · subst h
    rw [if_pos rfl]
    unfold AWorld.removeDyn
    simp only [he, hc]
    cases h1 : a.info e with
    | none => rfl
    | some m' =>
      cases h2 : a.cell e y with
      | none => simp only; rw [h2]
      | some bs => simp
  · rw [if_neg h]
    unfold AWorld.removeDyn
    split <;> try rfl
    split <;> try rfl
    split
    · rfl
    · rfl
    · show (if e = e ∧ c = y then _ else _) = _
      rw [if_neg (fun hh => h hh.2.symm)]

theorem write_cell {e c : EcsId} {a : AWorld} (he : a.isAlive e = .ok true) (hc : a.isAlive c = .ok true) (hn : a.info e = none → a.cell e c = none) (y : EcsId) (bs : Bytes) :
    (a.write e y bs).2.cell e c = if y = c then (match (a.write e c bs).1 with | .ok _ => (a.cell e c).map (fun _ => bs) | .error _ => a.cell e c) else a.cell e c := by
  by_cases h : y = c
  · subst h
    rw [if_pos rfl]
    unfold AWorld.write
    simp only [he, hc]
    cases h1 : a.info e with
    | none => simp only; rw [hn h1]; rfl
    | some m' =>
      cases h2 : a.cell e y with
      | none => simp only; rw [h2]
      | some b => simp
  · rw [if_neg h]
    unfold AWorld.write
    split <;> try rfl
    split <;> try rfl
    split
    · rfl
    · rfl
    · show (if e = e ∧ c = y then _ else _) = _
      rw [if_neg (fun hh => h hh.2.symm)]

/-- Registering a type gives its id, which was not alive if it is new. -/
theorem register_id (t : Ty) (a : AWorld) : ∀ id, (a.register t).1 = .ok id → (a.register t).2.types t = some id ∧
    (a.types t = some id ∨ (a.types t = none ∧ ∀ x, a.isAlive x = .ok true → id ≠ x)) := by
  intro id h
  unfold AWorld.register at h ⊢
  cases ht : a.types t with
  | some id' => simp only [ht] at h ⊢; cases h; exact ⟨rfl, Or.inl rfl⟩
  | none =>
    simp only [ht] at h ⊢
    unfold AWorld.spawnId at h ⊢
    cases hs : a.ents.spawn with
    | mk r s =>
      simp only [hs] at h ⊢
      cases r with
      | error f => cases h
      | ok e =>
        cases h
        refine ⟨by simp, Or.inr ⟨trivial, fun x hx hh => ?_⟩⟩
        exact (spawn_alive hx).2 id (by rw [hs]) hh

end AW

/-- What one question does to a cell of an entity that is alive, and stays so. -/
theorem ask_touch {q : Ask} {e c : EcsId} {m : ComponentMeta} {ty : Ty → Option EcsId} {a : AWorld} (he : a.isAlive e = .ok true) (hc : a.isAlive c = .ok true)
    (hm : a.info c = some m) (hn : a.info e = none → a.cell e c = none) (hty : ∀ t id, (a.ask q).2.types t = some id → ty t = some id)
    (hsz : ∀ t v, q = .call (.addComponent e t v) → a.types t = some c → v.take m.layout.size = v) (hk : ¬ Kills (q, (a.ask q).1) e) :
    (a.ask q).2.cell e c = touch ty e c m.layout.size (q, (a.ask q).1) (a.cell e c) := by
  by_cases hi : ¬ Involves e q
  · have hf := ((ask_fr a hi) he).2.2
    rw [hf]
    unfold touch
    split <;> try rfl
    all_goals
      simp only [Prod.mk.injEq] at *
      next h => rw [h.1] at hi; rw [if_neg (fun hh => hi hh.1)]
  replace hi := Classical.not_not.1 hi
  cases q with
  | spawn kind acts => exact hi.elim
  | despawn x =>
    have : x = e := hi
    subst this
    have hf := AW.despawn_fr (x := x) a (e := x) (Or.inr (fun hh => hk (Or.inl (by
      show (Ask.despawn x, Except.map Answer.bool (a.despawn x).1) = _
      rw [hh]; rfl))))
    exact congrFun (hf he).2.2 c
  | register t => exact hi.elim
  | isAlive e => exact hi.elim
  | has t e => exact hi.elim
  | look e c n => exact hi.elim
  | call k =>
    cases k with
    | spawn kind acts => exact hi.elim
    | register t => exact hi.elim
    | query ps p => exact hi.elim
    | queryDynamic fs p => exact hi.elim
    | despawn x =>
      have : x = e := hi
      subst this
      have hf := AW.despawn_fr (x := x) a (e := x) (Or.inr (fun hh => hk (Or.inr (by
        show (Ask.call (.despawn x), Except.map (fun _ => Answer.unit) (AWorld.void (a.despawn x)).1) = _
        rw [AW.void_fst, hh]; rfl))))
      have h1 : (a.ask (.call (.despawn x))).2 = (a.despawn x).2 := AW.void_snd _
      rw [h1]
      exact congrFun (hf he).2.2 c
    | write x y bs =>
      have : x = e := hi
      subst this
      show (a.write x y bs).2.cell x c = touch ty x c _ (.call (.write x y bs), Except.map (fun _ => Answer.unit) (a.write x y bs).1) (a.cell x c)
      rw [AW.write_cell he hc hn]
      by_cases h : y = c
      · subst h
        rw [if_pos rfl]
        cases (a.write x y bs).1 <;> simp [touch, Except.map]
      · rw [if_neg h]
        cases (a.write x y bs).1 <;> simp [touch, Except.map, h]
    | removeDynamic x y =>
      have : x = e := hi
      subst this
      show (a.removeDyn x y).2.cell x c = touch ty x c _ (.call (.removeDynamic x y), Except.map (fun _ => Answer.unit) (a.removeDyn x y).1) (a.cell x c)
      rw [AW.removeDyn_cell he hc]
      by_cases h : y = c
      · subst h
        rw [if_pos rfl]
        cases (a.removeDyn x y).1 <;> simp [touch, Except.map]
      · rw [if_neg h]
        cases (a.removeDyn x y).1 <;> simp [touch, Except.map, h]
    | addDynamicWithData x y src =>
      have : x = e := hi
      subst this
      show (a.addDyn x y src).2.cell x c = touch ty x c _ (.call (.addDynamicWithData x y src), Except.map (fun _ => Answer.unit) (a.addDyn x y src).1) (a.cell x c)
      by_cases hy : a.isAlive y = .ok true
      · rw [AW.addDyn_cell src he hc hm y hy]
        by_cases h : y = c
        · subst h
          rw [if_pos rfl]
          cases (a.addDyn x y src).1 <;> simp [touch, Except.map]
        · rw [if_neg h]
          cases (a.addDyn x y src).1 <;> simp [touch, Except.map, h]
      · rw [AW.addDyn_dead src hy]
        have h : y ≠ c := fun h => hy (h ▸ hc)
        cases (a.addDyn x y src).1 <;> simp [touch, Except.map, h]
    | addDynamic x y =>
      have : x = e := hi
      subst this
      show (a.addZst x y).2.cell x c = touch ty x c _ (.call (.addDynamic x y), Except.map (fun _ => Answer.unit) (a.addZst x y).1) (a.cell x c)
      have hz : (a.addZst x y).2 = a ∧ (∃ f, (a.addZst x y).1 = .error f) ∨ (a.addZst x y = a.addDyn x y [] ∧ a.isAlive y = .ok true) := by
        unfold AWorld.addZst
        simp only [he]
        split
        · exact Or.inl ⟨rfl, _, rfl⟩
        · exact Or.inl ⟨rfl, _, rfl⟩
        · next hy =>
          split
          · exact Or.inl ⟨rfl, _, rfl⟩
          · split
            · exact Or.inl ⟨rfl, _, rfl⟩
            · exact Or.inr ⟨rfl, hy⟩
      rcases hz with ⟨h1, f, h2⟩ | ⟨h1, hy⟩
      · rw [h1, h2]; rfl
      · rw [h1, AW.addDyn_cell [] he hc hm y hy]
        by_cases h : y = c
        · subst h
          rw [if_pos rfl]
          cases (a.addDyn x y []).1 <;> simp [touch, Except.map]
        · rw [if_neg h]
          cases (a.addDyn x y []).1 <;> simp [touch, Except.map, h]
    | addComponent x t v =>
      have : x = e := hi
      subst this
      have hty' : ∀ t' id, (a.addComponent x t v).2.types t' = some id → ty t' = some id := hty
      show (a.addComponent x t v).2.cell x c = touch ty x c _ (.call (.addComponent x t v), Except.map (fun _ => Answer.unit) (a.addComponent x t v).1) (a.cell x c)
      have hf := AW.register_fr x t a he
      have hfc := AW.register_fr c t a hc
      have hid := AW.register_id t a
      unfold AWorld.addComponent at hty' ⊢
      simp only [he] at hty' ⊢
      cases hr : a.register t with
      | mk r b =>
        rw [hr] at hf hfc hid
        simp only [hr] at hty' ⊢
        cases r with
        | error f => simp only; rw [hf.2.2]; rfl
        | ok y =>
          simp only at hty' ⊢
          obtain ⟨i1, i2⟩ := hid y rfl
          have ht : ty t = some y := hty' t y (by rw [AW.addDyn_types]; exact i1)
          rw [← hf.2.2]
          by_cases hy : b.isAlive y = .ok true
          · rw [AW.addDyn_cell v hf.1 hfc.1 (hfc.2.1.trans hm) y hy]
            by_cases h : y = c
            · subst h
              rw [if_pos rfl]
              have h3 : a.types t = some y := i2.resolve_right (fun hh => hh.2 y hc rfl)
              rw [hsz t v rfl h3]
              cases (b.addDyn x y v).1 <;> simp [touch, Except.map, ht]
            · rw [if_neg h]
              cases (b.addDyn x y v).1 <;> simp [touch, Except.map, ht, h]
          · rw [AW.addDyn_dead v hy]
            have h : y ≠ c := fun h => hy (h ▸ hfc.1)
            cases (b.addDyn x y v).1 <;> simp [touch, Except.map, ht, h]
    | removeComponent x t =>
      have : x = e := hi
      subst this
      have hty' : ∀ t' id, (a.removeComponent x t).2.types t' = some id → ty t' = some id := hty
      show (a.removeComponent x t).2.cell x c = touch ty x c _ (.call (.removeComponent x t), Except.map (fun _ => Answer.unit) (a.removeComponent x t).1) (a.cell x c)
      have hf := AW.register_fr x t a he
      have hfc := AW.register_fr c t a hc
      have hid := AW.register_id t a
      unfold AWorld.removeComponent at hty' ⊢
      simp only [he] at hty' ⊢
      cases hr : a.register t with
      | mk r b =>
        rw [hr] at hf hfc hid
        simp only [hr] at hty' ⊢
        cases r with
        | error f => simp only; rw [hf.2.2]; rfl
        | ok y =>
          simp only at hty' ⊢
          obtain ⟨i1, i2⟩ := hid y rfl
          have ht : ty t = some y := hty' t y (by rw [AW.removeDyn_types]; exact i1)
          rw [← hf.2.2, AW.removeDyn_cell hf.1 hfc.1]
          by_cases h : y = c
          · subst h
            rw [if_pos rfl]
            cases (b.removeDyn x y).1 <;> simp [touch, Except.map, ht]
          · rw [if_neg h]
            cases (b.removeDyn x y).1 <;> simp [touch, Except.map, ht, h]

/-! ## Conversations -/

/-- A question in a world, as one in the maps. -/
theorem ask_maps {q : Ask} {w w' : World} (hw : Safe w []) (hq : q.Ok w) {r : Except Fault Answer}
    (h : (∃ x, r = .ok x ∧ q.exec w = .ok x w') ∨ ∃ f, r = .error f ∧ q.exec w = .error f w' ∧ ¬ OutOfMemory f) :
    (w.view.ask q).1 = r ∧ w'.Shows (w.view.ask q).2 := by
  have ha := view_shows hw.inv.inv
  have hs := sim_ask hw.inv.inv hw.inv.ready hw.inv.held ha hq
  rcases h with ⟨x, rfl, h⟩ | ⟨f, rfl, h, hf⟩
  · exact hs.ok h
  · exact (hs.error h).resolve_left hf

theorem Shows.cell_eq {w : World} {a b : AWorld} (ha : w.Shows a) (hb : w.Shows b) : a.cell = b.cell := by rw [shows_unique ha hb]

theorem world_fr {q : Ask} {w w' : World} {e : EcsId} (hw : Safe w []) (hq : q.Ok w) (hi : ¬ Involves e q) {r : Except Fault Answer}
    (h : (∃ x, r = .ok x ∧ q.exec w = .ok x w') ∨ ∃ f, r = .error f ∧ q.exec w = .error f w' ∧ ¬ OutOfMemory f) (he : w.Alive e) :
    w'.Alive e ∧ (∀ m, w'.InfoIs e m ↔ w.InfoIs e m) ∧ ∀ c bs, w'.Has e c bs ↔ w.Has e c bs := by
  have ha := view_shows hw.inv.inv
  obtain ⟨_, s2⟩ := ask_maps hw hq h
  obtain ⟨h1, h2, h3⟩ := ask_fr w.view hi (by rw [ha.alive]; exact he)
  refine ⟨?_, fun m => ?_, fun c bs => ?_⟩
  · rw [s2.alive] at h1; exact h1
  · rw [← s2.info, ← ha.info, h2]
  · rw [← s2.cell, ← ha.cell, h3]

theorem world_touch {q : Ask} {w w' : World} {e c : EcsId} {m : ComponentMeta} {ty : Ty → Option EcsId} (hw : Safe w []) (hq : q.Ok w) {r : Except Fault Answer}
    (h : (∃ x, r = .ok x ∧ q.exec w = .ok x w') ∨ ∃ f, r = .error f ∧ q.exec w = .error f w' ∧ ¬ OutOfMemory f) (he : w.Alive e) (hm : w.InfoIs c m)
    (hty : ∀ t id, w'.typeMap t = some id → ty t = some id) (hke : ¬ Kills (q, r) e) (hkc : ¬ Kills (q, r) c) {old : Option Bytes} (ho : ∀ bs, w.Has e c bs ↔ old = some bs) :
    w'.Alive e ∧ w'.InfoIs c m ∧ ∀ bs, w'.Has e c bs ↔ touch ty e c m.layout.size (q, r) old = some bs := by
  have hi := hw.inv.inv
  have ha := view_shows hi
  obtain ⟨s1, s2⟩ := ask_maps hw hq h
  have hcl : w.Alive c := Entities.isAlive_live (hi.row_live ((infoIs_iff hi).1 hm).1)
  have he' : w.view.isAlive e = .ok true := by rw [ha.alive]; exact he
  have hc' : w.view.isAlive c = .ok true := by rw [ha.alive]; exact hcl
  have hm' : w.view.info c = some m := (ha.info c m).2 hm
  have hold : w.view.cell e c = old := by
    apply Option.ext
    intro bs
    rw [ha.cell, ho]
  rw [← s1] at hke hkc
  have k1 := ask_stays w.view hke he'
  have k2 := ask_stays w.view hkc hc'
  have k3 := ask_touch he' hc' hm' (fun hn => by
      cases hcell : w.view.cell e c with
      | none => rfl
      | some bs =>
        obtain ⟨k, r, t, v, h1, h2, _⟩ := (ha.cell e c bs).1 hcell
        exact absurd ⟨k, r, t, h1, h2⟩ ((ha.infoNone hi).1 hn))
    (fun t id hh => hty t id (by rw [← s2.types]; exact hh))
    (fun t v hqq ht => by
      subst hqq
      have hl : v.length = t.size := hq
      rw [ha.types] at ht
      have := (ha.info _ _).2 (hi.type_info ht (Entities.isAlive_iff.1 hcl))
      rw [hm'] at this
      cases this
      exact List.take_of_length_le (by rw [hl]; exact Nat.le_refl _)) hke
  refine ⟨?_, ?_, fun bs => ?_⟩
  · have := k1.1; rw [s2.alive] at this; exact this
  · exact (s2.info c m).1 (k2.2.trans hm')
  · rw [← s2.cell, k3, s1, hold]

theorem not_despawned_cons {p : Ask × Except Fault Answer} {rest : List (Ask × Except Fault Answer)} {e : EcsId} (h : ¬ Despawned (p :: rest) e) :
    ¬ Kills p e ∧ ¬ Despawned rest e :=
  ⟨fun hk => h ⟨p, List.mem_cons_self, hk⟩, fun ⟨x, hx, hk⟩ => h ⟨x, List.mem_cons_of_mem _ hx, hk⟩⟩

theorem FreeTalk.latest {w w' : World} {e c : EcsId} {m : ComponentMeta} {tr : List (Ask × Except Fault Answer)} (hw : Safe w []) (h : FreeTalk w tr w')
    (he : w.Alive e) (hm : w.InfoIs c m) (hde : ¬ Despawned tr e) (hdc : ¬ Despawned tr c) : ∀ {old : Option Bytes}, (∀ bs, w.Has e c bs ↔ old = some bs) →
    w'.Alive e ∧ w'.InfoIs c m ∧ ∀ bs, w'.Has e c bs ↔ World.latest w'.typeMap e c m.layout.size tr old = some bs := by
  induction h with
  | done w => intro old ho; exact ⟨he, hm, ho⟩
  | @ok w w1 w2 q x rest h1 h2 h3 h4 ih =>
    intro old ho
    have hw1 := (ask_safe hw h1).1 _ _ h2 h3
    obtain ⟨d1, d2⟩ := not_despawned_cons hde
    obtain ⟨d3, d4⟩ := not_despawned_cons hdc
    obtain ⟨k1, k2, k3⟩ := world_touch (ty := w2.typeMap) hw h1 (Or.inl ⟨x, rfl, h2⟩) he hm (fun t id ht => h4.keeps hw1 ht) d1 d3 ho
    exact ih hw1 k1 k2 d2 d4 k3
  | @panic w w1 w2 q f rest h1 h2 h3 h4 h5 h6 ih =>
    intro old ho
    have hw1 := (ask_safe hw h1).2 _ _ h2 (fun hh => h3 (Or.inl hh)) h4 h5
    obtain ⟨d1, d2⟩ := not_despawned_cons hde
    obtain ⟨d3, d4⟩ := not_despawned_cons hdc
    obtain ⟨k1, k2, k3⟩ := world_touch (ty := w2.typeMap) hw h1 (Or.inr ⟨f, rfl, h2, h3⟩) he hm (fun t id ht => h6.keeps hw1 ht) d1 d3 ho
    exact ih hw1 k1 k2 d2 d4 k3

theorem FreeTalk.untouched {w w' : World} {e : EcsId} {tr : List (Ask × Except Fault Answer)} (hw : Safe w []) (h : FreeTalk w tr w')
    (he : w.Alive e) (hi : ∀ p ∈ tr, ¬ Involves e p.1) :
    w'.Alive e ∧ (∀ m, w'.InfoIs e m ↔ w.InfoIs e m) ∧ ∀ c bs, w'.Has e c bs ↔ w.Has e c bs := by
  induction h with
  | done w => exact ⟨he, fun _ => Iff.rfl, fun _ _ => Iff.rfl⟩
  | @ok w w1 w2 q x rest h1 h2 h3 h4 ih =>
    obtain ⟨k1, k2, k3⟩ := world_fr hw h1 (hi _ List.mem_cons_self) (Or.inl ⟨x, rfl, h2⟩) he
    obtain ⟨l1, l2, l3⟩ := ih ((ask_safe hw h1).1 _ _ h2 h3) k1 (fun p hp => hi p (List.mem_cons_of_mem _ hp))
    exact ⟨l1, fun m => (l2 m).trans (k2 m), fun c bs => (l3 c bs).trans (k3 c bs)⟩
  | @panic w w1 w2 q f rest h1 h2 h3 h4 h5 h6 ih =>
    obtain ⟨k1, k2, k3⟩ := world_fr hw h1 (hi _ List.mem_cons_self) (Or.inr ⟨f, rfl, h2, h3⟩) he
    obtain ⟨l1, l2, l3⟩ := ih ((ask_safe hw h1).2 _ _ h2 (fun hh => h3 (Or.inl hh)) h4 h5) k1 (fun p hp => hi p (List.mem_cons_of_mem _ hp))
    exact ⟨l1, fun m => (l2 m).trans (k2 m), fun c bs => (l3 c bs).trans (k3 c bs)⟩

end World
end Ellecs
