import Verif.Proofs.SpawnWith
import Verif.Proofs.Locks
/-!
# What calls do to the locks

Every call except the making of queries only appends fresh locks, and gives them to components that had none.
Proved by going through the code, without any invariant.
-/
namespace Ellecs
open World

/-- Only fresh locks were added, for components without a lock. -/
structure LockExt (w w' : World) : Prop where
  locks : ∃ n, w'.locks = w.locks ++ List.replicate n RwLock.new
  look : ∀ id i, w.lockLookup id = some i → w'.lockLookup id = some i
  fresh : ∀ id i, w'.lockLookup id = some i → w.lockLookup id = some i ∨ w.locks.length ≤ i

theorem LockExt.refl (w : World) : LockExt w w := ⟨⟨0, by simp⟩, fun _ _ h => h, fun _ _ h => Or.inl h⟩

theorem LockExt.of_eq {w w' : World} (h1 : w'.locks = w.locks) (h2 : w'.lockLookup = w.lockLookup) : LockExt w w' :=
  ⟨⟨0, by simp [h1]⟩, fun _ _ h => by rw [h2]; exact h, fun _ _ h => Or.inl (by rw [← h2]; exact h)⟩

theorem LockExt.trans {w w1 w' : World} (h : LockExt w w1) (h' : LockExt w1 w') : LockExt w w' := by
  obtain ⟨n, hn⟩ := h.locks
  obtain ⟨m, hm⟩ := h'.locks
  refine ⟨⟨n + m, by rw [hm, hn, List.append_assoc, List.replicate_append_replicate]⟩, fun _ _ hh => h'.look _ _ (h.look _ _ hh), ?_⟩
  intro id i hh
  rcases h'.fresh id i hh with hh | hh
  · exact h.fresh id i hh
  · right; rw [hn] at hh; simp at hh; omega

theorem LockExt.ensure (w : World) (id : EcsId) : LockExt w (ensureLock w id) := by
  unfold ensureLock
  cases hk : w.lockLookup id with
  | some i => exact .refl w
  | none =>
    refine ⟨⟨1, rfl⟩, ?_, ?_⟩
    · intro x i hx
      simp only [mapInsert]
      split
      · rename_i heq; subst heq; rw [hk] at hx; cases hx
      · exact hx
    · intro x i hx
      simp only [mapInsert] at hx
      split at hx
      · injection hx with hx; right; omega
      · exact Or.inl hx

theorem LockExt.ensureAll (ids : List EcsId) : ∀ w : World, LockExt w (ids.foldl ensureLock w) := by
  induction ids with
  | nil => exact fun w => .refl w
  | cons id ids ih => exact fun w => (LockExt.ensure w id).trans (ih _)

/-- `x` keeps the locks, whether it panics or not. -/
def Keeps {α : Type} (x : M α) (w : World) : Prop := Tri x w (fun _ w' => LockExt w w') (fun _ w' => LockExt w w')

theorem Keeps.pure {α : Type} (a : α) (w : World) : Keeps (pure a) w := LockExt.refl w
theorem Keeps.throw {α : Type} (f : Fault) (w : World) : Keeps (α := α) (throw f) w := LockExt.refl w

theorem Keeps.get (w : World) : Keeps get w := LockExt.refl w

theorem Keeps.liftE {α : Type} (x : Except Fault α) (w : World) : Keeps (liftE x) w := by
  unfold Keeps; rw [tri_liftE]; cases x <;> exact .refl w

theorem Keeps.bind {α β : Type} {x : M α} {f : α → M β} {w : World} (hx : Keeps x w) (hf : ∀ a w', x w = .ok a w' → Keeps (f a) w') : Keeps (x >>= f) w := by
  unfold Keeps
  rw [tri_bind]
  refine hx.with_eq.imp ?_ ?_
  · rintro a w' ⟨he, h⟩
    exact (hf a w' he).imp (fun _ _ h' => h.trans h') (fun _ _ h' => h.trans h')
  · exact fun _ _ h => h.2

/-- Like `bind` when the result does not matter. -/
theorem Keeps.bind' {α β : Type} {x : M α} {f : α → M β} {w : World} (hx : Keeps x w) (hf : ∀ a w', Keeps (f a) w') : Keeps (x >>= f) w :=
  hx.bind (fun a w' _ => hf a w')

theorem Keeps.step {g : World → Except Fault World} {w : World} (h : ∀ w', g w = .ok w' → LockExt w w') : Keeps (step g) w := by
  unfold Keeps; rw [tri_step]
  cases hg : g w with
  | ok w' => exact h w' hg
  | error f => exact .refl w

theorem Keeps.modify {g : World → World} {w : World} (h : LockExt w (g w)) : Keeps (modify g) w := h

theorem Keeps.set {w w' : World} (h : LockExt w w') : Keeps (set w') w := h

theorem Keeps.ite {α : Type} {c : Prop} [Decidable c] {x y : M α} {w : World} (hx : Keeps x w) (hy : Keeps y w) : Keeps (if c then x else y) w := by
  by_cases h : c
  · rw [if_pos h]; exact hx
  · rw [if_neg h]; exact hy

/-! ## Pure parts -/

theorem pushArchetype_keeps {w w' : World} {a : Archetype} (h : pushArchetype w a = .ok w') : LockExt w w' := by
  unfold pushArchetype at h
  split at h
  · cases h
  · split at h
    · cases h
    · injection h with h; subst h; exact .of_eq rfl rfl

theorem insertCache_keeps {w w' : World} {k t : Nat} {id : EcsId} (h : insertCache w k id t = .ok w') : LockExt w w' := by
  unfold insertCache at h
  split at h
  · cases h
  · split at h
    · cases h
    · injection h with h; subst h; exact .of_eq rfl rfl

theorem tryFindNext_keeps {w w' : World} {k : Nat} {id : EcsId} {r : Option Nat} (h : tryFindNext w k id = .ok (r, w')) : LockExt w w' := by
  unfold tryFindNext at h
  split at h
  · cases h
  · split at h
    · cases h
    · injection h with h; injection h with _ h; subst h; exact .of_eq rfl rfl

theorem setEntityMeta_keeps {w w' : World} {e : EcsId} {m : EntityMeta} (h : setEntityMeta w e m = .ok w') : LockExt w w' := by
  unfold setEntityMeta at h
  split at h
  · cases h
  · injection h with h; subst h; exact .refl _
  · split at h <;> (injection h with h; subst h; exact .of_eq rfl rfl)

theorem finishMove_keeps {w w' : World} {cur tar : Nat} {a b : Archetype} {e : EcsId} {row : Nat} (h : finishMove w cur tar a b e row = .ok w') : LockExt w w' := by
  unfold finishMove at h
  simp only at h
  split at h
  · cases h
  · split at h
    · split at h
      · injection h with h; subst h; exact .of_eq rfl rfl
      · split at h
        · cases h
        · injection h with h; subst h; exact .of_eq rfl rfl
    · cases h

theorem moveAddRow_keeps {w w' : World} {cur tar : Nat} {e c : EcsId} {row : Nat} {src : Bytes} (h : moveAddRow cur tar e row c src w = .ok w') :
    LockExt w w' := by
  unfold moveAddRow at h
  repeat (first | (split at h; try cases h) | exact finishMove_keeps h)

theorem moveRemoveRow_keeps {w w' : World} {cur tar : Nat} {e c : EcsId} {row : Nat} (h : moveRemoveRow cur tar e row c w = .ok w') :
    LockExt w w' := by
  unfold moveRemoveRow at h
  split at h
  · cases h
  split at h
  · cases h
  simp only at h
  split at h
  · cases h
  split at h
  · cases h
  split at h
  · cases h
  split at h
  · cases h
  rename_i hf
  injection h with h; subst h
  exact (finishMove_keeps hf).trans (.of_eq rfl rfl)

/-! ## Operations -/

theorem createPlus_keeps (cur : Nat) (c : EcsId) (w : World) : Keeps (createPlus cur c) w := by
  unfold createPlus
  refine (Keeps.modify (LockExt.ensure w c)).bind' fun _ w => (Keeps.get w).bind' fun v w => (Keeps.liftE _ w).bind' fun _ w => (Keeps.liftE _ w).bind' fun _ w =>
    (Keeps.liftE _ w).bind' fun _ w => (Keeps.liftE _ w).bind' fun _ w => (Keeps.step fun _ h => pushArchetype_keeps h).bind' fun _ w => (Keeps.get w).bind' fun _ w =>
    (Keeps.step fun _ h => insertCache_keeps h).bind' fun _ w => Keeps.pure _ w

theorem createMinus_keeps (cur : Nat) (c : EcsId) (w : World) : Keeps (createMinus cur c) w := by
  unfold createMinus
  refine (Keeps.get w).bind' fun v w => (Keeps.liftE _ w).bind' fun _ w => (Keeps.liftE _ w).bind' fun _ w =>
    (Keeps.step fun _ h => pushArchetype_keeps h).bind' fun _ w => (Keeps.get w).bind' fun _ w =>
    (Keeps.step fun _ h => insertCache_keeps h).bind' fun _ w => Keeps.pure _ w

theorem liftE_ok {α : Type} {x : Except Fault α} {w w' : World} {a : α} (h : liftE x w = .ok a w') : x = .ok a ∧ w' = w := by
  unfold liftE at h
  cases x with
  | ok b => injection h with h1 h2; subst h1 h2; exact ⟨rfl, rfl⟩
  | error f => cases h

theorem ite_throw_ok {c : Prop} [Decidable c] {f : Fault} {w w' : World} {u : PUnit} (h : (if c then throw f else pure PUnit.unit : M PUnit) w = .ok u w') : w' = w := by
  by_cases hc : c
  · rw [if_pos hc] at h; cases h
  · rw [if_neg hc] at h; injection h with _ h; exact h.symm

theorem resolveAdd_keeps (cur : Nat) (c : EcsId) (w : World) : Keeps (resolveAdd cur c) w := by
  unfold resolveAdd
  refine (Keeps.get w).bind fun v w1 h1 => ?_
  injection h1 with h1 h1'; subst h1 h1'
  refine (Keeps.liftE _ _).bind fun a w2 h2 => ?_
  obtain ⟨_, rfl⟩ := liftE_ok h2
  refine Keeps.ite (Keeps.throw _ _) ?_
  refine (Keeps.liftE _ _).bind fun x w3 h3 => ?_
  obtain ⟨h3, rfl⟩ := liftE_ok h3
  obtain ⟨r, w4⟩ := x
  refine (Keeps.set (tryFindNext_keeps h3)).bind' fun _ w => ?_
  cases r with
  | some k => exact Keeps.pure _ _
  | none =>
    refine (Keeps.liftE _ _).bind' fun found w => ?_
    cases found with
    | some k => exact (Keeps.step fun _ h => insertCache_keeps h).bind' fun _ w => Keeps.pure _ w
    | none => exact createPlus_keeps _ _ _

theorem resolveRemove_keeps (cur : Nat) (c : EcsId) (w : World) : Keeps (resolveRemove cur c) w := by
  unfold resolveRemove
  refine (Keeps.get w).bind fun v w1 h1 => ?_
  injection h1 with h1 h1'; subst h1 h1'
  refine (Keeps.liftE _ _).bind fun a w2 h2 => ?_
  obtain ⟨_, rfl⟩ := liftE_ok h2
  refine Keeps.ite (Keeps.throw _ _) ?_
  refine (Keeps.liftE _ _).bind fun x w3 h3 => ?_
  obtain ⟨h3, rfl⟩ := liftE_ok h3
  obtain ⟨r, w4⟩ := x
  refine (Keeps.set (tryFindNext_keeps h3)).bind' fun _ w => ?_
  cases r with
  | some k => exact Keeps.pure _ _
  | none =>
    refine (Keeps.liftE _ _).bind' fun found w => ?_
    cases found with
    | some k => exact (Keeps.step fun _ h => insertCache_keeps h).bind' fun _ w => Keeps.pure _ w
    | none => exact createMinus_keeps _ _ _

theorem addDyn_keeps (e c : EcsId) (src : Bytes) (w : World) : Keeps (addComponentDynamicWithData e c src) w := by
  unfold addComponentDynamicWithData
  refine (Keeps.get w).bind' fun v w => (Keeps.liftE _ w).bind' fun _ w => Keeps.ite (Keeps.pure _ w) <| (Keeps.liftE _ w).bind' fun _ w =>
    Keeps.ite (Keeps.pure _ w) <| (Keeps.liftE _ w).bind' fun _ w => (Keeps.liftE _ w).bind' fun _ w => (resolveAdd_keeps _ _ w).bind' fun _ w =>
    Keeps.step fun _ h => moveAddRow_keeps h

theorem removeDyn_keeps (e c : EcsId) (w : World) : Keeps (removeComponentDynamic e c) w := by
  unfold removeComponentDynamic
  refine (Keeps.get w).bind' fun v w => (Keeps.liftE _ w).bind' fun _ w => Keeps.ite (Keeps.pure _ w) <| (Keeps.liftE _ w).bind' fun _ w =>
    Keeps.ite (Keeps.pure _ w) <| (Keeps.liftE _ w).bind' fun _ w => (Keeps.liftE _ w).bind' fun _ w => (resolveRemove_keeps _ _ w).bind' fun _ w =>
    Keeps.step fun _ h => moveRemoveRow_keeps h

theorem addZst_keeps (e c : EcsId) (w : World) : Keeps (addComponentDynamic e c) w := by
  unfold addComponentDynamic
  refine (Keeps.get w).bind' fun v w => (Keeps.liftE _ w).bind' fun _ w => Keeps.ite (Keeps.throw _ w) <| (Keeps.liftE _ w).bind' fun _ w =>
    Keeps.ite (Keeps.throw _ w) <| (Keeps.liftE _ w).bind' fun _ w => (Keeps.liftE _ w).bind' fun _ w => Keeps.ite (Keeps.throw _ w) <| addDyn_keeps _ _ _ w

theorem despawn_keeps (e : EcsId) (w : World) : Keeps (despawn e) w := by
  unfold despawn
  refine (Keeps.get w).bind' fun v w => (Keeps.liftE _ w).bind' fun _ w => Keeps.ite (Keeps.pure _ w) <| Keeps.ite (Keeps.throw _ w) <|
    (Keeps.liftE _ w).bind' fun _ w => (Keeps.liftE _ w).bind' fun _ w => (Keeps.step fun w' h => ?_).bind' fun _ w => (Keeps.step fun w' h => ?_).bind' fun _ w => Keeps.pure _ w
  · split at h
    · cases h
    · split at h
      · cases h
      · injection h with h; subst h; exact .of_eq rfl rfl
  · split at h
    · cases h
    · injection h with h; subst h; exact .of_eq rfl rfl

theorem bdrop_keeps (b : Builder) (w : World) : Keeps b.drop w := by
  unfold Keeps Tri Builder.drop
  repeat' split
  all_goals simp_all
  all_goals (try (rename_i h; repeat' split at h))
  all_goals (try cases h)
  all_goals (try obtain ⟨rfl, rfl⟩ := h)
  all_goals (try subst_vars)
  all_goals exact .of_eq rfl rfl

theorem bnew_keeps (e : EcsId) (m : ComponentMeta) (w : World) : Keeps (Builder.new e m) w := by
  unfold Keeps Tri Builder.new
  cases h : w.reuse with
  | none => exact .refl w
  | some x => exact .of_eq rfl rfl

theorem bcap_keeps (e : EcsId) (m : ComponentMeta) (n : Nat) (w : World) : Keeps (Builder.withCapacity e m n) w := by
  unfold Keeps Tri Builder.withCapacity
  cases h : w.reuse with
  | none =>
    simp only
    by_cases h0 : n = 0
    · simp only [if_pos h0]; exact .refl w
    · simp only [if_neg h0]
      by_cases h1 : layoutOk n 0 = true
      · simp only [if_pos h1]; exact .refl w
      · simp only [if_neg h1]; exact .refl w
  | some x => exact .of_eq rfl rfl

theorem orDrop_keeps {α : Type} {b : Builder} {x : M α} {w : World} (h : Keeps x w) : Keeps (b.orDrop x) w := by
  unfold Keeps Tri Builder.orDrop at *
  cases hx : x w with
  | ok a w' => rw [hx] at h; exact h
  | error f w' =>
    rw [hx] at h
    have hb := bdrop_keeps b w'
    unfold Keeps Tri at hb
    cases hd : b.drop w' with
    | ok u w2 => rw [hd] at hb; simp only [hd]; exact LockExt.trans h hb
    | error f2 w2 => rw [hd] at hb; simp only [hd]; exact LockExt.trans h hb

theorem pushComps_keeps (b : Builder) (k : Nat) (ids : List EcsId) : ∀ (off : Nat) (w : World), Keeps (b.pushComps k off ids) w := by
  induction ids with
  | nil => exact fun _ w => Keeps.pure _ w
  | cons id ids ih =>
    intro off w
    unfold Builder.pushComps
    refine (Keeps.get w).bind' fun v w => (Keeps.liftE _ w).bind' fun _ w => (Keeps.liftE _ w).bind' fun _ w => (Keeps.step fun w' h => ?_).bind' fun _ w =>
      (Keeps.get w).bind' fun v w => (Keeps.liftE _ w).bind' fun _ w => ih _ w
    repeat' split at h
    all_goals first | (injection h with h; subst h; exact .of_eq rfl rfl) | cases h

theorem failDropping_keeps {α : Type} (f : Fault) (st : List (EcsId × UVec)) (w : World) : Keeps (α := α) (failDropping f st) w := by
  unfold Keeps Tri failDropping
  cases dropStorages st with
  | ok evs => exact .of_eq rfl rfl
  | error f => exact .refl w

theorem createArchetype_keeps (b : Builder) (w : World) : Keeps b.createArchetype w := by
  unfold Builder.createArchetype
  refine (Keeps.get w).bind' fun v w => ?_
  split
  · exact failDropping_keeps _ _ _
  · simp only
    split
    · exact failDropping_keeps _ _ _
    · exact Keeps.ite (Keeps.pure _ _) (failDropping_keeps _ _ _)

theorem build_keeps (b : Builder) (w : World) : Keeps b.build w := by
  unfold Builder.build
  refine (Keeps.get w).bind' fun v w => (Keeps.liftE _ w).bind' fun found w => ?_
  cases found with
  | some k =>
    refine (Keeps.step fun w' h => ?_).bind' fun _ w => (pushComps_keeps _ _ _ _ w).bind' fun _ w => (Keeps.get w).bind' fun v w => (Keeps.liftE _ w).bind' fun _ w =>
      (Keeps.step fun w' h => setEntityMeta_keeps h).bind' fun _ w => Keeps.pure _ w
    split at h
    · cases h
    · injection h with h; subst h; exact .of_eq rfl rfl
  | none =>
    exact (Keeps.modify (LockExt.ensureAll _ w)).bind' fun _ w => (createArchetype_keeps _ w).bind' fun _ w =>
      (Keeps.step fun w' h => pushArchetype_keeps h).bind' fun _ w => (Keeps.get w).bind' fun _ w =>
      (Keeps.step fun w' h => setEntityMeta_keeps h).bind' fun _ w => Keeps.pure _ w

theorem spawnId_keeps (w : World) : Keeps spawnId w := by
  unfold Keeps Tri spawnId
  cases h : w.entities.spawn with
  | mk r s => cases r <;> exact .of_eq rfl rfl

theorem getOrCreate_keeps (t : Ty) (w : World) : Keeps (getOrCreate t) w := by
  unfold getOrCreate
  refine (Keeps.get w).bind' fun v w => ?_
  cases v.typeMap t with
  | some id => exact Keeps.pure _ w
  | none =>
    refine (spawnId_keeps w).bind' fun _ w => (bnew_keeps _ _ w).bind' fun b w => (orDrop_keeps (build_keeps b w)).bind' fun _ w => (bdrop_keeps _ w).bind' fun _ w =>
      (Keeps.step fun w' h => ?_).bind' fun _ w => (Keeps.modify (.of_eq rfl rfl)).bind' fun _ w => Keeps.pure _ w
    split at h
    · cases h
    · cases h
    · injection h with h; subst h; exact .of_eq rfl rfl

theorem act_keeps (b : Builder) (a : BAct) (w : World) : Keeps (b.act a) w := by
  unfold Builder.act
  refine orDrop_keeps ?_
  cases a with
  | «with» t v => exact (getOrCreate_keeps t w).bind' fun _ w => (Keeps.get w).bind' fun _ w => Keeps.liftE _ w
  | withDynamic id => exact (Keeps.get w).bind' fun _ w => Keeps.liftE _ w
  | withDynamicWithData id v => exact (Keeps.get w).bind' fun _ w => Keeps.liftE _ w
  | build => exact build_keeps b w

theorem acts_keeps (as : List BAct) : ∀ (b : Builder) (w : World), Keeps (b.acts as) w := by
  induction as with
  | nil => exact fun b w => Keeps.pure b w
  | cons a as ih => exact fun b w => (act_keeps b a w).bind' fun b w => ih b w

theorem spawnWith_keeps (kind : SpawnKind) (as : List BAct) (w : World) : Keeps (spawnWith kind as) w := by
  unfold spawnWith
  refine (spawnId_keeps w).bind' fun e w => Keeps.bind' ?_ fun b w => (acts_keeps as b w).bind' fun b w => (bdrop_keeps b w).bind' fun _ w => Keeps.pure _ w
  cases kind with
  | plain => exact bnew_keeps _ _ w
  | capacity n => exact bcap_keeps _ _ _ w
  | withMeta m => exact bnew_keeps _ _ w

theorem addComponent_keeps (e : EcsId) (t : Ty) (v : Bytes) (w : World) : Keeps (addComponent e t v) w := by
  unfold addComponent
  refine Keeps.bind' ?_ fun _ w => addDyn_keeps _ _ _ w
  have : Keeps (do
      let w ← get
      let alive ← liftE (w.isAlive e)
      if !alive then throw .notAlive
      getOrCreate t) w :=
    (Keeps.get w).bind' fun v w => (Keeps.liftE _ w).bind' fun _ w => Keeps.ite (Keeps.throw _ w) (getOrCreate_keeps t w)
  unfold Keeps Tri orDropValue at *
  revert this
  cases (do
      let w ← get
      let alive ← liftE (w.isAlive e)
      if !alive then throw .notAlive
      getOrCreate t : M EcsId) w with
  | ok a w' => exact fun h => h
  | error f w' => exact fun h => h.trans (.of_eq rfl rfl)

theorem removeComponent_keeps (e : EcsId) (t : Ty) (w : World) : Keeps (removeComponent e t) w := by
  unfold removeComponent
  exact (Keeps.get w).bind' fun v w => (Keeps.liftE _ w).bind' fun _ w => Keeps.ite (Keeps.throw _ w) <| (getOrCreate_keeps t w).bind' fun _ w => removeDyn_keeps _ _ w

theorem writePtr_keeps {w w' : World} {p : Ptr} {bs : Bytes} (h : w.writePtr p bs = .ok w') : LockExt w w' := by
  unfold writePtr at h
  repeat' split at h
  all_goals first | (injection h with h; subst h; exact .of_eq rfl rfl) | cases h

/-- The calls that do not make a query. -/
def World.Call.Plain : Call → Prop
  | .query _ _ | .queryDynamic _ _ => False
  | _ => True

theorem exec_keeps {c : Call} (hc : c.Plain) (w : World) : Keeps c.exec w := by
  cases c with
  | spawn kind acts => exact (spawnWith_keeps kind acts w).bind' fun _ w => Keeps.pure _ w
  | addComponent e t v => exact addComponent_keeps e t v w
  | removeComponent e t => exact removeComponent_keeps e t w
  | addDynamic e c => exact addZst_keeps e c w
  | addDynamicWithData e c src => exact addDyn_keeps e c src w
  | removeDynamic e c => exact removeDyn_keeps e c w
  | despawn e => exact (despawn_keeps e w).bind' fun _ w => Keeps.pure _ w
  | register t => exact (getOrCreate_keeps t w).bind' fun _ w => Keeps.pure _ w
  | write e c bs =>
    unfold Call.exec
    refine (Keeps.get w).bind' fun v w => (Keeps.liftE _ w).bind' fun p w => ?_
    cases p with
    | none => exact Keeps.pure _ w
    | some p => exact Keeps.step fun _ h => writePtr_keeps h
  | query ps b => exact hc.elim
  | queryDynamic fs b => exact hc.elim

end Ellecs
