import Verif.Proofs.TableTrace
import Verif.Spec.Program
/-!
# How many tables calls create

Proved by going through the code, without any invariant.
-/
namespace Ellecs
open World

/-- `x` creates at most `n` tables, whether it panics or not. -/
def AddsM {α : Type} (n : Nat) (x : M α) (w : World) : Prop :=
  Tri x w (fun _ w' => w'.archetypes.length ≤ w.archetypes.length + n) (fun _ w' => w'.archetypes.length ≤ w.archetypes.length + n)

theorem AddsM.le {α : Type} {n m : Nat} {x : M α} {w : World} (h : AddsM n x w) (hn : n ≤ m) : AddsM m x w :=
  h.imp (fun _ _ h => by omega) (fun _ _ h => by omega)

theorem AddsM.pure {α : Type} (n : Nat) (a : α) (w : World) : AddsM n (pure a) w := Nat.le_add_right _ _
theorem AddsM.throw {α : Type} (n : Nat) (f : Fault) (w : World) : AddsM (α := α) n (throw f) w := Nat.le_add_right _ _

theorem AddsM.get (n : Nat) (w : World) : AddsM n get w := Nat.le_add_right _ _

theorem AddsM.liftE {α : Type} (n : Nat) (x : Except Fault α) (w : World) : AddsM n (liftE x) w := by
  unfold AddsM; rw [tri_liftE]; cases x <;> exact Nat.le_add_right _ _

/-- The first part creates no table. -/
theorem AddsM.bind {α β : Type} {n : Nat} {x : M α} {f : α → M β} {w : World} (hx : AddsM 0 x w) (hf : ∀ a w', AddsM n (f a) w') : AddsM n (x >>= f) w := by
  unfold AddsM
  rw [tri_bind]
  refine Tri.imp hx (fun a w' h => ?_) (fun _ _ h => by omega)
  exact Tri.imp (hf a w') (fun _ _ h' => by omega) (fun _ _ h' => by omega)

/-- Like `bind`, with the result of the first part. -/
theorem AddsM.bindE {α β : Type} {n : Nat} {x : M α} {f : α → M β} {w : World} (hx : AddsM 0 x w) (hf : ∀ a w', x w = .ok a w' → AddsM n (f a) w') :
    AddsM n (x >>= f) w := by
  unfold AddsM
  rw [tri_bind]
  refine (Tri.with_eq hx).imp ?_ (fun _ _ h => by have := h.2; omega)
  rintro a w' ⟨he, h⟩
  exact Tri.imp (hf a w' he) (fun _ _ h' => by omega) (fun _ _ h' => by omega)

/-- Only the first part creates tables. -/
theorem AddsM.seq {α β : Type} {n : Nat} {x : M α} {f : α → M β} {w : World} (hx : AddsM n x w) (hf : ∀ a w', AddsM 0 (f a) w') : AddsM n (x >>= f) w := by
  unfold AddsM
  rw [tri_bind]
  refine Tri.imp hx (fun a w' h => ?_) (fun _ _ h => by omega)
  exact Tri.imp (hf a w') (fun _ _ h' => by omega) (fun _ _ h' => by omega)

theorem AddsM.both {α β : Type} {n m : Nat} {x : M α} {f : α → M β} {w : World} (hx : AddsM n x w) (hf : ∀ a w', AddsM m (f a) w') : AddsM (n + m) (x >>= f) w := by
  unfold AddsM
  rw [tri_bind]
  refine Tri.imp hx (fun a w' h => ?_) (fun _ _ h => by omega)
  exact Tri.imp (hf a w') (fun _ _ h' => by omega) (fun _ _ h' => by omega)

theorem AddsM.step {n : Nat} {g : World → Except Fault World} {w : World} (h : ∀ w', g w = .ok w' → w'.archetypes.length ≤ w.archetypes.length + n) : AddsM n (step g) w := by
  unfold AddsM; rw [tri_step]
  cases hg : g w with
  | ok w' => exact h w' hg
  | error f => exact Nat.le_add_right _ _

theorem AddsM.ite {α : Type} {n : Nat} {c : Prop} [Decidable c] {x y : M α} {w : World} (hx : AddsM n x w) (hy : AddsM n y w) : AddsM n (if c then x else y) w := by
  by_cases h : c
  · rw [if_pos h]; exact hx
  · rw [if_neg h]; exact hy

/-- A part that replaces tables by others. -/
theorem AddsM.same {n : Nat} {g : World → Except Fault World} {w : World} (h : ∀ w', g w = .ok w' → w'.archetypes.length = w.archetypes.length) : AddsM n (World.step g) w :=
  .step fun w' hw => by rw [h w' hw]; exact Nat.le_add_right _ _

/-! ## Pure parts -/

theorem ensureLock_count (w : World) (id : EcsId) : (ensureLock w id).archetypes = w.archetypes := by
  unfold ensureLock; split <;> rfl

theorem ensureLocks_count (ids : List EcsId) : ∀ w : World, (ids.foldl ensureLock w).archetypes = w.archetypes := by
  induction ids with
  | nil => exact fun w => rfl
  | cons id ids ih => exact fun w => (ih _).trans (ensureLock_count w id)

theorem pushArchetype_count {w w' : World} {a : Archetype} (h : pushArchetype w a = .ok w') : w'.archetypes.length ≤ w.archetypes.length + 1 := by
  unfold pushArchetype at h
  split at h
  · cases h
  · split at h
    · cases h
    · injection h with h; subst h
      simp only [List.length_append, List.length_singleton]; exact Nat.le_refl _

theorem insertCache_count {w w' : World} {k t : Nat} {id : EcsId} (h : insertCache w k id t = .ok w') : w'.archetypes.length = w.archetypes.length := by
  unfold insertCache at h
  split at h
  · cases h
  · split at h
    · cases h
    · injection h with h; subst h; exact List.length_set

theorem tryFindNext_count {w w' : World} {k : Nat} {id : EcsId} {r : Option Nat} (h : tryFindNext w k id = .ok (r, w')) : w'.archetypes.length = w.archetypes.length := by
  unfold tryFindNext at h
  split at h
  · cases h
  · split at h
    · cases h
    · injection h with h; injection h with _ h; subst h; exact List.length_set

theorem setEntityMeta_count {w w' : World} {e : EcsId} {m : EntityMeta} (h : setEntityMeta w e m = .ok w') : w'.archetypes.length = w.archetypes.length := by
  unfold setEntityMeta at h
  split at h
  · cases h
  · injection h with h; subst h; rfl
  · split at h <;> (injection h with h; subst h; rfl)

theorem finishMove_count {w w' : World} {cur tar : Nat} {a' b' : Archetype} {e : EcsId} {row : Nat} (h : finishMove w cur tar a' b' e row = .ok w') :
    w'.archetypes.length = w.archetypes.length := by
  unfold finishMove at h
  simp only at h
  split at h
  · cases h
  · split at h
    · split at h
      · injection h with h; subst h; simp only [List.length_set]
      · split at h
        · cases h
        · injection h with h; subst h; simp only [List.length_set]
    · cases h

theorem moveAddRow_count {w w' : World} {cur tar : Nat} {e c : EcsId} {row : Nat} {src : Bytes} (h : moveAddRow cur tar e row c src w = .ok w') :
    w'.archetypes.length = w.archetypes.length := by
  unfold moveAddRow at h
  split at h
  · cases h
  split at h
  · cases h
  split at h
  · cases h
  split at h
  · cases h
  split at h
  · cases h
  exact finishMove_count h

theorem moveRemoveRow_count {w w' : World} {cur tar : Nat} {e c : EcsId} {row : Nat} (h : moveRemoveRow cur tar e row c w = .ok w') :
    w'.archetypes.length = w.archetypes.length := by
  unfold moveRemoveRow at h
  split at h
  · cases h
  split at h
  · cases h
  simp only at h
  split at h
  · cases h
  split at h
  · cases h
  split at h
  · cases h
  split at h
  · cases h
  rename_i hf
  injection h with h; subst h
  exact (finishMove_count hf : _)

theorem writePtr_count {w w' : World} {p : Ptr} {bs : Bytes} (h : w.writePtr p bs = .ok w') : w'.archetypes.length = w.archetypes.length := by
  unfold writePtr at h
  split at h
  · split at h
    · cases h
    split at h
    · cases h
    split at h
    · injection h with h; subst h; rfl
    simp only at h
    split at h
    · injection h with h; subst h; exact List.length_set
    · cases h
  · cases h

/-! ## Operations -/

theorem createPlus_count (cur : Nat) (c : EcsId) (w : World) : AddsM 1 (createPlus cur c) w := by
  unfold createPlus
  refine AddsM.bind (show AddsM 0 (modify _) w from by show _ ≤ _; rw [ensureLock_count]; exact Nat.le_refl _) fun _ w => (AddsM.get 0 w).bind fun v w => (AddsM.liftE 0 _ w).bind fun _ w => (AddsM.liftE 0 _ w).bind fun _ w =>
    (AddsM.liftE 0 _ w).bind fun _ w => (AddsM.liftE 0 _ w).bind fun n w1 => (AddsM.step fun _ h => pushArchetype_count h).seq fun _ w => (AddsM.get 0 w).bind fun _ w =>
    (AddsM.same fun _ h => insertCache_count h).bind fun _ w => AddsM.pure 0 _ w

theorem createMinus_count (cur : Nat) (c : EcsId) (w : World) : AddsM 1 (createMinus cur c) w := by
  unfold createMinus
  refine (AddsM.get 0 w).bind fun v w => (AddsM.liftE 0 _ w).bind fun _ w => (AddsM.liftE 0 _ w).bind fun n w1 =>
    (AddsM.step fun _ h => pushArchetype_count h).seq fun _ w => (AddsM.get 0 w).bind fun _ w =>
    (AddsM.same fun _ h => insertCache_count h).bind fun _ w => AddsM.pure 0 _ w

theorem resolveAdd_count (cur : Nat) (c : EcsId) (w : World) : AddsM 1 (resolveAdd cur c) w := by
  unfold resolveAdd
  refine (AddsM.get 0 w).bindE fun v w1 h1 => ?_
  injection h1 with h1 h1'; subst h1 h1'
  refine (AddsM.liftE 0 _ _).bindE fun a w2 h2 => ?_
  obtain ⟨_, rfl⟩ := liftE_ok h2
  refine AddsM.ite (AddsM.throw 1 _ _) ?_
  refine (AddsM.liftE 0 _ _).bindE fun x w3 h3 => ?_
  obtain ⟨h3, rfl⟩ := liftE_ok h3
  obtain ⟨r, w4⟩ := x
  refine AddsM.bind (show AddsM 0 (set w4) _ from Nat.le_of_eq (tryFindNext_count h3)) fun _ w => ?_
  cases r with
  | some k => exact AddsM.pure 1 _ _
  | none =>
    refine (AddsM.liftE 0 _ _).bind fun found w => ?_
    cases found with
    | some k => exact (AddsM.same fun _ h => insertCache_count h).bind fun _ w => AddsM.pure 1 _ w
    | none => exact createPlus_count _ _ _

theorem resolveRemove_count (cur : Nat) (c : EcsId) (w : World) : AddsM 1 (resolveRemove cur c) w := by
  unfold resolveRemove
  refine (AddsM.get 0 w).bindE fun v w1 h1 => ?_
  injection h1 with h1 h1'; subst h1 h1'
  refine (AddsM.liftE 0 _ _).bindE fun a w2 h2 => ?_
  obtain ⟨_, rfl⟩ := liftE_ok h2
  refine AddsM.ite (AddsM.throw 1 _ _) ?_
  refine (AddsM.liftE 0 _ _).bindE fun x w3 h3 => ?_
  obtain ⟨h3, rfl⟩ := liftE_ok h3
  obtain ⟨r, w4⟩ := x
  refine AddsM.bind (show AddsM 0 (set w4) _ from Nat.le_of_eq (tryFindNext_count h3)) fun _ w => ?_
  cases r with
  | some k => exact AddsM.pure 1 _ _
  | none =>
    refine (AddsM.liftE 0 _ _).bind fun found w => ?_
    cases found with
    | some k => exact (AddsM.same fun _ h => insertCache_count h).bind fun _ w => AddsM.pure 1 _ w
    | none => exact createMinus_count _ _ _

theorem addDyn_count (e c : EcsId) (src : Bytes) (w : World) : AddsM 1 (addComponentDynamicWithData e c src) w := by
  unfold addComponentDynamicWithData
  refine (AddsM.get 0 w).bind fun v w => (AddsM.liftE 0 _ w).bind fun _ w => AddsM.ite (AddsM.pure 1 _ w) <| (AddsM.liftE 0 _ w).bind fun _ w =>
    AddsM.ite (AddsM.pure 1 _ w) <| (AddsM.liftE 0 _ w).bind fun _ w => (AddsM.liftE 0 _ w).bind fun _ w => (resolveAdd_count _ _ w).seq fun _ w =>
    AddsM.same fun _ h => moveAddRow_count h

theorem removeDyn_count (e c : EcsId) (w : World) : AddsM 1 (removeComponentDynamic e c) w := by
  unfold removeComponentDynamic
  refine (AddsM.get 0 w).bind fun v w => (AddsM.liftE 0 _ w).bind fun _ w => AddsM.ite (AddsM.pure 1 _ w) <| (AddsM.liftE 0 _ w).bind fun _ w =>
    AddsM.ite (AddsM.pure 1 _ w) <| (AddsM.liftE 0 _ w).bind fun _ w => (AddsM.liftE 0 _ w).bind fun _ w => (resolveRemove_count _ _ w).seq fun _ w =>
    AddsM.same fun _ h => moveRemoveRow_count h

theorem addZst_count (e c : EcsId) (w : World) : AddsM 1 (addComponentDynamic e c) w := by
  unfold addComponentDynamic
  refine (AddsM.get 0 w).bind fun v w => (AddsM.liftE 0 _ w).bind fun _ w => AddsM.ite (AddsM.throw 1 _ w) <| (AddsM.liftE 0 _ w).bind fun _ w =>
    AddsM.ite (AddsM.throw 1 _ w) <| (AddsM.liftE 0 _ w).bind fun _ w => (AddsM.liftE 0 _ w).bind fun _ w => AddsM.ite (AddsM.throw 1 _ w) <| addDyn_count _ _ _ w

theorem despawn_count (e : EcsId) (w : World) : AddsM 0 (despawn e) w := by
  unfold despawn
  refine (AddsM.get 0 w).bind fun v w => (AddsM.liftE 0 _ w).bind fun _ w => AddsM.ite (AddsM.pure 0 _ w) <| AddsM.ite (AddsM.throw 0 _ w) <|
    (AddsM.liftE 0 _ w).bind fun _ w => (AddsM.liftE 0 _ w).bind fun _ w => (AddsM.same fun w' h => ?_).bind fun _ w => (AddsM.same fun w' h => ?_).bind fun _ w => AddsM.pure 0 _ w
  · split at h
    · cases h
    · split at h
      · cases h
      · injection h with h; subst h; exact List.length_set
  · split at h
    · cases h
    · injection h with h; subst h; rfl

theorem bdrop_count (b : Builder) (w : World) : AddsM 0 b.drop w := by
  unfold AddsM Tri Builder.drop
  repeat' split
  all_goals simp_all
  all_goals (try (rename_i h; repeat' split at h))
  all_goals (try cases h)
  all_goals (try obtain ⟨rfl, rfl⟩ := h)
  all_goals (try subst_vars)
  all_goals exact Nat.le_refl _

theorem bnew_count (e : EcsId) (m : ComponentMeta) (w : World) : AddsM 0 (Builder.new e m) w := by
  unfold AddsM Tri Builder.new
  cases h : w.reuse <;> exact Nat.le_refl _

theorem bcap_count (e : EcsId) (m : ComponentMeta) (n : Nat) (w : World) : AddsM 0 (Builder.withCapacity e m n) w := by
  unfold AddsM Tri Builder.withCapacity
  cases h : w.reuse with
  | none =>
    simp only
    by_cases h0 : n = 0
    · simp only [if_pos h0]; exact Nat.le_refl _
    · simp only [if_neg h0]
      by_cases h1 : layoutOk n 0 = true
      · simp only [if_pos h1]; exact Nat.le_refl _
      · simp only [if_neg h1]; exact Nat.le_refl _
  | some x => exact Nat.le_refl _

theorem orDrop_count {α : Type} {n : Nat} {b : Builder} {x : M α} {w : World} (h : AddsM n x w) : AddsM n (b.orDrop x) w := by
  unfold AddsM Tri Builder.orDrop at *
  cases hx : x w with
  | ok a w' => rw [hx] at h; exact h
  | error f w' =>
    rw [hx] at h
    have hb := bdrop_count b w'
    unfold AddsM Tri at hb
    cases hd : b.drop w' with
    | ok u w2 => rw [hd] at hb; simp only [hd]; exact Nat.le_trans hb h
    | error f2 w2 => rw [hd] at hb; simp only [hd]; exact Nat.le_trans hb h

theorem pushComps_count (b : Builder) (k : Nat) (ids : List EcsId) : ∀ (off : Nat) (w : World), AddsM 0 (b.pushComps k off ids) w := by
  induction ids with
  | nil => exact fun _ w => AddsM.pure 0 _ w
  | cons id ids ih =>
    intro off w
    unfold Builder.pushComps
    refine (AddsM.get 0 w).bind fun v w => (AddsM.liftE 0 _ w).bind fun _ w => (AddsM.liftE 0 _ w).bind fun _ w => (AddsM.same fun w' h => ?_).bind fun _ w =>
      (AddsM.get 0 w).bind fun v w => (AddsM.liftE 0 _ w).bind fun _ w => ih _ w
    split at h
    · cases h
    split at h
    · cases h
    split at h
    · cases h
    split at h
    · cases h
    injection h with h; subst h
    exact List.length_set

theorem failDropping_count {α : Type} (f : Fault) (st : List (EcsId × UVec)) (w : World) : AddsM (α := α) 0 (failDropping f st) w := by
  unfold AddsM Tri failDropping
  cases dropStorages st <;> exact Nat.le_refl _

theorem createArchetype_count (b : Builder) (w : World) : AddsM 0 b.createArchetype w := by
  unfold Builder.createArchetype
  refine (AddsM.get 0 w).bind fun v w => ?_
  split
  · exact failDropping_count _ _ _
  · simp only
    split
    · exact failDropping_count _ _ _
    · exact AddsM.ite (AddsM.pure 0 _ _) (failDropping_count _ _ _)

theorem build_count (b : Builder) (w : World) : AddsM 1 b.build w := by
  unfold Builder.build
  refine (AddsM.get 0 w).bind fun v w => (AddsM.liftE 0 _ w).bind fun found w => ?_
  cases found with
  | some k =>
    refine (AddsM.same fun w' h => ?_).bind fun _ w => (pushComps_count _ _ _ _ w).bind fun _ w => (AddsM.get 0 w).bind fun v w => (AddsM.liftE 0 _ w).bind fun _ w =>
      (AddsM.same fun w' h => setEntityMeta_count h).bind fun _ w => AddsM.pure 1 _ w
    split at h
    · cases h
    · injection h with h; subst h; exact List.length_set
  | none =>
    exact AddsM.bind (show AddsM 0 (modify _) w from by show _ ≤ _; rw [ensureLocks_count]; exact Nat.le_refl _) fun _ w => (createArchetype_count _ w).bind fun _ w =>
      (AddsM.step fun w' h => pushArchetype_count h).seq fun _ w => (AddsM.get 0 w).bind fun _ w =>
      (AddsM.same fun w' h => setEntityMeta_count h).bind fun _ w => AddsM.pure 0 _ w

theorem spawnId_count (w : World) : AddsM 0 spawnId w := by
  unfold AddsM Tri spawnId
  cases h : w.entities.spawn with
  | mk r s => cases r <;> exact Nat.le_refl _

theorem getOrCreate_count (t : Ty) (w : World) : AddsM 1 (getOrCreate t) w := by
  unfold getOrCreate
  refine (AddsM.get 0 w).bind fun v w => ?_
  cases v.typeMap t with
  | some id => exact AddsM.pure 1 _ w
  | none =>
    refine (spawnId_count w).bind fun _ w => (bnew_count _ _ w).bind fun b w => (orDrop_count (build_count b w)).seq fun _ w => (bdrop_count _ w).bind fun _ w =>
      (AddsM.same fun w' h => ?_).bind fun _ w => AddsM.bind (show AddsM 0 (modify _) w from Nat.le_refl _) fun _ w => AddsM.pure 0 _ w
    split at h
    · cases h
    · cases h
    · injection h with h; subst h; rfl

theorem act_count (b : Builder) (a : BAct) (w : World) : AddsM 1 (b.act a) w := by
  unfold Builder.act
  refine orDrop_count ?_
  cases a with
  | «with» t v => exact (getOrCreate_count t w).seq fun _ w => (AddsM.get 0 w).bind fun _ w => AddsM.liftE 0 _ w
  | withDynamic id => exact (AddsM.get 0 w).bind fun _ w => AddsM.liftE 1 _ w
  | withDynamicWithData id v => exact (AddsM.get 0 w).bind fun _ w => AddsM.liftE 1 _ w
  | build => exact build_count b w

theorem acts_count (as : List BAct) : ∀ (b : Builder) (w : World), AddsM as.length (b.acts as) w := by
  induction as with
  | nil => exact fun b w => AddsM.pure 0 b w
  | cons a as ih => exact fun b w => ((act_count b a w).both fun b w => ih b w).le (by rw [List.length_cons]; omega)

theorem spawnWith_count (kind : SpawnKind) (as : List BAct) (w : World) : AddsM as.length (spawnWith kind as) w := by
  unfold spawnWith
  refine (spawnId_count w).bind fun e w => AddsM.bind ?_ fun b w => (acts_count as b w).seq fun b w => (bdrop_count b w).bind fun _ w => AddsM.pure 0 _ w
  cases kind with
  | plain => exact bnew_count _ _ w
  | capacity n => exact bcap_count _ _ _ w
  | withMeta m => exact bnew_count _ _ w

theorem addComponent_count (e : EcsId) (t : Ty) (v : Bytes) (w : World) : AddsM 2 (addComponent e t v) w := by
  unfold addComponent
  refine AddsM.both (n := 1) (m := 1) ?_ fun _ w => addDyn_count _ _ _ w
  have : AddsM 1 (do
      let w ← get
      let alive ← liftE (w.isAlive e)
      if !alive then throw .notAlive
      getOrCreate t) w :=
    (AddsM.get 0 w).bind fun v w => (AddsM.liftE 0 _ w).bind fun _ w => AddsM.ite (AddsM.throw 1 _ w) (getOrCreate_count t w)
  unfold AddsM Tri orDropValue at *
  revert this
  cases (do
      let w ← get
      let alive ← liftE (w.isAlive e)
      if !alive then throw .notAlive
      getOrCreate t : M EcsId) w with
  | ok a w' => exact fun h => h
  | error f w' => exact fun h => h

theorem removeComponent_count (e : EcsId) (t : Ty) (w : World) : AddsM 2 (removeComponent e t) w := by
  unfold removeComponent
  exact (AddsM.get 0 w).bind fun v w => (AddsM.liftE 0 _ w).bind fun _ w => AddsM.ite (AddsM.throw 2 _ w) <|
    AddsM.both (n := 1) (m := 1) (getOrCreate_count t w) fun _ w => removeDyn_count _ _ w

theorem exec_count (c : Call) (w : World) : AddsM c.tables c.exec w := by
  cases c with
  | spawn kind acts => exact (spawnWith_count kind acts w).seq fun _ w => AddsM.pure 0 _ w
  | addComponent e t v => exact addComponent_count e t v w
  | removeComponent e t => exact removeComponent_count e t w
  | addDynamic e c => exact addZst_count e c w
  | addDynamicWithData e c src => exact addDyn_count e c src w
  | removeDynamic e c => exact removeDyn_count e c w
  | despawn e => exact (despawn_count e w).seq fun _ w => AddsM.pure 0 _ w
  | register t => exact (getOrCreate_count t w).seq fun _ w => AddsM.pure 0 _ w
  | write e c bs =>
    unfold Call.exec
    refine (AddsM.get 0 w).bind fun v w => (AddsM.liftE 0 _ w).bind fun p w => ?_
    cases p with
    | none => exact AddsM.pure 0 _ w
    | some p => exact AddsM.same fun _ h => writePtr_count h
  | query ps b =>
    refine AddsM.bind ?_ fun q w => ?_
    · unfold AddsM Tri World.query
      cases allFetches w ps with
      | none => exact Nat.le_refl _
      | some fs =>
        simp only
        cases acquireAllStatic w [] w.locks fs <;> exact Nat.le_refl _
    · exact Nat.le_refl _
  | queryDynamic fs b =>
    refine AddsM.bind ?_ fun q w => ?_
    · unfold AddsM Tri World.queryDynamic
      cases acquireAllDyn w [] false w.locks fs <;> exact Nat.le_refl _
    · exact Nat.le_refl _

end Ellecs
