import Verif.Proofs.LockTrace
/-!
# How generations grow

A slot gets a new generation only when it is handed out again after a `despawn`, so a program that calls `despawn`
`n` times never sees a generation above `n`.  Slots are never given up, and every layout recorded by the world was
brought by a call.  Proved by going through the code, without any invariant.
-/
namespace Ellecs
open World

/-- Live slots have generations up to `n`, free ones below `n`. -/
def GenBound (n : Nat) (s : Entities) : Prop := ∀ p ∈ s.generations, p.2.toNat + (if p.1 then 0 else 1) ≤ n

/-- There are no more records than slots that can be named by an id. -/
def MetaLen (w : World) : Prop := w.metas.length ≤ w.entities.generations.length ∧ w.metas.length ≤ 2 ^ 32

/-- Bounds of the generations are kept, slots stay, layouts are as before or satisfy `S`, and a slot is added only when
no free one is left. -/
structure GenExt (S : ComponentMeta → Prop) (w w' : World) : Prop where
  gens : ∀ n, GenBound n w.entities → GenBound n w'.entities
  slots : w.entities.generations.length ≤ w'.entities.generations.length
  metas : (∀ m, some m ∈ w.metas → S m.comp) → ∀ m, some m ∈ w'.metas → S m.comp
  less : w'.entities.despawned.length ≤ w.entities.despawned.length
  grow : w'.entities.generations.length = w.entities.generations.length ∨ w'.entities.despawned = []
  mlen : MetaLen w → MetaLen w'

variable {S : ComponentMeta → Prop}

theorem GenExt.refl (w : World) : GenExt S w w := ⟨fun _ h => h, Nat.le_refl _, fun h => h, Nat.le_refl _, .inl rfl, fun h => h⟩
theorem GenExt.of_metas {w w' : World} (h1 : w'.entities = w.entities) (h2 : (∀ m, some m ∈ w.metas → S m.comp) → ∀ m, some m ∈ w'.metas → S m.comp)
    (h3 : MetaLen w → MetaLen w') : GenExt S w w' :=
  ⟨fun _ hn => by rw [h1]; exact hn, by rw [h1]; exact Nat.le_refl _, h2, by rw [h1]; exact Nat.le_refl _, .inl (by rw [h1]), h3⟩
theorem MetaLen.of_eq {w w' : World} (h1 : w'.entities = w.entities) (h2 : w'.metas.length = w.metas.length) (h : MetaLen w) : MetaLen w' := by
  unfold MetaLen; rw [h1, h2]; exact h
theorem GenExt.of_eq {w w' : World} (h1 : w'.entities = w.entities) (h2 : w'.metas = w.metas) : GenExt S w w' :=
  .of_metas h1 (fun h => by rw [h2]; exact h) (.of_eq h1 (by rw [h2]))
theorem GenExt.trans {w w1 w' : World} (h : GenExt S w w1) (h' : GenExt S w1 w') : GenExt S w w' :=
  ⟨fun n hn => h'.gens n (h.gens n hn), Nat.le_trans h.slots h'.slots, fun hm => h'.metas (h.metas hm), Nat.le_trans h'.less h.less, by
    rcases h'.grow with h2 | h2
    · rcases h.grow with h1 | h1
      · exact .inl (h2.trans h1)
      · have := h'.less
        rw [h1] at this
        exact .inr (List.length_eq_zero_iff.1 (Nat.le_zero.1 this))
    · exact .inr h2, fun hm => h'.mlen (h.mlen hm)⟩

theorem GenExt.ensure (w : World) (id : EcsId) : GenExt S w (ensureLock w id) := by
  unfold ensureLock
  split
  · exact .refl w
  · exact .of_eq rfl rfl

theorem GenExt.ensureAll (ids : List EcsId) : ∀ w : World, GenExt S w (ids.foldl ensureLock w) := by
  induction ids with
  | nil => exact fun w => .refl w
  | cons id ids ih => exact fun w => (GenExt.ensure w id).trans (ih _)

/-- `x` keeps what was said, whether it panics or not. -/
def GensM (S : ComponentMeta → Prop) {α : Type} (x : M α) (w : World) : Prop := Tri x w (fun _ w' => GenExt S w w') (fun _ w' => GenExt S w w')

theorem GensM.pure {α : Type} (a : α) (w : World) : GensM S (pure a) w := GenExt.refl w
theorem GensM.throw {α : Type} (f : Fault) (w : World) : GensM S (α := α) (throw f) w := GenExt.refl w

theorem GensM.get (w : World) : GensM S get w := GenExt.refl w

theorem GensM.liftE {α : Type} (x : Except Fault α) (w : World) : GensM S (liftE x) w := by
  unfold GensM; rw [tri_liftE]; cases x <;> exact .refl w

theorem GensM.bind {α β : Type} {x : M α} {f : α → M β} {w : World} (hx : GensM S x w) (hf : ∀ a w', x w = .ok a w' → GensM S (f a) w') : GensM S (x >>= f) w := by
  unfold GensM
  rw [tri_bind]
  refine hx.with_eq.imp ?_ ?_
  · rintro a w' ⟨he, h⟩
    exact (hf a w' he).imp (fun _ _ h' => h.trans h') (fun _ _ h' => h.trans h')
  · exact fun _ _ h => h.2

/-- Like `bind` when the result does not matter. -/
theorem GensM.bind' {α β : Type} {x : M α} {f : α → M β} {w : World} (hx : GensM S x w) (hf : ∀ a w', GensM S (f a) w') : GensM S (x >>= f) w :=
  hx.bind (fun a w' _ => hf a w')

theorem GensM.step {g : World → Except Fault World} {w : World} (h : ∀ w', g w = .ok w' → GenExt S w w') : GensM S (step g) w := by
  unfold GensM; rw [tri_step]
  cases hg : g w with
  | ok w' => exact h w' hg
  | error f => exact .refl w

theorem GensM.modify {g : World → World} {w : World} (h : GenExt S w (g w)) : GensM S (modify g) w := h

theorem GensM.set {w w' : World} (h : GenExt S w w') : GensM S (set w') w := h

theorem GensM.ite {α : Type} {c : Prop} [Decidable c] {x y : M α} {w : World} (hx : GensM S x w) (hy : GensM S y w) : GensM S (if c then x else y) w := by
  by_cases h : c
  · rw [if_pos h]; exact hx
  · rw [if_neg h]; exact hy

/-! ## Pure parts -/

theorem pushArchetype_gens {w w' : World} {a : Archetype} (h : pushArchetype w a = .ok w') : GenExt S w w' := by
  unfold pushArchetype at h
  split at h
  · cases h
  · split at h
    · cases h
    · injection h with h; subst h; exact .of_eq rfl rfl

theorem insertCache_gens {w w' : World} {k t : Nat} {id : EcsId} (h : insertCache w k id t = .ok w') : GenExt S w w' := by
  unfold insertCache at h
  split at h
  · cases h
  · split at h
    · cases h
    · injection h with h; subst h; exact .of_eq rfl rfl

theorem tryFindNext_gens {w w' : World} {k : Nat} {id : EcsId} {r : Option Nat} (h : tryFindNext w k id = .ok (r, w')) : GenExt S w w' := by
  unfold tryFindNext at h
  split at h
  · cases h
  · split at h
    · cases h
    · injection h with h; injection h with _ h; subst h; exact .of_eq rfl rfl

theorem length_setInst {ms ms' : List (Option EntityMeta)} {i : Nat} {im : InstanceMeta} (h : setInst ms i im = .ok ms') : ms'.length = ms.length := by
  unfold setInst at h
  split at h
  · cases h
  · cases h
  · injection h with h; subst h; exact List.length_set

theorem length_setInstIndex {ms ms' : List (Option EntityMeta)} {i r : Nat} (h : setInstIndex ms i r = .ok ms') : ms'.length = ms.length := by
  unfold setInstIndex at h
  split at h
  · cases h
  · cases h
  · injection h with h; subst h; exact List.length_set

theorem setEntityMeta_gens {w w' : World} {e : EcsId} {m : EntityMeta} (h : setEntityMeta w e m = .ok w') (hm : S m.comp) : GenExt S w w' := by
  unfold setEntityMeta at h
  split at h
  · cases h
  · injection h with h; subst h; exact .refl _
  · rename_i hal
    split at h
    · injection h with h; subst h
      exact .of_metas rfl (fun hw x hx => by
        rcases List.mem_or_eq_of_mem_set hx with hx | hx
        · exact hw x hx
        · injection hx with hx; subst hx; exact hm) (.of_eq rfl (by simp))
    · rename_i hlt
      injection h with h; subst h
      refine .of_metas rfl (fun hw x hx => ?_) (fun hl => ?_)
      case refine_2 =>
        have h1 : e.uindex < w.entities.generations.length := (Entities.isAlive_iff.1 hal).lt
        have h2 : e.uindex < 2 ^ 32 := e.idx.isLt
        unfold MetaLen
        simp only [List.length_append, List.length_replicate, List.length_singleton]
        omega
      simp only [List.mem_append, List.mem_singleton, List.mem_replicate] at hx
      rcases hx with (hx | hx) | hx
      · exact hw x hx
      · cases hx.2
      · injection hx with hx; subst hx; exact hm

theorem setInst_gens {ms ms' : List (Option EntityMeta)} {i : Nat} {im : InstanceMeta} (h : setInst ms i im = .ok ms')
    (hs : ∀ m, some m ∈ ms → S m.comp) : ∀ m, some m ∈ ms' → S m.comp := by
  unfold setInst at h
  split at h
  · cases h
  · cases h
  · rename_i m0 hm0
    injection h with h; subst h
    intro m hm
    rcases List.mem_or_eq_of_mem_set hm with hm | hm
    · exact hs m hm
    · injection hm with hm; subst hm; exact hs m0 (List.mem_of_getElem? hm0)

theorem setInstIndex_gens {ms ms' : List (Option EntityMeta)} {i r : Nat} (h : setInstIndex ms i r = .ok ms')
    (hs : ∀ m, some m ∈ ms → S m.comp) : ∀ m, some m ∈ ms' → S m.comp := by
  unfold setInstIndex at h
  split at h
  · cases h
  · cases h
  · rename_i m0 hm0
    injection h with h; subst h
    intro m hm
    rcases List.mem_or_eq_of_mem_set hm with hm | hm
    · exact hs m hm
    · injection hm with hm; subst hm; exact hs m0 (List.mem_of_getElem? hm0)

theorem finishMove_gens {w w' : World} {cur tar : Nat} {a b : Archetype} {e : EcsId} {row : Nat} (h : finishMove w cur tar a b e row = .ok w') : GenExt S w w' := by
  unfold finishMove at h
  simp only at h
  split at h
  · cases h
  · rename_i ms hms
    split at h
    · split at h
      · injection h with h; subst h; exact .of_metas rfl (setInst_gens hms) (.of_eq rfl (length_setInst hms))
      · split at h
        · cases h
        · rename_i ms' hms'
          injection h with h; subst h; exact .of_metas rfl (fun hs => setInstIndex_gens hms' (setInst_gens hms hs))
            (.of_eq rfl ((length_setInstIndex hms').trans (length_setInst hms)))
    · cases h

theorem moveAddRow_gens {w w' : World} {cur tar : Nat} {e c : EcsId} {row : Nat} {src : Bytes} (h : moveAddRow cur tar e row c src w = .ok w') :
    GenExt S w w' := by
  unfold moveAddRow at h
  repeat (first | (split at h; try cases h) | exact finishMove_gens h)

theorem moveRemoveRow_gens {w w' : World} {cur tar : Nat} {e c : EcsId} {row : Nat} (h : moveRemoveRow cur tar e row c w = .ok w') :
    GenExt S w w' := by
  unfold moveRemoveRow at h
  split at h
  · cases h
  split at h
  · cases h
  simp only at h
  split at h
  · cases h
  split at h
  · cases h
  split at h
  · cases h
  split at h
  · cases h
  rename_i hf
  injection h with h; subst h
  exact (finishMove_gens hf).trans (.of_eq rfl rfl)

/-! ## Operations -/

theorem createPlus_gens (cur : Nat) (c : EcsId) (w : World) : GensM S (createPlus cur c) w := by
  unfold createPlus
  refine (GensM.modify (GenExt.ensure w c)).bind' fun _ w => (GensM.get w).bind' fun v w => (GensM.liftE _ w).bind' fun _ w => (GensM.liftE _ w).bind' fun _ w =>
    (GensM.liftE _ w).bind' fun _ w => (GensM.liftE _ w).bind' fun _ w => (GensM.step fun _ h => pushArchetype_gens h).bind' fun _ w => (GensM.get w).bind' fun _ w =>
    (GensM.step fun _ h => insertCache_gens h).bind' fun _ w => GensM.pure _ w

theorem createMinus_gens (cur : Nat) (c : EcsId) (w : World) : GensM S (createMinus cur c) w := by
  unfold createMinus
  refine (GensM.get w).bind' fun v w => (GensM.liftE _ w).bind' fun _ w => (GensM.liftE _ w).bind' fun _ w =>
    (GensM.step fun _ h => pushArchetype_gens h).bind' fun _ w => (GensM.get w).bind' fun _ w =>
    (GensM.step fun _ h => insertCache_gens h).bind' fun _ w => GensM.pure _ w

theorem resolveAdd_gens (cur : Nat) (c : EcsId) (w : World) : GensM S (resolveAdd cur c) w := by
  unfold resolveAdd
  refine (GensM.get w).bind fun v w1 h1 => ?_
  injection h1 with h1 h1'; subst h1 h1'
  refine (GensM.liftE _ _).bind fun a w2 h2 => ?_
  obtain ⟨_, rfl⟩ := liftE_ok h2
  refine GensM.ite (GensM.throw _ _) ?_
  refine (GensM.liftE _ _).bind fun x w3 h3 => ?_
  obtain ⟨h3, rfl⟩ := liftE_ok h3
  obtain ⟨r, w4⟩ := x
  refine (GensM.set (tryFindNext_gens h3)).bind' fun _ w => ?_
  cases r with
  | some k => exact GensM.pure _ _
  | none =>
    refine (GensM.liftE _ _).bind' fun found w => ?_
    cases found with
    | some k => exact (GensM.step fun _ h => insertCache_gens h).bind' fun _ w => GensM.pure _ w
    | none => exact createPlus_gens _ _ _

theorem resolveRemove_gens (cur : Nat) (c : EcsId) (w : World) : GensM S (resolveRemove cur c) w := by
  unfold resolveRemove
  refine (GensM.get w).bind fun v w1 h1 => ?_
  injection h1 with h1 h1'; subst h1 h1'
  refine (GensM.liftE _ _).bind fun a w2 h2 => ?_
  obtain ⟨_, rfl⟩ := liftE_ok h2
  refine GensM.ite (GensM.throw _ _) ?_
  refine (GensM.liftE _ _).bind fun x w3 h3 => ?_
  obtain ⟨h3, rfl⟩ := liftE_ok h3
  obtain ⟨r, w4⟩ := x
  refine (GensM.set (tryFindNext_gens h3)).bind' fun _ w => ?_
  cases r with
  | some k => exact GensM.pure _ _
  | none =>
    refine (GensM.liftE _ _).bind' fun found w => ?_
    cases found with
    | some k => exact (GensM.step fun _ h => insertCache_gens h).bind' fun _ w => GensM.pure _ w
    | none => exact createMinus_gens _ _ _

theorem addDyn_gens (e c : EcsId) (src : Bytes) (w : World) : GensM S (addComponentDynamicWithData e c src) w := by
  unfold addComponentDynamicWithData
  refine (GensM.get w).bind' fun v w => (GensM.liftE _ w).bind' fun _ w => GensM.ite (GensM.pure _ w) <| (GensM.liftE _ w).bind' fun _ w =>
    GensM.ite (GensM.pure _ w) <| (GensM.liftE _ w).bind' fun _ w => (GensM.liftE _ w).bind' fun _ w => (resolveAdd_gens _ _ w).bind' fun _ w =>
    GensM.step fun _ h => moveAddRow_gens h

theorem removeDyn_gens (e c : EcsId) (w : World) : GensM S (removeComponentDynamic e c) w := by
  unfold removeComponentDynamic
  refine (GensM.get w).bind' fun v w => (GensM.liftE _ w).bind' fun _ w => GensM.ite (GensM.pure _ w) <| (GensM.liftE _ w).bind' fun _ w =>
    GensM.ite (GensM.pure _ w) <| (GensM.liftE _ w).bind' fun _ w => (GensM.liftE _ w).bind' fun _ w => (resolveRemove_gens _ _ w).bind' fun _ w =>
    GensM.step fun _ h => moveRemoveRow_gens h

theorem addZst_gens (e c : EcsId) (w : World) : GensM S (addComponentDynamic e c) w := by
  unfold addComponentDynamic
  refine (GensM.get w).bind' fun v w => (GensM.liftE _ w).bind' fun _ w => GensM.ite (GensM.throw _ w) <| (GensM.liftE _ w).bind' fun _ w =>
    GensM.ite (GensM.throw _ w) <| (GensM.liftE _ w).bind' fun _ w => (GensM.liftE _ w).bind' fun _ w => GensM.ite (GensM.throw _ w) <| addDyn_gens _ _ _ w

theorem bdrop_gens (b : Builder) (w : World) : GensM S b.drop w := by
  unfold GensM Tri Builder.drop
  repeat' split
  all_goals simp_all
  all_goals (try (rename_i h; repeat' split at h))
  all_goals (try cases h)
  all_goals (try obtain ⟨rfl, rfl⟩ := h)
  all_goals (try subst_vars)
  all_goals exact .of_eq rfl rfl

theorem bnew_gens (e : EcsId) (m : ComponentMeta) (w : World) : GensM S (Builder.new e m) w := by
  unfold GensM Tri Builder.new
  cases h : w.reuse with
  | none => exact .refl w
  | some x => exact .of_eq rfl rfl

theorem bcap_gens (e : EcsId) (m : ComponentMeta) (n : Nat) (w : World) : GensM S (Builder.withCapacity e m n) w := by
  unfold GensM Tri Builder.withCapacity
  cases h : w.reuse with
  | none =>
    simp only
    by_cases h0 : n = 0
    · simp only [if_pos h0]; exact .refl w
    · simp only [if_neg h0]
      by_cases h1 : layoutOk n 0 = true
      · simp only [if_pos h1]; exact .refl w
      · simp only [if_neg h1]; exact .refl w
  | some x => exact .of_eq rfl rfl

theorem orDrop_gens {α : Type} {b : Builder} {x : M α} {w : World} (h : GensM S x w) : GensM S (b.orDrop x) w := by
  unfold GensM Tri Builder.orDrop at *
  cases hx : x w with
  | ok a w' => rw [hx] at h; exact h
  | error f w' =>
    rw [hx] at h
    have hb := bdrop_gens (S := S) b w'
    unfold GensM Tri at hb
    cases hd : b.drop w' with
    | ok u w2 => rw [hd] at hb; simp only [hd]; exact GenExt.trans h hb
    | error f2 w2 => rw [hd] at hb; simp only [hd]; exact GenExt.trans h hb

theorem pushComps_gens (b : Builder) (k : Nat) (ids : List EcsId) : ∀ (off : Nat) (w : World), GensM S (b.pushComps k off ids) w := by
  induction ids with
  | nil => exact fun _ w => GensM.pure _ w
  | cons id ids ih =>
    intro off w
    unfold Builder.pushComps
    refine (GensM.get w).bind' fun v w => (GensM.liftE _ w).bind' fun _ w => (GensM.liftE _ w).bind' fun _ w => (GensM.step fun w' h => ?_).bind' fun _ w =>
      (GensM.get w).bind' fun v w => (GensM.liftE _ w).bind' fun _ w => ih _ w
    repeat' split at h
    all_goals first | (injection h with h; subst h; exact .of_eq rfl rfl) | cases h

theorem failDropping_gens {α : Type} (f : Fault) (st : List (EcsId × UVec)) (w : World) : GensM S (α := α) (failDropping f st) w := by
  unfold GensM Tri failDropping
  cases dropStorages st with
  | ok evs => exact .of_eq rfl rfl
  | error f => exact .refl w

theorem createArchetype_gens (b : Builder) (w : World) : GensM S b.createArchetype w := by
  unfold Builder.createArchetype
  refine (GensM.get w).bind' fun v w => ?_
  split
  · exact failDropping_gens _ _ _
  · simp only
    split
    · exact failDropping_gens _ _ _
    · exact GensM.ite (GensM.pure _ _) (failDropping_gens _ _ _)

theorem createArchetype_cmeta (b : Builder) (w : World) : Tri b.createArchetype w (fun p _ => p.1.cmeta = b.cmeta) (fun _ _ => True) := by
  have hf : ∀ (f : Fault) (st : List (EcsId × UVec)) (w : World) (Q : Builder × Archetype → World → Prop), Tri (failDropping f st) w Q (fun _ _ => True) := by
    intro f st w Q
    unfold Tri failDropping
    cases dropStorages st <;> trivial
  unfold Builder.createArchetype
  rw [tri_bind, tri_get]
  split
  · exact hf _ _ _ _
  · simp only
    split
    · exact hf _ _ _ _
    · split
      · exact rfl
      · exact hf _ _ _ _

theorem build_gens (b : Builder) (hb : S b.cmeta) (w : World) : GensM S b.build w := by
  unfold Builder.build
  refine (GensM.get w).bind' fun v w => (GensM.liftE _ w).bind' fun found w => ?_
  cases found with
  | some k =>
    refine (GensM.step fun w' h => ?_).bind' fun _ w => (pushComps_gens _ _ _ _ w).bind' fun _ w => (GensM.get w).bind' fun v w => (GensM.liftE _ w).bind' fun _ w =>
      (GensM.step fun w' h => setEntityMeta_gens h hb).bind' fun _ w => GensM.pure _ w
    split at h
    · cases h
    · injection h with h; subst h; exact .of_eq rfl rfl
  | none =>
    refine (GensM.modify (GenExt.ensureAll _ w)).bind' fun _ w => (createArchetype_gens _ w).bind fun p w1 hp => ?_
    have hc := (createArchetype_cmeta b w).ok hp
    exact (GensM.step fun w' h => pushArchetype_gens h).bind' fun _ w => (GensM.get w).bind' fun _ w =>
      (GensM.step fun w' h => setEntityMeta_gens h (by simp only [hc]; exact hb)).bind' fun _ w => GensM.pure _ w

theorem build_cmeta (b : Builder) (w : World) : Tri b.build w (fun b' _ => b'.cmeta = b.cmeta) (fun _ _ => True) := by
  have tt : ∀ {α : Type} {x : M α} {w : World}, Tri x w (fun _ _ => True) (fun _ _ => True) := by
    intro α x w
    unfold Tri
    split <;> trivial
  unfold Builder.build
  simp only [tri_bind, tri_get]
  refine Tri.imp (Q := fun _ _ => True) (E := fun _ _ => True) tt ?_ (fun _ _ _ => trivial)
  rintro found w - 
  cases found with
  | some k =>
    simp only [tri_bind]
    refine Tri.imp (Q := fun _ _ => True) (E := fun _ _ => True) tt (fun _ _ _ => ?_) (fun _ _ _ => trivial)
    refine Tri.imp (Q := fun _ _ => True) (E := fun _ _ => True) tt (fun _ _ _ => ?_) (fun _ _ _ => trivial)
    refine Tri.imp (Q := fun _ _ => True) (E := fun _ _ => True) tt (fun _ _ _ => ?_) (fun _ _ _ => trivial)
    refine Tri.imp (Q := fun _ _ => True) (E := fun _ _ => True) tt (fun _ _ _ => ?_) (fun _ _ _ => trivial)
    exact Tri.imp (Q := fun _ _ => True) (E := fun _ _ => True) tt (fun _ _ _ => rfl) (fun _ _ _ => trivial)
  | none =>
    simp only [tri_bind]
    refine Tri.imp (Q := fun _ _ => True) (E := fun _ _ => True) tt (fun _ w _ => ?_) (fun _ _ _ => trivial)
    refine (createArchetype_cmeta b w).imp (fun p _ hp => ?_) (fun _ _ _ => trivial)
    refine Tri.imp (Q := fun _ _ => True) (E := fun _ _ => True) tt (fun _ _ _ => ?_) (fun _ _ _ => trivial)
    refine Tri.imp (Q := fun _ _ => True) (E := fun _ _ => True) tt (fun _ _ _ => ?_) (fun _ _ _ => trivial)
    exact Tri.imp (Q := fun _ _ => True) (E := fun _ _ => True) tt (fun _ _ _ => hp) (fun _ _ _ => trivial)

theorem spawn_bound {s : Entities} {n : Nat} (h : GenBound n s) : GenBound n s.spawn.2 := by
  unfold Entities.spawn
  split
  · rename_i i rest hd
    split
    · exact h
    · rename_i alive gen hg
      split
      · exact h
      · rename_i ha
        have hal : alive = false := by simpa using ha
        subst hal
        have hb := h _ (List.mem_of_getElem? hg)
        simp only [Bool.false_eq_true, if_false] at hb
        have key : GenBound n ⟨s.generations.set i (true, gen + 1), rest⟩ := by
          intro p hp
          rcases List.mem_or_eq_of_mem_set hp with hp | rfl
          · exact h p hp
          · simp only [if_true]
            have : (gen + 1).toNat ≤ gen.toNat + 1 := by rw [BitVec.toNat_add]; exact Nat.mod_le _ _
            omega
        simp only
        split <;> exact key
  · have key : GenBound n ⟨s.generations ++ [(true, 0)], []⟩ := by
      intro p hp
      rcases List.mem_append.1 hp with hp | hp
      · exact h p hp
      · rw [List.mem_singleton] at hp; subst hp
        exact Nat.zero_le _
    simp only
    split <;> exact key

theorem spawn_slots (s : Entities) : s.generations.length ≤ s.spawn.2.generations.length := by
  unfold Entities.spawn
  split
  · split
    · exact Nat.le_refl _
    · split
      · exact Nat.le_refl _
      · simp only; split <;> simp
  · simp only; split <;> simp

theorem spawn_free (s : Entities) : s.spawn.2.despawned.length ≤ s.despawned.length ∧
    (s.spawn.2.generations.length = s.generations.length ∨ s.spawn.2.despawned = []) := by
  unfold Entities.spawn
  split
  · rename_i i rest hd
    rw [hd]
    split
    · exact ⟨Nat.le_succ _, .inl rfl⟩
    · split
      · exact ⟨Nat.le_succ _, .inl rfl⟩
      · simp only; split <;> exact ⟨Nat.le_succ _, .inl List.length_set⟩
  · rename_i hd
    simp only; split <;> exact ⟨Nat.zero_le _, .inr rfl⟩

theorem spawnId_gens (w : World) : GensM S spawnId w := by
  unfold GensM Tri spawnId
  have hb := fun n (h : GenBound n w.entities) => spawn_bound h
  have hl := spawn_slots w.entities
  have hf := spawn_free w.entities
  cases h : w.entities.spawn with
  | mk r s =>
    rw [h] at hb hl hf
    cases r <;> exact ⟨hb, hl, fun hs => hs, hf.1, hf.2, fun hm => ⟨Nat.le_trans hm.1 hl, hm.2⟩⟩

theorem bnew_cmeta (e : EcsId) (m : ComponentMeta) (w : World) : Tri (Builder.new e m) w (fun b _ => b.cmeta = m) (fun _ _ => True) := by
  unfold Tri Builder.new
  cases w.reuse <;> rfl

theorem bcap_cmeta (e : EcsId) (m : ComponentMeta) (n : Nat) (w : World) : Tri (Builder.withCapacity e m n) w (fun b _ => b.cmeta = m) (fun _ _ => True) := by
  unfold Tri Builder.withCapacity
  cases w.reuse with
  | some x => rfl
  | none => by_cases h0 : n = 0
            · simp only [if_pos h0]
            · by_cases h1 : layoutOk n 0 = true
              · simp only [if_neg h0, if_pos h1]
              · simp only [if_neg h0, if_neg h1]

theorem getOrCreate_gens (hu : S ComponentMeta.unit) (t : Ty) (ht : S (ComponentMeta.fromGeneric t)) (w : World) : GensM S (getOrCreate t) w := by
  unfold getOrCreate
  refine (GensM.get w).bind' fun v w => ?_
  cases v.typeMap t with
  | some id => exact GensM.pure _ w
  | none =>
    refine (spawnId_gens w).bind' fun _ w => (bnew_gens _ _ w).bind fun b w1 hb => ?_
    have hc := (bnew_cmeta _ _ w).ok hb
    refine (orDrop_gens (build_gens b (by rw [hc]; exact hu) _)).bind' fun _ w => (bdrop_gens _ w).bind' fun _ w =>
      (GensM.step fun w' h => ?_).bind' fun _ w => (GensM.modify (.of_eq rfl rfl)).bind' fun _ w => GensM.pure _ w
    split at h
    · cases h
    · cases h
    · injection h with h; subst h
      exact .of_metas rfl (fun hw x hx => by
        rcases List.mem_or_eq_of_mem_set hx with hx | hx
        · exact hw x hx
        · injection hx with hx; subst hx; exact ht) (.of_eq rfl (by simp))

theorem act_cmeta (b : Builder) (a : BAct) (w : World) : Tri (b.act a) w (fun b' _ => b'.cmeta = b.cmeta) (fun _ _ => True) := by
  have hor : ∀ {x : M Builder}, Tri x w (fun b' _ => b'.cmeta = b.cmeta) (fun _ _ => True) → Tri (b.orDrop x) w (fun b' _ => b'.cmeta = b.cmeta) (fun _ _ => True) := by
    intro x h
    unfold Tri Builder.orDrop at *
    cases hx : x w with
    | ok a w' => rw [hx] at h; exact h
    | error f w' => simp only; cases b.drop w' <;> trivial
  have hr : ∀ {b b' : Builder} {n : Nat}, b.realloc n = .ok b' → b'.cmeta = b.cmeta := by
    intro b b' n h
    unfold Builder.realloc at h
    repeat' split at h
    all_goals first | (injection h with h; subst h; rfl) | cases h
  have hd : ∀ {b b' : Builder} {v : Bytes} {id : EcsId} {w : World}, b.withDynamicWithData v id w = .ok b' → b'.cmeta = b.cmeta := by
    intro b b' v id w h
    unfold Builder.withDynamicWithData at h
    split at h
    · cases h
    · cases h
    · simp only at h
      split at h
      · cases h
      · rename_i b1 hb1
        have h1 : b1.cmeta = b.cmeta := by
          split at hb1
          · exact hr hb1
          · injection hb1 with hb1; rw [hb1]
        split at h
        · cases h
        · split at h
          · cases h
          · injection h with h; subst h; exact h1
  unfold Builder.act
  refine hor ?_
  cases a with
  | «with» t v =>
    simp only [tri_bind, tri_get, tri_liftE]
    refine Tri.imp (Q := fun _ _ => True) (E := fun _ _ => True) (by unfold Tri; split <;> trivial) (fun id w _ => ?_) (fun _ _ _ => trivial)
    cases h : b.withDynamicWithData v id w with
    | ok b' => exact hd h
    | error f => trivial
  | withDynamic id =>
    simp only [tri_bind, tri_get, tri_liftE]
    cases h : b.withDynamic id w with
    | ok b' =>
      unfold Builder.withDynamic at h
      repeat' split at h
      all_goals first | (injection h with h; subst h; rfl) | cases h
    | error f => trivial
  | withDynamicWithData id v =>
    simp only [tri_bind, tri_get, tri_liftE]
    cases h : b.withDynamicWithData v id w with
    | ok b' => exact hd h
    | error f => trivial
  | build => exact build_cmeta b w

theorem act_gens (hu : S ComponentMeta.unit) (b : Builder) (hb : S b.cmeta) (a : BAct) (ha : ∀ t v, a = .with t v → S (ComponentMeta.fromGeneric t))
    (w : World) : GensM S (b.act a) w := by
  unfold Builder.act
  refine orDrop_gens ?_
  cases a with
  | «with» t v => exact (getOrCreate_gens hu t (ha t v rfl) w).bind' fun _ w => (GensM.get w).bind' fun _ w => GensM.liftE _ w
  | withDynamic id => exact (GensM.get w).bind' fun _ w => GensM.liftE _ w
  | withDynamicWithData id v => exact (GensM.get w).bind' fun _ w => GensM.liftE _ w
  | build => exact build_gens b hb w

theorem acts_gens (hu : S ComponentMeta.unit) (as : List BAct) : ∀ (b : Builder) (_ : S b.cmeta) (_ : ∀ t v, .with t v ∈ as → S (ComponentMeta.fromGeneric t))
    (w : World), GensM S (b.acts as) w := by
  induction as with
  | nil => exact fun b _ _ w => GensM.pure b w
  | cons a as ih =>
    intro b hb ha w
    refine (act_gens hu b hb a (fun t v h => ha t v (by rw [h]; exact List.mem_cons_self)) w).bind fun b' w' hx => ?_
    have hc := (act_cmeta b a w).ok hx
    exact ih b' (by rw [hc]; exact hb) (fun t v h => ha t v (List.mem_cons_of_mem _ h)) w'

theorem spawnWith_gens (hu : S ComponentMeta.unit) (kind : SpawnKind) (hk : S kind.cmeta) (as : List BAct)
    (ha : ∀ t v, .with t v ∈ as → S (ComponentMeta.fromGeneric t)) (w : World) : GensM S (spawnWith kind as) w := by
  rw [spawnWith_eq]
  refine (spawnId_gens w).bind' fun e w => GensM.bind ?_ fun b w' hb => (acts_gens hu as b ?_ ha w').bind' fun b w => (bdrop_gens b w).bind' fun _ w => GensM.pure _ w
  · cases kind with
    | plain => exact bnew_gens _ _ w
    | capacity n => exact bcap_gens _ _ _ w
    | withMeta m => exact bnew_gens _ _ w
  · have : b.cmeta = kind.cmeta := by
      cases kind with
      | plain => exact (bnew_cmeta _ _ w).ok hb
      | capacity n => exact (bcap_cmeta _ _ _ w).ok hb
      | withMeta m => exact (bnew_cmeta _ _ w).ok hb
    rw [this]; exact hk

theorem addComponent_gens (hu : S ComponentMeta.unit) (e : EcsId) (t : Ty) (v : Bytes) (ht : S (ComponentMeta.fromGeneric t)) (w : World) : GensM S (addComponent e t v) w := by
  unfold addComponent
  refine GensM.bind' ?_ fun _ w => addDyn_gens _ _ _ w
  have : GensM S (do
      let w ← get
      let alive ← liftE (w.isAlive e)
      if !alive then throw .notAlive
      getOrCreate t) w :=
    (GensM.get w).bind' fun v w => (GensM.liftE _ w).bind' fun _ w => GensM.ite (GensM.throw _ w) (getOrCreate_gens hu t ht w)
  unfold GensM Tri orDropValue at *
  revert this
  cases (do
      let w ← get
      let alive ← liftE (w.isAlive e)
      if !alive then throw .notAlive
      getOrCreate t : M EcsId) w with
  | ok a w' => exact fun h => h
  | error f w' => exact fun h => h.trans (.of_eq rfl rfl)

theorem removeComponent_gens (hu : S ComponentMeta.unit) (e : EcsId) (t : Ty) (ht : S (ComponentMeta.fromGeneric t)) (w : World) : GensM S (removeComponent e t) w := by
  unfold removeComponent
  exact (GensM.get w).bind' fun v w => (GensM.liftE _ w).bind' fun _ w => GensM.ite (GensM.throw _ w) <| (getOrCreate_gens hu t ht w).bind' fun _ w => removeDyn_gens _ _ w

theorem writePtr_gens {w w' : World} {p : Ptr} {bs : Bytes} (h : w.writePtr p bs = .ok w') : GenExt S w w' := by
  unfold writePtr at h
  repeat' split at h
  all_goals first | (injection h with h; subst h; exact .of_eq rfl rfl) | cases h

theorem query_gens (ps : List Param) (w : World) : GensM S (query ps) w := by
  unfold GensM Tri World.query
  cases allFetches w ps with
  | none => exact .refl w
  | some fs =>
    simp only
    cases acquireAllStatic w [] w.locks fs <;> exact GenExt.of_eq rfl rfl

theorem queryDynamic_gens (fs : List Fetch) (w : World) : GensM S (queryDynamic fs) w := by
  unfold GensM Tri World.queryDynamic
  cases acquireAllDyn w [] false w.locks fs <;> exact GenExt.of_eq rfl rfl

/-- Like `GenExt`, but generations may have grown by one. -/
structure GenStep (S : ComponentMeta → Prop) (w w' : World) : Prop where
  gens : ∀ n, GenBound n w.entities → GenBound (n + 1) w'.entities
  slots : w.entities.generations.length ≤ w'.entities.generations.length
  metas : (∀ m, some m ∈ w.metas → S m.comp) → ∀ m, some m ∈ w'.metas → S m.comp
  mlen : MetaLen w → MetaLen w'

theorem GenExt.step {w w' : World} (h : GenExt S w w') : GenStep S w w' :=
  ⟨fun n hn p hp => Nat.le_succ_of_le (h.gens n hn p hp), h.slots, h.metas, h.mlen⟩

theorem GenExt.trans' {w w1 w' : World} (h : GenExt S w w1) (h' : GenStep S w1 w') : GenStep S w w' :=
  ⟨fun n hn => h'.gens n (h.gens n hn), Nat.le_trans h.slots h'.slots, fun hm => h'.metas (h.metas hm), fun hm => h'.mlen (h.mlen hm)⟩

/-- Like `GensM` for `GenStep`. -/
def GensM1 (S : ComponentMeta → Prop) {α : Type} (x : M α) (w : World) : Prop := Tri x w (fun _ w' => GenStep S w w') (fun _ w' => GenStep S w w')

theorem GensM.one {α : Type} {x : M α} {w : World} (h : GensM S x w) : GensM1 S x w := h.imp (fun _ _ h => h.step) (fun _ _ h => h.step)

theorem GensM.bind1 {α β : Type} {x : M α} {f : α → M β} {w : World} (hx : GensM S x w) (hf : ∀ a w', GensM1 S (f a) w') : GensM1 S (x >>= f) w := by
  unfold GensM1
  rw [tri_bind]
  refine hx.imp ?_ (fun _ _ h => h.step)
  intro a w' h
  exact (hf a w').imp (fun _ _ h' => h.trans' h') (fun _ _ h' => h.trans' h')

theorem GensM1.ite {α : Type} {c : Prop} [Decidable c] {x y : M α} {w : World} (hx : GensM1 S x w) (hy : GensM1 S y w) : GensM1 S (if c then x else y) w := by
  by_cases h : c
  · rw [if_pos h]; exact hx
  · rw [if_neg h]; exact hy

theorem adespawn_gens {a a' : Archetype} {e : EcsId} {row : Nat} {ms ms' : List (Option EntityMeta)} {evs : List DropEv}
    (h : a.despawn e row ms = .ok (a', ms', evs)) (hs : ∀ m, some m ∈ ms → S m.comp) : ∀ m, some m ∈ ms' → S m.comp := by
  have h0 : ∀ m, some m ∈ ms.set e.uindex none → S m.comp := by
    intro m hm
    rcases List.mem_or_eq_of_mem_set hm with hm | hm
    · exact hs m hm
    · cases hm
  unfold Archetype.despawn at h
  split at h
  · cases h
  · split at h
    · cases h
    · simp only at h
      split at h
      · cases h
      · split at h
        · split at h
          · injection h with h; injection h with _ h; injection h with h _; subst h; exact h0
          · split at h
            · cases h
            · rename_i hms
              injection h with h; injection h with _ h; injection h with h _; subst h
              exact setInstIndex_gens hms h0
        · cases h

theorem length_adespawn {a a' : Archetype} {e : EcsId} {row : Nat} {ms ms' : List (Option EntityMeta)} {evs : List DropEv}
    (h : a.despawn e row ms = .ok (a', ms', evs)) : ms'.length = ms.length := by
  unfold Archetype.despawn at h
  split at h
  · cases h
  · split at h
    · cases h
    · simp only at h
      split at h
      · cases h
      · split at h
        · split at h
          · injection h with h; injection h with _ h; injection h with h _; subst h; exact List.length_set
          · split at h
            · cases h
            · rename_i hms
              injection h with h; injection h with _ h; injection h with h _; subst h
              exact (length_setInstIndex hms).trans List.length_set
        · cases h

theorem despawn_gens (e : EcsId) (w : World) : GensM1 S (despawn e) w := by
  unfold despawn
  refine (GensM.get w).bind1 fun v w => (GensM.liftE _ w).bind1 fun _ w => GensM1.ite (GensM.pure _ w).one <| GensM1.ite (GensM.throw _ w).one <|
    (GensM.liftE _ w).bind1 fun _ w => (GensM.liftE _ w).bind1 fun _ w => (GensM.step fun w' h => ?_).bind1 fun _ w => ?_
  · split at h
    · cases h
    · split at h
      · cases h
      · rename_i hd
        injection h with h; subst h; exact .of_metas rfl (adespawn_gens hd) (.of_eq rfl (length_adespawn hd))
  · unfold GensM1
    rw [tri_bind, tri_step]
    cases hd : w.entities.despawn e with
    | error f => exact (GenExt.refl w).step
    | ok p =>
      simp only [tri_pure]
      unfold Entities.despawn at hd
      split at hd
      · cases hd
      · injection hd with hd; subst hd; exact (GenExt.refl w).step
      · split at hd
        · cases hd
        · rename_i hg
          injection hd with hd; subst hd
          refine ⟨fun n hn p hp => ?_, by simp, fun h => h, fun hm => ⟨by simpa using hm.1, hm.2⟩⟩
          rcases List.mem_or_eq_of_mem_set hp with hp | rfl
          · exact Nat.le_succ_of_le (hn p hp)
          · have := hn _ (List.mem_of_getElem? hg)
            simp only [Bool.false_eq_true, if_false]
            simp only at this
            split at this <;> omega

/-- The types and layouts a call brings into the world. -/
def World.Call.Brings (S : ComponentMeta → Prop) : Call → Prop
  | .spawn kind as => S kind.cmeta ∧ ∀ t v, .with t v ∈ as → S (ComponentMeta.fromGeneric t)
  | .addComponent _ t _ | .removeComponent _ t | .register t => S (ComponentMeta.fromGeneric t)
  | _ => True

theorem exec_gens (hu : S ComponentMeta.unit) {c : Call} (hd : ∀ e, c ≠ .despawn e) (hc : c.Brings S) (w : World) : GensM S c.exec w := by
  cases c with
  | spawn kind acts => exact (spawnWith_gens hu kind hc.1 acts hc.2 w).bind' fun _ w => GensM.pure _ w
  | addComponent e t v => exact addComponent_gens hu e t v hc w
  | removeComponent e t => exact removeComponent_gens hu e t hc w
  | addDynamic e c => exact addZst_gens e c w
  | addDynamicWithData e c src => exact addDyn_gens e c src w
  | removeDynamic e c => exact removeDyn_gens e c w
  | despawn e => exact (hd e rfl).elim
  | register t => exact (getOrCreate_gens hu t hc w).bind' fun _ w => GensM.pure _ w
  | write e c bs =>
    unfold Call.exec
    refine (GensM.get w).bind' fun v w => (GensM.liftE _ w).bind' fun p w => ?_
    cases p with
    | none => exact GensM.pure _ w
    | some p => exact GensM.step fun _ h => writePtr_gens h
  | query ps b => exact (query_gens ps w).bind' fun q w => .of_eq rfl rfl
  | queryDynamic fs b => exact (queryDynamic_gens fs w).bind' fun q w => .of_eq rfl rfl

end Ellecs
