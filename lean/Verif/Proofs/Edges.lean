import Verif.Spec.Edges
import Verif.Proofs.Shapes
import Verif.Proofs.Order
/-!
# Edges between tables

`Steps` of a cache are lookups, and insertions after a lookup that found nothing.  Every call takes the caches of all tables through
such steps (`Kept`), starting from an empty cache in new tables.
-/
namespace Ellecs
open World

/-- Lookups, and insertions after a lookup that found nothing. -/
inductive CSteps : AddRemoveCache → AddRemoveCache → Prop
  | refl (a : AddRemoveCache) : CSteps a a
  | look {a b b' : AddRemoveCache} {c : EcsId} {r : Option Nat} : CSteps a b → b.lookupId c = .ok (r, b') → CSteps a b'
  | learn {a b b' : AddRemoveCache} {c : EcsId} {t : Nat} : CSteps a b → b.lookupId c = .ok (none, b) → b.insertId c t = .ok b' → CSteps a b'

theorem CSteps.trans {a b c : AddRemoveCache} (h : CSteps a b) (h' : CSteps b c) : CSteps a c := by
  induction h' with
  | refl => exact h
  | look _ h1 ih => exact .look ih h1
  | learn _ h1 h2 ih => exact .learn ih h1 h2

structure Kept (w w' : World) : Prop where
  old : ∀ (k : Nat) (a : Archetype), w.archetypes[k]? = some a → ∃ a', w'.archetypes[k]? = some a' ∧ CSteps a.cache a'.cache
  new : ∀ (k : Nat) (a : Archetype), w.archetypes.length ≤ k → w'.archetypes[k]? = some a → CSteps AddRemoveCache.new a.cache

instance : Chain Kept where
  of_eq := fun {w w'} h => ⟨fun k a hk => ⟨a, by rw [h]; exact hk, .refl _⟩, fun k a hk ha => by
    rw [h] at ha; have := (List.getElem?_eq_some_iff.1 ha).1; omega⟩
  trans := fun {w w1 w'} h h' => by
    refine ⟨fun k a ha => ?_, fun k a hk ha => ?_⟩
    · obtain ⟨b, hb, h1⟩ := h.old k a ha
      obtain ⟨c, hc, h2⟩ := h'.old k b hb
      exact ⟨c, hc, h1.trans h2⟩
    · by_cases hk' : w1.archetypes.length ≤ k
      · exact h'.new k a hk' ha
      · have hlt : k < w1.archetypes.length := by omega
        have hb := List.getElem?_eq_getElem hlt
        obtain ⟨c, hc, h2⟩ := h'.old k _ hb
        rw [ha] at hc; injection hc with hc; subst hc
        exact (h.new k _ hk hb).trans h2

theorem Kept.set {w w' : World} {k : Nat} {a b : Archetype} (ha : w.archetypes[k]? = some a) (hw : w'.archetypes = w.archetypes.set k b)
    (hab : CSteps a.cache b.cache) : Kept w w' := by
  refine ⟨fun j x hx => ?_, fun j x hj hx => ?_⟩
  · rw [hw, List.getElem?_set]
    by_cases h1 : k = j
    · subst h1
      rw [if_pos rfl, if_pos (List.getElem?_eq_some_iff.1 ha).1]
      rw [ha] at hx; injection hx with hx; subst hx
      exact ⟨_, rfl, hab⟩
    · rw [if_neg h1]; exact ⟨x, hx, .refl _⟩
  · rw [hw] at hx
    have := (List.getElem?_eq_some_iff.1 hx).1
    rw [List.length_set] at this; omega

theorem Kept.push {w w' : World} {n : Archetype} (hw : w'.archetypes = w.archetypes ++ [n]) (hn : n.cache = AddRemoveCache.new) : Kept w w' := by
  refine ⟨fun j x hx => ⟨x, ?_, .refl _⟩, fun j x hj hx => ?_⟩
  · rw [hw, List.getElem?_append_left (List.getElem?_eq_some_iff.1 hx).1]; exact hx
  · have hlt := (List.getElem?_eq_some_iff.1 hx).1
    simp only [hw, List.length_append, List.length_singleton] at hlt
    have hkl : j = w.archetypes.length := by omega
    subst hkl
    rw [hw, List.getElem?_concat_length] at hx
    injection hx with hx; subst hx; rw [hn]; exact .refl _

/-! ## builders -/

theorem bdrop_kept (b : Builder) (w : World) : Walk Kept b.drop w := by
  unfold Walk Tri Builder.drop
  by_cases hc : b.cap ≠ 0
  · simp only [if_pos hc]
    cases hr : w.reuse with
    | none => exact Chain.of_eq rfl
    | some x =>
      simp only
      by_cases hl : b.data.length = b.cap
      · simp only [if_pos hl]; exact Chain.of_eq rfl
      · simp only [if_neg hl]; exact Chain.of_eq rfl
  · simp only [if_neg hc]; exact Chain.of_eq rfl

theorem bnew_kept (e : EcsId) (m : ComponentMeta) (w : World) : Walk Kept (Builder.new e m) w := by
  unfold Walk Tri Builder.new
  cases h : w.reuse <;> exact Chain.of_eq rfl

theorem bcap_kept (e : EcsId) (m : ComponentMeta) (n : Nat) (w : World) : Walk Kept (Builder.withCapacity e m n) w := by
  unfold Walk Tri Builder.withCapacity
  cases h : w.reuse with
  | none =>
    simp only
    by_cases h0 : n = 0
    · simp only [if_pos h0]; exact Chain.of_eq rfl
    · simp only [if_neg h0]
      by_cases h1 : layoutOk n 0 = true
      · simp only [if_pos h1]; exact Chain.of_eq rfl
      · simp only [if_neg h1]; exact Chain.of_eq rfl
  | some x => exact Chain.of_eq rfl

theorem orDrop_kept {α : Type} {b : Builder} {x : M α} {w : World} (h : Walk Kept x w) : Walk Kept (b.orDrop x) w :=
  WorldSpec.orDrop_walk bdrop_kept h

theorem pushComps_kept (b : Builder) (k : Nat) (ids : List EcsId) : ∀ (off : Nat) (w : World), Walk Kept (b.pushComps k off ids) w := by
  induction ids with
  | nil => exact fun _ w => Walk.pure _ w
  | cons id ids ih =>
    intro off w
    unfold Builder.pushComps
    refine (Walk.get w).bind' fun v w => (Walk.liftE _ w).bind' fun _ w => (Walk.liftE _ w).bind' fun _ w => (Walk.step fun w' h => ?_).bind' fun _ w =>
      (Walk.get w).bind' fun v w => (Walk.liftE _ w).bind' fun _ w => ih _ w
    split at h
    · cases h
    rename_i ha
    split at h
    · cases h
    split at h
    · cases h
    split at h
    · cases h
    injection h with h; subst h
    exact .set ha rfl (.refl _)

theorem failDropping_kept {α : Type} (f : Fault) (st : List (EcsId × UVec)) (w : World) : Walk Kept (α := α) (failDropping f st) w := by
  unfold Walk Tri failDropping
  cases dropStorages st <;> exact Chain.of_eq rfl

theorem createArchetype_kept (b : Builder) (w : World) : Walk Kept b.createArchetype w := by
  unfold Builder.createArchetype
  refine (Walk.get w).bind' fun v w => ?_
  split
  · exact failDropping_kept _ _ _
  · simp only
    split
    · exact failDropping_kept _ _ _
    · exact Walk.ite (Walk.pure _ _) (failDropping_kept _ _ _)

theorem createArchetype_cache {b b' : Builder} {a : Archetype} {w w' : World} (h : b.createArchetype w = .ok (b', a) w') : a.cache = AddRemoveCache.new := by
  unfold Builder.createArchetype at h
  obtain ⟨v, w1, h1, h2⟩ := bind_ok h
  injection h1 with h1 h1'; subst h1 h1'
  have hfail : ∀ {α : Type} {f : Fault} {st : List (EcsId × UVec)} {x : α} {w1 w' : World}, failDropping f st w1 = .ok x w' → False := by
    intro α f st x w1 w' h
    unfold failDropping at h
    split at h <;> cases h
  cases hcs : b.createStorages w 0 b.compIds [] with
  | error x => obtain ⟨f, st⟩ := x; rw [hcs] at h2; exact (hfail h2).elim
  | ok st =>
    rw [hcs] at h2
    simp only at h2
    cases hck : Builder.checkedLookup (stableSort EcsId.lt b.compIds).zipIdx (fun _ => none) with
    | error x => rw [hck] at h2; exact (hfail h2).elim
    | ok l =>
      rw [hck] at h2
      simp only at h2
      by_cases hg : idsAgree (stableSort EcsId.lt b.compIds) (stableSort storageLt st) = true
      · rw [if_pos hg] at h2
        injection h2 with h2 h3; injection h2 with _ h2; rw [← h2]
      · rw [if_neg hg] at h2; exact (hfail h2).elim

theorem build_kept (b : Builder) (w : World) : Walk Kept b.build w := by
  unfold Builder.build
  refine (Walk.get w).bind' fun v w => (Walk.liftE _ w).bind' fun found w => ?_
  cases found with
  | some k =>
    refine (Walk.step fun w' h => ?_).bind' fun _ w => (pushComps_kept _ _ _ _ w).bind' fun _ w => (Walk.get w).bind' fun v w => (Walk.liftE _ w).bind' fun _ w =>
      (Walk.step fun w' h => Chain.of_eq (setEntityMeta_archs h)).bind' fun _ w => Walk.pure _ w
    split at h
    · cases h
    · rename_i ha
      injection h with h; subst h; exact .set ha rfl (.refl _)
  | none =>
    refine Walk.bind' (show Walk Kept (modify _) w from Chain.of_eq (ensureLocks_count _ w)) fun _ w => (createArchetype_kept _ w).bind fun x w1 hx => ?_
    obtain ⟨b', a⟩ := x
    refine (Walk.step fun w' h => ?_).bind' fun _ w => (Walk.get w).bind' fun _ w =>
      (Walk.step fun w' h => Chain.of_eq (setEntityMeta_archs h)).bind' fun _ w => Walk.pure _ w
    exact .push (pushArchetype_archs h) (createArchetype_cache hx)

theorem spawnId_kept (w : World) : Walk Kept spawnId w := by
  unfold Walk Tri spawnId
  cases h : w.entities.spawn with
  | mk r s => cases r <;> exact Chain.of_eq rfl

theorem getOrCreate_kept (t : Ty) (w : World) : Walk Kept (getOrCreate t) w := by
  unfold getOrCreate
  refine (Walk.get w).bind' fun v w => ?_
  cases v.typeMap t with
  | some id => exact Walk.pure _ w
  | none =>
    refine (spawnId_kept w).bind' fun _ w => (bnew_kept _ _ w).bind' fun b w => (orDrop_kept (build_kept b w)).bind' fun _ w => (bdrop_kept _ w).bind' fun _ w =>
      (Walk.step fun w' h => ?_).bind' fun _ w => Walk.bind' (show Walk Kept (modify _) w from Chain.of_eq rfl) fun _ w => Walk.pure _ w
    split at h
    · cases h
    · cases h
    · injection h with h; subst h; exact Chain.of_eq rfl

theorem act_kept (b : Builder) (a : BAct) (w : World) : Walk Kept (b.act a) w := by
  unfold Builder.act
  refine orDrop_kept ?_
  cases a with
  | «with» t v => exact (getOrCreate_kept t w).bind' fun _ w => (Walk.get w).bind' fun _ w => Walk.liftE _ w
  | withDynamic id => exact (Walk.get w).bind' fun _ w => Walk.liftE _ w
  | withDynamicWithData id v => exact (Walk.get w).bind' fun _ w => Walk.liftE _ w
  | build => exact build_kept b w

theorem acts_kept (as : List BAct) : ∀ (b : Builder) (w : World), Walk Kept (b.acts as) w := by
  induction as with
  | nil => exact fun b w => Walk.pure b w
  | cons a as ih => exact fun b w => (act_kept b a w).bind' fun b w => ih b w

theorem spawnWith_kept (kind : SpawnKind) (as : List BAct) (w : World) : Walk Kept (spawnWith kind as) w := by
  unfold spawnWith
  refine (spawnId_kept w).bind' fun e w => Walk.bind' ?_ fun b w => (acts_kept as b w).bind' fun b w => (bdrop_kept b w).bind' fun _ w => Walk.pure _ w
  cases kind with
  | plain => exact bnew_kept _ _ w
  | capacity n => exact bcap_kept _ _ _ w
  | withMeta m => exact bnew_kept _ _ w

/-! ## moving entities -/

/-- The cache of table `cur` knows nothing about `c`. -/
def Ignorant (w : World) (cur : Nat) (c : EcsId) : Prop := ∃ a, w.archetypes[cur]? = some a ∧ a.cache.lookupId c = .ok (none, a.cache)

theorem lookupId_none {b b' : AddRemoveCache} {c : EcsId} (h : b.lookupId c = .ok (none, b')) : b' = b := by
  unfold AddRemoveCache.lookupId at h
  split at h
  · cases h
  split at h
  · cases h
  split at h
  · split at h <;> cases h
  · injection h with h; injection h with _ h; exact h.symm

theorem insertCache_kept {w w' : World} {k t : Nat} {id : EcsId} (hi : Ignorant w k id) (h : insertCache w k id t = .ok w') : Kept w w' := by
  obtain ⟨a, ha, hl⟩ := hi
  unfold insertCache at h
  rw [ha] at h
  simp only at h
  split at h
  · cases h
  · rename_i hc
    injection h with h; subst h; exact .set ha rfl (.learn (.refl _) hl hc)

theorem tryFindNext_kept {w w' : World} {k : Nat} {id : EcsId} {r : Option Nat} (h : tryFindNext w k id = .ok (r, w')) : Kept w w' := by
  unfold tryFindNext at h
  split at h
  · cases h
  · rename_i ha
    split at h
    · cases h
    · rename_i hc
      injection h with h; injection h with _ h; subst h; exact .set ha rfl (.look (.refl _) hc)

theorem tryFindNext_ignorant {w w' : World} {k : Nat} {id : EcsId} (h : tryFindNext w k id = .ok (none, w')) : Ignorant w' k id := by
  unfold tryFindNext at h
  split at h
  · cases h
  · rename_i a ha
    split at h
    · cases h
    · rename_i r c hc
      injection h with h; injection h with h1 h; subst h1 h
      have := lookupId_none hc; subst this
      exact ⟨a, by rw [List.getElem?_set_self (List.getElem?_eq_some_iff.1 ha).1], hc⟩

theorem Ignorant.of_archs {w w' : World} {k : Nat} {c : EcsId} (h : Ignorant w k c) (ha : w'.archetypes = w.archetypes) : Ignorant w' k c := by
  obtain ⟨a, h1, h2⟩ := h; exact ⟨a, by rw [ha]; exact h1, h2⟩

theorem Ignorant.push {w w' : World} {k : Nat} {c : EcsId} {n : Archetype} (h : Ignorant w k c) (ha : w'.archetypes = w.archetypes ++ [n]) : Ignorant w' k c := by
  obtain ⟨a, h1, h2⟩ := h
  exact ⟨a, by rw [ha, List.getElem?_append_left (List.getElem?_eq_some_iff.1 h1).1]; exact h1, h2⟩

theorem fromWith_cache {a n : Archetype} {i : TypeInfo} {c : EcsId} (h : a.fromArchetypeWith i c = .ok n) : n.cache = AddRemoveCache.new := by
  unfold Archetype.fromArchetypeWith at h
  simp only at h
  split at h
  · cases h
  split at h
  · injection h with h; subst h; rfl
  · cases h

theorem fromWithout_cache {a n : Archetype} {c : EcsId} (h : a.fromArchetypeWithout c = .ok n) : n.cache = AddRemoveCache.new := by
  unfold Archetype.fromArchetypeWithout at h
  simp only at h
  split at h
  · cases h
  split at h
  · split at h
    · injection h with h; subst h; rfl
    · cases h
  · cases h

theorem create_kept {cur : Nat} {c : EcsId} {n : Archetype} {w : World} (hn : n.cache = AddRemoveCache.new) (hi : Ignorant w cur c) :
    Walk Kept (do
      World.step (fun w => pushArchetype w n)
      let len := (← get).archetypes.length
      World.step (fun w => insertCache w cur c (len - 1))
      return len - 1) w := by
  refine (Walk.step fun _ h => Kept.push (pushArchetype_archs h) hn).bind fun _ w1 h1 => ?_
  have hi1 := hi.push (pushArchetype_archs (step_ok h1))
  refine (Walk.get w1).bind fun v w2 h2 => ?_
  injection h2 with h2 h2'; subst h2 h2'
  exact (Walk.step fun _ h => insertCache_kept hi1 h).bind' fun _ w => Walk.pure _ w

theorem createPlus_kept (cur : Nat) (c : EcsId) {w : World} (hi : Ignorant w cur c) : Walk Kept (createPlus cur c) w := by
  unfold createPlus
  refine (Walk.modify (show Kept w _ from Chain.of_eq (ensureLock_count w c))).bind fun _ w1 h1 => ?_
  have hi : Ignorant w1 cur c := by injection h1 with _ h1; subst h1; exact hi.of_archs (ensureLock_count w c)
  refine (Walk.get w1).bind fun v w2 h2 => ?_
  injection h2 with h2 h2'; subst h2 h2'
  refine (Walk.liftE _ _).bind fun _ w2 h2 => ?_
  obtain ⟨_, rfl⟩ := liftE_ok h2
  refine (Walk.liftE _ _).bind fun _ w2 h2 => ?_
  obtain ⟨_, rfl⟩ := liftE_ok h2
  refine (Walk.liftE _ _).bind fun _ w2 h2 => ?_
  obtain ⟨_, rfl⟩ := liftE_ok h2
  refine (Walk.liftE _ _).bind fun n w2 h2 => ?_
  obtain ⟨hn, rfl⟩ := liftE_ok h2
  exact create_kept (fromWith_cache hn) hi

theorem createMinus_kept (cur : Nat) (c : EcsId) {w : World} (hi : Ignorant w cur c) : Walk Kept (createMinus cur c) w := by
  unfold createMinus
  refine (Walk.get w).bind fun v w2 h2 => ?_
  injection h2 with h2 h2'; subst h2 h2'
  refine (Walk.liftE _ _).bind fun _ w2 h2 => ?_
  obtain ⟨_, rfl⟩ := liftE_ok h2
  refine (Walk.liftE _ _).bind fun n w2 h2 => ?_
  obtain ⟨hn, rfl⟩ := liftE_ok h2
  exact create_kept (fromWithout_cache hn) hi

theorem resolveAdd_kept (cur : Nat) (c : EcsId) (w : World) : Walk Kept (resolveAdd cur c) w := by
  unfold resolveAdd
  refine (Walk.get w).bind fun v w1 h1 => ?_
  injection h1 with h1 h1'; subst h1 h1'
  refine (Walk.liftE _ _).bind fun a w2 h2 => ?_
  obtain ⟨_, rfl⟩ := liftE_ok h2
  refine Walk.ite (Walk.throw _ _) ?_
  refine (Walk.liftE _ _).bind fun x w3 h3 => ?_
  obtain ⟨h3, rfl⟩ := liftE_ok h3
  obtain ⟨r, w4⟩ := x
  refine (Walk.set (tryFindNext_kept h3)).bind fun _ w5 h5 => ?_
  injection h5 with _ h5; subst h5
  cases r with
  | some k => exact Walk.pure _ _
  | none =>
    have hi := tryFindNext_ignorant h3
    refine (Walk.liftE _ _).bind fun found w6 h6 => ?_
    obtain ⟨_, rfl⟩ := liftE_ok h6
    cases found with
    | some k => exact (Walk.step fun _ h => insertCache_kept hi h).bind' fun _ w => Walk.pure _ w
    | none => exact createPlus_kept _ _ hi

theorem resolveRemove_kept (cur : Nat) (c : EcsId) (w : World) : Walk Kept (resolveRemove cur c) w := by
  unfold resolveRemove
  refine (Walk.get w).bind fun v w1 h1 => ?_
  injection h1 with h1 h1'; subst h1 h1'
  refine (Walk.liftE _ _).bind fun a w2 h2 => ?_
  obtain ⟨_, rfl⟩ := liftE_ok h2
  refine Walk.ite (Walk.throw _ _) ?_
  refine (Walk.liftE _ _).bind fun x w3 h3 => ?_
  obtain ⟨h3, rfl⟩ := liftE_ok h3
  obtain ⟨r, w4⟩ := x
  refine (Walk.set (tryFindNext_kept h3)).bind fun _ w5 h5 => ?_
  injection h5 with _ h5; subst h5
  cases r with
  | some k => exact Walk.pure _ _
  | none =>
    have hi := tryFindNext_ignorant h3
    refine (Walk.liftE _ _).bind fun found w6 h6 => ?_
    obtain ⟨_, rfl⟩ := liftE_ok h6
    cases found with
    | some k => exact (Walk.step fun _ h => insertCache_kept hi h).bind' fun _ w => Walk.pure _ w
    | none => exact createMinus_kept _ _ hi

theorem finishMove_kept {w w' : World} {cur tar : Nat} {a b a' b' : Archetype} {e : EcsId} {row : Nat} (hne : cur ≠ tar)
    (ha : w.archetypes[cur]? = some a) (hb : w.archetypes[tar]? = some b)
    (h : finishMove w cur tar a' b' e row = .ok w') (sa : a'.cache = a.cache) (sb : b'.cache = b.cache) : Kept w w' := by
  have key : ∀ (u : World) (l l' : List EcsId), u.archetypes = (w.archetypes.set cur { a' with entities := l }).set tar { b' with entities := l' } → Kept w u := by
    intro u l l' hu
    have h1 : Kept w { w with archetypes := w.archetypes.set cur { a' with entities := l } } := .set ha rfl (by simp only [sa]; exact .refl _)
    refine Chain.trans h1 (.set (a := b) ?_ hu (by simp only [sb]; exact .refl _))
    simp only
    rw [List.getElem?_set_ne hne]; exact hb
  unfold finishMove at h
  simp only at h
  split at h
  · cases h
  · split at h
    · split at h
      · injection h with h; subst h; exact key _ _ _ rfl
      · split at h
        · cases h
        · injection h with h; subst h; exact key _ _ _ rfl
    · cases h

theorem moveAddRow_kept {w w' : World} {cur tar : Nat} {e c : EcsId} {row : Nat} {src : Bytes} (h : moveAddRow cur tar e row c src w = .ok w') :
    Kept w w' := by
  unfold moveAddRow at h
  split at h
  · cases h
  rename_i hi
  obtain ⟨hne, ha, hb⟩ := indexTwice_some hi
  split at h
  · cases h
  split at h
  · cases h
  split at h
  · cases h
  split at h
  · cases h
  exact finishMove_kept hne ha hb h rfl rfl

theorem moveRemoveRow_kept {w w' : World} {cur tar : Nat} {e c : EcsId} {row : Nat} (h : moveRemoveRow cur tar e row c w = .ok w') :
    Kept w w' := by
  unfold moveRemoveRow at h
  split at h
  · cases h
  rename_i hi
  obtain ⟨hne, ha, hb⟩ := indexTwice_some hi
  split at h
  · cases h
  simp only at h
  split at h
  · cases h
  split at h
  · cases h
  split at h
  · cases h
  split at h
  · cases h
  rename_i hf
  injection h with h; subst h
  exact Chain.trans (finishMove_kept hne ha hb hf rfl rfl) (Chain.of_eq rfl)

theorem addDyn_kept (e c : EcsId) (src : Bytes) (w : World) : Walk Kept (addComponentDynamicWithData e c src) w := by
  unfold addComponentDynamicWithData
  refine (Walk.get w).bind' fun v w => (Walk.liftE _ w).bind' fun _ w => Walk.ite (Walk.pure _ w) <| (Walk.liftE _ w).bind' fun _ w =>
    Walk.ite (Walk.pure _ w) <| (Walk.liftE _ w).bind' fun _ w => (Walk.liftE _ w).bind' fun _ w => (resolveAdd_kept _ _ w).bind' fun _ w =>
    Walk.step fun _ h => moveAddRow_kept h

theorem removeDyn_kept (e c : EcsId) (w : World) : Walk Kept (removeComponentDynamic e c) w := by
  unfold removeComponentDynamic
  refine (Walk.get w).bind' fun v w => (Walk.liftE _ w).bind' fun _ w => Walk.ite (Walk.pure _ w) <| (Walk.liftE _ w).bind' fun _ w =>
    Walk.ite (Walk.pure _ w) <| (Walk.liftE _ w).bind' fun _ w => (Walk.liftE _ w).bind' fun _ w => (resolveRemove_kept _ _ w).bind' fun _ w =>
    Walk.step fun _ h => moveRemoveRow_kept h

theorem addZst_kept (e c : EcsId) (w : World) : Walk Kept (addComponentDynamic e c) w := by
  unfold addComponentDynamic
  refine (Walk.get w).bind' fun v w => (Walk.liftE _ w).bind' fun _ w => Walk.ite (Walk.throw _ w) <| (Walk.liftE _ w).bind' fun _ w =>
    Walk.ite (Walk.throw _ w) <| (Walk.liftE _ w).bind' fun _ w => (Walk.liftE _ w).bind' fun _ w => Walk.ite (Walk.throw _ w) <| addDyn_kept _ _ _ w

theorem adespawn_cache {a a' : Archetype} {e : EcsId} {row : Nat} {ms ms' : List (Option EntityMeta)} {evs : List DropEv}
    (h : a.despawn e row ms = .ok (a', ms', evs)) : a'.cache = a.cache := by
  unfold Archetype.despawn at h
  simp only at h
  split at h
  · cases h
  split at h
  · cases h
  split at h
  · cases h
  split at h
  · split at h
    · injection h with h; injection h with h; subst h; rfl
    · split at h
      · cases h
      · injection h with h; injection h with h; subst h; rfl
  · cases h

theorem despawn_kept (e : EcsId) (w : World) : Walk Kept (despawn e) w := by
  unfold despawn
  refine (Walk.get w).bind' fun v w => (Walk.liftE _ w).bind' fun _ w => Walk.ite (Walk.pure _ w) <| Walk.ite (Walk.throw _ w) <|
    (Walk.liftE _ w).bind' fun _ w => (Walk.liftE _ w).bind' fun _ w => (Walk.step fun w' h => ?_).bind' fun _ w =>
    (Walk.step fun w' h => ?_).bind' fun _ w => Walk.pure _ w
  · split at h
    · cases h
    · rename_i ha
      split at h
      · cases h
      · rename_i hd
        injection h with h; subst h
        exact .set ha rfl (by rw [adespawn_cache hd]; exact .refl _)
  · split at h
    · cases h
    · injection h with h; subst h; exact Chain.of_eq rfl

theorem orDropValue_kept {α : Type} {t : Ty} {v : Bytes} {x : M α} {w : World} (h : Walk Kept x w) : Walk Kept (orDropValue t v x) w := by
  unfold Walk Tri orDropValue at *
  cases hx : x w with
  | ok a w' => rw [hx] at h; exact h
  | error f w' => rw [hx] at h; exact Chain.trans h (Chain.of_eq rfl)

theorem addComponent_kept (e : EcsId) (t : Ty) (v : Bytes) (w : World) : Walk Kept (addComponent e t v) w := by
  unfold addComponent
  refine (orDropValue_kept ?_).bind' fun _ w => addDyn_kept _ _ _ w
  exact (Walk.get w).bind' fun _ w => (Walk.liftE _ w).bind' fun _ w => Walk.ite (Walk.throw _ w) (getOrCreate_kept t w)

theorem removeComponent_kept (e : EcsId) (t : Ty) (w : World) : Walk Kept (removeComponent e t) w := by
  unfold removeComponent
  exact (Walk.get w).bind' fun _ w => (Walk.liftE _ w).bind' fun _ w => Walk.ite (Walk.throw _ w) ((getOrCreate_kept t w).bind' fun _ w => removeDyn_kept _ _ w)

theorem writePtr_kept {w w' : World} {p : Ptr} {bs : Bytes} (h : w.writePtr p bs = .ok w') : Kept w w' := by
  unfold writePtr at h
  split at h
  · split at h
    · cases h
    rename_i ha
    split at h
    · cases h
    split at h
    · injection h with h; subst h; exact Chain.of_eq rfl
    simp only at h
    split at h
    · injection h with h; subst h
      exact .set ha rfl (.refl _)
    · cases h
  · cases h

theorem exec_kept (c : Call) (w : World) : Walk Kept c.exec w := by
  cases c with
  | spawn kind acts => exact (spawnWith_kept kind acts w).bind' fun _ w => Walk.pure _ w
  | addComponent e t v => exact addComponent_kept e t v w
  | removeComponent e t => exact removeComponent_kept e t w
  | addDynamic e c => exact addZst_kept e c w
  | addDynamicWithData e c src => exact addDyn_kept e c src w
  | removeDynamic e c => exact removeDyn_kept e c w
  | despawn e => exact (despawn_kept e w).bind' fun _ w => Walk.pure _ w
  | register t => exact (getOrCreate_kept t w).bind' fun _ w => Walk.pure _ w
  | write e c bs =>
    unfold Call.exec
    refine (Walk.get w).bind' fun v w => (Walk.liftE _ w).bind' fun p w => ?_
    cases p with
    | none => exact Walk.pure _ w
    | some p => exact Walk.step fun _ h => writePtr_kept h
  | query ps b =>
    refine Walk.bind' (T := Kept) ?_ fun q w => ?_
    · unfold Walk Tri World.query
      cases allFetches w ps with
      | none => exact Chain.of_eq (T := Kept) rfl
      | some fs =>
        simp only
        cases acquireAllStatic w [] w.locks fs <;> exact Chain.of_eq (T := Kept) rfl
    · exact Chain.of_eq (T := Kept) rfl
  | queryDynamic fs b =>
    refine Walk.bind' (T := Kept) ?_ fun q w => ?_
    · unfold Walk Tri World.queryDynamic
      cases acquireAllDyn w [] false w.locks fs <;> exact Chain.of_eq (T := Kept) rfl
    · exact Chain.of_eq (T := Kept) rfl


/-! ## what the steps preserve -/

theorem lookupId_map {b b' : AddRemoveCache} {c : EcsId} {r : Option Nat} (h : b.lookupId c = .ok (r, b')) : b'.lookup = b.lookup := by
  unfold AddRemoveCache.lookupId at h
  split at h
  · cases h
  split at h
  · injection h with h; injection h with _ h; rw [← h]
  split at h
  · split at h
    · cases h
    · injection h with h; injection h with _ h; rw [← h]
  · injection h with h; injection h with _ h; rw [← h]

theorem lookupId_miss {b b' : AddRemoveCache} {c : EcsId} (h : b.lookupId c = .ok (none, b')) :
    b.lookup c = none ∧ ∃ l, b.cache.asSlice = .ok l ∧ ∀ p ∈ l, p.1 ≠ c := by
  unfold AddRemoveCache.lookupId at h
  split at h
  · cases h
  rename_i l hl
  split at h
  · cases h
  rename_i hf
  split at h
  · split at h <;> cases h
  · rename_i hn
    exact ⟨hn, l, hl, fun p hp hc => by simpa [hc] using List.find?_eq_none.1 hf p hp⟩

theorem CSteps.mono {a b : AddRemoveCache} (h : CSteps a b) {c : EcsId} {t : Nat} (hc : a.lookup c = some t) : b.lookup c = some t := by
  induction h with
  | refl => exact hc
  | look _ h1 ih => rw [lookupId_map h1]; exact ih
  | learn _ h1 h2 ih =>
    have hn := (lookupId_miss h1).1
    unfold AddRemoveCache.insertId at h2
    split at h2
    · cases h2
    · injection h2 with h2; subst h2
      simp only [mapInsert]
      split
      · rename_i hx; subst hx; rw [hn] at ih; cases ih
      · exact ih

/-- The array holds entries of the map, each at most once. -/
def Neat (c : AddRemoveCache) : Prop :=
  ∃ l, ArraySpec.Slots CACHE_SIZE c.cache l ∧ (l.map (·.1)).Nodup ∧ ∀ p ∈ l, c.lookup p.1 = some p.2

theorem neat_new : Neat AddRemoveCache.new := ⟨[], ArraySpec.Slots.new _, List.nodup_nil, by simp⟩

/-- An entry is put in front. -/
theorem Slots.front {v v' : ArrayVec (EcsId × Nat)} {l : List (EcsId × Nat)} (h : ArraySpec.Slots CACHE_SIZE v l) {x : EcsId × Nat} {d : Option (EcsId × Nat)}
    (hp : v.pushStart x = .ok (d, v')) : ArraySpec.Slots CACHE_SIZE v' (x :: l.take 3) := by
  obtain ⟨v1, e1, e2⟩ := h.pushStart (by decide) x
  rw [hp] at e1; injection e1 with e1; injection e1 with _ e1; subst e1
  exact e2

theorem nodup_front {l : List (EcsId × Nat)} (h : (l.map (·.1)).Nodup) {x : EcsId × Nat} (hx : ∀ p ∈ l, p.1 ≠ x.1) : ((x :: l.take 3).map (·.1)).Nodup := by
  rw [List.map_cons, List.nodup_cons]
  refine ⟨fun hm => ?_, ?_⟩
  · obtain ⟨p, hp, he⟩ := List.mem_map.1 hm
    exact hx p (List.mem_of_mem_take hp) he
  · rw [List.map_take]; exact h.sublist (List.take_sublist _ _)

theorem Neat.found {b b' : AddRemoveCache} (h : Neat b) {c : EcsId} {t : Nat} (hl : b.lookupId c = .ok (some t, b')) :
    Neat b' ∧ b'.lookup c = some t ∧ ∃ l, b'.cache.asSlice = .ok l ∧ (c, t) ∈ l := by
  obtain ⟨l, h1, h2, h3⟩ := h
  unfold AddRemoveCache.lookupId at hl
  rw [h1.asSlice] at hl
  simp only at hl
  split at hl
  · rename_i p hp
    injection hl with hl; injection hl with hl hl'; injection hl with hl; subst hl hl'
    have hm := List.mem_of_find?_eq_some hp
    have hc : p.1 = c := by simpa using List.find?_some hp
    subst hc
    exact ⟨⟨l, h1, h2, h3⟩, h3 p hm, l, h1.asSlice, hm⟩
  · rename_i hf
    split at hl
    · rename_i i hi
      split at hl
      · cases hl
      · rename_i hp
        injection hl with hl; injection hl with hl hl'; injection hl with hl; subst hl hl'
        have hs := Slots.front h1 hp
        refine ⟨⟨_, hs, nodup_front h2 (fun q hq hc => by simpa [hc] using List.find?_eq_none.1 hf q hq), fun q hq => ?_⟩, hi, _, hs.asSlice, List.mem_cons_self⟩
        rcases List.mem_cons.1 hq with rfl | hq
        · exact hi
        · exact h3 q (List.mem_of_mem_take hq)
    · cases hl

theorem Neat.learned {b b' : AddRemoveCache} (h : Neat b) {c : EcsId} {t : Nat} (hm : b.lookupId c = .ok (none, b)) (hl : b.insertId c t = .ok b') :
    Neat b' ∧ b'.lookup c = some t ∧ ∃ l, b'.cache.asSlice = .ok l ∧ (c, t) ∈ l := by
  obtain ⟨l, h1, h2, h3⟩ := h
  obtain ⟨hn, l', hl', hne⟩ := lookupId_miss hm
  rw [h1.asSlice] at hl'; injection hl' with hl'; subst hl'
  unfold AddRemoveCache.insertId at hl
  split at hl
  · cases hl
  · rename_i hp
    injection hl with hl; subst hl
    have hs := Slots.front h1 hp
    refine ⟨⟨_, hs, nodup_front h2 hne, fun q hq => ?_⟩, by simp [mapInsert], _, hs.asSlice, List.mem_cons_self⟩
    simp only [mapInsert]
    rcases List.mem_cons.1 hq with rfl | hq
    · simp
    · rw [if_neg (hne q (List.mem_of_mem_take hq))]
      exact h3 q (List.mem_of_mem_take hq)

theorem CSteps.neat {a b : AddRemoveCache} (h : CSteps a b) (ha : Neat a) : Neat b := by
  induction h with
  | refl => exact ha
  | @look b b' c r _ h1 ih =>
    cases r with
    | none => rw [lookupId_none h1]; exact ih
    | some t => exact (ih.found h1).1
  | learn _ h1 h2 ih => exact (ih.learned h1 h2).1

def NeatW (w : World) : Prop := ∀ a ∈ w.archetypes, Neat a.cache

theorem Kept.neat {w w' : World} (h : Kept w w') (hw : NeatW w) : NeatW w' := by
  intro a ha
  obtain ⟨k, hk⟩ := List.mem_iff_getElem?.1 ha
  by_cases hl : w.archetypes.length ≤ k
  · exact (h.new k a hl hk).neat neat_new
  · have hlt : k < w.archetypes.length := by omega
    obtain ⟨a', h1, h2⟩ := h.old k _ (List.getElem?_eq_getElem hlt)
    rw [hk] at h1; injection h1 with h1; subst h1
    exact h2.neat (hw _ (List.getElem_mem hlt))

theorem Kept.knows {w w' : World} (h : Kept w w') {k t : Nat} {c : EcsId} (hk : w.Knows k c t) : w'.Knows k c t := by
  obtain ⟨a, h1, h2⟩ := hk
  obtain ⟨a', h3, h4⟩ := h.old k a h1
  exact ⟨a', h3, h4.mono h2⟩

theorem World.Since.kept {w w' : World} (h : Since w w') : Kept w w' := by
  induction h with
  | refl => exact Chain.of_eq rfl
  | ok c _ h1 ih => exact Chain.trans ih (WorldSpec.Walk.ok (exec_kept c _) h1)
  | panic c f _ h1 ih => exact Chain.trans ih (WorldSpec.Walk.err (exec_kept c _) h1)

theorem World.Reachable.since {w : World} (h : Reachable w) : Since World.new w := by
  induction h with
  | new => exact .refl _
  | ok c _ _ h1 _ ih => exact .ok c ih h1
  | panic c f _ _ h1 _ _ _ ih => exact .panic c f ih h1

theorem neatW_new : NeatW World.new := by intro a h; simp [World.new] at h

theorem World.Reachable.neatW {w : World} (h : Reachable w) : NeatW w := h.since.kept.neat neatW_new

/-! ## a table looks up what it knows -/

theorem Neat.knows {b : AddRemoveCache} (h : Neat b) {c : EcsId} {t : Nat} (hc : b.lookup c = some t) : ∃ v, b.lookupId c = .ok (some t, v) := by
  obtain ⟨l, h1, h2, h3⟩ := h
  unfold AddRemoveCache.lookupId
  rw [h1.asSlice]
  simp only
  cases hf : l.find? (fun p => decide (p.1 = c)) with
  | some p =>
    have hm := h3 p (List.mem_of_find?_eq_some hf)
    have hpc : p.1 = c := by simpa using List.find?_some hf
    rw [hpc, hc] at hm; injection hm with hm
    exact ⟨b, by simp only [hm]⟩
  | none =>
    simp only [hc]
    obtain ⟨v', e1, _⟩ := h1.pushStart (by decide : 0 < CACHE_SIZE) (c, t)
    exact ⟨⟨v', b.lookup⟩, by simp only [e1]⟩

theorem Neat.recent {b : AddRemoveCache} (h : Neat b) {c : EcsId} {t : Nat} {l : List (EcsId × Nat)} (hl : b.cache.asSlice = .ok l) (hc : (c, t) ∈ l) :
    b.lookupId c = .ok (some t, b) := by
  obtain ⟨l', h1, h2, h3⟩ := h
  rw [h1.asSlice] at hl; injection hl with hl; subst hl
  unfold AddRemoveCache.lookupId
  rw [h1.asSlice]
  simp only
  cases hf : l'.find? (fun p => decide (p.1 = c)) with
  | some p =>
    have hm := h3 p (List.mem_of_find?_eq_some hf)
    have hpc : p.1 = c := by simpa using List.find?_some hf
    rw [hpc, h3 _ hc] at hm; injection hm with hm
    have hm : t = p.2 := hm
    simp only [hm]
  | none => exact absurd (List.find?_eq_none.1 hf _ hc) (by simp)

theorem resolveAdd_found {u : World} {k t : Nat} {c : EcsId} {a : Archetype} {v : AddRemoveCache} (hu : u.archetypes[k]? = some a) (hc : c ∉ a.compIds)
    (hl : a.cache.lookupId c = .ok (some t, v)) : resolveAdd k c u = .ok t { u with archetypes := u.archetypes.set k { a with cache := v } } := by
  have h1 : idx u.archetypes k = .ok a := by unfold idx; rw [hu]
  have h2 : tryFindNext u k c = .ok (some t, { u with archetypes := u.archetypes.set k { a with cache := v } }) := by
    unfold tryFindNext; simp only [hu, hl]
  unfold resolveAdd
  show (EStateM.bind _ _) u = _
  simp only [EStateM.bind, get, getThe, MonadStateOf.get, EStateM.get, bind, h1, liftE]
  have h3 : ¬ (a.compIds.contains c = true) := by simpa using hc
  rw [if_neg h3]
  simp only [EStateM.bind, h2, set, MonadStateOf.set, EStateM.set, pure, EStateM.pure]
  rfl

theorem resolveRemove_found {u : World} {k t : Nat} {c : EcsId} {a : Archetype} {v : AddRemoveCache} (hu : u.archetypes[k]? = some a) (hc : c ∈ a.compIds)
    (hl : a.cache.lookupId c = .ok (some t, v)) : resolveRemove k c u = .ok t { u with archetypes := u.archetypes.set k { a with cache := v } } := by
  have h1 : idx u.archetypes k = .ok a := by unfold idx; rw [hu]
  have h2 : tryFindNext u k c = .ok (some t, { u with archetypes := u.archetypes.set k { a with cache := v } }) := by
    unfold tryFindNext; simp only [hu, hl]
  unfold resolveRemove
  show (EStateM.bind _ _) u = _
  simp only [EStateM.bind, get, getThe, MonadStateOf.get, EStateM.get, bind, h1, liftE]
  have h3 : ¬ ((!a.compIds.contains c) = true) := by simpa using hc
  rw [if_neg h3]
  simp only [EStateM.bind, h2, set, MonadStateOf.set, EStateM.set, pure, EStateM.pure]
  rfl

/-! ## edges are learned -/

/-- Map and array have the edge. -/
def KR (w : World) (k : Nat) (c : EcsId) (t : Nat) : Prop := w.Knows k c t ∧ w.Recent k c t

theorem tryFindNext_kr {w w' : World} {k t : Nat} {id : EcsId} (ht : NeatW w) (h : tryFindNext w k id = .ok (some t, w')) : KR w' k id t := by
  unfold tryFindNext at h
  split at h
  · cases h
  · rename_i a ha
    split at h
    · cases h
    · rename_i r c hc
      injection h with h; injection h with h1 h; subst h1 h
      obtain ⟨_, h2, l, h3, h4⟩ := (ht a (List.mem_of_getElem? ha)).found hc
      have hs := List.getElem?_set_self (a := { a with cache := c }) (List.getElem?_eq_some_iff.1 ha).1
      exact ⟨⟨_, hs, h2⟩, _, l, hs, h3, h4⟩

theorem insertCache_kr {w w' : World} {k t : Nat} {id : EcsId} (ht : NeatW w) (hi : Ignorant w k id) (h : insertCache w k id t = .ok w') : KR w' k id t := by
  obtain ⟨a, ha, hl⟩ := hi
  unfold insertCache at h
  rw [ha] at h
  simp only at h
  split at h
  · cases h
  · rename_i c hc
    injection h with h; subst h
    obtain ⟨_, h2, l, h3, h4⟩ := (ht a (List.mem_of_getElem? ha)).learned hl hc
    have hs := List.getElem?_set_self (a := { a with cache := c }) (List.getElem?_eq_some_iff.1 ha).1
    exact ⟨⟨_, hs, h2⟩, _, l, hs, h3, h4⟩

theorem create_kr {cur t : Nat} {c : EcsId} {n : Archetype} {w w1 w' : World} (hn : n.cache = AddRemoveCache.new) (ht : NeatW w) (hi : Ignorant w cur c)
    (h1 : pushArchetype w n = .ok w1) (h2 : insertCache w1 cur c t = .ok w') : KR w' cur c t :=
  insertCache_kr ((Kept.push (pushArchetype_archs h1) hn).neat ht) (hi.push (pushArchetype_archs h1)) h2

theorem createPlus_kr {cur t : Nat} {c : EcsId} {w w' : World} (ht : NeatW w) (hi : Ignorant w cur c) (h : createPlus cur c w = .ok t w') : KR w' cur c t := by
  unfold createPlus at h
  obtain ⟨_, w1, h1, k1⟩ := bind_ok h
  have e1 : w1.archetypes = w.archetypes := by
    injection h1 with _ h1; rw [← h1]; exact ensureLock_count w c
  obtain ⟨v, w2, h2, k2⟩ := bind_ok k1
  injection h2 with _ h2; subst h2
  obtain ⟨_, w3, h3, k3⟩ := bind_ok k2
  have := (liftE_ok h3).2; subst this
  obtain ⟨_, w4, h4, k4⟩ := bind_ok k3
  have := (liftE_ok h4).2; subst this
  obtain ⟨_, w5, h5, k5⟩ := bind_ok k4
  have := (liftE_ok h5).2; subst this
  obtain ⟨n, w6, h6, k6⟩ := bind_ok k5
  obtain ⟨hn, this⟩ := liftE_ok h6; subst this
  obtain ⟨_, w7, h7, k7⟩ := bind_ok k6
  obtain ⟨v8, w8, h8, k8⟩ := bind_ok k7
  injection h8 with h8 h8'; subst h8 h8'
  obtain ⟨_, w9, h9, k9⟩ := bind_ok k8
  injection k9 with k9 h'; subst k9 h'
  refine create_kr (fromWith_cache hn) ?_ (hi.of_archs e1) (step_ok h7) (step_ok h9)
  intro a ha; rw [e1] at ha; exact ht a ha

theorem createMinus_kr {cur t : Nat} {c : EcsId} {w w' : World} (ht : NeatW w) (hi : Ignorant w cur c) (h : createMinus cur c w = .ok t w') : KR w' cur c t := by
  unfold createMinus at h
  obtain ⟨v, w2, h2, k1⟩ := bind_ok h
  injection h2 with _ h2; subst h2
  obtain ⟨_, w5, h5, k2⟩ := bind_ok k1
  have := (liftE_ok h5).2; subst this
  obtain ⟨n, w6, h6, k3⟩ := bind_ok k2
  obtain ⟨hn, this⟩ := liftE_ok h6; subst this
  obtain ⟨_, w7, h7, k4⟩ := bind_ok k3
  obtain ⟨v8, w8, h8, k5⟩ := bind_ok k4
  injection h8 with h8 h8'; subst h8 h8'
  obtain ⟨_, w9, h9, k6⟩ := bind_ok k5
  injection k6 with k6 h'; subst k6 h'
  exact create_kr (fromWithout_cache hn) ht hi (step_ok h7) (step_ok h9)

theorem resolveAdd_kr {cur t : Nat} {c : EcsId} {w w' : World} (ht : NeatW w) (h : resolveAdd cur c w = .ok t w') : KR w' cur c t := by
  unfold resolveAdd at h
  obtain ⟨v, w2, h2, k1⟩ := bind_ok h
  injection h2 with h2 h2'; subst h2 h2'
  obtain ⟨a, w3, h3, k2⟩ := bind_ok k1
  have := (liftE_ok h3).2; subst this
  by_cases hc : a.compIds.contains c = true
  · rw [if_pos hc] at k2; cases k2
  rw [if_neg hc] at k2
  obtain ⟨⟨r, w4⟩, w5, h5, k3⟩ := bind_ok k2
  obtain ⟨h5, h5'⟩ := liftE_ok h5; subst h5'
  obtain ⟨_, w6, h6, k4⟩ := bind_ok k3
  injection h6 with _ h6; subst h6
  cases r with
  | some k => injection k4 with k4 h'; subst k4 h'; exact tryFindNext_kr ht h5
  | none =>
    have hi := tryFindNext_ignorant h5
    have ht := (tryFindNext_kept h5).neat ht
    simp only at k4
    obtain ⟨found, w7, h7, k5⟩ := bind_ok k4
    have := (liftE_ok h7).2; subst this
    cases found with
    | some k =>
      obtain ⟨_, w8, h8, k6⟩ := bind_ok k5
      injection k6 with k6 h'; subst k6 h'
      exact insertCache_kr ht hi (step_ok h8)
    | none => exact createPlus_kr ht hi k5

theorem resolveRemove_kr {cur t : Nat} {c : EcsId} {w w' : World} (ht : NeatW w) (h : resolveRemove cur c w = .ok t w') : KR w' cur c t := by
  unfold resolveRemove at h
  obtain ⟨v, w2, h2, k1⟩ := bind_ok h
  injection h2 with h2 h2'; subst h2 h2'
  obtain ⟨a, w3, h3, k2⟩ := bind_ok k1
  have := (liftE_ok h3).2; subst this
  by_cases hc : (!a.compIds.contains c) = true
  · rw [if_pos hc] at k2; cases k2
  rw [if_neg hc] at k2
  obtain ⟨⟨r, w4⟩, w5, h5, k3⟩ := bind_ok k2
  obtain ⟨h5, h5'⟩ := liftE_ok h5; subst h5'
  obtain ⟨_, w6, h6, k4⟩ := bind_ok k3
  injection h6 with _ h6; subst h6
  cases r with
  | some k => injection k4 with k4 h'; subst k4 h'; exact tryFindNext_kr ht h5
  | none =>
    have hi := tryFindNext_ignorant h5
    have ht := (tryFindNext_kept h5).neat ht
    simp only at k4
    obtain ⟨found, w7, h7, k5⟩ := bind_ok k4
    have := (liftE_ok h7).2; subst this
    cases found with
    | some k =>
      obtain ⟨_, w8, h8, k6⟩ := bind_ok k5
      injection k6 with k6 h'; subst k6 h'
      exact insertCache_kr ht hi (step_ok h8)
    | none => exact createMinus_kr ht hi k5

/-- The tables keep their caches as they are. -/
def SameC (w w' : World) : Prop := w'.archetypes.map Archetype.cache = w.archetypes.map Archetype.cache

theorem SameC.back {w w' : World} (h : SameC w w') {k : Nat} {a : Archetype} (ha : w.archetypes[k]? = some a) :
    ∃ a', w'.archetypes[k]? = some a' ∧ a'.cache = a.cache := by
  have h1 : (w'.archetypes.map Archetype.cache)[k]? = some a.cache := by rw [h, List.getElem?_map, ha]; rfl
  rw [List.getElem?_map] at h1
  cases h2 : w'.archetypes[k]? with
  | none => rw [h2] at h1; cases h1
  | some a' => rw [h2] at h1; injection h1 with h1; exact ⟨a', rfl, h1⟩

theorem SameC.kr {w w' : World} (h : SameC w w') {k t : Nat} {c : EcsId} (hk : KR w k c t) : KR w' k c t := by
  obtain ⟨⟨a, h1, h2⟩, b, l, h3, h4, h5⟩ := hk
  obtain ⟨a', g1, g2⟩ := h.back h1
  obtain ⟨b', g3, g4⟩ := h.back h3
  exact ⟨⟨a', g1, by rw [g2]; exact h2⟩, b', l, g3, by rw [g4]; exact h4, h5⟩

theorem finishMove_caches {w w' : World} {cur tar : Nat} {a b a' b' : Archetype} {e : EcsId} {row : Nat} (hne : cur ≠ tar)
    (ha : w.archetypes[cur]? = some a) (hb : w.archetypes[tar]? = some b)
    (h : finishMove w cur tar a' b' e row = .ok w') (sa : a'.cache = a.cache) (sb : b'.cache = b.cache) : SameC w w' := by
  have key : ∀ (u : World) (l l' : List EcsId), u.archetypes = (w.archetypes.set cur { a' with entities := l }).set tar { b' with entities := l' } → SameC w u := by
    intro u l l' hu
    unfold SameC
    rw [hu]
    have h1 : (w.archetypes.set cur { a' with entities := l })[tar]? = some b := by rw [List.getElem?_set_ne hne]; exact hb
    exact (map_set_same h1 { b' with entities := l' } Archetype.cache sb).trans (map_set_same ha { a' with entities := l } Archetype.cache sa)
  unfold finishMove at h
  simp only at h
  split at h
  · cases h
  · split at h
    · split at h
      · injection h with h; subst h; exact key _ _ _ rfl
      · split at h
        · cases h
        · injection h with h; subst h; exact key _ _ _ rfl
    · cases h

theorem moveAddRow_caches {w w' : World} {cur tar : Nat} {e c : EcsId} {row : Nat} {src : Bytes} (h : moveAddRow cur tar e row c src w = .ok w') :
    SameC w w' := by
  unfold moveAddRow at h
  split at h
  · cases h
  rename_i hi
  obtain ⟨hne, ha, hb⟩ := indexTwice_some hi
  split at h
  · cases h
  split at h
  · cases h
  split at h
  · cases h
  split at h
  · cases h
  exact finishMove_caches hne ha hb h rfl rfl

theorem moveRemoveRow_caches {w w' : World} {cur tar : Nat} {e c : EcsId} {row : Nat} (h : moveRemoveRow cur tar e row c w = .ok w') :
    SameC w w' := by
  unfold moveRemoveRow at h
  split at h
  · cases h
  rename_i hi
  obtain ⟨hne, ha, hb⟩ := indexTwice_some hi
  split at h
  · cases h
  simp only at h
  split at h
  · cases h
  split at h
  · cases h
  split at h
  · cases h
  split at h
  · cases h
  rename_i hf
  injection h with h; subst h
  have := finishMove_caches hne ha hb hf rfl rfl
  exact this

/-! ## entities that change tables -/

theorem mem_of_mem_swapRemove {α : Type} {l : List α} {i : Nat} {x : α} (h : x ∈ swapRemove l i) : x ∈ l := by
  unfold swapRemove at h
  split at h
  · cases h
  · rename_i y hy
    rcases List.mem_or_eq_of_mem_set ((List.dropLast_sublist _).mem h) with h | rfl
    · exact h
    · exact List.mem_of_getLast? hy

theorem sits_iff {w : World} {e : EcsId} {k : Nat} : w.Sits e k ↔ ∃ ids es, (WorldSpec.roster w)[k]? = some (ids, es) ∧ e ∈ es := by
  constructor
  · rintro ⟨a, h1, h2⟩; exact ⟨_, _, WorldSpec.roster_get h1, h2⟩
  · rintro ⟨ids, es, h1, h2⟩
    unfold WorldSpec.roster at h1
    rw [List.getElem?_map] at h1
    cases h3 : w.archetypes[k]? with
    | none => rw [h3] at h1; cases h1
    | some a => rw [h3] at h1; injection h1 with h1; injection h1 with _ h1; exact ⟨a, h3, h1 ▸ h2⟩

theorem sits_unique {w : World} (hi : Inv w) {e : EcsId} {k k' : Nat} (h : w.Sits e k) (h' : w.Sits e k') : k = k' := by
  obtain ⟨a, h1, h2⟩ := h
  obtain ⟨b, h3, h4⟩ := h'
  obtain ⟨r, hr⟩ := List.mem_iff_getElem?.1 h2
  obtain ⟨r', hr'⟩ := List.mem_iff_getElem?.1 h4
  exact (hi.row_inj (by rw [rowOf_eq h1]; exact hr) (by rw [rowOf_eq h3]; exact hr')).1

/-- Whoever changes tables goes along an edge that is remembered. -/
def Learns (w w' : World) : Prop := ∀ e k k', w.Sits e k → w'.Sits e k' → k ≠ k' → ∃ c, KR w' k c k'

theorem Learns.of_up {w w' : World} (hi : Inv w') (h : ∀ e k, w.Sits e k → w'.Sits e k) : Learns w w' :=
  fun _ _ _ h1 h2 hne => absurd (sits_unique hi (h _ _ h1) h2) hne

theorem Learns.of_down {w w' : World} (hi : Inv w) (h : ∀ e k, w'.Sits e k → w.Sits e k) : Learns w w' :=
  fun _ _ _ h1 h2 hne => absurd (sits_unique hi h1 (h _ _ h2)) hne

theorem arr_up {xs : List EcsId} {r r' : List (List EcsId × List EcsId)} (h : WorldSpec.Arr xs r r') {k : Nat} {e : EcsId}
    (hk : ∃ ids es, r[k]? = some (ids, es) ∧ e ∈ es) : ∃ ids es, r'[k]? = some (ids, es) ∧ e ∈ es := by
  induction h with
  | nil => exact hk
  | @into r r' j ids es x xs hj _ ih =>
    refine ih ?_
    obtain ⟨i, l, h1, h2⟩ := hk
    by_cases hjk : j = k
    · subst hjk
      rw [hj] at h1; injection h1 with h1; injection h1 with h1 h3; subst h1 h3
      exact ⟨ids, es ++ [x], List.getElem?_set_self (List.getElem?_eq_some_iff.1 hj).1, List.mem_append_left _ h2⟩
    · exact ⟨i, l, by rw [List.getElem?_set_ne hjk]; exact h1, h2⟩
  | @opens r r' ids x xs _ ih =>
    refine ih ?_
    obtain ⟨i, l, h1, h2⟩ := hk
    exact ⟨i, l, by rw [List.getElem?_append_left (List.getElem?_eq_some_iff.1 h1).1]; exact h1, h2⟩

theorem joined_up {w w' : World} (h : WorldSpec.Joined w w') {e : EcsId} {k : Nat} (hk : w.Sits e k) : w'.Sits e k := by
  obtain ⟨xs, h⟩ := h
  exact sits_iff.2 (arr_up h (sits_iff.1 hk))

theorem room_down {t : Nat} {w w' : World} (h : WorldSpec.Room t w w') {e : EcsId} {k : Nat} (hk : w'.Sits e k) : w.Sits e k := by
  obtain ⟨ids, es, h1, h2⟩ := sits_iff.1 hk
  refine sits_iff.2 ⟨ids, es, ?_, h2⟩
  rcases h with h | ⟨_, i, h⟩
  · rw [h] at h1; exact h1
  · rw [h, List.getElem?_append] at h1
    split at h1
    · exact h1
    · rw [List.getElem?_singleton] at h1
      split at h1
      · injection h1 with h1; injection h1 with _ h1; subst h1; cases h2
      · cases h1

theorem moved_down {cur tar row : Nat} {x : EcsId} {w w' : World} (h : WorldSpec.MovedIn cur tar row x (WorldSpec.roster w) (WorldSpec.roster w'))
    {e : EcsId} {k : Nat} (hk : w'.Sits e k) : w.Sits e k ∨ (e = x ∧ k = tar) := by
  obtain ⟨ids, es, h1, h2⟩ := sits_iff.1 hk
  obtain ⟨hne, ic, ec, it, et, h3, h4, h5, h6⟩ := h
  rw [h6] at h1
  by_cases htk : tar = k
  · subst htk
    rw [List.getElem?_set_self (by rw [List.length_set]; exact (List.getElem?_eq_some_iff.1 h5).1)] at h1
    injection h1 with h1; injection h1 with _ h1; subst h1
    rcases List.mem_append.1 h2 with h2 | h2
    · exact Or.inl (sits_iff.2 ⟨_, _, h5, h2⟩)
    · exact Or.inr ⟨List.mem_singleton.1 h2, rfl⟩
  · rw [List.getElem?_set_ne htk] at h1
    left
    by_cases hck : cur = k
    · subst hck
      rw [List.getElem?_set_self (List.getElem?_eq_some_iff.1 h3).1] at h1
      injection h1 with h1; injection h1 with _ h1; subst h1
      exact sits_iff.2 ⟨_, _, h3, mem_of_mem_swapRemove h2⟩
    · rw [List.getElem?_set_ne hck] at h1
      exact sits_iff.2 ⟨_, _, h1, h2⟩

theorem moved_learns {cur tar row : Nat} {x c : EcsId} {w w1 w' : World} (hi : Inv w) (hm : ∃ m, w.getEntityMeta x = .ok (some m) ∧ m.inst.archetype = cur)
    (hr : WorldSpec.Room tar w w1) (hk : KR w1 cur c tar) (hs : SameC w1 w') (h : WorldSpec.MovedIn cur tar row x (WorldSpec.roster w1) (WorldSpec.roster w')) :
    Learns w w' := by
  intro e k k' h1 h2 hne
  rcases moved_down h h2 with h3 | ⟨rfl, rfl⟩
  · exact absurd (sits_unique hi h1 (room_down hr h3)) hne
  · obtain ⟨m, hm, rfl⟩ := hm
    rcases getEntityMeta_spec hi e with ⟨g, _⟩ | ⟨g, _⟩ | ⟨g, _⟩ | ⟨im, cm, g, _, _, _, g5⟩
    · rw [hm] at g; cases g
    · rw [hm] at g; cases g
    · rw [hm] at g; cases g
    · rw [hm] at g; injection g with g; injection g with g; subst g
      obtain ⟨b, hb, hbr⟩ := rowOf_some g5
      have : k = im.archetype := sits_unique hi h1 ⟨b, hb, List.mem_of_getElem? hbr⟩
      subst this
      exact ⟨c, hs.kr hk⟩

theorem addDyn_learns {e c : EcsId} {src : Bytes} {w w' : World} (hi : Inv w) (ht : NeatW w) (h : addComponentDynamicWithData e c src w = .ok () w') : Learns w w' := by
  unfold addComponentDynamicWithData at h
  obtain ⟨v, w2, h2, k1⟩ := bind_ok h
  injection h2 with h2 h2'; subst h2 h2'
  obtain ⟨b1, w3, h3, k2⟩ := bind_ok k1
  have := (liftE_ok h3).2; subst this
  by_cases hb : (!b1) = true
  · rw [if_pos hb] at k2; injection k2 with _ k2; subst k2; exact .of_up hi fun _ _ h => h
  rw [if_neg hb] at k2
  obtain ⟨b2, w4, h4, k3⟩ := bind_ok k2
  have := (liftE_ok h4).2; subst this
  by_cases hb : (!b2) = true
  · rw [if_pos hb] at k3; injection k3 with _ k3; subst k3; exact .of_up hi fun _ _ h => h
  rw [if_neg hb] at k3
  obtain ⟨m, w5, h5, k4⟩ := bind_ok k3
  obtain ⟨hm, this⟩ := liftE_ok h5; subst this
  obtain ⟨m', w6, h6, k5⟩ := bind_ok k4
  obtain ⟨hm', this⟩ := liftE_ok h6; subst this
  obtain ⟨t, w7, h7, k6⟩ := bind_ok k5
  have := WorldSpec.unwrap_ok hm'; subst this
  exact moved_learns hi ⟨m', hm, rfl⟩ (WorldSpec.resolveAdd_room h7) (resolveAdd_kr ht h7) (moveAddRow_caches (step_ok k6)) (WorldSpec.moveAddRow_moved (step_ok k6))

theorem removeDyn_learns {e c : EcsId} {w w' : World} (hi : Inv w) (ht : NeatW w) (h : removeComponentDynamic e c w = .ok () w') : Learns w w' := by
  unfold removeComponentDynamic at h
  obtain ⟨v, w2, h2, k1⟩ := bind_ok h
  injection h2 with h2 h2'; subst h2 h2'
  obtain ⟨b1, w3, h3, k2⟩ := bind_ok k1
  have := (liftE_ok h3).2; subst this
  by_cases hb : (!b1) = true
  · rw [if_pos hb] at k2; injection k2 with _ k2; subst k2; exact .of_up hi fun _ _ h => h
  rw [if_neg hb] at k2
  obtain ⟨b2, w4, h4, k3⟩ := bind_ok k2
  have := (liftE_ok h4).2; subst this
  by_cases hb : (!b2) = true
  · rw [if_pos hb] at k3; injection k3 with _ k3; subst k3; exact .of_up hi fun _ _ h => h
  rw [if_neg hb] at k3
  obtain ⟨m, w5, h5, k4⟩ := bind_ok k3
  obtain ⟨hm, this⟩ := liftE_ok h5; subst this
  obtain ⟨m', w6, h6, k5⟩ := bind_ok k4
  obtain ⟨hm', this⟩ := liftE_ok h6; subst this
  obtain ⟨t, w7, h7, k6⟩ := bind_ok k5
  have := WorldSpec.unwrap_ok hm'; subst this
  exact moved_learns hi ⟨m', hm, rfl⟩ (WorldSpec.resolveRemove_room h7) (resolveRemove_kr ht h7) (moveRemoveRow_caches (step_ok k6)) (WorldSpec.moveRemoveRow_moved (step_ok k6))

theorem Learns.after {w w1 w' : World} (h : WorldSpec.Joined w w1) (h' : Learns w1 w') : Learns w w' :=
  fun e k k' h1 h2 hne => h' e k k' (joined_up h h1) h2 hne

theorem orDropValue_ok {α : Type} {t : Ty} {v : Bytes} {x : M α} {w w' : World} {y : α} (h : orDropValue t v x w = .ok y w') : x w = .ok y w' := by
  unfold orDropValue at h
  split at h
  · rename_i hx; rw [hx]; exact h
  · cases h

theorem addComponent_learns {e : EcsId} {t : Ty} {v : Bytes} {w w' : World} (hi : Inv w) (hn : w.entities.NoWrap) (ht : NeatW w)
    (h : addComponent e t v w = .ok () w') : Learns w w' := by
  unfold addComponent at h
  obtain ⟨c, w1, h1, k1⟩ := bind_ok h
  have h1 := orDropValue_ok h1
  obtain ⟨v, w2, h2, k2⟩ := bind_ok h1
  injection h2 with h2 h2'; subst h2 h2'
  obtain ⟨b1, w3, h3, k3⟩ := bind_ok k2
  have := (liftE_ok h3).2; subst this
  by_cases hb : (!b1) = true
  · rw [if_pos hb] at k3; cases k3
  rw [if_neg hb] at k3
  have hg := ((getOrCreate_spec hi hn.ready t).ok k3).1
  exact .after (WorldSpec.Walk.ok (WorldSpec.getOrCreate_some t _) k3) (addDyn_learns hg.inv ((WorldSpec.Walk.ok (getOrCreate_kept t _) k3).neat ht) k1)

theorem removeComponent_learns {e : EcsId} {t : Ty} {w w' : World} (hi : Inv w) (hn : w.entities.NoWrap) (ht : NeatW w)
    (h : removeComponent e t w = .ok () w') : Learns w w' := by
  unfold removeComponent at h
  obtain ⟨v, w2, h2, k2⟩ := bind_ok h
  injection h2 with h2 h2'; subst h2 h2'
  obtain ⟨b1, w3, h3, k3⟩ := bind_ok k2
  have := (liftE_ok h3).2; subst this
  by_cases hb : (!b1) = true
  · rw [if_pos hb] at k3; cases k3
  rw [if_neg hb] at k3
  obtain ⟨c, w1, h1, k1⟩ := bind_ok k3
  have hg := ((getOrCreate_spec hi hn.ready t).ok h1).1
  exact .after (WorldSpec.Walk.ok (WorldSpec.getOrCreate_some t _) h1) (removeDyn_learns hg.inv ((WorldSpec.Walk.ok (getOrCreate_kept t _) h1).neat ht) k1)

theorem despawn_learns {e : EcsId} {b : Bool} {w w' : World} (hi : Inv w) (h : World.despawn e w = .ok b w') : Learns w w' := by
  refine .of_down hi fun x k hk => ?_
  rcases WorldSpec.despawn_goes h with ⟨_, rfl⟩ | ⟨_, j, r, ids, es, h1, h2, h3⟩
  · exact hk
  · obtain ⟨i, l, h4, h5⟩ := sits_iff.1 hk
    rw [h3] at h4
    by_cases hjk : j = k
    · subst hjk
      rw [List.getElem?_set_self (List.getElem?_eq_some_iff.1 h1).1] at h4
      injection h4 with h4; injection h4 with _ h4; subst h4
      exact sits_iff.2 ⟨_, _, h1, mem_of_mem_swapRemove h5⟩
    · rw [List.getElem?_set_ne hjk] at h4
      exact sits_iff.2 ⟨_, _, h4, h5⟩

theorem Learns.of_roster {w w' : World} (hi : Inv w) (h : WorldSpec.roster w' = WorldSpec.roster w) : Learns w w' :=
  .of_down hi fun _ _ hk => by rw [sits_iff, h, ← sits_iff] at hk; exact hk

theorem exec_learns {w w' : World} (hi : Inv w) (hi' : Inv w') (hn : w.entities.NoWrap) (ht : NeatW w) {c : Call} (h : c.exec w = .ok () w') : Learns w w' := by
  cases c with
  | spawn kind acts =>
    obtain ⟨_, w1, h1, h2⟩ := bind_ok h
    injection h2 with _ h2; subst h2
    exact .of_up hi' fun _ _ hk => joined_up (WorldSpec.Walk.ok (WorldSpec.spawnWith_some kind acts w) h1) hk
  | addComponent e t v => exact addComponent_learns hi hn ht h
  | removeComponent e t => exact removeComponent_learns hi hn ht h
  | addDynamic e c => exact addDyn_learns hi ht (WorldSpec.addZst_goes h).1
  | addDynamicWithData e c src => exact addDyn_learns hi ht h
  | removeDynamic e c => exact removeDyn_learns hi ht h
  | despawn e =>
    obtain ⟨_, w1, h1, h2⟩ := bind_ok h
    injection h2 with _ h2; subst h2
    exact despawn_learns hi h1
  | register t =>
    obtain ⟨_, w1, h1, h2⟩ := bind_ok h
    injection h2 with _ h2; subst h2
    exact .of_up hi' fun _ _ hk => joined_up (WorldSpec.Walk.ok (WorldSpec.getOrCreate_some t w) h1) hk
  | write e c bs =>
    obtain ⟨v, w2, h2, k2⟩ := bind_ok h
    injection h2 with h2 h2'; subst h2 h2'
    obtain ⟨p, w3, h3, k3⟩ := bind_ok k2
    have := (liftE_ok h3).2; subst this
    cases p with
    | none => injection k3 with _ k3; subst k3; exact .of_roster hi rfl
    | some p =>
      have h4 := step_ok k3
      refine .of_roster hi ?_
      unfold writePtr at h4
      split at h4
      · split at h4
        · cases h4
        rename_i ha
        split at h4
        · cases h4
        split at h4
        · injection h4 with h4; rw [h4]
        simp only at h4
        split at h4
        · injection h4 with h4; subst h4
          exact WorldSpec.roster_set_same ha rfl rfl rfl
        · cases h4
      · cases h4
  | query ps b =>
    refine .of_roster hi ?_
    have : Walk WorldSpec.SameR (Call.exec (.query ps b)) w := by
      refine Walk.bind' (T := WorldSpec.SameR) ?_ fun q w => ?_
      · unfold Walk Tri World.query
        cases allFetches w ps with
        | none => exact Chain.of_eq (T := WorldSpec.SameR) rfl
        | some fs =>
          simp only
          cases acquireAllStatic w [] w.locks fs <;> exact Chain.of_eq (T := WorldSpec.SameR) rfl
      · exact Chain.of_eq (T := WorldSpec.SameR) rfl
    exact WorldSpec.Walk.ok this h
  | queryDynamic fs b =>
    refine .of_roster hi ?_
    have : Walk WorldSpec.SameR (Call.exec (.queryDynamic fs b)) w := by
      refine Walk.bind' (T := WorldSpec.SameR) ?_ fun q w => ?_
      · unfold Walk Tri World.queryDynamic
        cases acquireAllDyn w [] false w.locks fs <;> exact Chain.of_eq (T := WorldSpec.SameR) rfl
      · exact Chain.of_eq (T := WorldSpec.SameR) rfl
    exact WorldSpec.Walk.ok this h

end Ellecs
