import Verif.Spec.Order
import Verif.Proofs.Shapes
import Verif.Proofs.Query
import Verif.Proofs.Frame
/-!
# The lines of a world

What calls do to the lists of entities is found by going through the code; which components a line has follows from the
invariant at the end.
-/
namespace Ellecs.WorldSpec
open World

/-- The components and the entities of the tables. -/
def roster (w : World) : List (List EcsId × List EcsId) := w.archetypes.map (fun a => (a.compIds, a.entities))

def SameR (w w' : World) : Prop := roster w' = roster w

instance : Chain SameR where
  of_eq := fun h => by unfold SameR roster; rw [h]
  trans := fun h h' => Eq.trans h' h

theorem roster_get {w : World} {k : Nat} {a : Archetype} (h : w.archetypes[k]? = some a) : (roster w)[k]? = some (a.compIds, a.entities) := by
  unfold roster; rw [List.getElem?_map, h]; rfl

theorem get_roster {w : World} {k : Nat} {ids es : List EcsId} (h : (roster w)[k]? = some (ids, es)) :
    ∃ a, w.archetypes[k]? = some a ∧ a.compIds = ids ∧ a.entities = es := by
  unfold roster at h
  rw [List.getElem?_map] at h
  cases hk : w.archetypes[k]? with
  | none => rw [hk] at h; cases h
  | some a => rw [hk] at h; injection h with h; injection h with h1 h2; exact ⟨a, rfl, h1, h2⟩

theorem roster_set {w w' : World} {k : Nat} {a : Archetype} (h : w'.archetypes = w.archetypes.set k a) :
    roster w' = (roster w).set k (a.compIds, a.entities) := by
  unfold roster; rw [h, List.map_set]

theorem roster_set_same {w w' : World} {k : Nat} {a b : Archetype} (ha : w.archetypes[k]? = some a) (h : w'.archetypes = w.archetypes.set k b)
    (h1 : b.compIds = a.compIds) (h2 : b.entities = a.entities) : SameR w w' := by
  unfold SameR
  rw [roster_set h, h1, h2]
  refine List.ext_getElem? fun j => ?_
  rw [List.getElem?_set]
  by_cases hj : k = j
  · subst hj
    rw [if_pos rfl, roster_get ha, if_pos (List.getElem?_eq_some_iff.1 (roster_get ha)).1]
  · rw [if_neg hj]

theorem roster_push {w w' : World} {a : Archetype} (h : w'.archetypes = w.archetypes ++ [a]) : roster w' = roster w ++ [(a.compIds, a.entities)] := by
  unfold roster; rw [h, List.map_append]; rfl

/-- Entities are appended, one after the other, to some lists or as new lists. -/
inductive Arr : List EcsId → List (List EcsId × List EcsId) → List (List EcsId × List EcsId) → Prop
  | nil {r} : Arr [] r r
  | into {r r' : List (List EcsId × List EcsId)} {k : Nat} {ids es : List EcsId} {x : EcsId} {xs : List EcsId} :
      r[k]? = some (ids, es) → Arr xs (r.set k (ids, es ++ [x])) r' → Arr (x :: xs) r r'
  | opens {r r' : List (List EcsId × List EcsId)} {ids : List EcsId} {x : EcsId} {xs : List EcsId} :
      Arr xs (r ++ [(ids, [x])]) r' → Arr (x :: xs) r r'

theorem Arr.append {xs ys : List EcsId} {r r1 r2} (h : Arr xs r r1) (h' : Arr ys r1 r2) : Arr (xs ++ ys) r r2 := by
  induction h with
  | nil => exact h'
  | into hk _ ih => exact .into hk (ih h')
  | opens _ ih => exact .opens (ih h')

theorem Arr.of_eq {r r' : List (List EcsId × List EcsId)} (h : r' = r) : Arr [] r r' := h ▸ .nil

theorem Arr.of_eq' {xs : List EcsId} {r : List (List EcsId × List EcsId)} (h : xs = []) : Arr xs r r := h ▸ .nil

/-- Some entities are appended. -/
def Joined (w w' : World) : Prop := ∃ xs, Arr xs (roster w) (roster w')

instance : Chain Joined where
  of_eq := fun h => ⟨[], .of_eq (Chain.of_eq (T := SameR) h)⟩
  trans := fun ⟨xs, h⟩ ⟨ys, h'⟩ => ⟨xs ++ ys, h.append h'⟩

theorem SameR.some {w w' : World} (h : SameR w w') : Joined w w' := ⟨[], .of_eq h⟩

/-! ## builders -/

theorem bdrop_same (b : Builder) (w : World) : Walk SameR b.drop w := by
  unfold Walk Tri Builder.drop
  by_cases hc : b.cap ≠ 0
  · simp only [if_pos hc]
    cases hr : w.reuse with
    | none => exact (rfl : roster _ = roster _)
    | some x =>
      simp only
      by_cases hl : b.data.length = b.cap
      · simp only [if_pos hl]; exact (rfl : roster _ = roster _)
      · simp only [if_neg hl]; exact (rfl : roster _ = roster _)
  · simp only [if_neg hc]; exact (rfl : roster _ = roster _)

theorem bnew_same (e : EcsId) (m : ComponentMeta) (w : World) : Walk SameR (Builder.new e m) w := by
  unfold Walk Tri Builder.new
  cases h : w.reuse <;> exact (rfl : roster _ = roster _)

theorem bcap_same (e : EcsId) (m : ComponentMeta) (n : Nat) (w : World) : Walk SameR (Builder.withCapacity e m n) w := by
  unfold Walk Tri Builder.withCapacity
  cases h : w.reuse with
  | none =>
    simp only
    by_cases h0 : n = 0
    · simp only [if_pos h0]; exact (rfl : roster _ = roster _)
    · simp only [if_neg h0]
      by_cases h1 : layoutOk n 0 = true
      · simp only [if_pos h1]; exact (rfl : roster _ = roster _)
      · simp only [if_neg h1]; exact (rfl : roster _ = roster _)
  | some x => exact (rfl : roster _ = roster _)

theorem pushComps_same (b : Builder) (k : Nat) (ids : List EcsId) : ∀ (off : Nat) (w : World), Walk SameR (b.pushComps k off ids) w := by
  induction ids with
  | nil => exact fun _ w => Walk.pure _ w
  | cons id ids ih =>
    intro off w
    unfold Builder.pushComps
    refine (Walk.get w).bind' fun v w => (Walk.liftE _ w).bind' fun _ w => (Walk.liftE _ w).bind' fun _ w => (Walk.step fun w' h => ?_).bind' fun _ w =>
      (Walk.get w).bind' fun v w => (Walk.liftE _ w).bind' fun _ w => ih _ w
    split at h
    · cases h
    rename_i ha
    split at h
    · cases h
    split at h
    · cases h
    split at h
    · cases h
    injection h with h; subst h
    exact roster_set_same ha rfl rfl rfl

theorem failDropping_same {α : Type} (f : Fault) (st : List (EcsId × UVec)) (w : World) : Walk SameR (α := α) (failDropping f st) w := by
  unfold Walk Tri failDropping
  cases dropStorages st <;> exact (rfl : roster _ = roster _)

theorem createArchetype_same (b : Builder) (w : World) : Walk SameR b.createArchetype w := by
  unfold Builder.createArchetype
  refine (Walk.get w).bind' fun v w => ?_
  split
  · exact failDropping_same _ _ _
  · simp only
    split
    · exact failDropping_same _ _ _
    · exact Walk.ite (Walk.pure _ _) (failDropping_same _ _ _)

theorem createArchetype_entity {b b' : Builder} {a : Archetype} {w w' : World} (h : b.createArchetype w = .ok (b', a) w') : b'.entity = b.entity := by
  unfold Builder.createArchetype at h
  obtain ⟨v, w1, h1, h2⟩ := bind_ok h
  injection h1 with h1 h1'; subst h1 h1'
  have hfail : ∀ {α : Type} {f : Fault} {st : List (EcsId × UVec)} {x : α} {w1 w' : World}, failDropping f st w1 = .ok x w' → False := by
    intro α f st x w1 w' h
    unfold failDropping at h
    split at h <;> cases h
  cases hcs : b.createStorages w 0 b.compIds [] with
  | error x => obtain ⟨f, st⟩ := x; rw [hcs] at h2; exact (hfail h2).elim
  | ok st =>
    rw [hcs] at h2
    simp only at h2
    cases hck : Builder.checkedLookup (stableSort EcsId.lt b.compIds).zipIdx (fun _ => none) with
    | error x => rw [hck] at h2; exact (hfail h2).elim
    | ok l =>
      rw [hck] at h2
      simp only at h2
      by_cases hg : idsAgree (stableSort EcsId.lt b.compIds) (stableSort storageLt st) = true
      · rw [if_pos hg] at h2
        injection h2 with h2 h3; injection h2 with h2 _; rw [← h2]
      · rw [if_neg hg] at h2; exact (hfail h2).elim

theorem spawnId_same (w : World) : Walk SameR spawnId w := by
  unfold Walk Tri spawnId
  cases h : w.entities.spawn with
  | mk r s => cases r <;> exact (rfl : roster _ = roster _)

theorem orDrop_walk {T : World → World → Prop} [Chain T] (hb : ∀ (b : Builder) w, Walk T b.drop w) {α : Type} {b : Builder} {x : M α} {w : World}
    {Q : α → World → Prop} (h : Tri x w Q (fun _ w' => T w w')) : Tri (b.orDrop x) w Q (fun _ w' => T w w') := by
  unfold Tri Builder.orDrop at *
  cases hx : x w with
  | ok a w' => rw [hx] at h; exact h
  | error f w' =>
    rw [hx] at h
    have hb := hb b w'
    unfold Walk Tri at hb
    cases hd : b.drop w' with
    | ok u w2 => rw [hd] at hb; simp only [hd]; exact Chain.trans h hb
    | error f2 w2 => rw [hd] at hb; simp only [hd]; exact Chain.trans h hb

theorem walk_some {α : Type} {x : M α} {w : World} (h : Walk SameR x w) : Walk Joined x w := h.imp (fun _ _ h => h.some) (fun _ _ h => h.some)

/-! ## the map of types -/

/-- The call leaves the map of types alone. -/
def TM {α : Type} (x : M α) (w : World) : Prop := Tri x w (fun _ w' => w'.typeMap = w.typeMap) (fun _ w' => w'.typeMap = w.typeMap)

theorem TM.pure {α : Type} (a : α) (w : World) : TM (pure a) w := (rfl : w.typeMap = _)
theorem TM.get (w : World) : TM get w := (rfl : w.typeMap = _)
theorem TM.liftE {α : Type} (x : Except Fault α) (w : World) : TM (liftE x) w := by
  unfold TM; rw [tri_liftE]; cases x <;> exact (rfl : w.typeMap = _)
theorem TM.bind {α β : Type} {x : M α} {f : α → M β} {w : World} (hx : TM x w) (hf : ∀ a w', TM (f a) w') : TM (x >>= f) w := by
  unfold TM
  rw [tri_bind]
  refine hx.imp ?_ (fun _ _ h => h)
  exact fun a w' h => (hf a w').imp (fun _ _ h' => h'.trans h) (fun _ _ h' => h'.trans h)
theorem TM.step {g : World → Except Fault World} {w : World} (h : ∀ w', g w = .ok w' → w'.typeMap = w.typeMap) : TM (World.step g) w := by
  unfold TM; rw [tri_step]
  cases hg : g w with
  | ok w' => exact h w' hg
  | error f => exact (rfl : w.typeMap = _)

theorem setEntityMeta_types {w w' : World} {e : EcsId} {m : EntityMeta} (h : w.setEntityMeta e m = .ok w') : w'.typeMap = w.typeMap := by
  unfold setEntityMeta at h
  split at h
  · cases h
  · injection h with h; rw [h]
  · split at h <;> (injection h with h; rw [← h])

theorem pushArchetype_types {w w' : World} {a : Archetype} (h : w.pushArchetype a = .ok w') : w'.typeMap = w.typeMap := by
  unfold pushArchetype at h
  split at h
  · cases h
  · split at h
    · cases h
    · injection h with h; rw [← h]

theorem ensureLocks_types (ids : List EcsId) : ∀ w : World, (ids.foldl ensureLock w).typeMap = w.typeMap := by
  induction ids with
  | nil => exact fun _ => rfl
  | cons id ids ih =>
    intro w
    rw [List.foldl_cons, ih]
    unfold ensureLock
    cases w.lockLookup id <;> rfl

theorem pushComps_types (b : Builder) (k : Nat) (ids : List EcsId) : ∀ (off : Nat) (w : World), TM (b.pushComps k off ids) w := by
  induction ids with
  | nil => exact fun _ w => TM.pure _ w
  | cons id ids ih =>
    intro off w
    unfold Builder.pushComps
    refine (TM.get w).bind fun v w => (TM.liftE _ w).bind fun _ w => (TM.liftE _ w).bind fun _ w => (TM.step fun w' h => ?_).bind fun _ w =>
      (TM.get w).bind fun v w => (TM.liftE _ w).bind fun _ w => ih _ w
    split at h
    · cases h
    split at h
    · cases h
    split at h
    · cases h
    split at h
    · cases h
    injection h with h; subst h
    rfl

theorem failDropping_types {α : Type} (f : Fault) (st : List (EcsId × UVec)) (w : World) : TM (α := α) (failDropping f st) w := by
  unfold TM Tri failDropping
  cases dropStorages st <;> exact (rfl : w.typeMap = _)

theorem createArchetype_types (b : Builder) (w : World) : TM b.createArchetype w := by
  unfold Builder.createArchetype
  refine (TM.get w).bind fun v w => ?_
  split
  · exact failDropping_types _ _ _
  · simp only
    split
    · exact failDropping_types _ _ _
    · split
      · exact TM.pure _ _
      · exact failDropping_types _ _ _

theorem build_types (b : Builder) (w : World) : TM b.build w := by
  unfold Builder.build
  refine (TM.get w).bind fun v w => (TM.liftE _ w).bind fun found w => ?_
  cases found with
  | some k =>
    refine (TM.step fun w' h => ?_).bind fun _ w => (pushComps_types _ _ _ _ w).bind fun _ w => (TM.get w).bind fun v w => (TM.liftE _ w).bind fun _ w =>
      (TM.step fun w' h => setEntityMeta_types h).bind fun _ w => TM.pure _ w
    split at h
    · cases h
    · injection h with h; subst h; rfl
  | none =>
    refine TM.bind (show TM (modify _) w from ensureLocks_types _ w) fun _ w => (createArchetype_types _ w).bind fun x w1 => ?_
    exact (TM.step fun w' h => pushArchetype_types h).bind fun _ w => (TM.get w).bind fun _ w =>
      (TM.step fun w' h => setEntityMeta_types h).bind fun _ w => TM.pure _ w

theorem bdrop_types (b : Builder) (w : World) : TM b.drop w := by
  unfold TM Tri Builder.drop
  by_cases hc : b.cap ≠ 0
  · simp only [if_pos hc]
    cases hr : w.reuse with
    | none => exact (rfl : w.typeMap = _)
    | some x =>
      simp only
      by_cases hl : b.data.length = b.cap
      · simp only [if_pos hl]; 
      · simp only [if_neg hl]; 
  · simp only [if_neg hc]; 

theorem bnew_types (e : EcsId) (m : ComponentMeta) (w : World) : TM (Builder.new e m) w := by
  unfold TM Tri Builder.new
  cases h : w.reuse <;> exact (rfl : w.typeMap = _)

theorem bcap_types (e : EcsId) (m : ComponentMeta) (n : Nat) (w : World) : TM (Builder.withCapacity e m n) w := by
  unfold TM Tri Builder.withCapacity
  cases h : w.reuse with
  | none =>
    simp only
    by_cases h0 : n = 0
    · simp only [if_pos h0]; 
    · simp only [if_neg h0]
      by_cases h1 : layoutOk n 0 = true
      · simp only [if_pos h1]; 
      · simp only [if_neg h1]; 
  | some x => exact (rfl : w.typeMap = _)

theorem spawnId_types (w : World) : TM spawnId w := by
  unfold TM Tri spawnId
  cases h : w.entities.spawn with
  | mk r s => cases r <;> exact (rfl : w.typeMap = _)

/-! ## what builders append -/

theorem Joined.into {w w' : World} {k : Nat} {a : Archetype} {x : EcsId} (ha : w.archetypes[k]? = some a)
    (h : w'.archetypes = w.archetypes.set k { a with entities := a.entities ++ [x] }) : Arr [x] (roster w) (roster w') :=
  .into (roster_get ha) (.of_eq (roster_set h))

theorem Joined.opens {w w' : World} {a : Archetype} {x : EcsId} (h : w'.archetypes = w.archetypes ++ [a]) (hx : a.entities = [x]) : Arr [x] (roster w) (roster w') :=
  .opens (ids := a.compIds) (.of_eq (by rw [roster_push h, hx]))

theorem build_some (b : Builder) (w : World) : Walk Joined b.build w := by
  unfold Builder.build
  refine (Walk.get w).bind' fun v w => (Walk.liftE _ w).bind' fun found w => ?_
  cases found with
  | some k =>
    refine (Walk.step fun w' h => ?_).bind' fun _ w => (walk_some (pushComps_same _ _ _ _ w)).bind' fun _ w => (Walk.get w).bind' fun v w => (Walk.liftE _ w).bind' fun _ w =>
      (Walk.step fun w' h => Chain.of_eq (setEntityMeta_archs h)).bind' fun _ w => Walk.pure _ w
    split at h
    · cases h
    · rename_i ha
      injection h with h; subst h; exact ⟨_, Joined.into ha rfl⟩
  | none =>
    refine Walk.bind' (show Walk Joined (modify _) w from Chain.of_eq (T := Joined) (ensureLocks_count _ w)) fun _ w => (walk_some (createArchetype_same _ w)).bind fun x w1 hx => ?_
    obtain ⟨b', a⟩ := x
    refine (Walk.step fun w' h => ?_).bind' fun _ w => (Walk.get w).bind' fun _ w =>
      (Walk.step fun w' h => Chain.of_eq (setEntityMeta_archs h)).bind' fun _ w => Walk.pure _ w
    exact ⟨_, Joined.opens (pushArchetype_archs h) (createArchetype_entities hx)⟩

theorem Walk.ok {T : World → World → Prop} {α : Type} {x : M α} {w w' : World} {y : α} (h : Walk T x w) (hx : x w = .ok y w') : T w w' := by
  unfold Walk Tri at h; rw [hx] at h; exact h

theorem Walk.err {T : World → World → Prop} {α : Type} {x : M α} {w w' : World} {f : Fault} (h : Walk T x w) (hx : x w = .error f w') : T w w' := by
  unfold Walk Tri at h; rw [hx] at h; exact h

theorem TM.ok {α : Type} {x : M α} {w w' : World} {y : α} (h : TM x w) (hx : x w = .ok y w') : w'.typeMap = w.typeMap := by
  unfold TM Tri at h; rw [hx] at h; exact h

/-- `build` appends its entity. -/
theorem build_arr {b b' : Builder} {w w' : World} (h : b.build w = .ok b' w') :
    b'.entity = b.entity ∧ w'.typeMap = w.typeMap ∧ Arr [b.entity] (roster w) (roster w') := by
  suffices b'.entity = b.entity ∧ Arr [b.entity] (roster w) (roster w') from ⟨this.1, (build_types b w).ok h, this.2⟩
  unfold Builder.build at h
  obtain ⟨v, w1, h1, k1⟩ := bind_ok h
  injection h1 with h1 h1'; subst h1 h1'
  obtain ⟨found, w2, h2, k2⟩ := bind_ok k1
  have := (liftE_ok h2).2; subst this
  cases found with
  | some k =>
    obtain ⟨_, w3, h3, k3⟩ := bind_ok k2
    have h3 := step_ok h3
    split at h3
    · cases h3
    rename_i ha
    injection h3 with h3; subst h3
    obtain ⟨_, w4, h4, k4⟩ := bind_ok k3
    have h4 := (pushComps_same _ _ _ _ _).ok h4
    obtain ⟨v5, w5, h5, k5⟩ := bind_ok k4
    injection h5 with h5 h5'; subst h5 h5'
    obtain ⟨_, w6, h6, k6⟩ := bind_ok k5
    have := (liftE_ok h6).2; subst this
    obtain ⟨_, w7, h7, k7⟩ := bind_ok k6
    injection k7 with k7 k7'; subst k7 k7'
    have h7 : SameR _ _ := Chain.of_eq (setEntityMeta_archs (step_ok h7))
    refine ⟨rfl, .into (roster_get ha) (.of_eq ?_)⟩
    rw [h7, h4]; unfold roster; rw [List.map_set]
  | none =>
    obtain ⟨_, w3, h3, k3⟩ := bind_ok k2
    have h3 : SameR w2 w3 := by injection h3 with _ h3; subst h3; exact Chain.of_eq (ensureLocks_count _ _)
    obtain ⟨⟨b1, a⟩, w4, h4, k4⟩ := bind_ok k3
    have e4 := createArchetype_entities h4
    have e5 := createArchetype_entity h4
    have h4 := (createArchetype_same _ _).ok h4
    obtain ⟨_, w5, h5, k5⟩ := bind_ok k4
    have h5 := pushArchetype_archs (step_ok h5)
    obtain ⟨_, w6, h6, k6⟩ := bind_ok k5
    injection h6 with h6 h6'; subst h6 h6'
    obtain ⟨_, w7, h7, k7⟩ := bind_ok k6
    injection k7 with k7 k7'; subst k7 k7'
    have h7 : SameR _ _ := Chain.of_eq (setEntityMeta_archs (step_ok h7))
    refine ⟨e5, .opens (ids := a.compIds) (.of_eq ?_)⟩
    rw [h7, roster_push h5, h4, h3, e4]

/-- Registering a type appends its entity if it is new. -/
theorem getOrCreate_some (t : Ty) (w : World) : Walk Joined (getOrCreate t) w := by
  unfold getOrCreate
  refine (Walk.get w).bind' fun v w => ?_
  cases v.typeMap t with
  | some id => exact Walk.pure _ w
  | none =>
    refine (walk_some (spawnId_same w)).bind' fun _ w => (walk_some (bnew_same _ _ w)).bind' fun b w =>
      Walk.bind' (orDrop_walk (fun b w => walk_some (bdrop_same b w)) (build_some b w)) fun _ w => (walk_some (bdrop_same _ w)).bind' fun _ w =>
      (Walk.step fun w' h => ?_).bind' fun _ w => Walk.bind' (show Walk Joined (modify _) w from Chain.of_eq (T := Joined) rfl) fun _ w => Walk.pure _ w
    split at h
    · cases h
    · cases h
    · injection h with h; subst h; exact Chain.of_eq rfl

theorem orDrop_ok {α : Type} {b : Builder} {x : M α} {w w' : World} {y : α} (h : b.orDrop x w = .ok y w') : x w = .ok y w' := by
  unfold Builder.orDrop at h
  cases hx : x w with
  | ok a w1 => rw [hx] at h; exact h
  | error f w1 =>
    rw [hx] at h
    simp only at h
    split at h <;> cases h

theorem bnew_entity {e : EcsId} {m : ComponentMeta} {w w' : World} {b : Builder} (h : Builder.new e m w = .ok b w') : b.entity = e := by
  unfold Builder.new at h
  split at h <;> (injection h with h _; rw [← h])

theorem bcap_entity {e : EcsId} {m : ComponentMeta} {n : Nat} {w w' : World} {b : Builder} (h : Builder.withCapacity e m n w = .ok b w') : b.entity = e := by
  unfold Builder.withCapacity at h
  repeat' split at h
  all_goals first | (cases h; done) | (injection h with h _; rw [← h])

theorem getOrCreate_arr {t : Ty} {w w' : World} {id : EcsId} (h : getOrCreate t w = .ok id w') :
    Arr (firstSeen w w' t) (roster w) (roster w') ∧ w'.typeMap t = some id ∧ (∀ t', t' ≠ t → w'.typeMap t' = w.typeMap t') ∧
      (∀ c, w.typeMap t = some c → c = id) := by
  unfold getOrCreate at h
  obtain ⟨v, w1, h1, k1⟩ := bind_ok h
  injection h1 with h1 h1'; subst h1 h1'
  cases ht : w.typeMap t with
  | some c =>
    rw [ht] at k1
    injection k1 with k1 k1'; subst k1 k1'
    refine ⟨.of_eq' ?_, ht, fun _ _ => rfl, fun c h => by injection h with h; exact h.symm⟩
    unfold firstSeen; rw [ht]; rfl
  | none =>
    rw [ht] at k1
    obtain ⟨e, w2, h2, k2⟩ := bind_ok k1
    have t2 := (spawnId_types _).ok h2
    have h2 := (spawnId_same _).ok h2
    obtain ⟨b, w3, h3, k3⟩ := bind_ok k2
    have e3 := bnew_entity h3
    have t3 := (bnew_types _ _ _).ok h3
    have h3 := (bnew_same _ _ _).ok h3
    obtain ⟨b', w4, h4, k4⟩ := bind_ok k3
    obtain ⟨e4, t4, a4⟩ := build_arr (orDrop_ok h4)
    obtain ⟨_, w5, h5, k5⟩ := bind_ok k4
    have t5 := (bdrop_types _ _).ok h5
    have h5 := (bdrop_same _ _).ok h5
    obtain ⟨_, w6, h6, k6⟩ := bind_ok k5
    have h6 := step_ok h6
    split at h6
    · cases h6
    · cases h6
    injection h6 with h6; subst h6
    obtain ⟨_, w7, h7, k7⟩ := bind_ok k6
    injection k7 with k7 k7'; subst k7 k7'
    injection h7 with _ h7
    have hm : w7.typeMap = mapInsert w.typeMap t e := by
      rw [← h7]
      show mapInsert w5.typeMap t e = _
      rw [t5, t4, t3, t2]
    have hr : roster w7 = roster w4 := by rw [← h5, ← h7]; rfl
    refine ⟨?_, by rw [hm]; simp [mapInsert], fun t' ht' => by rw [hm]; simp [mapInsert, ht'], fun c h => by cases h⟩
    unfold firstSeen
    rw [if_pos ht, hm, hr, ← h2, ← h3, ← e3]
    simpa [mapInsert] using a4

theorem withDynamicWithData_entity {b b' : Builder} {v : Bytes} {id : EcsId} {w : World} (h : b.withDynamicWithData v id w = .ok b') : b'.entity = b.entity := by
  have hr : ∀ {n : Nat} {c : Builder}, b.realloc n = .ok c → c.entity = b.entity := by
    intro n c hc
    unfold Builder.realloc at hc
    repeat' split at hc
    all_goals first | (cases hc; done) | (injection hc with hc; rw [← hc])
  unfold Builder.withDynamicWithData at h
  split at h
  · cases h
  · cases h
  simp only at h
  split at h
  · cases h
  rename_i c hc
  have : c.entity = b.entity := by
    split at hc
    · exact hr hc
    · injection hc with hc; rw [hc]
  repeat' split at h
  all_goals first | (cases h; done) | (injection h with h; rw [← h]; exact this)

theorem withDynamic_entity {b b' : Builder} {id : EcsId} {w : World} (h : b.withDynamic id w = .ok b') : b'.entity = b.entity := by
  unfold Builder.withDynamic at h
  repeat' split at h
  all_goals first | (cases h; done) | (injection h with h; rw [← h])

theorem act_some (b : Builder) (a : BAct) (w : World) : Walk Joined (b.act a) w := by
  unfold Builder.act
  refine orDrop_walk (fun b w => walk_some (bdrop_same b w)) ?_
  cases a with
  | «with» t v => exact (getOrCreate_some t w).bind' fun _ w => (Walk.get w).bind' fun _ w => Walk.liftE _ w
  | withDynamic id => exact (Walk.get w).bind' fun _ w => Walk.liftE _ w
  | withDynamicWithData id v => exact (Walk.get w).bind' fun _ w => Walk.liftE _ w
  | build => exact build_some b w

theorem acts_some (as : List BAct) : ∀ (b : Builder) (w : World), Walk Joined (b.acts as) w := by
  induction as with
  | nil => exact fun b w => Walk.pure b w
  | cons a as ih => exact fun b w => (act_some b a w).bind' fun b w => ih b w

theorem spawnWith_some (kind : SpawnKind) (as : List BAct) (w : World) : Walk Joined (spawnWith kind as) w := by
  unfold spawnWith
  refine (walk_some (spawnId_same w)).bind' fun e w => Walk.bind' ?_ fun b w => (acts_some as b w).bind' fun b w => (walk_some (bdrop_same b w)).bind' fun _ w => Walk.pure _ w
  cases kind with
  | plain => exact walk_some (bnew_same _ _ w)
  | capacity n => exact walk_some (bcap_same _ _ _ w)
  | withMeta m => exact walk_some (bnew_same _ _ w)

/-- What a chain of calls that starts in `w1` appends; `w` is the world before the builder was made. -/
theorem acts_arr (w : World) {w' : World} {b' : Builder} : ∀ (as : List BAct) (seen : List Ty) (b : Builder) (w1 : World),
    (∀ t ∈ seen, w1.typeMap t ≠ none) → (∀ t, t ∉ seen → w1.typeMap t = w.typeMap t) → b.acts as w1 = .ok b' w' →
    Arr (comers w w' b.entity seen as) (roster w1) (roster w') ∧ (∀ t id, w1.typeMap t = some id → w'.typeMap t = some id) := by
  intro as
  induction as with
  | nil =>
    intro seen b w1 _ _ h
    injection h with _ h; subst h
    exact ⟨.nil, fun _ _ h => h⟩
  | cons a as ih =>
    intro seen b w1 hs hn h
    unfold Builder.acts at h
    obtain ⟨b1, w2, h1, k1⟩ := bind_ok h
    have h1 := orDrop_ok h1
    cases a with
    | «with» t v =>
      obtain ⟨id, w3, h3, k3⟩ := bind_ok h1
      obtain ⟨v4, w4, h4, k4⟩ := bind_ok k3
      injection h4 with h4 h4'; subst h4 h4'
      obtain ⟨k5, k6⟩ := liftE_ok k4
      subst k6
      have he := withDynamicWithData_entity k5
      obtain ⟨g1, g2, g3, g4⟩ := getOrCreate_arr h3
      obtain ⟨i1, i2⟩ := ih (t :: seen) b1 w2 (by
          intro t' ht'
          by_cases h : t' = t
          · subst h; rw [g2]; exact fun h => by cases h
          · rw [g3 t' h]; exact hs t' ((List.mem_cons.1 ht').resolve_left h))
        (by
          intro t' ht'
          rw [g3 t' (fun h => ht' (h ▸ List.mem_cons_self))]; exact hn t' (fun h => ht' (List.mem_cons_of_mem _ h))) k1
      refine ⟨?_, fun t' id' ho => i2 t' id' ?_⟩
      · unfold comers
        rw [← he]
        refine Arr.append ?_ i1
        have hw : w'.typeMap t = some id := i2 t id g2
        by_cases hm : t ∈ seen
        · rw [if_pos hm]
          have := hs t hm
          unfold firstSeen at g1
          rw [if_neg this] at g1
          exact g1
        · rw [if_neg hm]
          have : firstSeen w w' t = firstSeen w1 w2 t := by unfold firstSeen; rw [hn t hm, hw, g2]
          rw [this]; exact g1
      · by_cases ht : t' = t
        · subst ht; rw [g2, g4 _ ho]
        · rw [g3 _ ht]; exact ho
    | withDynamic id =>
      obtain ⟨v4, w4, h4, k4⟩ := bind_ok h1
      injection h4 with h4 h4'; subst h4 h4'
      obtain ⟨k5, k6⟩ := liftE_ok k4
      subst k6
      have he := withDynamic_entity k5
      have := ih seen b1 _ hs hn k1
      rw [he] at this
      exact this
    | withDynamicWithData id v =>
      obtain ⟨v4, w4, h4, k4⟩ := bind_ok h1
      injection h4 with h4 h4'; subst h4 h4'
      obtain ⟨k5, k6⟩ := liftE_ok k4
      subst k6
      have he := withDynamicWithData_entity k5
      have := ih seen b1 _ hs hn k1
      rw [he] at this
      exact this
    | build =>
      obtain ⟨e1, t1, a1⟩ := build_arr h1
      obtain ⟨i1, i2⟩ := ih seen b1 w2 (by rw [t1]; exact hs) (by rw [t1]; exact hn) k1
      rw [e1] at i1
      rw [t1] at i2
      exact ⟨a1.append i1, i2⟩

theorem comers_congr {w u v : World} {e : EcsId} (hf : ∀ t, firstSeen w u t = firstSeen w v t) : ∀ (as : List BAct) (seen : List Ty),
    comers w u e seen as = comers w v e seen as := by
  intro as
  induction as with
  | nil => exact fun _ => rfl
  | cons a as ih => intro seen; cases a <;> simp only [comers, hf, ih]

theorem spawnWith_arr {kind : SpawnKind} {as : List BAct} {w w' : World} {e : EcsId} (h : spawnWith kind as w = .ok e w') :
    Arr (comers w w' e [] as) (roster w) (roster w') := by
  unfold spawnWith at h
  obtain ⟨e1, w1, h1, k1⟩ := bind_ok h
  have t1 := (spawnId_types _).ok h1
  have h1 := (spawnId_same _).ok h1
  obtain ⟨b, w2, h2, k2⟩ := bind_ok k1
  have q : b.entity = e1 ∧ SameR w1 w2 ∧ w2.typeMap = w1.typeMap := by
    cases kind with
    | plain => exact ⟨bnew_entity h2, (bnew_same _ _ _).ok h2, (bnew_types _ _ _).ok h2⟩
    | capacity n => exact ⟨bcap_entity h2, (bcap_same _ _ _ _).ok h2, (bcap_types _ _ _ _).ok h2⟩
    | withMeta m => exact ⟨bnew_entity h2, (bnew_same _ _ _).ok h2, (bnew_types _ _ _).ok h2⟩
  obtain ⟨b', w3, h3, k3⟩ := bind_ok k2
  obtain ⟨_, w4, h4, k4⟩ := bind_ok k3
  have t4 := (bdrop_types _ _).ok h4
  have h4 := (bdrop_same _ _).ok h4
  injection k4 with k4 k4'; subst k4 k4'
  have := (acts_arr w as [] b w2 (fun _ h => by cases h) (fun t _ => by rw [q.2.2, t1]) h3).1
  have hc : ∀ seen, comers w w4 e1 seen as = comers w w3 e1 seen as := by
    intro seen
    have hf : ∀ t, firstSeen w w4 t = firstSeen w w3 t := fun t => by unfold firstSeen; rw [t4]
    exact comers_congr hf as seen
  rw [hc, ← h1, ← q.2.1, h4, ← q.1]
  exact this

/-! ## moving and removing entities -/

theorem insertCache_same {w w' : World} {k t : Nat} {id : EcsId} (h : insertCache w k id t = .ok w') : SameR w w' := by
  unfold insertCache at h
  split at h
  · cases h
  rename_i ha
  split at h
  · cases h
  · injection h with h; subst h; exact roster_set_same ha rfl rfl rfl

theorem tryFindNext_same {w w' : World} {k : Nat} {id : EcsId} {r : Option Nat} (h : tryFindNext w k id = .ok (r, w')) : SameR w w' := by
  unfold tryFindNext at h
  split at h
  · cases h
  rename_i ha
  split at h
  · cases h
  · injection h with h; injection h with _ h; subst h; exact roster_set_same ha rfl rfl rfl

theorem fromWith_entities {a n : Archetype} {i : TypeInfo} {c : EcsId} (h : a.fromArchetypeWith i c = .ok n) : n.entities = [] := by
  unfold Archetype.fromArchetypeWith at h
  simp only at h
  repeat' split at h
  all_goals first | (cases h; done) | (injection h with h; rw [← h]; rfl)

theorem fromWithout_entities {a n : Archetype} {c : EcsId} (h : a.fromArchetypeWithout c = .ok n) : n.entities = [] := by
  unfold Archetype.fromArchetypeWithout at h
  simp only at h
  repeat' split at h
  all_goals first | (cases h; done) | (injection h with h; rw [← h]; rfl)

/-- Nothing changed, or an empty table `t` was added. -/
def Room (t : Nat) (w w' : World) : Prop := roster w' = roster w ∨ (t = (roster w).length ∧ ∃ ids, roster w' = roster w ++ [(ids, [])])

theorem Room.of_same {t : Nat} {w w1 w' : World} (h : SameR w w1) (h' : Room t w1 w') : Room t w w' := by
  unfold Room at *; rwa [h] at h'

theorem roster_length (w : World) : (roster w).length = w.archetypes.length := by unfold roster; rw [List.length_map]

theorem create_room {w w1 w' : World} {n : Archetype} {cur : Nat} {c : EcsId} (h1 : pushArchetype w n = .ok w1) (hn : n.entities = [])
    (h2 : insertCache w1 cur c (w1.archetypes.length - 1) = .ok w') : Room (w1.archetypes.length - 1) w w' := by
  have a1 := pushArchetype_archs h1
  have a2 := insertCache_same h2
  right
  refine ⟨?_, n.compIds, ?_⟩
  · rw [a1, roster_length]; simp
  · rw [a2, roster_push a1, hn]

theorem createPlus_room {cur : Nat} {c : EcsId} {w w' : World} {t : Nat} (h : createPlus cur c w = .ok t w') : Room t w w' := by
  unfold createPlus at h
  obtain ⟨_, w1, h1, k1⟩ := bind_ok h
  have e1 : SameR w w1 := by
    injection h1 with _ h1; rw [← h1]; exact Chain.of_eq (ensureLock_count w c)
  obtain ⟨v, w2, h2, k2⟩ := bind_ok k1
  injection h2 with _ h2; subst h2
  obtain ⟨_, w3, h3, k3⟩ := bind_ok k2
  have := (liftE_ok h3).2; subst this
  obtain ⟨_, w4, h4, k4⟩ := bind_ok k3
  have := (liftE_ok h4).2; subst this
  obtain ⟨_, w5, h5, k5⟩ := bind_ok k4
  have := (liftE_ok h5).2; subst this
  obtain ⟨n, w6, h6, k6⟩ := bind_ok k5
  obtain ⟨hn, this⟩ := liftE_ok h6; subst this
  obtain ⟨_, w7, h7, k7⟩ := bind_ok k6
  obtain ⟨v8, w8, h8, k8⟩ := bind_ok k7
  injection h8 with h8 h8'; subst h8 h8'
  obtain ⟨_, w9, h9, k9⟩ := bind_ok k8
  injection k9 with k9 h'; subst k9 h'
  exact .of_same e1 (create_room (step_ok h7) (fromWith_entities hn) (step_ok h9))

theorem createMinus_room {cur : Nat} {c : EcsId} {w w' : World} {t : Nat} (h : createMinus cur c w = .ok t w') : Room t w w' := by
  unfold createMinus at h
  obtain ⟨v, w2, h2, k1⟩ := bind_ok h
  injection h2 with _ h2; subst h2
  obtain ⟨_, w5, h5, k2⟩ := bind_ok k1
  have := (liftE_ok h5).2; subst this
  obtain ⟨n, w6, h6, k3⟩ := bind_ok k2
  obtain ⟨hn, this⟩ := liftE_ok h6; subst this
  obtain ⟨_, w7, h7, k4⟩ := bind_ok k3
  obtain ⟨v8, w8, h8, k5⟩ := bind_ok k4
  injection h8 with h8 h8'; subst h8 h8'
  obtain ⟨_, w9, h9, k6⟩ := bind_ok k5
  injection k6 with k6 h'; subst k6 h'
  exact create_room (step_ok h7) (fromWithout_entities hn) (step_ok h9)

theorem resolveAdd_room {cur : Nat} {c : EcsId} {w w' : World} {t : Nat} (h : resolveAdd cur c w = .ok t w') : Room t w w' := by
  unfold resolveAdd at h
  obtain ⟨v, w2, h2, k1⟩ := bind_ok h
  injection h2 with h2 h2'; subst h2 h2'
  obtain ⟨a, w3, h3, k2⟩ := bind_ok k1
  have := (liftE_ok h3).2; subst this
  by_cases hc : a.compIds.contains c = true
  · rw [if_pos hc] at k2; cases k2
  rw [if_neg hc] at k2
  obtain ⟨⟨r, w4⟩, w5, h5, k3⟩ := bind_ok k2
  obtain ⟨h5, h5'⟩ := liftE_ok h5; subst h5'
  obtain ⟨_, w6, h6, k4⟩ := bind_ok k3
  injection h6 with _ h6; subst h6
  refine Room.of_same (tryFindNext_same h5) ?_
  cases r with
  | some k => injection k4 with k4 h'; subst k4 h'; exact Or.inl rfl
  | none =>
    simp only at k4
    obtain ⟨found, w7, h7, k5⟩ := bind_ok k4
    have := (liftE_ok h7).2; subst this
    cases found with
    | some k =>
      obtain ⟨_, w8, h8, k6⟩ := bind_ok k5
      injection k6 with k6 h'; subst k6 h'
      exact Or.inl (insertCache_same (step_ok h8))
    | none => exact createPlus_room k5

theorem resolveRemove_room {cur : Nat} {c : EcsId} {w w' : World} {t : Nat} (h : resolveRemove cur c w = .ok t w') : Room t w w' := by
  unfold resolveRemove at h
  obtain ⟨v, w2, h2, k1⟩ := bind_ok h
  injection h2 with h2 h2'; subst h2 h2'
  obtain ⟨a, w3, h3, k2⟩ := bind_ok k1
  have := (liftE_ok h3).2; subst this
  by_cases hc : (!a.compIds.contains c) = true
  · rw [if_pos hc] at k2; cases k2
  rw [if_neg hc] at k2
  obtain ⟨⟨r, w4⟩, w5, h5, k3⟩ := bind_ok k2
  obtain ⟨h5, h5'⟩ := liftE_ok h5; subst h5'
  obtain ⟨_, w6, h6, k4⟩ := bind_ok k3
  injection h6 with _ h6; subst h6
  refine Room.of_same (tryFindNext_same h5) ?_
  cases r with
  | some k => injection k4 with k4 h'; subst k4 h'; exact Or.inl rfl
  | none =>
    simp only at k4
    obtain ⟨found, w7, h7, k5⟩ := bind_ok k4
    have := (liftE_ok h7).2; subst this
    cases found with
    | some k =>
      obtain ⟨_, w8, h8, k6⟩ := bind_ok k5
      injection k6 with k6 h'; subst k6 h'
      exact Or.inl (insertCache_same (step_ok h8))
    | none => exact createMinus_room k5

/-- Row `row` of table `cur` was removed, and `e` appended to another one. -/
structure MovedIn (cur tar row : Nat) (e : EcsId) (r r' : List (List EcsId × List EcsId)) : Prop where
  ne : cur ≠ tar
  res : ∃ ids es idt et, r[cur]? = some (ids, es) ∧ row < es.length ∧ r[tar]? = some (idt, et) ∧
    r' = (r.set cur (ids, swapRemove es row)).set tar (idt, et ++ [e])

theorem finishMove_moved {w w' : World} {cur tar : Nat} {a b a' b' : Archetype} {e : EcsId} {row : Nat}
    (h : finishMove w cur tar a' b' e row = .ok w') (hne : cur ≠ tar) (ha : w.archetypes[cur]? = some a) (hb : w.archetypes[tar]? = some b) (ea : a'.entities = a.entities) (ia : a'.compIds = a.compIds)
    (eb : b'.entities = b.entities) (ib : b'.compIds = b.compIds) : MovedIn cur tar row e (roster w) (roster w') := by
  have key : ∀ u : World, row < a'.entities.length →
      u.archetypes = (w.archetypes.set cur { a' with entities := swapRemove a'.entities row }).set tar { b' with entities := b'.entities ++ [e] } →
      MovedIn cur tar row e (roster w) (roster u) := by
    intro u hr hu
    refine ⟨hne, a.compIds, a.entities, b.compIds, b.entities, roster_get ha, by rw [← ea]; exact hr, roster_get hb, ?_⟩
    unfold roster
    rw [hu, List.map_set, List.map_set, ← ea, ← eb, ← ia, ← ib]
  unfold finishMove at h
  simp only at h
  split at h
  · cases h
  · split at h
    · rename_i hr
      split at h
      · injection h with h; subst h; exact key _ hr rfl
      · split at h
        · cases h
        · injection h with h; subst h; exact key _ hr rfl
    · cases h

theorem moveAddRow_moved {w w' : World} {cur tar : Nat} {e c : EcsId} {row : Nat} {src : Bytes} (h : moveAddRow cur tar e row c src w = .ok w') :
    MovedIn cur tar row e (roster w) (roster w') := by
  unfold moveAddRow at h
  split at h
  · cases h
  rename_i hi
  obtain ⟨i1, i2, i3⟩ := indexTwice_some hi
  split at h
  · cases h
  split at h
  · cases h
  split at h
  · cases h
  split at h
  · cases h
  exact finishMove_moved h i1 i2 i3 rfl rfl rfl rfl

theorem moveRemoveRow_moved {w w' : World} {cur tar : Nat} {e c : EcsId} {row : Nat} (h : moveRemoveRow cur tar e row c w = .ok w') :
    MovedIn cur tar row e (roster w) (roster w') := by
  unfold moveRemoveRow at h
  split at h
  · cases h
  rename_i hi
  obtain ⟨i1, i2, i3⟩ := indexTwice_some hi
  split at h
  · cases h
  simp only at h
  split at h
  · cases h
  split at h
  · cases h
  split at h
  · cases h
  split at h
  · cases h
  rename_i hf
  injection h with h; subst h
  have := finishMove_moved hf i1 i2 i3 rfl rfl rfl rfl
  exact this

/-- `e` left its row of the table `cur`, and was appended to an old or a new table. -/
def Goes (cur row : Nat) (e : EcsId) (r r' : List (List EcsId × List EcsId)) : Prop :=
  ∃ ids es, r[cur]? = some (ids, es) ∧ row < es.length ∧ Arr [e] (r.set cur (ids, swapRemove es row)) r'

theorem MovedIn.goes {cur tar row : Nat} {e : EcsId} {w w1 w' : World} (h1 : Room tar w w1) (h : MovedIn cur tar row e (roster w1) (roster w')) :
    Goes cur row e (roster w) (roster w') := by
  obtain ⟨hne, ids, es, idt, et, a1, a2, a3, a4⟩ := h
  rcases h1 with h1 | ⟨ht, i0, h1⟩
  · rw [h1] at a1 a3 a4
    exact ⟨ids, es, a1, a2, .into (k := tar) (by rw [List.getElem?_set, if_neg hne]; exact a3) (.of_eq a4)⟩
  · rw [h1] at a1 a3 a4
    have hc : cur < (roster w).length := by
      have := (List.getElem?_eq_some_iff.1 a1).1
      simp only [List.length_append, List.length_singleton] at this
      omega
    rw [List.getElem?_append_left hc] at a1
    subst ht
    rw [List.getElem?_append_right (Nat.le_refl _), Nat.sub_self] at a3
    injection a3 with a3; injection a3 with a3 a5; subst a3 a5
    refine ⟨ids, es, a1, a2, .opens (ids := i0) (.of_eq ?_)⟩
    rw [a4, List.set_append_left _ _ hc]
    rw [List.set_append_right _ _ (by simp)]
    simp

/-- The place of an entity, as its metadata says. -/
def SaysAt (w : World) (e : EcsId) (k r : Nat) : Prop := ∃ m, w.getEntityMeta e = .ok (some m) ∧ m.inst.archetype = k ∧ m.inst.index = r

theorem unwrap_ok {α : Type} {x : Option α} {y : α} (h : unwrap x = .ok y) : x = some y := by
  cases x with
  | none => cases h
  | some z => injection h with h; rw [h]

theorem addDyn_goes {e c : EcsId} {src : Bytes} {w w' : World} (h : addComponentDynamicWithData e c src w = .ok () w') :
    w' = w ∨ ∃ k r, SaysAt w e k r ∧ Goes k r e (roster w) (roster w') := by
  unfold addComponentDynamicWithData at h
  obtain ⟨v, w2, h2, k1⟩ := bind_ok h
  injection h2 with h2 h2'; subst h2 h2'
  obtain ⟨b1, w3, h3, k2⟩ := bind_ok k1
  have := (liftE_ok h3).2; subst this
  by_cases hb : (!b1) = true
  · rw [if_pos hb] at k2; injection k2 with _ k2; subst k2; exact Or.inl rfl
  rw [if_neg hb] at k2
  obtain ⟨b2, w4, h4, k3⟩ := bind_ok k2
  have := (liftE_ok h4).2; subst this
  by_cases hb : (!b2) = true
  · rw [if_pos hb] at k3; injection k3 with _ k3; subst k3; exact Or.inl rfl
  rw [if_neg hb] at k3
  obtain ⟨m, w5, h5, k4⟩ := bind_ok k3
  obtain ⟨hm, this⟩ := liftE_ok h5; subst this
  obtain ⟨m', w6, h6, k5⟩ := bind_ok k4
  obtain ⟨hm', this⟩ := liftE_ok h6; subst this
  obtain ⟨t, w7, h7, k6⟩ := bind_ok k5
  have := unwrap_ok hm'; subst this
  exact Or.inr ⟨_, _, ⟨m', hm, rfl, rfl⟩, (moveAddRow_moved (step_ok k6)).goes (resolveAdd_room h7)⟩

theorem removeDyn_goes {e c : EcsId} {w w' : World} (h : removeComponentDynamic e c w = .ok () w') :
    w' = w ∨ ∃ k r, SaysAt w e k r ∧ Goes k r e (roster w) (roster w') := by
  unfold removeComponentDynamic at h
  obtain ⟨v, w2, h2, k1⟩ := bind_ok h
  injection h2 with h2 h2'; subst h2 h2'
  obtain ⟨b1, w3, h3, k2⟩ := bind_ok k1
  have := (liftE_ok h3).2; subst this
  by_cases hb : (!b1) = true
  · rw [if_pos hb] at k2; injection k2 with _ k2; subst k2; exact Or.inl rfl
  rw [if_neg hb] at k2
  obtain ⟨b2, w4, h4, k3⟩ := bind_ok k2
  have := (liftE_ok h4).2; subst this
  by_cases hb : (!b2) = true
  · rw [if_pos hb] at k3; injection k3 with _ k3; subst k3; exact Or.inl rfl
  rw [if_neg hb] at k3
  obtain ⟨m, w5, h5, k4⟩ := bind_ok k3
  obtain ⟨hm, this⟩ := liftE_ok h5; subst this
  obtain ⟨m', w6, h6, k5⟩ := bind_ok k4
  obtain ⟨hm', this⟩ := liftE_ok h6; subst this
  obtain ⟨t, w7, h7, k6⟩ := bind_ok k5
  have := unwrap_ok hm'; subst this
  exact Or.inr ⟨_, _, ⟨m', hm, rfl, rfl⟩, (moveRemoveRow_moved (step_ok k6)).goes (resolveRemove_room h7)⟩

theorem addZst_goes {e c : EcsId} {w w' : World} (h : addComponentDynamic e c w = .ok () w') :
    addComponentDynamicWithData e c [] w = .ok () w' ∧ ∃ m, w.getEntityMeta c = .ok (some m) ∧ m.comp.layout.size = 0 := by
  unfold addComponentDynamic at h
  obtain ⟨v, w2, h2, k1⟩ := bind_ok h
  injection h2 with h2 h2'; subst h2 h2'
  obtain ⟨b1, w3, h3, k2⟩ := bind_ok k1
  have := (liftE_ok h3).2; subst this
  by_cases hb : (!b1) = true
  · rw [if_pos hb] at k2; cases k2
  rw [if_neg hb] at k2
  obtain ⟨b2, w4, h4, k3⟩ := bind_ok k2
  have := (liftE_ok h4).2; subst this
  by_cases hb : (!b2) = true
  · rw [if_pos hb] at k3; cases k3
  rw [if_neg hb] at k3
  obtain ⟨m, w5, h5, k4⟩ := bind_ok k3
  obtain ⟨hm, this⟩ := liftE_ok h5; subst this
  obtain ⟨m', w6, h6, k5⟩ := bind_ok k4
  obtain ⟨hm', this⟩ := liftE_ok h6; subst this
  have := unwrap_ok hm'; subst this
  by_cases hz : m'.comp.layout.size ≠ 0
  · rw [if_pos hz] at k5; cases k5
  · rw [if_neg hz] at k5; exact ⟨k5, m', hm, Decidable.of_not_not hz⟩

theorem despawn_goes {e : EcsId} {w w' : World} {b : Bool} (h : World.despawn e w = .ok b w') :
    (w.isAlive e = .ok false ∧ w' = w) ∨ (w.isAlive e = .ok true ∧ ∃ k r ids es, (roster w)[k]? = some (ids, es) ∧ es[r]? = some e ∧ roster w' = (roster w).set k (ids, swapRemove es r)) := by
  unfold World.despawn at h
  obtain ⟨v, w2, h2, k1⟩ := bind_ok h
  injection h2 with h2 h2'; subst h2 h2'
  obtain ⟨b1, w3, h3, k2⟩ := bind_ok k1
  obtain ⟨hal, this⟩ := liftE_ok h3; subst this
  by_cases hb : (!b1) = true
  · rw [if_pos hb] at k2; injection k2 with k2 k2'; subst k2 k2'
    have hb1 : b1 = false := by simpa using hb
    subst hb1
    exact Or.inl ⟨hal, rfl⟩
  rw [if_neg hb] at k2
  have hb1 : b1 = true := by simpa using hb
  subst hb1
  split at k2
  · cases k2
  obtain ⟨m, w5, h5, k4⟩ := bind_ok k2
  have := (liftE_ok h5).2; subst this
  obtain ⟨m', w6, h6, k5⟩ := bind_ok k4
  have := (liftE_ok h6).2; subst this
  obtain ⟨_, w7, h7, k6⟩ := bind_ok k5
  obtain ⟨_, w8, h8, k7⟩ := bind_ok k6
  injection k7 with k7 k7'; subst k7 k7'
  have h8 := step_ok h8
  have s8 : roster w8 = roster w7 := by
    split at h8
    · cases h8
    · injection h8 with h8; rw [← h8]; rfl
  have h7 := step_ok h7
  split at h7
  · cases h7
  rename_i a ha
  split at h7
  · cases h7
  rename_i a' metas evs hd
  injection h7 with h7
  refine Or.inr ⟨hal, m'.inst.archetype, m'.inst.index, a.compIds, a.entities, roster_get ha, ?_⟩
  have key : a.entities[m'.inst.index]? = some e ∧ a'.compIds = a.compIds ∧ a'.entities = swapRemove a.entities m'.inst.index := by
    unfold Archetype.despawn at hd
    split at hd
    · cases hd
    rename_i x hx
    split at hd
    · cases hd
    rename_i hxe
    have hxe : x = e := Decidable.of_not_not hxe
    subst hxe
    simp only at hd
    split at hd
    · cases hd
    split at hd
    · split at hd
      · injection hd with hd; injection hd with hd _; subst hd; exact ⟨hx, rfl, rfl⟩
      · split at hd
        · cases hd
        · injection hd with hd; injection hd with hd _; subst hd; exact ⟨hx, rfl, rfl⟩
    · cases hd
  refine ⟨key.1, ?_⟩
  rw [s8, ← h7]
  unfold roster
  rw [List.map_set, key.2.1, key.2.2]

/-! ## lines -/

/-- The lines of a roster. -/
def view (r : List (List EcsId × List EcsId)) : List Line := r.map (fun p => ((fun c => c ∈ p.1), p.2))

theorem lines_eq (w : World) : lines w = view (roster w) := by
  unfold lines view roster; rw [List.map_map]; rfl

theorem SameR.lines {w w' : World} (h : SameR w w') : lines w' = lines w := by rw [lines_eq, lines_eq, h]

theorem view_get {r : List (List EcsId × List EcsId)} {k : Nat} {ids es : List EcsId} (h : r[k]? = some (ids, es)) :
    (view r)[k]? = some ((fun c => c ∈ ids), es) := by unfold view; rw [List.getElem?_map, h]; rfl

theorem view_set (r : List (List EcsId × List EcsId)) (k : Nat) (ids es : List EcsId) : view (r.set k (ids, es)) = (view r).set k ((fun c => c ∈ ids), es) := by
  unfold view; rw [List.map_set]

theorem view_push (r : List (List EcsId × List EcsId)) (ids es : List EcsId) : view (r ++ [(ids, es)]) = view r ++ [((fun c => c ∈ ids), es)] := by
  unfold view; rw [List.map_append]; rfl

/-- Every list is still there, perhaps longer. -/
def Pre (r r' : List (List EcsId × List EcsId)) : Prop := ∀ (k : Nat) (ids es : List EcsId), r[k]? = some (ids, es) → ∃ more, r'[k]? = some (ids, es ++ more)

theorem Pre.refl (r : List (List EcsId × List EcsId)) : Pre r r := fun k ids es h => ⟨[], by rw [List.append_nil]; exact h⟩

theorem Pre.trans {r r1 r2 : List (List EcsId × List EcsId)} (h : Pre r r1) (h' : Pre r1 r2) : Pre r r2 := by
  intro k ids es hk
  obtain ⟨m1, h1⟩ := h k ids es hk
  obtain ⟨m2, h2⟩ := h' k ids _ h1
  exact ⟨m1 ++ m2, by rw [← List.append_assoc]; exact h2⟩

theorem pre_set {r : List (List EcsId × List EcsId)} {k : Nat} {ids es : List EcsId} {x : EcsId} (h : r[k]? = some (ids, es)) : Pre r (r.set k (ids, es ++ [x])) := by
  intro j jds fs hj
  by_cases hk : k = j
  · subst hk
    rw [h] at hj; injection hj with hj; injection hj with h1 h2; subst h1 h2
    exact ⟨[x], by rw [List.getElem?_set, if_pos rfl, if_pos (List.getElem?_eq_some_iff.1 h).1]⟩
  · exact ⟨[], by rw [List.getElem?_set, if_neg hk, List.append_nil]; exact hj⟩

theorem pre_push (r : List (List EcsId × List EcsId)) (p : List EcsId × List EcsId) : Pre r (r ++ [p]) := by
  intro j jds fs hj
  exact ⟨[], by rw [List.getElem?_append_left (List.getElem?_eq_some_iff.1 hj).1, List.append_nil]; exact hj⟩

theorem Arr.pre {xs : List EcsId} {r r' : List (List EcsId × List EcsId)} (h : Arr xs r r') : Pre r r' := by
  induction h with
  | nil => exact Pre.refl _
  | into hk _ ih => exact (pre_set hk).trans ih
  | opens _ ih => exact (pre_push _ _).trans ih

theorem hasComp_set {w : World} (h : Inv w) {k : Nat} {ids es : List EcsId} {x : EcsId} (hr : (roster w)[k]? = some (ids, es)) (hx : x ∈ es) :
    w.HasComp x = fun c => c ∈ ids := by
  obtain ⟨a, ha, hi, he⟩ := get_roster hr
  subst hi he
  obtain ⟨i, hi⟩ := List.getElem?_of_mem hx
  exact funext fun c => propext (hasComp_at h ha hi c)

theorem roster_uniq {w : World} (h : Inv w) (hlen : w.archetypes.length < 2 ^ 32) {i j : Nat} {ids jds es fs : List EcsId} (hi : (roster w)[i]? = some (ids, es))
    (hj : (roster w)[j]? = some (jds, fs)) (he : ∀ c, c ∈ ids ↔ c ∈ jds) : i = j := by
  obtain ⟨a, ha, ia, _⟩ := get_roster hi
  obtain ⟨b, hb, ib, _⟩ := get_roster hj
  have sa := h.shape a (List.mem_of_getElem? ha)
  have sb := h.shape b (List.mem_of_getElem? hb)
  have hab : a.compIds = b.compIds := SortedIds.ext sa.sorted sb.sorted (by rw [ia, ib]; exact he)
  have e1 : (w.archetypes.map Archetype.compIds)[i]? = some a.compIds := by rw [List.getElem?_map, ha]; rfl
  have e2 : (w.archetypes.map Archetype.compIds)[j]? = some a.compIds := by rw [List.getElem?_map, hb, hab]; rfl
  have l1 := (List.getElem?_eq_some_iff.1 ha).1
  have l2 := (List.getElem?_eq_some_iff.1 hb).1
  rcases Nat.lt_trichotomy i j with hij | hij | hij
  · exact absurd e2 (h.uniq i j _ hij (by omega) e1)
  · exact hij
  · exact absurd e1 (h.uniq j i _ hij (by omega) e2)

theorem Arr.arrive {w' : World} (h : Inv w') (hlen : w'.archetypes.length < 2 ^ 32) {xs : List EcsId} {r r' : List (List EcsId × List EcsId)} (ha : Arr xs r r')
    (hp : Pre r' (roster w')) : Arrive w'.HasComp xs (view r) (view r') := by
  induction ha with
  | nil => exact .nil
  | @into r r' k ids es x xs hk hr ih =>
    have hk' : (r.set k (ids, es ++ [x]))[k]? = some (ids, es ++ [x]) := by
      rw [List.getElem?_set, if_pos rfl, if_pos (List.getElem?_eq_some_iff.1 hk).1]
    obtain ⟨more, hm⟩ := (hr.pre.trans hp) k ids _ hk'
    have hs := hasComp_set h hm (x := x) (by simp)
    refine .cons (L1 := view (r.set k (ids, es ++ [x]))) ?_ (ih hp)
    rw [view_set, hs]
    exact .queue (view_get hk)
  | @opens r r' ids x xs hr ih =>
    have hk' : (r ++ [(ids, [x])])[r.length]? = some (ids, [x]) := by simp
    obtain ⟨more, hm⟩ := (hr.pre.trans hp) _ ids _ hk'
    have hs := hasComp_set h hm (x := x) (by simp)
    refine .cons (L1 := view (r ++ [(ids, [x])])) ?_ (ih hp)
    rw [view_push, hs]
    refine .opens fun es hes => ?_
    unfold view at hes
    obtain ⟨⟨jds, fs⟩, hq, he⟩ := List.mem_map.1 hes
    injection he with he _
    obtain ⟨j, hj⟩ := List.getElem?_of_mem hq
    have hlt := (List.getElem?_eq_some_iff.1 hj).1
    obtain ⟨more', hm'⟩ := ((pre_push r _).trans (hr.pre.trans hp)) j jds fs hj
    have := roster_uniq h hlen hm' hm (fun c => iff_of_eq (congrFun he c))
    omega

theorem Arrive.congr {A B : EcsId → EcsId → Prop} {xs : List EcsId} {L L' : List Line} (h : Arrive A xs L L') (he : ∀ x ∈ xs, A x = B x) : Arrive B xs L L' := by
  induction h with
  | nil => exact .nil
  | cons h1 _ ih =>
    refine .cons ?_ (ih fun x hx => he x (List.mem_cons_of_mem _ hx))
    rw [← he _ List.mem_cons_self]; exact h1

theorem fillsGap {x : EcsId} : ∀ {es : List EcsId} {i : Nat}, es[i]? = some x → FillsGap x es (swapRemove es i) := by
  intro es i h
  have hlt := (List.getElem?_eq_some_iff.1 h).1
  have hne : es ≠ [] := fun h => by rw [h] at hlt; cases hlt
  obtain ⟨l, z, rfl⟩ : ∃ l z, es = l ++ [z] := ⟨es.dropLast, es.getLast hne, (List.dropLast_concat_getLast hne).symm⟩
  have hsw : swapRemove (l ++ [z]) i = ((l ++ [z]).set i z).dropLast := by
    unfold swapRemove; simp
  rw [hsw]
  by_cases hi : i < l.length
  · rw [List.getElem?_append_left hi] at h
    obtain ⟨h1, h2⟩ := List.getElem?_eq_some_iff.1 h
    have e : l = l.take i ++ x :: l.drop (i + 1) := by
      rw [← h2, List.getElem_cons_drop, List.take_append_drop]
    rw [List.set_append_left _ _ hi, List.dropLast_concat]
    have e' : l.set i z = l.take i ++ z :: l.drop (i + 1) := by
      rw [List.set_eq_take_append_cons_drop, if_pos hi]
    rw [e']
    conv => arg 2; rw [e]
    rw [List.append_assoc, List.cons_append]
    exact .inside _ _ _
  · have : i = l.length := by
      simp at hlt; omega
    subst this
    rw [List.getElem?_append_right (Nat.le_refl _), Nat.sub_self] at h
    injection h with h; subst h
    rw [List.set_append_right _ _ (Nat.le_refl _), Nat.sub_self]
    simp only [List.set_cons_zero, List.dropLast_concat]
    exact .last l

/-- The first half of a move. -/
theorem exits_of {w : World} (h : Inv w) {k i : Nat} {ids es : List EcsId} {e : EcsId} (hr : (roster w)[k]? = some (ids, es)) (hi : es[i]? = some e) :
    Exits (w.HasComp e) e (lines w) (view ((roster w).set k (ids, swapRemove es i))) := by
  rw [lines_eq, view_set, hasComp_set h hr (List.mem_of_getElem? hi)]
  exact .exit (view_get hr) (fillsGap hi)

theorem Goes.moves {w w' : World} (h : Inv w) (h' : Inv w') (hlen : w'.archetypes.length < 2 ^ 32) {k i : Nat} {e : EcsId} (hs : SaysAt w e k i)
    (hg : Goes k i e (roster w) (roster w')) : ∃ L, Exits (w.HasComp e) e (lines w) L ∧ Enters (w'.HasComp e) e L (lines w') := by
  obtain ⟨ids, es, hr, hlt, ha⟩ := hg
  obtain ⟨m, hm, h1, h2⟩ := hs
  have hrow : es[i]? = some e := by
    rcases getEntityMeta_spec h e with ⟨g, _⟩ | ⟨g, _⟩ | ⟨g, _⟩ | ⟨im, c, g, _, _, _, g5⟩
    · rw [g] at hm; cases hm
    · rw [g] at hm; cases hm
    · rw [g] at hm; cases hm
    · rw [g] at hm; injection hm with hm; injection hm with hm; subst hm
      obtain ⟨a, hat, _, he⟩ := get_roster hr
      rw [← he]
      subst h1 h2
      rw [rowOf_eq hat] at g5
      exact g5
  refine ⟨_, exits_of h hr hrow, ?_⟩
  have := ha.arrive h' hlen (Pre.refl _)
  rw [lines_eq]
  cases this with
  | cons h1 h2 => cases h2; exact h1

/-! ## calls -/

theorem Pre.length_le {r r' : List (List EcsId × List EcsId)} (h : Pre r r') : r.length ≤ r'.length := by
  apply Nat.le_of_not_lt
  intro hlt
  obtain ⟨more, hm⟩ := h r'.length r[r'.length].1 r[r'.length].2 (List.getElem?_eq_getElem hlt)
  have := (List.getElem?_eq_some_iff.1 hm).1
  omega

theorem Goes.length_le {k i : Nat} {e : EcsId} {r r' : List (List EcsId × List EcsId)} (h : Goes k i e r r') : r.length ≤ r'.length := by
  obtain ⟨ids, es, _, _, ha⟩ := h
  have := ha.pre.length_le
  rwa [List.length_set] at this

theorem orDropValue_ok {α : Type} {t : Ty} {v : Bytes} {x : M α} {w w' : World} {y : α} (h : orDropValue t v x w = .ok y w') : x w = .ok y w' := by
  unfold orDropValue at h
  cases hx : x w with
  | ok a w1 => rw [hx] at h; exact h
  | error f w1 => rw [hx] at h; cases h

theorem Tri.ok {α : Type} {x : M α} {w w' : World} {y : α} {Q : α → World → Prop} {E : Fault → World → Prop} (h : Tri x w Q E) (hx : x w = .ok y w') : Q y w' := by
  unfold Tri at h; rw [hx] at h; exact h

theorem Tri.err {α : Type} {x : M α} {w w' : World} {f : Fault} {Q : α → World → Prop} {E : Fault → World → Prop} (h : Tri x w Q E) (hx : x w = .error f w') : E f w' := by
  unfold Tri at h; rw [hx] at h; exact h

/-- Registering a type, then moving an entity. -/
theorem typed_lines {w w1 w' : World} (h : Inv w) (hn : w.entities.NoWrap) {e id : EcsId} {t : Ty} (hg : getOrCreate t w = .ok id w1) (hl : w.entities.Live e)
    (hlen : w'.archetypes.length < 2 ^ 32)
    (hx : (¬ w1.entities.Live id ∧ w' = w1) ∨ (w1.entities.Live id ∧ (∃ P, Upd w1 w' e P) ∧ ∃ k r, SaysAt w1 e k r ∧ Goes k r e (roster w1) (roster w'))) :
    ∃ L, Arrive w'.HasComp (firstSeen w w' t) (lines w) L ∧
      ((∃ c, w'.typeMap t = some c ∧ w'.Alive c) ∧ Moves w w' e L (lines w') ∨ (∃ c, w'.typeMap t = some c ∧ ¬ w'.Alive c) ∧ lines w' = L) := by
  obtain ⟨g1, g2, _, _, _⟩ := (getOrCreate_spec h hn.ready t).ok hg
  obtain ⟨a1, _, _, _⟩ := getOrCreate_arr hg
  have hl1 : w1.archetypes.length ≤ w'.archetypes.length := by
    rcases hx with ⟨_, rfl⟩ | ⟨_, _, k, r, _, hgo⟩
    · exact Nat.le_refl _
    · have := hgo.length_le
      rwa [roster_length, roster_length] at this
  have har := a1.arrive g1.inv (by omega) (Pre.refl _)
  rw [← lines_eq, ← lines_eq] at har
  refine ⟨lines w1, ?_⟩
  rcases hx with ⟨hd, rfl⟩ | ⟨hd, ⟨P, hu⟩, k, r, hs, hgo⟩
  · exact ⟨har, Or.inr ⟨⟨id, g2, fun ha => hd (alive_iff.1 ha)⟩, rfl⟩⟩
  · refine ⟨?_, Or.inl ⟨⟨id, by rw [hu.typ]; exact g2, alive_iff.2 (by rw [hu.ent]; exact hd)⟩, ?_⟩⟩
    · have hf : firstSeen w w' t = firstSeen w w1 t := by unfold firstSeen; rw [hu.typ]
      rw [hf]
      refine har.congr fun x hx => ?_
      have hxe : x ≠ e := by
        rintro rfl
        unfold firstSeen at hx
        split at hx
        · rename_i ht
          rw [g2] at hx
          simp only [Option.toList_some, List.mem_singleton] at hx
          subst hx
          exact g1.fresh x ⟨t, ht, g2⟩ x hl rfl
        · cases hx
      exact funext fun c => propext (hu.hasOther hxe c).symm
    · have := hgo.moves g1.inv hu.inv hlen hs
      have he : w1.HasComp e = w.HasComp e := by
        funext c
        unfold HasComp
        exact propext (exists_congr fun bs => g1.has e c bs)
      rw [he] at this
      exact this

theorem dyn_lines {w w' : World} (h : Inv w) {e c : EcsId} (hlen : w'.archetypes.length < 2 ^ 32)
    (hx : ((w.isAlive e = .ok false ∨ (w.isAlive e = .ok true ∧ w.isAlive c = .ok false)) ∧ w' = w) ∨ (w.entities.Live e ∧ w.entities.Live c ∧ Inv w' ∧ (w.HasComp e c ↔ ¬ w'.HasComp e c)))
    (hg : w' = w ∨ ∃ k r, SaysAt w e k r ∧ Goes k r e (roster w) (roster w')) :
    (w.Alive e ∧ w.Alive c) ∧ Moves w w' e (lines w) (lines w') ∨ ¬ (w.Alive e ∧ w.Alive c) ∧ lines w' = lines w := by
  rcases hx with ⟨hd, rfl⟩ | ⟨h1, h2, hi, hc⟩
  · right
    refine ⟨?_, rfl⟩
    rintro ⟨a1, a2⟩
    unfold Alive at a1 a2
    rcases hd with hd | ⟨_, hd⟩
    · rw [a1] at hd; cases hd
    · rw [a2] at hd; cases hd
  · left
    refine ⟨⟨alive_iff.2 h1, alive_iff.2 h2⟩, ?_⟩
    rcases hg with rfl | ⟨k, r, hs, hgo⟩
    · exact absurd hc (by simp)
    · exact hgo.moves h hi hlen hs

theorem writePtr_same {w w' : World} {p : Ptr} {bs : Bytes} (h : w.writePtr p bs = .ok w') : SameR w w' := by
  have hb : ∀ u : World, roster u.blank = roster u := by
    intro u; unfold roster blank; rw [List.map_map]; rfl
  unfold SameR
  rw [← hb w, ← hb w', show w.blank = w'.blank from blank_write h]

theorem exec_lines {w w' : World} (h : Inv w) (hn : w.entities.NoWrap) (hid : Idle w) {c : Call} (hc : c.Ok w) (hlen : w'.archetypes.length < 2 ^ 32)
    (hx : c.exec w = .ok () w') : Lines w w' c := by
  have hinv : Inv w' := ((exec_spec h hn.ready (gs := []) hid hc).ok hx).1.inv
  have hinfo : ∀ {c : EcsId} {m : ComponentMeta}, w.entities.Live c → compOf w.metas c.uindex = some m → w.InfoIs c m := by
    intro c m hl hm
    rw [infoIs_iff h]
    refine ⟨?_, hm⟩
    rcases getEntityMeta_spec h c with ⟨g1, g2⟩ | ⟨g1, g2⟩ | ⟨g1, g2, g3, g4⟩ | ⟨im, cm, g1, g2, g3, g4, g5⟩
    · have := hl.lt; omega
    · exact absurd hl g2
    · rw [inst_none_iff_comp.1 g3] at hm; cases hm
    · exact (row_iff c).2 ⟨_, _, g5⟩
  cases c with
  | spawn kind acts =>
    obtain ⟨e, w1, h1, k1⟩ := bind_ok hx
    injection k1 with _ k1; subst k1
    refine ⟨e, _, h1, ?_⟩
    have := (spawnWith_arr h1).arrive hinv hlen (Pre.refl _)
    rwa [← lines_eq, ← lines_eq] at this
  | register t =>
    obtain ⟨e, w1, h1, k1⟩ := bind_ok hx
    injection k1 with _ k1; subst k1
    have := (getOrCreate_arr h1).1.arrive hinv hlen (Pre.refl _)
    rwa [← lines_eq, ← lines_eq] at this
  | addComponent e t v =>
    obtain ⟨id, w1, h1, k1⟩ := bind_ok hx
    have h1 := orDropValue_ok h1
    obtain ⟨v2, w2, h2, k2⟩ := bind_ok h1
    injection h2 with h2 h2'; subst h2 h2'
    obtain ⟨b1, w3, h3, k3⟩ := bind_ok k2
    obtain ⟨hal, this⟩ := liftE_ok h3; subst this
    by_cases hb : (!b1) = true
    · rw [if_pos hb] at k3; cases k3
    rw [if_neg hb] at k3
    have hb1 : b1 = true := by simpa using hb
    subst hb1
    obtain ⟨q1, q2, q3, q4, q5⟩ := (getOrCreate_spec h hn.ready t).ok k3
    have g : GotId w3 t id w1 := ⟨q1, q2, q3, q4, q5⟩
    have hsz : ∀ m, w1.entities.Live id → compOf w1.metas id.uindex = some m → m.layout.size ≤ v.length := by
      intro m hli hm
      rw [g.info hli] at hm; injection hm with hm; rw [← hm]; exact Nat.le_of_eq (Eq.symm hc)
    have hl := alive_iff.1 hal
    refine typed_lines h hn k3 hl hlen ?_
    have hgo := addDyn_goes k1
    have hne : w1.entities.Live e := (q1.live e).2 (Or.inl hl)
    rcases (addDyn_spec q1.inv e id hsz).ok k1 with ⟨hd, rfl⟩ | ⟨_, _, r3, r4, _, m, _, hu, _⟩
    · left
      refine ⟨fun hli => ?_, rfl⟩
      rcases hd with hd | ⟨_, hd⟩
      · rw [show w'.isAlive e = .ok true from alive_iff.2 hne] at hd; cases hd
      · rw [show w'.isAlive id = .ok true from alive_iff.2 hli] at hd; cases hd
    · right
      refine ⟨r3, ⟨_, hu⟩, hgo.resolve_left ?_⟩
      rintro rfl
      exact r4 ⟨_, (hu.self id _).2 (by rw [if_pos rfl])⟩
  | removeComponent e t =>
    obtain ⟨v2, w2, h2, k2⟩ := bind_ok hx
    injection h2 with h2 h2'; subst h2 h2'
    obtain ⟨b1, w3, h3, k3⟩ := bind_ok k2
    obtain ⟨hal, this⟩ := liftE_ok h3; subst this
    by_cases hb : (!b1) = true
    · rw [if_pos hb] at k3; cases k3
    rw [if_neg hb] at k3
    have hb1 : b1 = true := by simpa using hb
    subst hb1
    obtain ⟨id, w1, h1, k1⟩ := bind_ok k3
    obtain ⟨q1, q2, q3, q4, q5⟩ := (getOrCreate_spec h hn.ready t).ok h1
    have hl := alive_iff.1 hal
    refine typed_lines h hn h1 hl hlen ?_
    have hgo := removeDyn_goes k1
    have hne : w1.entities.Live e := (q1.live e).2 (Or.inl hl)
    rcases (removeDyn_spec q1.inv e id).ok k1 with ⟨hd, rfl⟩ | ⟨_, _, r3, m, bs, _, r4, _, hu, _⟩
    · left
      refine ⟨fun hli => ?_, rfl⟩
      rcases hd with hd | ⟨_, hd⟩
      · rw [show w'.isAlive e = .ok true from alive_iff.2 hne] at hd; cases hd
      · rw [show w'.isAlive id = .ok true from alive_iff.2 hli] at hd; cases hd
    · right
      refine ⟨r3, ⟨_, hu⟩, hgo.resolve_left ?_⟩
      rintro rfl
      exact ((hu.self id _).1 r4).1 rfl
  | addDynamic e c =>
    obtain ⟨hx, m0, hm0, hz⟩ := addZst_goes hx
    refine dyn_lines h hlen ?_ (addDyn_goes hx)
    have hsz : ∀ m, w.entities.Live c → compOf w.metas c.uindex = some m → m.layout.size ≤ ([] : Bytes).length := by
      intro m hl hm
      rcases getEntityMeta_spec h c with ⟨g1, g2⟩ | ⟨g1, g2⟩ | ⟨g1, g2, g3, g4⟩ | ⟨im, cm, g1, g2, g3, g4, g5⟩
      · rw [g1] at hm0; cases hm0
      · rw [g1] at hm0; cases hm0
      · rw [g1] at hm0; cases hm0
      · rw [g1] at hm0; injection hm0 with hm0; injection hm0 with hm0
        rw [g4] at hm; injection hm with hm; subst hm hm0
        exact Nat.le_of_eq hz
    rcases (addDyn_spec h e c hsz).ok hx with hd | ⟨r1, _, r3, r4, _, m, _, hu, _⟩
    · exact Or.inl hd
    · exact Or.inr ⟨r1, r3, hu.inv, fun h => absurd h r4, fun h => absurd ⟨_, (hu.self c _).2 (by rw [if_pos rfl])⟩ h⟩
  | addDynamicWithData e c src =>
    refine dyn_lines h hlen ?_ (addDyn_goes hx)
    rcases (addDyn_spec h e c (fun m hl hm => hc m (hinfo hl hm))).ok hx with hd | ⟨r1, _, r3, r4, _, m, _, hu, _⟩
    · exact Or.inl hd
    · exact Or.inr ⟨r1, r3, hu.inv, fun h => absurd h r4, fun h => absurd ⟨_, (hu.self c _).2 (by rw [if_pos rfl])⟩ h⟩
  | removeDynamic e c =>
    refine dyn_lines h hlen ?_ (removeDyn_goes hx)
    rcases (removeDyn_spec h e c).ok hx with hd | ⟨r1, _, r3, m, bs, _, r4, _, hu, _⟩
    · exact Or.inl hd
    · exact Or.inr ⟨r1, r3, hu.inv, fun _ ⟨bs', hb⟩ => ((hu.self c bs').1 hb).1 rfl, fun _ => ⟨bs, r4⟩⟩
  | despawn e =>
    obtain ⟨b, w1, h1, k1⟩ := bind_ok hx
    injection k1 with _ k1; subst k1
    rcases despawn_goes h1 with ⟨hd, rfl⟩ | ⟨hd, k, r, ids, es, hr, hi, he⟩
    · exact Or.inr ⟨fun ha => (by unfold Alive at ha; rw [ha] at hd; cases hd), rfl⟩
    · left
      refine ⟨hd, ?_⟩
      rw [lines_eq w1, he]
      exact exits_of h hr hi
  | write e c bs =>
    obtain ⟨v2, w2, h2, k2⟩ := bind_ok hx
    injection h2 with h2 h2'; subst h2 h2'
    obtain ⟨p, w3, h3, k3⟩ := bind_ok k2
    have := (liftE_ok h3).2; subst this
    cases p with
    | none => injection k3 with _ k3; subst k3; exact rfl
    | some p => exact (writePtr_same (step_ok k3)).lines
  | query ps b =>
    obtain ⟨q, w1, h1, k1⟩ := bind_ok hx
    injection k1 with _ k1; subst k1
    obtain ⟨_, ⟨ls, _, rfl⟩, _⟩ := query_ok h1
    exact rfl
  | queryDynamic fs b =>
    obtain ⟨q, w1, h1, k1⟩ := bind_ok hx
    injection k1 with _ k1; subst k1
    obtain ⟨_, ⟨ls, _, rfl⟩, _⟩ := queryDynamic_ok h1
    exact rfl

theorem orDrop_joined {α : Type} {t : Ty} {v : Bytes} {x : M α} {w : World} {Q : α → World → Prop}
    (hx : Tri x w Q (fun f w' => ¬ Limit f → Joined w w')) : Tri (orDropValue t v x) w Q (fun f w' => ¬ Limit f → Joined w w') := by
  unfold Tri orDropValue at *
  cases hy : x w with
  | ok y w' => rw [hy] at hx; exact hx
  | error f w' => rw [hy] at hx; exact hx

/-- A call that panics appends entities. -/
theorem exec_joined {w : World} (h : Inv w) (hn : w.entities.NoWrap) {c : Call} (hc : c.Ok w) : Tri c.exec w (fun _ _ => True) (fun f w' => ¬ Limit f → Joined w w') := by
  have hrefl : ∀ w, Joined w w := fun w => SameR.some rfl
  have hmono : ∀ {α : Type} {x : M α}, Walk Joined x w → Tri x w (fun _ _ => True) (fun f w' => ¬ Limit f → Joined w w') :=
    fun hx => hx.imp (fun _ _ _ => trivial) (fun _ _ h _ => h)
  have hids : ∀ {w w' : World}, Same w w' → w'.idLists = w.idLists → SameR w w' := by
    intro w w' hs hi
    have hl : w'.archetypes.length = w.archetypes.length := by
      have := congrArg List.length hi
      unfold idLists at this
      simpa using this
    unfold SameR roster
    refine List.ext_getElem? fun k => ?_
    rw [List.getElem?_map, List.getElem?_map]
    cases hk : w.archetypes[k]? with
    | none =>
      rw [List.getElem?_eq_none_iff] at hk
      rw [List.getElem?_eq_none_iff.2 (by omega)]
    | some a =>
      obtain ⟨c, hc⟩ := hs.keep k a hk
      rw [hc]; rfl
  have hadd : ∀ {w : World} (_ : Inv w) (e c : EcsId) {src : Bytes} (_ : ∀ m, w.entities.Live c → compOf w.metas c.uindex = some m → m.layout.size ≤ src.length),
      Tri (addComponentDynamicWithData e c src) w (fun _ _ => True) (fun f w' => ¬ Limit f → Joined w w') := by
    intro w h e c src hsrc
    refine (addDyn_spec h e c hsrc).imp (fun _ _ _ => trivial) ?_
    rintro f w' (⟨_, _, rfl⟩ | ⟨_, _, _, rfl⟩ | ⟨_, _, _, _, rfl⟩ | ⟨_, _, _, _, _, hs, _, _, _, hi⟩ | ⟨hl, _⟩) hlim
    · exact hrefl _
    · exact hrefl _
    · exact hrefl _
    · exact (hids hs hi).some
    · exact absurd hl hlim
  have hrem : ∀ {w : World} (_ : Inv w) (e c : EcsId), Tri (removeComponentDynamic e c) w (fun _ _ => True) (fun f w' => ¬ Limit f → Joined w w') := by
    intro w h e c
    refine (removeDyn_spec h e c).imp (fun _ _ _ => trivial) ?_
    rintro f w' (⟨_, _, rfl⟩ | ⟨_, _, _, rfl⟩ | ⟨_, _, _, _, rfl⟩ | ⟨hl, _⟩) hlim
    · exact hrefl _
    · exact hrefl _
    · exact hrefl _
    · exact absurd hl hlim
  cases c with
  | spawn kind as => exact hmono ((spawnWith_some kind as w).bind' fun _ w => Walk.pure _ w)
  | register t => exact hmono ((getOrCreate_some t w).bind' fun _ w => Walk.pure _ w)
  | addComponent e t v =>
    unfold Call.exec addComponent
    rw [tri_bind]
    have hdrop : Tri (orDropValue t v (do
        let w ← (get : M World)
        let alive ← liftE (w.isAlive e)
        if !alive then throw .notAlive
        getOrCreate t)) w (fun id w1 => GotId w t id w1 ∧ Joined w w1) (fun f w' => ¬ Limit f → Joined w w') := by
      have inner : Tri (do
        let w ← (get : M World)
        let alive ← liftE (w.isAlive e)
        if !alive then throw .notAlive
        getOrCreate t) w (fun id w1 => GotId w t id w1 ∧ Joined w w1) (fun f w' => ¬ Limit f → Joined w w') := by
        simp only [tri_bind, tri_get, tri_liftE]
        rcases isAlive_answer h e with ⟨h1, h2⟩ | ⟨h1, h2⟩ | ⟨h1, h2⟩
        · rw [h1]; exact fun _ => hrefl _
        · rw [h1]; simp only [Bool.not_false, if_true]; exact fun _ => hrefl _
        · rw [h1]
          simp only [Bool.not_true, Bool.false_eq_true, if_false]
          have t1 := getOrCreate_spec h hn.ready t
          have t2 := getOrCreate_some t w
          unfold Walk Tri at *
          cases hx : getOrCreate t w with
          | ok id w1 =>
            rw [hx] at t1 t2
            obtain ⟨g1, g2, g3, g4, g5⟩ := t1
            exact ⟨⟨g1, g2, g3, g4, g5⟩, t2⟩
          | error f w1 => rw [hx] at t2; exact fun _ => t2
      exact orDrop_joined inner
    refine hdrop.imp ?_ (fun _ _ h => h)
    rintro id w1 ⟨g, hj⟩
    have hsz : ∀ m, w1.entities.Live id → compOf w1.metas id.uindex = some m → m.layout.size ≤ v.length := by
      intro m hli hm
      rw [g.info hli] at hm; injection hm with hm; rw [← hm]; exact Nat.le_of_eq (Eq.symm hc)
    exact (hadd g.grow.inv e id hsz).imp (fun _ _ _ => trivial) (fun _ _ hh hlim => Chain.trans hj (hh hlim))
  | removeComponent e t =>
    unfold Call.exec removeComponent
    simp only [tri_bind, tri_get, tri_liftE]
    rcases isAlive_answer h e with ⟨h1, h2⟩ | ⟨h1, h2⟩ | ⟨h1, h2⟩
    · rw [h1]; exact fun _ => hrefl _
    · rw [h1]; simp only [Bool.not_false, if_true]; exact fun _ => hrefl _
    · rw [h1]
      simp only [Bool.not_true, Bool.false_eq_true, if_false]
      rw [tri_bind]
      have t1 := getOrCreate_spec h hn.ready t
      have t2 := getOrCreate_some t w
      have : Tri (getOrCreate t) w (fun _ w1 => Grow w w1 ∧ Joined w w1) (fun _ w1 => Joined w w1) := by
        unfold Walk Tri at *
        cases hx : getOrCreate t w with
        | ok id w1 => rw [hx] at t1 t2; exact ⟨t1.1, t2⟩
        | error f w1 => rw [hx] at t2; exact t2
      refine this.imp ?_ (fun _ _ hh _ => hh)
      rintro id w1 ⟨g, hj⟩
      exact (hrem g.inv e id).imp (fun _ _ _ => trivial) (fun _ _ hh hlim => Chain.trans hj (hh hlim))
  | addDynamic e c =>
    unfold Call.exec addComponentDynamic
    simp only [tri_bind, tri_get, tri_liftE]
    cases w.isAlive e with
    | error f => exact fun _ => hrefl _
    | ok b =>
      cases b with
      | false => exact fun _ => hrefl _
      | true =>
        simp only [Bool.not_true, Bool.false_eq_true, if_false, tri_bind, tri_liftE]
        cases w.isAlive c with
        | error f => exact fun _ => hrefl _
        | ok b =>
          cases b with
          | false => exact fun _ => hrefl _
          | true =>
            simp only [Bool.not_true, Bool.false_eq_true, if_false, tri_bind, tri_liftE]
            rcases getEntityMeta_spec h c with ⟨g1, g2⟩ | ⟨g1, g2⟩ | ⟨g1, g2, g3, g4⟩ | ⟨im, cm, g1, g2, g3, g4, g5⟩
            · rw [g1]; exact fun _ => hrefl _
            · rw [g1]; exact fun _ => hrefl _
            · rw [g1]; exact fun _ => hrefl _
            · rw [g1]
              simp only [unwrap]
              by_cases hz : cm.layout.size ≠ 0
              · rw [if_pos hz]; exact fun _ => hrefl _
              · rw [if_neg hz]
                refine hadd h e c ?_
                intro m _ hm
                rw [g4] at hm; injection hm with hm; subst hm
                simp; omega
  | addDynamicWithData e c src =>
    refine hadd h e c (fun m hl hm => hc m ?_)
    rw [infoIs_iff h]
    refine ⟨?_, hm⟩
    rcases getEntityMeta_spec h c with ⟨g1, g2⟩ | ⟨g1, g2⟩ | ⟨g1, g2, g3, g4⟩ | ⟨im, cm, g1, g2, g3, g4, g5⟩
    · have := hl.lt; omega
    · exact absurd hl g2
    · rw [inst_none_iff_comp.1 g3] at hm; cases hm
    · exact (row_iff c).2 ⟨_, _, g5⟩
  | removeDynamic e c => exact hrem h e c
  | despawn e =>
    unfold Call.exec
    rw [tri_bind]
    refine (despawn_spec h e).imp (fun _ _ _ => by rw [tri_pure]; trivial) ?_
    rintro f w' ⟨rfl, _⟩ _
    exact hrefl _
  | write e c bs =>
    refine hmono ((Walk.get w).bind' fun v w => (Walk.liftE _ w).bind' fun p w => ?_)
    cases p with
    | none => exact Walk.pure _ w
    | some p => exact Walk.step fun _ h => (writePtr_same h).some
  | query ps b =>
    refine hmono (Walk.bind' ?_ fun q w => ?_)
    · unfold Walk Tri World.query
      cases allFetches w ps with
      | none => exact hrefl w
      | some fs =>
        simp only
        cases acquireAllStatic w [] w.locks fs <;> exact Chain.of_eq (T := Joined) rfl
    · exact Chain.of_eq (T := Joined) rfl
  | queryDynamic fs b =>
    refine hmono (Walk.bind' ?_ fun q w => ?_)
    · unfold Walk Tri World.queryDynamic
      cases acquireAllDyn w [] false w.locks fs <;> exact Chain.of_eq (T := Joined) rfl
    · exact Chain.of_eq (T := Joined) rfl

/-! ## queries -/

theorem take_range {α : Type} (L : List α) (n : Nat) : (List.range n).filterMap (fun k => L[k]?) = L.take n := by
  induction n with
  | zero => simp
  | succ n ih =>
    rw [List.range_succ, List.filterMap_append, ih, List.take_succ]
    cases hn : L[n]? <;> simp [hn]

theorem sorted_ext {ks ks' : List Nat} (h1 : ks.Pairwise (· < ·)) (h2 : ks'.Pairwise (· < ·)) (he : ∀ k, k ∈ ks ↔ k ∈ ks') : ks = ks' := by
  have hp : ks.Perm ks' := (List.perm_ext_iff_of_nodup (h1.imp (fun h => Nat.ne_of_lt h)) (h2.imp (fun h => Nat.ne_of_lt h))).2 he
  exact hp.eq_of_pairwise (le := fun a b => a < b) (fun a b _ _ h h' => absurd h (Nat.lt_asymm h')) h1 h2

theorem filter_range {α : Type} (L : List α) (p : α → Bool) {ks : List Nat} (h1 : ks.Pairwise (· < ·)) (hk : ∀ k, k ∈ ks ↔ ∃ l, L[k]? = some l ∧ p l = true) :
    L.filter p = ks.filterMap (fun k => L[k]?) := by
  have he : ks = (List.range L.length).filter (fun k => (L[k]?.any p)) := by
    refine sorted_ext h1 (List.Pairwise.filter _ List.pairwise_lt_range) fun k => ?_
    rw [hk, List.mem_filter, List.mem_range]
    constructor
    · rintro ⟨l, hl, hp⟩
      exact ⟨(List.getElem?_eq_some_iff.1 hl).1, by rw [hl]; exact hp⟩
    · rintro ⟨hl, hp⟩
      refine ⟨L[k], List.getElem?_eq_getElem hl, ?_⟩
      rw [List.getElem?_eq_getElem hl] at hp; exact hp
  have hL : L = (List.range L.length).filterMap (fun k => L[k]?) := by rw [take_range, List.take_length]
  rw [he, List.filterMap_filter]
  conv => lhs; rw [hL]
  rw [List.filter_filterMap]
  congr 1
  funext k
  cases hk : L[k]? with
  | none => simp
  | some l => by_cases hp : p l <;> simp [hp]

open Classical in
theorem visits_eq {w : World} {fs : List Fetch} {ks : List Nat} (h1 : ks.Pairwise (· < ·)) (hk : ∀ k, k ∈ ks ↔ TableOk w fs k) :
    ks.map (entitiesOf w) = visits (lines w) (WantsIds fs) := by
  unfold visits
  rw [filter_range (lines w) _ h1 (fun k => by
    rw [hk]
    unfold TableOk lines
    constructor
    · rintro ⟨a, ha, hs⟩
      exact ⟨((fun c => c ∈ a.compIds), a.entities), by rw [List.getElem?_map, ha]; rfl, by rw [decide_eq_true_eq]; exact hs⟩
    · rintro ⟨l, hl, hs⟩
      rw [List.getElem?_map] at hl
      obtain ⟨a, ha, hal⟩ := Option.map_eq_some_iff.1 hl
      subst hal
      rw [decide_eq_true_eq] at hs
      exact ⟨a, ha, hs⟩)]
  have : ∀ ks : List Nat, (∀ k ∈ ks, TableOk w fs k) → ks.map (entitiesOf w) = (ks.filterMap (fun k => (lines w)[k]?)).map Prod.snd := by
    intro ks
    induction ks with
    | nil => intro _; rfl
    | cons k ks ih =>
      intro hks
      obtain ⟨a, ha, _⟩ := hks k List.mem_cons_self
      have hl : (lines w)[k]? = some ((fun c => c ∈ a.compIds), a.entities) := by unfold lines; rw [List.getElem?_map, ha]; rfl
      rw [List.map_cons, ih (fun k hk => hks k (List.mem_cons_of_mem _ hk)), List.filterMap_cons, hl]
      simp [entitiesOf, ha]
  exact this ks (fun k h => (hk k).1 h)

theorem walk_visits (L : List Line) (want : (EcsId → Prop) → Prop) : walk L want = (visits L want).flatten := by
  unfold walk visits; rw [List.flatMap_def]

theorem walk_eq {w : World} {fs : List Fetch} {ks : List Nat} (h1 : ks.Pairwise (· < ·)) (hk : ∀ k, k ∈ ks ↔ TableOk w fs k) :
    ks.flatMap (entitiesOf w) = walk (lines w) (WantsIds fs) := by
  rw [walk_visits, ← visits_eq h1 hk, List.flatMap_def]

theorem wants_eq {w : World} {ps : List Param} {fs : List Fetch} (hb : Pairs (Bound w) ps fs) : WantsIds fs = WantsTypes w ps := by
  funext s
  apply propext
  unfold WantsIds WantsTypes
  induction hb with
  | nil => simp
  | @cons p f ps fs hpf _ ih =>
    rw [List.forall_mem_cons, List.forall_mem_cons, ih]
    refine and_congr_left (fun _ => ?_)
    cases p with
    | ids =>
      have : f = .ecsId := hpf
      subst this
      simp [Fetch.Of, Param.Of]
    | «mut» t => obtain ⟨c, hc, rfl⟩ := hpf; simp [Fetch.Of, Param.Of, hc]
    | ref t => obtain ⟨c, hc, rfl⟩ := hpf; simp [Fetch.Of, Param.Of, hc]

open Classical in
theorem walk_none {w : World} {ps : List Param} {p : Param} {t : Ty} (hp : p ∈ ps) (hpt : p.Of t) (ht : w.typeMap t = none) (L : List Line) :
    walk L (WantsTypes w ps) = [] := by
  unfold walk
  rw [List.filter_eq_nil_iff.2 ?_]
  · rfl
  · intro l _ hh
    rw [decide_eq_true_eq] at hh
    obtain ⟨c, hc, _⟩ := hh p hp t hpt
    rw [ht] at hc; cases hc

/-- The size of the elements of a column is the recorded one. -/
theorem column_size {w : World} (h : Inv w) {k j : Nat} {a : Archetype} {c : EcsId} {v : UVec} (ha : w.archetypes[k]? = some a) (hj : a.storages[j]? = some (c, v)) :
    ∃ m, w.InfoIs c m ∧ v.size = m.layout.size := by
  obtain ⟨_, _, q3⟩ := h.col a (List.mem_of_getElem? ha) _ (List.mem_of_getElem? hj)
  obtain ⟨hl, m, hc, hinf⟩ := infoFn_some.1 q3
  refine ⟨m, (infoIs_iff h).2 ⟨?_, hc⟩, by unfold UVec.size; rw [← hinf]; rfl⟩
  apply Classical.byContradiction
  intro hr
  have := (h.inst_none hl).2 hr
  rw [inst_none_iff_comp] at this
  rw [this] at hc; cases hc

theorem columnFor {w : World} (h : Inv w) {fs : List Fetch} {k : Nat} (hk : TableOk w fs k) :
    Pairs (ColumnFor w (entitiesOf w k)) fs (columnsOf w fs k) := by
  obtain ⟨a, ha, hs⟩ := hk
  unfold columnsOf rowPtrs entitiesOf
  simp only [ha, List.map_map]
  refine Pairs.map_right ?_
  intro f hf
  refine ⟨rfl, ?_⟩
  rcases fetch_cases f with rfl | ⟨c, hc⟩
  · refine ⟨8, rfl, fun i e hi => ?_⟩
    have := fetchAt_cell h ha hi (f := .ecsId) (hs _ hf)
    simpa [cell, Nat.mul_comm] using this
  · obtain ⟨j, u, q1, q2⟩ := column (h.shape a (List.mem_of_getElem? ha)) (hs f hf c hc)
    obtain ⟨m, hm, hsz⟩ := column_size h ha q2
    refine ⟨u.size, by rcases hc with rfl | rfl <;> exact ⟨m, hm, hsz⟩, fun i e hi => ?_⟩
    have := fetchAt_cell h ha hi (hs f hf)
    simp only [Function.comp, cell_of q1 q2 hc] at this ⊢
    simpa using this

/-! ## proper lines -/

theorem lines_proper {w : World} (h : Inv w) (hlen : w.archetypes.length < 2 ^ 32) : Proper (lines w) := by
  constructor
  · rw [nodup_iff_getElem?]
    intro i j s hi hj
    rw [lines_eq] at hi hj
    unfold view at hi hj
    simp only [List.getElem?_map, Option.map_eq_some_iff] at hi hj
    obtain ⟨_, ⟨⟨ids, es⟩, hi, rfl⟩, rfl⟩ := hi
    obtain ⟨_, ⟨⟨jds, fs⟩, hj, rfl⟩, he⟩ := hj
    exact roster_uniq h hlen hi hj (fun c => (congrFun he c).to_iff.symm)
  · have := ents_nodup h (ks := List.range w.archetypes.length) List.pairwise_lt_range
    have e : (List.range w.archetypes.length).flatMap (entitiesOf w) = (lines w).flatMap Prod.snd := by
      have : walk (lines w) (WantsIds []) = (lines w).flatMap Prod.snd := by
        unfold walk
        rw [List.filter_eq_self.2]
        intro l _; simp [WantsIds]
      rw [← this, ← walk_eq List.pairwise_lt_range]
      intro k
      rw [List.mem_range]
      unfold TableOk Suits
      constructor
      · intro hk; exact ⟨_, List.getElem?_eq_getElem hk, fun _ h => by cases h⟩
      · rintro ⟨a, ha, _⟩; exact (List.getElem?_eq_some_iff.1 ha).1
    rw [← e]; exact this

theorem line_inj {L : List Line} (h : (L.map Prod.fst).Nodup) {i j : Nat} {s : EcsId → Prop} {es fs : List EcsId} (hi : L[i]? = some (s, es)) (hj : L[j]? = some (s, fs)) :
    i = j ∧ es = fs := by
  have : i = j := (nodup_iff_getElem?.1 h) i j s (by rw [List.getElem?_map, hi]; rfl) (by rw [List.getElem?_map, hj]; rfl)
  subst this
  rw [hi] at hj; injection hj with hj; injection hj with _ hj
  exact ⟨rfl, hj⟩

theorem enters_unique {L L1 L2 : List Line} (h : (L.map Prod.fst).Nodup) {s : EcsId → Prop} {x : EcsId} (h1 : Enters s x L L1) (h2 : Enters s x L L2) : L1 = L2 := by
  cases h1 with
  | queue hk =>
    cases h2 with
    | queue hk' => obtain ⟨rfl, rfl⟩ := line_inj h hk hk'; rfl
    | opens hn => exact absurd (List.mem_of_getElem? hk) (hn _)
  | opens hn =>
    cases h2 with
    | queue hk' => exact absurd (List.mem_of_getElem? hk') (hn _)
    | opens _ => rfl

theorem fills_unique {x : EcsId} {es l1 l2 : List EcsId} (h : es.Nodup) (h1 : FillsGap x es l1) (h2 : FillsGap x es l2) : l1 = l2 := by
  cases h1 with
  | last l =>
    generalize he : l1 ++ [x] = es at *
    cases h2 with
    | last m => exact (List.append_inj_left' he rfl)
    | inside l m z =>
      exfalso
      have he' : l1 ++ [x] = (l ++ x :: m) ++ [z] := by rw [he]; simp
      have hz : x = z := by simpa using List.append_inj_right' he' rfl
      subst hz
      rw [List.nodup_append] at h
      simp at h
  | inside l m z =>
    generalize he : l ++ x :: (m ++ [z]) = es at *
    cases h2 with
    | last m' =>
      exfalso
      have he' : (l ++ x :: m) ++ [z] = l2 ++ [x] := by rw [← he]; simp
      have hz : z = x := by simpa using List.append_inj_right' he' rfl
      subst hz
      rw [← he, List.nodup_append] at h
      simp at h
    | inside l' m' z' =>
      have he' : (l ++ x :: m) ++ [z] = (l' ++ x :: m') ++ [z'] := by simpa using he
      have hz : z = z' := by simpa using List.append_inj_right' he' rfl
      have hm := List.append_inj_left' he' rfl
      have hx : x ∉ l ∧ x ∉ l' := by
        constructor
        · rw [← he, List.nodup_append] at h
          intro hx; exact h.2.2 x hx x List.mem_cons_self rfl
        · rw [List.nodup_append] at h
          intro hx; exact h.2.2 x hx x List.mem_cons_self rfl
      subst hz
      have : l = l' ∧ m = m' := by
        clear he he' h
        induction l generalizing l' with
        | nil =>
          cases l' with
          | nil => simp at hm; exact ⟨rfl, hm⟩
          | cons y l' => simp at hm; exact absurd (by rw [hm.1]; exact List.mem_cons_self) hx.2
        | cons y l ih =>
          cases l' with
          | nil => simp at hm; exact absurd (by rw [← hm.1]; exact List.mem_cons_self) hx.1
          | cons y' l' =>
            simp only [List.cons_append, List.cons.injEq] at hm
            obtain ⟨rfl, rfl⟩ := ih l' hm.2 ⟨fun h => hx.1 (List.mem_cons_of_mem _ h), fun h => hx.2 (List.mem_cons_of_mem _ h)⟩
            exact ⟨by rw [hm.1], rfl⟩
      rw [this.1, this.2]

theorem exits_unique {L L1 L2 : List Line} (h : Proper L) {s : EcsId → Prop} {x : EcsId} (h1 : Exits s x L L1) (h2 : Exits s x L L2) : L1 = L2 := by
  cases h1 with
  | exit hk hf =>
    cases h2 with
    | exit hk' hf' =>
      obtain ⟨rfl, rfl⟩ := line_inj h.lines hk hk'
      have hn : ∀ l ∈ L, l.2.Nodup := by
        intro l hl
        have := h.entities
        rw [List.nodup_iff_pairwise_ne, List.pairwise_flatMap] at this
        exact List.nodup_iff_pairwise_ne.2 (this.1 l hl)
      rw [fills_unique (hn _ (List.mem_of_getElem? hk)) hf hf']

theorem set_fst {L : List Line} {k : Nat} {s : EcsId → Prop} {es es' : List EcsId} (h : L[k]? = some (s, es)) : (L.set k (s, es')).map Prod.fst = L.map Prod.fst := by
  rw [List.map_set]
  refine List.ext_getElem? fun i => ?_
  by_cases hi : k = i
  · subst hi
    rw [List.getElem?_set_self (by rw [List.length_map]; exact (List.getElem?_eq_some_iff.1 h).1), List.getElem?_map, h]; rfl
  · rw [List.getElem?_set_ne hi]

theorem enters_lines {L L' : List Line} (h : (L.map Prod.fst).Nodup) {s : EcsId → Prop} {x : EcsId} (h1 : Enters s x L L') : (L'.map Prod.fst).Nodup := by
  cases h1 with
  | queue hk => rw [set_fst hk]; exact h
  | opens hn =>
    rw [List.map_append, List.nodup_append]
    refine ⟨h, by simp, ?_⟩
    intro a ha b hb hab
    subst hab
    obtain ⟨⟨s', es⟩, hl, rfl⟩ := List.mem_map.1 ha
    simp at hb; subst hb
    exact hn es hl

theorem exits_lines {L L' : List Line} (h : (L.map Prod.fst).Nodup) {s : EcsId → Prop} {x : EcsId} (h1 : Exits s x L L') : (L'.map Prod.fst).Nodup := by
  cases h1 with
  | exit hk _ => rw [set_fst hk]; exact h

theorem arrive_lines {comps : EcsId → EcsId → Prop} {xs : List EcsId} {L L' : List Line} (h : (L.map Prod.fst).Nodup) (h1 : Arrive comps xs L L') : (L'.map Prod.fst).Nodup := by
  induction h1 with
  | nil => exact h
  | cons he _ ih => exact ih (enters_lines h he)

theorem arrive_unique {comps : EcsId → EcsId → Prop} {xs : List EcsId} {L L1 L2 : List Line} (h : (L.map Prod.fst).Nodup) (h1 : Arrive comps xs L L1) (h2 : Arrive comps xs L L2) :
    L1 = L2 := by
  induction h1 with
  | nil => cases h2; rfl
  | cons he _ ih =>
    cases h2 with
    | cons he' h2 =>
      have := enters_unique h he he'
      subst this
      exact ih (enters_lines h he) h2

theorem moves_unique {w w' : World} {e : EcsId} {L L1 L2 : List Line} (h : Proper L) (h1 : Moves w w' e L L1) (h2 : Moves w w' e L L2) : L1 = L2 := by
  obtain ⟨M, a1, b1⟩ := h1
  obtain ⟨M', a2, b2⟩ := h2
  have := exits_unique h a1 a2
  subst this
  exact enters_unique (exits_lines h.lines a1) b1 b2

theorem set_perm {L : List Line} {k : Nat} {s : EcsId → Prop} {es es' : List EcsId} (h : L[k]? = some (s, es)) :
    ∃ R : List EcsId, (L.flatMap Prod.snd).Perm (es ++ R) ∧ ((L.set k (s, es')).flatMap Prod.snd).Perm (es' ++ R) := by
  induction L generalizing k with
  | nil => simp at h
  | cons l L ih =>
    cases k with
    | zero =>
      simp only [List.getElem?_cons_zero, Option.some.injEq] at h
      subst h
      exact ⟨L.flatMap Prod.snd, by simp, by simp⟩
    | succ k =>
      obtain ⟨R, h1, h2⟩ := ih (by simpa using h)
      have hp : ∀ es : List EcsId, (l.2 ++ (es ++ R)).Perm (es ++ (l.2 ++ R)) := fun es => by
        rw [← List.append_assoc, ← List.append_assoc]
        exact List.perm_append_comm.append_right R
      refine ⟨l.2 ++ R, ?_, ?_⟩
      · rw [List.flatMap_cons]; exact (h1.append_left l.2).trans (hp es)
      · rw [List.set_cons_succ, List.flatMap_cons]; exact (h2.append_left l.2).trans (hp es')

theorem fills_perm {x : EcsId} {es es' : List EcsId} (h : FillsGap x es es') : es.Perm (x :: es') := by
  cases h with
  | last l => exact List.perm_append_comm
  | inside l m z =>
    refine List.Perm.trans (l₂ := x :: (l ++ (m ++ [z]))) List.perm_middle ?_
    exact (((List.perm_append_comm : (m ++ [z]).Perm ([z] ++ m))).append_left l).cons x

theorem enters_perm {L L' : List Line} {s : EcsId → Prop} {x : EcsId} (h : Enters s x L L') : (L'.flatMap Prod.snd).Perm (x :: L.flatMap Prod.snd) := by
  cases h with
  | queue hk =>
    obtain ⟨R, h1, h2⟩ := set_perm hk
    refine h2.trans ?_
    rw [List.append_assoc]
    exact (List.perm_middle (l₁ := _) (a := x)).trans (h1.symm.cons x)
  | opens _ =>
    rw [List.flatMap_append]
    exact List.perm_append_comm

theorem exits_perm {L L' : List Line} {s : EcsId → Prop} {x : EcsId} (h : Exits s x L L') : (L.flatMap Prod.snd).Perm (x :: L'.flatMap Prod.snd) := by
  cases h with
  | exit hk hf =>
    obtain ⟨R, h1, h2⟩ := set_perm hk
    exact (h1.trans ((fills_perm hf).append_right R)).trans (h2.symm.cons x)

theorem enters_proper {L L' : List Line} (hL : Proper L) {s : EcsId → Prop} {x : EcsId} (h : Enters s x L L') (hx : x ∉ L.flatMap Prod.snd) : Proper L' :=
  ⟨enters_lines hL.lines h, (enters_perm h).nodup_iff.2 (List.nodup_cons.2 ⟨hx, hL.entities⟩)⟩

theorem exits_proper {L L' : List Line} (hL : Proper L) {s : EcsId → Prop} {x : EcsId} (h : Exits s x L L') : Proper L' ∧ x ∉ L'.flatMap Prod.snd := by
  have := (exits_perm h).nodup_iff.1 hL.entities
  rw [List.nodup_cons] at this
  exact ⟨⟨exits_lines hL.lines h, this.2⟩, this.1⟩

open Classical in
theorem walk_cons (l : Line) (L : List Line) (want : (EcsId → Prop) → Prop) : walk (l :: L) want = (if want l.1 then l.2 else []) ++ walk L want := by
  unfold walk
  by_cases h : want l.1
  · rw [List.filter_cons_of_pos (by rw [decide_eq_true_eq]; exact h), List.flatMap_cons, if_pos h]
  · rw [List.filter_cons_of_neg (by rw [decide_eq_true_eq]; exact h), if_neg h]; rfl

theorem walk_set {L : List Line} {k : Nat} {s : EcsId → Prop} {es es' : List EcsId} (h : L[k]? = some (s, es)) (want : (EcsId → Prop) → Prop) :
    (es.Sublist es' → (walk L want).Sublist (walk (L.set k (s, es')) want)) ∧ (¬ want s → walk (L.set k (s, es')) want = walk L want) := by
  induction L generalizing k with
  | nil => simp at h
  | cons l L ih =>
    cases k with
    | zero =>
      simp only [List.getElem?_cons_zero, Option.some.injEq] at h
      subst h
      rw [List.set_cons_zero, walk_cons, walk_cons]
      constructor
      · intro hs
        refine List.Sublist.append_right ?_ _
        by_cases hw : want s
        · simpa [hw] using hs
        · simp [hw]
      · intro hw; simp [hw]
    | succ k =>
      obtain ⟨h1, h2⟩ := ih (by simpa using h)
      rw [List.set_cons_succ, walk_cons, walk_cons]
      exact ⟨fun hs => (h1 hs).append_left _, fun hw => by rw [h2 hw]⟩

theorem walk_append (L L' : List Line) (want : (EcsId → Prop) → Prop) : walk (L ++ L') want = walk L want ++ walk L' want := by
  unfold walk; rw [List.filter_append, List.flatMap_append]

theorem enters_walk {L L' : List Line} {s : EcsId → Prop} {x : EcsId} (h : Enters s x L L') (want : (EcsId → Prop) → Prop) :
    (walk L want).Sublist (walk L' want) ∧ (¬ want s → walk L' want = walk L want) := by
  cases h with
  | queue hk => exact ⟨(walk_set hk want).1 (List.sublist_append_left _ _), (walk_set hk want).2⟩
  | opens _ =>
    rw [walk_append]
    refine ⟨List.sublist_append_left _ _, fun hw => ?_⟩
    rw [walk_cons]
    simp [hw, walk]

theorem exits_walk {L L' : List Line} {s : EcsId → Prop} {x : EcsId} (h : Exits s x L L') (want : (EcsId → Prop) → Prop) (hs : ¬ want s) : walk L' want = walk L want := by
  cases h with
  | exit hk _ => exact (walk_set hk want).2 hs

end Ellecs.WorldSpec
