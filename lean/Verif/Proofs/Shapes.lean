import Verif.Spec.Shapes
import Verif.Proofs.MemTrace
import Verif.Proofs.Count
import Verif.Proofs.History
import Verif.Proofs.Safe
/-!
# Tables are created for entities that go there

Builders and the registration of types are gone through by code (`Full`); for adding and removing components the specs are used.
-/
namespace Ellecs
open World

/-- Tables do not lose their last entity, new tables have entities. -/
structure Full (w w' : World) : Prop where
  old : ∀ (k : Nat) (a : Archetype), w.archetypes[k]? = some a → ∃ a', w'.archetypes[k]? = some a' ∧ (a.entities ≠ [] → a'.entities ≠ [])
  new : ∀ (k : Nat) (a : Archetype), w.archetypes.length ≤ k → w'.archetypes[k]? = some a → a.entities ≠ []

instance : Chain Full where
  of_eq := fun {w w'} h => ⟨fun k a hk => ⟨a, by rw [h]; exact hk, id⟩, fun k a hk ha => by
    rw [h] at ha; have := (List.getElem?_eq_some_iff.1 ha).1; omega⟩
  trans := fun {w w1 w'} h h' => by
    refine ⟨fun k a ha => ?_, fun k a hk ha => ?_⟩
    · obtain ⟨b, hb, h1⟩ := h.old k a ha
      obtain ⟨c, hc, h2⟩ := h'.old k b hb
      exact ⟨c, hc, fun x => h2 (h1 x)⟩
    · by_cases hk' : w1.archetypes.length ≤ k
      · exact h'.new k a hk' ha
      · have hlt : k < w1.archetypes.length := by omega
        have hb := List.getElem?_eq_getElem hlt
        obtain ⟨c, hc, h2⟩ := h'.old k _ hb
        rw [ha] at hc; injection hc with hc; subst hc
        exact h2 (h.new k _ hk hb)

theorem Full.set {w w' : World} {k : Nat} {a b : Archetype} (ha : w.archetypes[k]? = some a) (hw : w'.archetypes = w.archetypes.set k b)
    (hab : a.entities ≠ [] → b.entities ≠ []) : Full w w' := by
  refine ⟨fun j x hx => ?_, fun j x hj hx => ?_⟩
  · rw [hw, List.getElem?_set]
    by_cases h1 : k = j
    · subst h1
      rw [if_pos rfl, if_pos (List.getElem?_eq_some_iff.1 ha).1]
      rw [ha] at hx; injection hx with hx; subst hx
      exact ⟨_, rfl, hab⟩
    · rw [if_neg h1]; exact ⟨x, hx, id⟩
  · rw [hw] at hx
    have := (List.getElem?_eq_some_iff.1 hx).1
    rw [List.length_set] at this; omega

theorem Full.push {w w' : World} {n : Archetype} (hw : w'.archetypes = w.archetypes ++ [n]) (hn : n.entities ≠ []) : Full w w' := by
  refine ⟨fun j x hx => ⟨x, ?_, id⟩, fun j x hj hx => ?_⟩
  · rw [hw, List.getElem?_append_left (List.getElem?_eq_some_iff.1 hx).1]; exact hx
  · have hlt := (List.getElem?_eq_some_iff.1 hx).1
    simp only [hw, List.length_append, List.length_singleton] at hlt
    have hkl : j = w.archetypes.length := by omega
    subst hkl
    rw [hw, List.getElem?_concat_length] at hx
    injection hx with hx; subst hx; exact hn

theorem pushArchetype_archs {w w' : World} {a : Archetype} (h : pushArchetype w a = .ok w') : w'.archetypes = w.archetypes ++ [a] := by
  unfold pushArchetype at h
  split at h
  · cases h
  · split at h
    · cases h
    · injection h with h; subst h; rfl

theorem step_ok {g : World → Except Fault World} {w w' : World} (h : World.step g w = .ok () w') : g w = .ok w' := by
  unfold World.step at h
  split at h
  · rename_i hg; injection h with _ h; rw [hg, h]
  · cases h

/-! ## builders -/

theorem bdrop_full (b : Builder) (w : World) : Walk Full b.drop w := by
  unfold Walk Tri Builder.drop
  by_cases hc : b.cap ≠ 0
  · simp only [if_pos hc]
    cases hr : w.reuse with
    | none => exact Chain.of_eq rfl
    | some x =>
      simp only
      by_cases hl : b.data.length = b.cap
      · simp only [if_pos hl]; exact Chain.of_eq rfl
      · simp only [if_neg hl]; exact Chain.of_eq rfl
  · simp only [if_neg hc]; exact Chain.of_eq rfl

theorem bnew_full (e : EcsId) (m : ComponentMeta) (w : World) : Walk Full (Builder.new e m) w := by
  unfold Walk Tri Builder.new
  cases h : w.reuse <;> exact Chain.of_eq rfl

theorem bcap_full (e : EcsId) (m : ComponentMeta) (n : Nat) (w : World) : Walk Full (Builder.withCapacity e m n) w := by
  unfold Walk Tri Builder.withCapacity
  cases h : w.reuse with
  | none =>
    simp only
    by_cases h0 : n = 0
    · simp only [if_pos h0]; exact Chain.of_eq rfl
    · simp only [if_neg h0]
      by_cases h1 : layoutOk n 0 = true
      · simp only [if_pos h1]; exact Chain.of_eq rfl
      · simp only [if_neg h1]; exact Chain.of_eq rfl
  | some x => exact Chain.of_eq rfl

theorem orDrop_full {α : Type} {b : Builder} {x : M α} {w : World} (h : Walk Full x w) : Walk Full (b.orDrop x) w := by
  unfold Walk Tri Builder.orDrop at *
  cases hx : x w with
  | ok a w' => rw [hx] at h; exact h
  | error f w' =>
    rw [hx] at h
    have hb := bdrop_full b w'
    unfold Walk Tri at hb
    cases hd : b.drop w' with
    | ok u w2 => rw [hd] at hb; simp only [hd]; exact Chain.trans h hb
    | error f2 w2 => rw [hd] at hb; simp only [hd]; exact Chain.trans h hb

theorem pushComps_full (b : Builder) (k : Nat) (ids : List EcsId) : ∀ (off : Nat) (w : World), Walk Full (b.pushComps k off ids) w := by
  induction ids with
  | nil => exact fun _ w => Walk.pure _ w
  | cons id ids ih =>
    intro off w
    unfold Builder.pushComps
    refine (Walk.get w).bind' fun v w => (Walk.liftE _ w).bind' fun _ w => (Walk.liftE _ w).bind' fun _ w => (Walk.step fun w' h => ?_).bind' fun _ w =>
      (Walk.get w).bind' fun v w => (Walk.liftE _ w).bind' fun _ w => ih _ w
    split at h
    · cases h
    rename_i ha
    split at h
    · cases h
    split at h
    · cases h
    split at h
    · cases h
    injection h with h; subst h
    exact .set ha rfl (fun h => h)

theorem failDropping_full {α : Type} (f : Fault) (st : List (EcsId × UVec)) (w : World) : Walk Full (α := α) (failDropping f st) w := by
  unfold Walk Tri failDropping
  cases dropStorages st <;> exact Chain.of_eq rfl

theorem createArchetype_full (b : Builder) (w : World) : Walk Full b.createArchetype w := by
  unfold Builder.createArchetype
  refine (Walk.get w).bind' fun v w => ?_
  split
  · exact failDropping_full _ _ _
  · simp only
    split
    · exact failDropping_full _ _ _
    · exact Walk.ite (Walk.pure _ _) (failDropping_full _ _ _)

theorem createArchetype_entities {b b' : Builder} {a : Archetype} {w w' : World} (h : b.createArchetype w = .ok (b', a) w') : a.entities = [b.entity] := by
  unfold Builder.createArchetype at h
  obtain ⟨v, w1, h1, h2⟩ := bind_ok h
  injection h1 with h1 h1'; subst h1 h1'
  have hfail : ∀ {α : Type} {f : Fault} {st : List (EcsId × UVec)} {x : α} {w1 w' : World}, failDropping f st w1 = .ok x w' → False := by
    intro α f st x w1 w' h
    unfold failDropping at h
    split at h <;> cases h
  cases hcs : b.createStorages w 0 b.compIds [] with
  | error x => obtain ⟨f, st⟩ := x; rw [hcs] at h2; exact (hfail h2).elim
  | ok st =>
    rw [hcs] at h2
    simp only at h2
    cases hck : Builder.checkedLookup (stableSort EcsId.lt b.compIds).zipIdx (fun _ => none) with
    | error x => rw [hck] at h2; exact (hfail h2).elim
    | ok l =>
      rw [hck] at h2
      simp only at h2
      by_cases hg : idsAgree (stableSort EcsId.lt b.compIds) (stableSort storageLt st) = true
      · rw [if_pos hg] at h2
        injection h2 with h2 h3; injection h2 with _ h2; rw [← h2]
      · rw [if_neg hg] at h2; exact (hfail h2).elim

theorem build_full (b : Builder) (w : World) : Walk Full b.build w := by
  unfold Builder.build
  refine (Walk.get w).bind' fun v w => (Walk.liftE _ w).bind' fun found w => ?_
  cases found with
  | some k =>
    refine (Walk.step fun w' h => ?_).bind' fun _ w => (pushComps_full _ _ _ _ w).bind' fun _ w => (Walk.get w).bind' fun v w => (Walk.liftE _ w).bind' fun _ w =>
      (Walk.step fun w' h => Chain.of_eq (setEntityMeta_archs h)).bind' fun _ w => Walk.pure _ w
    split at h
    · cases h
    · rename_i ha
      injection h with h; subst h; exact .set ha rfl (fun _ => by simp)
  | none =>
    refine Walk.bind' (show Walk Full (modify _) w from Chain.of_eq (ensureLocks_count _ w)) fun _ w => (createArchetype_full _ w).bind fun x w1 hx => ?_
    obtain ⟨b', a⟩ := x
    refine (Walk.step fun w' h => ?_).bind' fun _ w => (Walk.get w).bind' fun _ w =>
      (Walk.step fun w' h => Chain.of_eq (setEntityMeta_archs h)).bind' fun _ w => Walk.pure _ w
    exact .push (pushArchetype_archs h) (by rw [createArchetype_entities hx]; simp)

theorem spawnId_full (w : World) : Walk Full spawnId w := by
  unfold Walk Tri spawnId
  cases h : w.entities.spawn with
  | mk r s => cases r <;> exact Chain.of_eq rfl

theorem getOrCreate_full (t : Ty) (w : World) : Walk Full (getOrCreate t) w := by
  unfold getOrCreate
  refine (Walk.get w).bind' fun v w => ?_
  cases v.typeMap t with
  | some id => exact Walk.pure _ w
  | none =>
    refine (spawnId_full w).bind' fun _ w => (bnew_full _ _ w).bind' fun b w => (orDrop_full (build_full b w)).bind' fun _ w => (bdrop_full _ w).bind' fun _ w =>
      (Walk.step fun w' h => ?_).bind' fun _ w => Walk.bind' (show Walk Full (modify _) w from Chain.of_eq rfl) fun _ w => Walk.pure _ w
    split at h
    · cases h
    · cases h
    · injection h with h; subst h; exact Chain.of_eq rfl

theorem act_full (b : Builder) (a : BAct) (w : World) : Walk Full (b.act a) w := by
  unfold Builder.act
  refine orDrop_full ?_
  cases a with
  | «with» t v => exact (getOrCreate_full t w).bind' fun _ w => (Walk.get w).bind' fun _ w => Walk.liftE _ w
  | withDynamic id => exact (Walk.get w).bind' fun _ w => Walk.liftE _ w
  | withDynamicWithData id v => exact (Walk.get w).bind' fun _ w => Walk.liftE _ w
  | build => exact build_full b w

theorem acts_full (as : List BAct) : ∀ (b : Builder) (w : World), Walk Full (b.acts as) w := by
  induction as with
  | nil => exact fun b w => Walk.pure b w
  | cons a as ih => exact fun b w => (act_full b a w).bind' fun b w => ih b w

theorem spawnWith_full (kind : SpawnKind) (as : List BAct) (w : World) : Walk Full (spawnWith kind as) w := by
  unfold spawnWith
  refine (spawnId_full w).bind' fun e w => Walk.bind' ?_ fun b w => (acts_full as b w).bind' fun b w => (bdrop_full b w).bind' fun _ w => Walk.pure _ w
  cases kind with
  | plain => exact bnew_full _ _ w
  | capacity n => exact bcap_full _ _ _ w
  | withMeta m => exact bnew_full _ _ w

/-! ## moving entities -/

/-- New tables have entities. -/
def NewFull (w w' : World) : Prop := ∀ (k : Nat) (a : Archetype), w.archetypes.length ≤ k → w'.archetypes[k]? = some a → a.entities ≠ []

theorem NewFull.of_len {w w' : World} (h : w'.archetypes.length ≤ w.archetypes.length) : NewFull w w' := by
  intro k a hk ha
  have := (List.getElem?_eq_some_iff.1 ha).1
  omega

/-- No table but `t` is new. -/
def OnlyNew (t : Nat) (w w' : World) : Prop := ∀ k, w.archetypes.length ≤ k → k < w'.archetypes.length → k = t

theorem create_only {w w1 w' : World} {n : Archetype} {cur : Nat} {c : EcsId} (h1 : pushArchetype w n = .ok w1)
    (h2 : insertCache w1 cur c (w1.archetypes.length - 1) = .ok w') : OnlyNew (w1.archetypes.length - 1) w w' := by
  have a1 := congrArg List.length (pushArchetype_archs h1)
  have a2 := insertCache_count h2
  simp only [List.length_append, List.length_singleton] at a1
  intro k hk hk'
  omega

theorem createPlus_only {cur : Nat} {c : EcsId} {w w' : World} {t : Nat} (h : createPlus cur c w = .ok t w') : OnlyNew t w w' := by
  unfold createPlus at h
  obtain ⟨_, w1, h1, k1⟩ := bind_ok h
  have e1 : w1.archetypes.length = w.archetypes.length := by
    injection h1 with _ h1; rw [← h1]; exact congrArg _ (ensureLock_count w c)
  obtain ⟨v, w2, h2, k2⟩ := bind_ok k1
  injection h2 with _ h2; subst h2
  obtain ⟨_, w3, h3, k3⟩ := bind_ok k2
  have := (liftE_ok h3).2; subst this
  obtain ⟨_, w4, h4, k4⟩ := bind_ok k3
  have := (liftE_ok h4).2; subst this
  obtain ⟨_, w5, h5, k5⟩ := bind_ok k4
  have := (liftE_ok h5).2; subst this
  obtain ⟨n, w6, h6, k6⟩ := bind_ok k5
  have := (liftE_ok h6).2; subst this
  obtain ⟨_, w7, h7, k7⟩ := bind_ok k6
  obtain ⟨v8, w8, h8, k8⟩ := bind_ok k7
  injection h8 with h8 h8'; subst h8 h8'
  obtain ⟨_, w9, h9, k9⟩ := bind_ok k8
  injection k9 with k9 h'; subst k9 h'
  intro k hk
  rw [← e1] at hk
  exact create_only (step_ok h7) (step_ok h9) k hk

theorem createMinus_only {cur : Nat} {c : EcsId} {w w' : World} {t : Nat} (h : createMinus cur c w = .ok t w') : OnlyNew t w w' := by
  unfold createMinus at h
  obtain ⟨v, w2, h2, k1⟩ := bind_ok h
  injection h2 with _ h2; subst h2
  obtain ⟨_, w5, h5, k2⟩ := bind_ok k1
  have := (liftE_ok h5).2; subst this
  obtain ⟨n, w6, h6, k3⟩ := bind_ok k2
  have := (liftE_ok h6).2; subst this
  obtain ⟨_, w7, h7, k4⟩ := bind_ok k3
  obtain ⟨v8, w8, h8, k5⟩ := bind_ok k4
  injection h8 with h8 h8'; subst h8 h8'
  obtain ⟨_, w9, h9, k6⟩ := bind_ok k5
  injection k6 with k6 h'; subst k6 h'
  exact create_only (step_ok h7) (step_ok h9)

theorem OnlyNew.of_len {t : Nat} {w w' : World} (h : w'.archetypes.length = w.archetypes.length) : OnlyNew t w w' := by
  intro k h1 h2; omega

theorem OnlyNew.of_eq {t : Nat} {w w1 w' : World} (h : w1.archetypes.length = w.archetypes.length) (h' : OnlyNew t w1 w') : OnlyNew t w w' := by
  intro k hk; rw [← h] at hk; exact h' k hk

theorem resolveAdd_only {cur : Nat} {c : EcsId} {w w' : World} {t : Nat} (h : resolveAdd cur c w = .ok t w') : OnlyNew t w w' := by
  unfold resolveAdd at h
  obtain ⟨v, w2, h2, k1⟩ := bind_ok h
  injection h2 with h2 h2'; subst h2 h2'
  obtain ⟨a, w3, h3, k2⟩ := bind_ok k1
  have := (liftE_ok h3).2; subst this
  by_cases hc : a.compIds.contains c = true
  · rw [if_pos hc] at k2; cases k2
  rw [if_neg hc] at k2
  obtain ⟨⟨r, w4⟩, w5, h5, k3⟩ := bind_ok k2
  obtain ⟨h5, h5'⟩ := liftE_ok h5; subst h5'
  obtain ⟨_, w6, h6, k4⟩ := bind_ok k3
  injection h6 with _ h6; subst h6
  refine OnlyNew.of_eq (tryFindNext_count h5) ?_
  cases r with
  | some k => injection k4 with k4 h'; subst k4 h'; exact .of_len rfl
  | none =>
    simp only at k4
    obtain ⟨found, w7, h7, k5⟩ := bind_ok k4
    have := (liftE_ok h7).2; subst this
    cases found with
    | some k =>
      obtain ⟨_, w8, h8, k6⟩ := bind_ok k5
      injection k6 with k6 h'; subst k6 h'
      exact .of_len (insertCache_count (step_ok h8))
    | none => exact createPlus_only k5

theorem resolveRemove_only {cur : Nat} {c : EcsId} {w w' : World} {t : Nat} (h : resolveRemove cur c w = .ok t w') : OnlyNew t w w' := by
  unfold resolveRemove at h
  obtain ⟨v, w2, h2, k1⟩ := bind_ok h
  injection h2 with h2 h2'; subst h2 h2'
  obtain ⟨a, w3, h3, k2⟩ := bind_ok k1
  have := (liftE_ok h3).2; subst this
  by_cases hc : (!a.compIds.contains c) = true
  · rw [if_pos hc] at k2; cases k2
  rw [if_neg hc] at k2
  obtain ⟨⟨r, w4⟩, w5, h5, k3⟩ := bind_ok k2
  obtain ⟨h5, h5'⟩ := liftE_ok h5; subst h5'
  obtain ⟨_, w6, h6, k4⟩ := bind_ok k3
  injection h6 with _ h6; subst h6
  refine OnlyNew.of_eq (tryFindNext_count h5) ?_
  cases r with
  | some k => injection k4 with k4 h'; subst k4 h'; exact .of_len rfl
  | none =>
    simp only at k4
    obtain ⟨found, w7, h7, k5⟩ := bind_ok k4
    have := (liftE_ok h7).2; subst this
    cases found with
    | some k =>
      obtain ⟨_, w8, h8, k6⟩ := bind_ok k5
      injection k6 with k6 h'; subst k6 h'
      exact .of_len (insertCache_count (step_ok h8))
    | none => exact createMinus_only k5

theorem finishMove_full {w w' : World} {cur tar : Nat} {a' b' : Archetype} {e : EcsId} {row : Nat} (h : finishMove w cur tar a' b' e row = .ok w')
    {x : Archetype} (hx : w'.archetypes[tar]? = some x) : x.entities ≠ [] := by
  have key : ∀ (u : World) (l : List EcsId), u.archetypes = (w.archetypes.set cur { a' with entities := l }).set tar { b' with entities := b'.entities ++ [e] } →
      u.archetypes[tar]? = some x → x.entities ≠ [] := by
    intro u l hu hx
    rw [hu, List.getElem?_set, if_pos rfl] at hx
    split at hx
    · injection hx with hx; subst hx; simp
    · cases hx
  unfold finishMove at h
  simp only at h
  split at h
  · cases h
  · split at h
    · split at h
      · injection h with h; subst h; exact key _ _ rfl hx
      · split at h
        · cases h
        · injection h with h; subst h; exact key _ _ rfl hx
    · cases h

theorem moveAddRow_full {w w' : World} {cur tar : Nat} {e c : EcsId} {row : Nat} {src : Bytes} (h : moveAddRow cur tar e row c src w = .ok w')
    {x : Archetype} (hx : w'.archetypes[tar]? = some x) : x.entities ≠ [] := by
  unfold moveAddRow at h
  split at h
  · cases h
  split at h
  · cases h
  split at h
  · cases h
  split at h
  · cases h
  split at h
  · cases h
  exact finishMove_full h hx

theorem moveRemoveRow_full {w w' : World} {cur tar : Nat} {e c : EcsId} {row : Nat} (h : moveRemoveRow cur tar e row c w = .ok w')
    {x : Archetype} (hx : w'.archetypes[tar]? = some x) : x.entities ≠ [] := by
  unfold moveRemoveRow at h
  split at h
  · cases h
  split at h
  · cases h
  simp only at h
  split at h
  · cases h
  split at h
  · cases h
  split at h
  · cases h
  split at h
  · cases h
  rename_i hf
  injection h with h; subst h
  exact finishMove_full hf hx

theorem addDyn_new {e c : EcsId} {src : Bytes} {w w' : World} (h : addComponentDynamicWithData e c src w = .ok () w') : NewFull w w' := by
  unfold addComponentDynamicWithData at h
  obtain ⟨v, w2, h2, k1⟩ := bind_ok h
  injection h2 with h2 h2'; subst h2 h2'
  obtain ⟨b1, w3, h3, k2⟩ := bind_ok k1
  have := (liftE_ok h3).2; subst this
  by_cases hb : (!b1) = true
  · rw [if_pos hb] at k2; injection k2 with _ k2; subst k2; exact .of_len (Nat.le_refl _)
  rw [if_neg hb] at k2
  obtain ⟨b2, w4, h4, k3⟩ := bind_ok k2
  have := (liftE_ok h4).2; subst this
  by_cases hb : (!b2) = true
  · rw [if_pos hb] at k3; injection k3 with _ k3; subst k3; exact .of_len (Nat.le_refl _)
  rw [if_neg hb] at k3
  obtain ⟨_, w5, h5, k4⟩ := bind_ok k3
  have := (liftE_ok h5).2; subst this
  obtain ⟨_, w6, h6, k5⟩ := bind_ok k4
  have := (liftE_ok h6).2; subst this
  obtain ⟨t, w7, h7, k6⟩ := bind_ok k5
  have hs := step_ok k6
  intro k a hk ha
  have hlt := (List.getElem?_eq_some_iff.1 ha).1
  rw [moveAddRow_count hs] at hlt
  have := resolveAdd_only h7 k hk hlt
  subst this
  exact moveAddRow_full hs ha

theorem removeDyn_new {e c : EcsId} {w w' : World} (h : removeComponentDynamic e c w = .ok () w') : NewFull w w' := by
  unfold removeComponentDynamic at h
  obtain ⟨v, w2, h2, k1⟩ := bind_ok h
  injection h2 with h2 h2'; subst h2 h2'
  obtain ⟨b1, w3, h3, k2⟩ := bind_ok k1
  have := (liftE_ok h3).2; subst this
  by_cases hb : (!b1) = true
  · rw [if_pos hb] at k2; injection k2 with _ k2; subst k2; exact .of_len (Nat.le_refl _)
  rw [if_neg hb] at k2
  obtain ⟨b2, w4, h4, k3⟩ := bind_ok k2
  have := (liftE_ok h4).2; subst this
  by_cases hb : (!b2) = true
  · rw [if_pos hb] at k3; injection k3 with _ k3; subst k3; exact .of_len (Nat.le_refl _)
  rw [if_neg hb] at k3
  obtain ⟨_, w5, h5, k4⟩ := bind_ok k3
  have := (liftE_ok h5).2; subst this
  obtain ⟨_, w6, h6, k5⟩ := bind_ok k4
  have := (liftE_ok h6).2; subst this
  obtain ⟨t, w7, h7, k6⟩ := bind_ok k5
  have hs := step_ok k6
  intro k a hk ha
  have hlt := (List.getElem?_eq_some_iff.1 ha).1
  rw [moveRemoveRow_count hs] at hlt
  have := resolveRemove_only h7 k hk hlt
  subst this
  exact moveRemoveRow_full hs ha

/-! ## needed tables -/

theorem TablesNeeded.refl (w : World) : TablesNeeded w w := fun t ht => Or.inl ⟨t, ht, fun _ => Iff.rfl⟩

theorem TablesNeeded.of_ids {w w' : World} (h : w'.idLists = w.idLists) : TablesNeeded w w' := by
  intro t ht
  have h1 : t.compIds ∈ w'.idLists := List.mem_map_of_mem ht
  rw [h] at h1
  obtain ⟨t0, h2, h3⟩ := List.mem_map.1 h1
  exact Or.inl ⟨t0, h2, fun c => by rw [h3]⟩

theorem TablesNeeded.of_new {w w' : World} (hi : Inv w') (hs : TablesStay w w') (hn : NewFull w w') : TablesNeeded w w' := by
  intro t ht
  obtain ⟨k, hk⟩ := List.mem_iff_getElem?.1 ht
  by_cases hkl : k < w.archetypes.length
  · obtain ⟨t', ht', hst⟩ := hs.tab k _ (List.getElem?_eq_getElem hkl)
    rw [hk] at ht'; injection ht' with ht'; subst ht'
    exact Or.inl ⟨_, List.getElem_mem hkl, fun c => by rw [hst.ids]⟩
  · have hne := hn k t (by omega) hk
    obtain ⟨x, xs, hx⟩ := List.exists_cons_of_ne_nil hne
    have hr : t.entities[0]? = some x := by rw [hx]; rfl
    exact Or.inr ⟨x, ⟨k, 0, t, hk, hr⟩, fun c => hasComp_at hi hk hr c⟩

theorem Full.needed {w w' : World} (hi : Inv w') (hs : TablesStay w w') (h : Full w w') : TablesNeeded w w' := .of_new hi hs h.new

/-- Tables for types, then an entity moves. -/
theorem TablesNeeded.move {w w1 w' : World} {e : EcsId} (hw : Inv w) (hg : Grow w w1) (hl : w.entities.Live e) (h1 : TablesNeeded w w1) (h2 : TablesNeeded w1 w')
    (hrow : ∀ x, w1.Row x → w'.Row x) (ho : ∀ x, x ≠ e → ∀ c, w'.HasComp x c ↔ w1.HasComp x c) : TablesNeeded w w' := by
  intro t ht
  rcases h2 t ht with ⟨t1, ht1, e1⟩ | h
  · rcases h1 t1 ht1 with ⟨t0, ht0, e0⟩ | ⟨x, hx1, hx2⟩
    · exact Or.inl ⟨t0, ht0, fun c => (e0 c).trans (e1 c)⟩
    · by_cases hxe : x = e
      · subst hxe
        rcases (hg.row x).1 hx1 with hr | hn
        · obtain ⟨k, r, a, ha, har⟩ := hr
          refine Or.inl ⟨a, List.mem_of_getElem? ha, fun c => ?_⟩
          rw [← hasComp_at hw ha har c, ← e1 c, ← hx2 c]
          exact ⟨fun ⟨bs, hb⟩ => ⟨bs, (hg.has x c bs).2 hb⟩, fun ⟨bs, hb⟩ => ⟨bs, (hg.has x c bs).1 hb⟩⟩
        · exact absurd rfl (hg.fresh x hn x hl)
      · exact Or.inr ⟨x, hrow x hx1, fun c => ((ho x hxe c).trans (hx2 c)).trans (e1 c)⟩
  · exact Or.inr h

theorem StaysM.ok {α : Type} {x : M α} {w w' : World} {y : α} (h : StaysM x w) (hx : x w = .ok y w') : TablesStay w w' := by
  unfold StaysM Tri at h; rw [hx] at h; exact h

theorem StaysM.error {α : Type} {x : M α} {w w' : World} {f : Fault} (h : StaysM x w) (hx : x w = .error f w') : TablesStay w w' := by
  unfold StaysM Tri at h; rw [hx] at h; exact h

theorem World.Upd.hasOther {w w' : World} {e : EcsId} {P : EcsId → Bytes → Prop} (h : Upd w w' e P) {x : EcsId} (hx : x ≠ e) (c : EcsId) : w'.HasComp x c ↔ w.HasComp x c :=
  ⟨fun ⟨bs, hb⟩ => ⟨bs, (h.others x hx c bs).1 hb⟩, fun ⟨bs, hb⟩ => ⟨bs, (h.others x hx c bs).2 hb⟩⟩

theorem getOrCreate_needed {w : World} (h : Inv w) (hn : w.entities.NoWrap) (t : Ty) :
    Tri (getOrCreate t) w (fun _ w' => TablesNeeded w w') (fun _ w' => TablesNeeded w w') := by
  have t1 := getOrCreate_spec h hn.ready t
  have t2 := getOrCreate_full t w
  have t3 := getOrCreate_tables t w
  unfold Walk Tri StaysM Tri at *
  cases hx : getOrCreate t w with
  | ok y w' => rw [hx] at t1 t2 t3; exact t2.needed t1.1.inv t3
  | error f w' => rw [hx] at t1 t2 t3; exact t2.needed t1.2.2.2.1.inv t3

theorem addDyn_needed {w : World} (h : Inv w) (e c : EcsId) {src : Bytes}
    (hsrc : ∀ m, w.entities.Live c → compOf w.metas c.uindex = some m → m.layout.size ≤ src.length) :
    Tri (addComponentDynamicWithData e c src) w (fun _ w' => TablesNeeded w w') (fun f w' => ¬ Limit f → TablesNeeded w w') := by
  refine (addDyn_spec h e c hsrc).with_eq.imp ?_ ?_
  · rintro _ w' ⟨hx, ⟨_, rfl⟩ | ⟨_, _, _, _, _, m, _, hu, _⟩⟩
    · exact .refl _
    · exact .of_new hu.inv ((addDyn_tables e c src w).ok hx) (addDyn_new hx)
  · rintro f w' ⟨hx, ⟨_, _, rfl⟩ | ⟨_, _, _, rfl⟩ | ⟨_, _, _, _, rfl⟩ | ⟨_, _, _, _, _, _, _, _, _, hids⟩ | ⟨hl, _⟩⟩ hlim
    · exact .refl _
    · exact .refl _
    · exact .refl _
    · exact .of_ids hids
    · exact absurd hl hlim

theorem removeDyn_needed {w : World} (h : Inv w) (e c : EcsId) :
    Tri (removeComponentDynamic e c) w (fun _ w' => TablesNeeded w w') (fun f w' => ¬ Limit f → TablesNeeded w w') := by
  refine (removeDyn_spec h e c).with_eq.imp ?_ ?_
  · rintro _ w' ⟨hx, ⟨_, rfl⟩ | ⟨_, _, _, m, bs, _, _, _, hu, _⟩⟩
    · exact .refl _
    · exact .of_new hu.inv ((removeDyn_tables e c w).ok hx) (removeDyn_new hx)
  · rintro f w' ⟨hx, ⟨_, _, rfl⟩ | ⟨_, _, _, rfl⟩ | ⟨_, _, _, _, rfl⟩ | ⟨hl, _⟩⟩ hlim
    · exact .refl _
    · exact .refl _
    · exact .refl _
    · exact absurd hl hlim

theorem addZst_needed {w : World} (h : Inv w) (e c : EcsId) :
    Tri (addComponentDynamic e c) w (fun _ w' => TablesNeeded w w') (fun f w' => ¬ Limit f → TablesNeeded w w') := by
  unfold addComponentDynamic
  simp only [tri_bind, tri_get, tri_liftE]
  cases w.isAlive e with
  | error f => exact fun _ => .refl _
  | ok b =>
    cases b with
    | false => exact fun _ => .refl _
    | true =>
      simp only [Bool.not_true, Bool.false_eq_true, if_false, tri_bind, tri_liftE]
      cases w.isAlive c with
      | error f => exact fun _ => .refl _
      | ok b =>
        cases b with
        | false => exact fun _ => .refl _
        | true =>
          simp only [Bool.not_true, Bool.false_eq_true, if_false, tri_bind, tri_liftE]
          rcases getEntityMeta_spec h c with ⟨g1, g2⟩ | ⟨g1, g2⟩ | ⟨g1, g2, g3, g4⟩ | ⟨im, cm, g1, g2, g3, g4, g5⟩
          · rw [g1]; exact fun _ => .refl _
          · rw [g1]; exact fun _ => .refl _
          · rw [g1]; exact fun _ => .refl _
          · rw [g1]
            simp only [unwrap]
            by_cases hz : cm.layout.size ≠ 0
            · rw [if_pos hz]; exact fun _ => .refl _
            · rw [if_neg hz]
              refine addDyn_needed h e c ?_
              intro m _ hm
              rw [g4] at hm; injection hm with hm; subst hm
              simp; omega

/-- Registering a type, then moving an entity. -/
theorem thenMove {w w1 w' : World} (hi : Inv w) {e : EcsId} (hg : Grow w w1) (hl : w.entities.Live e) (h1 : TablesNeeded w w1) (h2 : TablesNeeded w1 w')
    (h : w' = w1 ∨ ∃ P, Upd w1 w' e P) : TablesNeeded w w' := by
  rcases h with rfl | ⟨P, hu⟩
  · exact h1
  · exact .move hi hg hl h1 h2 (fun x => (hu.row x).2) (fun x hx c => hu.hasOther hx c)

theorem addComponent_needed {w : World} (h : Inv w) (hn : w.entities.NoWrap) (e : EcsId) (t : Ty) {v : Bytes} (hv : v.length = t.size) :
    Tri (addComponent e t v) w (fun _ w' => TablesNeeded w w') (fun f w' => ¬ Limit f → TablesNeeded w w') := by
  unfold addComponent
  rw [tri_bind]
  have hdrop : ∀ {α : Type} {x : M α} {Q : α → World → Prop} {E' E : Fault → World → Prop}, Tri x w Q E' →
      (∀ f w', E' f w' → E f { w' with log := w'.log ++ [⟨.generic t, v⟩] }) → Tri (orDropValue t v x) w Q E := by
    intro α x Q E' E hx hE
    unfold Tri orDropValue at *
    cases hh : x w with
    | ok a w' => rw [hh] at hx; exact hx
    | error f w' => rw [hh] at hx; exact hE f w' hx
  refine Tri.imp (hdrop (Q := fun id w1 => w.entities.Live e ∧ GotId w t id w1 ∧ TablesNeeded w w1) (E' := fun f w0 => ¬ Limit f → TablesNeeded w w0)
    (E := fun f w0 => ¬ Limit f → TablesNeeded w w0) ?_ ?_) ?_ (fun _ _ hh => hh)
  · simp only [tri_bind, tri_get, tri_liftE]
    rcases isAlive_answer h e with ⟨h1, h2⟩ | ⟨h1, h2⟩ | ⟨h1, h2⟩
    · rw [h1]; exact fun _ => .refl _
    · rw [h1]; simp only [Bool.not_false, if_true]; exact fun _ => .refl _
    · rw [h1]
      simp only [Bool.not_true, Bool.false_eq_true, if_false]
      have t1 := getOrCreate_spec h hn.ready t
      have t2 := getOrCreate_needed h hn t
      unfold Tri at *
      cases hx : getOrCreate t w with
      | ok id w1 =>
        rw [hx] at t1 t2
        obtain ⟨g1, g2, g3, g4, g5⟩ := t1
        exact ⟨h2, ⟨g1, g2, g3, g4, g5⟩, t2⟩
      | error f w1 => rw [hx] at t2; exact fun _ => t2
  · exact fun f w0 hh hl => hh hl
  · rintro id w1 ⟨hl, g, hg⟩
    have hsz : ∀ m, w1.entities.Live id → compOf w1.metas id.uindex = some m → m.layout.size ≤ v.length := by
      intro m hli hm
      rw [g.info hli] at hm; injection hm with hm; rw [← hm, hv]; exact Nat.le_refl _
    have t1 := addDyn_spec g.grow.inv e id (src := v) hsz
    have t2 := addDyn_needed g.grow.inv e id (src := v) hsz
    unfold Tri at *
    cases hx : addComponentDynamicWithData e id v w1 with
    | ok u w' =>
      rw [hx] at t1 t2
      refine thenMove h g.grow hl hg t2 ?_
      rcases t1 with ⟨_, rfl⟩ | ⟨_, _, _, _, _, m, _, hu, _⟩
      · exact Or.inl rfl
      · exact Or.inr ⟨_, hu⟩
    | error f w' =>
      rw [hx] at t1 t2
      intro hlim
      rcases t1 with ⟨_, _, rfl⟩ | ⟨_, _, _, rfl⟩ | ⟨_, _, _, _, rfl⟩ | ⟨_, _, q3, q4, _⟩ | ⟨hh, _⟩
      · exact hg
      · exact hg
      · exact hg
      · rw [g.info q3] at q4; cases q4
      · exact absurd hh hlim

theorem removeComponent_needed {w : World} (h : Inv w) (hn : w.entities.NoWrap) (e : EcsId) (t : Ty) :
    Tri (removeComponent e t) w (fun _ w' => TablesNeeded w w') (fun f w' => ¬ Limit f → TablesNeeded w w') := by
  unfold removeComponent
  simp only [tri_bind, tri_get, tri_liftE]
  rcases isAlive_answer h e with ⟨h1, h2⟩ | ⟨h1, h2⟩ | ⟨h1, h2⟩
  · rw [h1]; exact fun _ => .refl _
  · rw [h1]; simp only [Bool.not_false, if_true]; exact fun _ => .refl _
  · rw [h1]
    simp only [Bool.not_true, Bool.false_eq_true, if_false]
    rw [tri_bind]
    have t1 := getOrCreate_spec h hn.ready t
    have t2 := getOrCreate_needed h hn t
    have : Tri (getOrCreate t) w (fun _ w1 => Grow w w1 ∧ TablesNeeded w w1) (fun _ w1 => TablesNeeded w w1) := by
      unfold Tri at *
      cases hx : getOrCreate t w with
      | ok id w1 => rw [hx] at t1 t2; exact ⟨t1.1, t2⟩
      | error f w1 => rw [hx] at t2; exact t2
    refine this.imp ?_ (fun _ _ hh _ => hh)
    rintro id w1 ⟨g, hg⟩
    have t1 := removeDyn_spec g.inv e id
    have t2 := removeDyn_needed g.inv e id
    unfold Tri at *
    cases hx : removeComponentDynamic e id w1 with
    | ok u w' =>
      rw [hx] at t1 t2
      refine thenMove h g h2 hg t2 ?_
      rcases t1 with ⟨_, rfl⟩ | ⟨_, _, _, m, bs, _, _, _, hu, _⟩
      · exact Or.inl rfl
      · exact Or.inr ⟨_, hu⟩
    | error f w' =>
      rw [hx] at t1 t2
      intro hlim
      rcases t1 with ⟨_, _, rfl⟩ | ⟨_, _, _, rfl⟩ | ⟨_, _, _, _, rfl⟩ | ⟨hh, _⟩
      · exact hg
      · exact hg
      · exact hg
      · exact absurd hh hlim

/-- The number of tables does not grow. -/
theorem TablesNeeded.of_count {w w' : World} (hs : TablesStay w w') (h : w'.archetypes.length ≤ w.archetypes.length) : TablesNeeded w w' := by
  intro t ht
  obtain ⟨k, hk⟩ := List.mem_iff_getElem?.1 ht
  have hkl := (List.getElem?_eq_some_iff.1 hk).1
  obtain ⟨t', ht', hst⟩ := hs.tab k _ (List.getElem?_eq_getElem (show k < w.archetypes.length by omega))
  rw [hk] at ht'; injection ht' with ht'; subst ht'
  exact Or.inl ⟨_, List.getElem_mem _, fun c => by rw [hst.ids]⟩

theorem exec_needed {w : World} (h : Inv w) (hn : w.entities.NoWrap) (hid : Idle w) {c : Call} (hc : c.Ok w) :
    Tri c.exec w (fun _ w' => TablesNeeded w w') (fun f w' => ¬ Stop f → TablesNeeded w w') := by
  have hno : c.tables = 0 → Tri c.exec w (fun _ w' => TablesNeeded w w') (fun f w' => ¬ Stop f → TablesNeeded w w') := by
    intro h0
    have t1 := exec_count c w
    have t2 := exec_tables c w
    rw [h0] at t1
    unfold AddsM StaysM Tri at *
    cases hx : c.exec w with
    | ok u w' => rw [hx] at t1 t2; exact .of_count t2 t1
    | error f w' => rw [hx] at t1 t2; exact fun _ => .of_count t2 t1
  have hstop : ∀ {f : Fault}, ¬ Stop f → ¬ Limit f := fun h1 h2 => h1 (Or.inl h2)
  cases c with
  | spawn kind as =>
    have t1 := exec_spec h hn.ready (gs := []) hid hc
    have t2 : Walk Full (Call.spawn kind as).exec w := (spawnWith_full kind as w).bind' fun _ w => Walk.pure _ w
    have t3 := exec_tables (.spawn kind as) w
    unfold Walk Tri StaysM Tri at *
    cases hx : (Call.spawn kind as).exec w with
    | ok y w' => rw [hx] at t1 t2 t3; exact t2.needed t1.1.inv t3
    | error f w' => rw [hx] at t1 t2 t3; exact fun hs => t2.needed (t1.2.resolve_left hs).inv t3
  | addComponent e t v => exact (addComponent_needed h hn e t hc).imp (fun _ _ hh => hh) (fun _ _ hh hs => hh (hstop hs))
  | removeComponent e t => exact (removeComponent_needed h hn e t).imp (fun _ _ hh => hh) (fun _ _ hh hs => hh (hstop hs))
  | addDynamic e c => exact (addZst_needed h e c).imp (fun _ _ hh => hh) (fun _ _ hh hs => hh (hstop hs))
  | addDynamicWithData e c src =>
    refine (addDyn_needed h e c ?_).imp (fun _ _ hh => hh) (fun _ _ hh hs => hh (hstop hs))
    intro m hl hm
    refine hc m ?_
    rw [infoIs_iff h]
    refine ⟨?_, hm⟩
    rcases getEntityMeta_spec h c with ⟨g1, g2⟩ | ⟨g1, g2⟩ | ⟨g1, g2, g3, g4⟩ | ⟨im, cm, g1, g2, g3, g4, g5⟩
    · have := hl.lt; omega
    · exact absurd hl g2
    · rw [inst_none_iff_comp.1 g3] at hm; cases hm
    · exact (row_iff c).2 ⟨_, _, g5⟩
  | removeDynamic e c => exact (removeDyn_needed h e c).imp (fun _ _ hh => hh) (fun _ _ hh hs => hh (hstop hs))
  | register t =>
    unfold Call.exec
    rw [tri_bind]
    exact (getOrCreate_needed h hn t).imp (fun _ _ hh => hh) (fun _ _ hh _ => hh)
  | despawn e => exact hno rfl
  | write e c bs => exact hno rfl
  | query ps b => exact hno rfl
  | queryDynamic fs b => exact hno rfl

/-! ## counting -/

theorem Covers.mono {S T : List (List EcsId)} {w : World} (h : Covers S w) (hs : ∀ l ∈ S, l ∈ T) : Covers T w :=
  fun t ht => let ⟨l, h1, h2⟩ := h t ht; ⟨l, hs l h1, h2⟩

theorem TablesNeeded.covers {S : List (List EcsId)} {w w' : World} (h : TablesNeeded w w') (hs : Covers S w)
    (hx : ∀ x, w'.Row x → ∃ l ∈ S, ∀ c, c ∈ l ↔ w'.HasComp x c) : Covers S w' := by
  intro t ht
  rcases h t ht with ⟨t0, h0, h1⟩ | ⟨x, h0, h1⟩
  · obtain ⟨l, h2, h3⟩ := hs t0 h0
    exact ⟨l, h2, fun c => (h3 c).trans (h1 c)⟩
  · obtain ⟨l, h2, h3⟩ := hx x h0
    exact ⟨l, h2, fun c => (h3 c).trans (h1 c)⟩

/-- Different numbers below `n` have different values in `S`. -/
theorem pigeon {β : Type} : ∀ (n : Nat) (S : List β) (f : Nat → β), (∀ i, i < n → f i ∈ S) → (∀ i j, i < n → j < n → f i = f j → i = j) → n ≤ S.length := by
  intro n
  induction n with
  | zero => intro S f _ _; exact Nat.zero_le _
  | succ n ih =>
    intro S f h1 h2
    obtain ⟨xs, ys, he⟩ := List.append_of_mem (h1 n (by omega))
    have := ih (xs ++ ys) f (fun i hi => by
      have := h1 i (by omega)
      rw [he] at this
      rcases List.mem_append.1 this with h | h
      · exact List.mem_append_left _ h
      · rcases List.mem_cons.1 h with h | h
        · have := h2 i n (by omega) (by omega) h; omega
        · exact List.mem_append_right _ h) (fun i j hi hj => h2 i j (by omega) (by omega))
    rw [he]
    simp only [List.length_append, List.length_cons] at *
    omega

theorem Covers.count {S : List (List EcsId)} {w : World} (hi : Inv w) (h : Covers S w) (hS : S.length < 2 ^ 32) : w.archetypes.length ≤ S.length := by
  apply Classical.byContradiction
  intro hlt
  have hlt : S.length + 1 ≤ w.archetypes.length := by omega
  have hex : ∀ i, ∃ l : List EcsId, i < S.length + 1 → l ∈ S ∧ ∀ t, w.archetypes[i]? = some t → ∀ c, c ∈ l ↔ c ∈ t.compIds := by
    intro i
    by_cases hi' : i < S.length + 1
    · obtain ⟨l, h1, h2⟩ := h (w.archetypes[i]'(by omega)) (List.getElem_mem _)
      refine ⟨l, fun _ => ⟨h1, fun t ht => ?_⟩⟩
      rw [List.getElem?_eq_getElem (by omega)] at ht
      injection ht with ht; subst ht; exact h2
    · exact ⟨[], fun hh => absurd hh hi'⟩
  have hch := Classical.axiomOfChoice hex
  obtain ⟨f, hf⟩ := hch
  have := pigeon (S.length + 1) S f (fun i hi' => (hf i hi').1) (by
    intro i j hi' hj' hij
    have ei := List.getElem?_eq_getElem (show i < w.archetypes.length by omega)
    have ej := List.getElem?_eq_getElem (show j < w.archetypes.length by omega)
    have sa := hi.shape _ (List.mem_of_getElem? ei)
    have sb := hi.shape _ (List.mem_of_getElem? ej)
    have he := SortedIds.ext sa.sorted sb.sorted (fun c => by rw [← (hf i hi').2 _ ei c, hij, (hf j hj').2 _ ej c])
    have e1 : w.idLists[i]? = some (w.archetypes[i]'(by omega)).compIds := by unfold idLists; rw [List.getElem?_map, ei]; rfl
    have e2 : w.idLists[j]? = some (w.archetypes[i]'(by omega)).compIds := by unfold idLists; rw [List.getElem?_map, ej, he]; rfl
    rcases Nat.lt_trichotomy i j with hh | hh | hh
    · exact absurd e2 (hi.uniq i j _ hh (by omega) e1)
    · exact hh
    · exact absurd e1 (hi.uniq j i _ hh (by omega) e2))
  omega

end Ellecs
