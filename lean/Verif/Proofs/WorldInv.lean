import Verif.Proofs.Loc
import Verif.Proofs.Cols
import Verif.Proofs.Find
import Verif.Props.ArrayVec
import Verif.Spec.World
/-! # The invariant of the world -/
namespace Ellecs

/-- `x` satisfies the two postconditions from `w`: `Q` if it returns, `E` if it panics. -/
def Tri {α : Type} (x : M α) (w : World) (Q : α → World → Prop) (E : Fault → World → Prop) : Prop :=
  match x w with
  | .ok a w' => Q a w'
  | .error f w' => E f w'

section tri
variable {α β : Type} {w : World} {E : Fault → World → Prop}

theorem tri_bind {x : M α} {f : α → M β} {Q : β → World → Prop} :
    Tri (x >>= f) w Q E ↔ Tri x w (fun a w' => Tri (f a) w' Q E) E := by
  unfold Tri
  show (match EStateM.bind x f w with | .ok a w' => Q a w' | .error f w' => E f w') ↔ _
  unfold EStateM.bind
  cases x w <;> exact Iff.rfl

theorem tri_pure {a : α} {Q : α → World → Prop} : Tri (pure a) w Q E ↔ Q a w := Iff.rfl
theorem tri_get {Q : World → World → Prop} : Tri get w Q E ↔ Q w w := Iff.rfl
theorem tri_set {w' : World} {Q : Unit → World → Prop} : Tri (set w') w Q E ↔ Q () w' := Iff.rfl
theorem tri_modify {g : World → World} {Q : Unit → World → Prop} : Tri (modify g) w Q E ↔ Q () (g w) := Iff.rfl
theorem tri_throw {f : Fault} {Q : α → World → Prop} : Tri (throw f) w Q E ↔ E f w := Iff.rfl

theorem tri_liftE {x : Except Fault α} {Q : α → World → Prop} :
    Tri (liftE x) w Q E ↔ (match x with | .ok a => Q a w | .error f => E f w) := by
  unfold Tri liftE
  cases x <;> exact Iff.rfl

theorem tri_step {g : World → Except Fault World} {Q : Unit → World → Prop} :
    Tri (World.step g) w Q E ↔ (match g w with | .ok w' => Q () w' | .error f => E f w) := by
  unfold Tri World.step
  cases g w <;> exact Iff.rfl

theorem tri_ite {c : Prop} [Decidable c] {x y : M α} {Q : α → World → Prop} :
    Tri (if c then x else y) w Q E ↔ (if c then Tri x w Q E else Tri y w Q E) := by
  split <;> exact Iff.rfl

theorem Tri.imp {x : M α} {Q Q' : α → World → Prop} {E' : Fault → World → Prop} (h : Tri x w Q E)
    (hQ : ∀ a w', Q a w' → Q' a w') (hE : ∀ f w', E f w' → E' f w') : Tri x w Q' E' := by
  unfold Tri at *
  cases hx : x w with
  | ok a w' => rw [hx] at h; exact hQ _ _ h
  | error f w' => rw [hx] at h; exact hE _ _ h

theorem Tri.ok {x : M α} {Q : α → World → Prop} (h : Tri x w Q E) {a : α} {w' : World} (hx : x w = .ok a w') :
    Q a w' := by
  unfold Tri at h; rw [hx] at h; exact h

theorem Tri.error {x : M α} {Q : α → World → Prop} (h : Tri x w Q E) {f : Fault} {w' : World}
    (hx : x w = .error f w') : E f w' := by
  unfold Tri at h; rw [hx] at h; exact h

end tri

/-- The type information recorded for a live component entity. -/
def infoFn (es : Entities) (metas : List (Option EntityMeta)) (id : EcsId) : Option TypeInfo :=
  match es.isAlive id with
  | .ok true => (compOf metas id.uindex).map ComponentMeta.info
  | _ => none

theorem infoFn_some {es : Entities} {metas : List (Option EntityMeta)} {id : EcsId} {i : TypeInfo} :
    infoFn es metas id = some i ↔ es.Live id ∧ ∃ m, compOf metas id.uindex = some m ∧ m.info = i := by
  unfold infoFn
  rcases es.isAlive_cases id with ⟨h, h'⟩ | ⟨h, h', _⟩ | ⟨h, h'⟩
  · rw [h]
    simp only [reduceCtorEq, false_iff, not_and]
    intro hl; have := hl.lt; omega
  · rw [h]; simp [h']
  · rw [h]; simp [h']

/-- The archetype of an entity after component `id` is added to (removed from) an entity with `own`. -/
def Tgt (ids : List (List EcsId)) (own : List EcsId) (id : EcsId) (t : Nat) : Prop :=
  ∃ b, ids[t]? = some b ∧ ∀ x, x ∈ b ↔ (x ∈ own ∧ x ≠ id) ∨ (x = id ∧ id ∉ own)

/-- The sorted list of ids, the columns and the lookup of an archetype agree. -/
structure Shape (a : Archetype) : Prop where
  sorted : SortedIds a.compIds
  ids : stIds a.storages = a.compIds
  look : LooksUp a.compLookup a.compIds

/-- All edges a cache may answer with are right. -/
def CacheOk (ids : List (List EcsId)) (own : List EcsId) (c : AddRemoveCache) : Prop :=
  ∃ l, ArraySpec.Slots CACHE_SIZE c.cache l ∧ (∀ p ∈ l, Tgt ids own p.1 p.2) ∧
    (∀ id t, c.lookup id = some t → Tgt ids own id t)

structure LockOk (lookup : EcsId → Option Nat) (n : Nat) (archs : List Archetype) : Prop where
  range : ∀ id i, lookup id = some i → i < n
  inj : ∀ id id' i, lookup id = some i → lookup id' = some i → id = id'
  used : ∀ a ∈ archs, ∀ id ∈ a.compIds, lookup id ≠ none
  surj : ∀ i, i < n → ∃ id, lookup id = some i

structure TypeOk (tm : Ty → Option EcsId) (es : Entities) (metas : List (Option EntityMeta)) : Prop where
  known : ∀ t id, tm t = some id → es.Known id
  comp : ∀ t id, tm t = some id → es.Live id → compOf metas id.uindex = some (ComponentMeta.fromGeneric t)
  inj : ∀ t t' id, tm t = some id → tm t' = some id → t = t'

namespace World

/-- The component lists of all archetypes. -/
abbrev idLists (w : World) : List (List EcsId) := w.archetypes.map Archetype.compIds

/-- The invariant of the world between operations. -/
structure Inv (w : World) : Prop where
  ent : w.entities.Wf
  loc : LocOk w.entities.Live (instOf w.metas) (rowOf w.archetypes)
  shape : ∀ a ∈ w.archetypes, Shape a
  col : ∀ a ∈ w.archetypes, StOk (infoFn w.entities w.metas) (fun _ => a.entities.length) a.storages
  bits : BitOk w.bitset w.entBits (w.archetypes.map Archetype.compIds)
  cache : ∀ a ∈ w.archetypes, CacheOk (w.archetypes.map Archetype.compIds) a.compIds a.cache
  lock : LockOk w.lockLookup w.locks.length w.archetypes
  type : TypeOk w.typeMap w.entities w.metas
  arch0 : ∀ a, w.archetypes[0]? = some a → a.compIds = []
  uniq : ∀ (i j : Nat) (l : List EcsId), i < j → j < 2 ^ 32 → w.idLists[i]? = some l → w.idLists[j]? ≠ some l
  reuse : ∀ ids d c, w.reuse = some (ids, d, c) → ids = [] ∧ (0 < c ∧ d.length = c)

theorem inv_new : Inv World.new where
  ent := Entities.wf_new
  loc := ⟨by intro k r e h; simp [World.new, rowOf] at h, by intro e k r h; simp [Entities.Live, World.new, Entities.new] at h,
    by intro i im h; simp [World.new, instOf] at h⟩
  shape := by intro a h; simp [World.new] at h
  col := by intro a h; simp [World.new] at h
  bits := bitOk_new
  cache := by intro a h; simp [World.new] at h
  lock := ⟨by intro id i h; simp [World.new] at h, by intro id id' i h; simp [World.new] at h,
    by intro a h; simp [World.new] at h, by intro i h; simp [World.new] at h⟩
  type := ⟨by intro t id h; simp [World.new] at h, by intro t id h; simp [World.new] at h,
    by intro t t' id h; simp [World.new] at h⟩
  arch0 := by intro a h; simp [World.new] at h
  uniq := by intro i j l _ _ h; simp [World.new] at h
  reuse := by intro ids d c h; simp [World.new] at h

/-- Live component ids with equal indices are equal. -/
theorem Inv.live_comp {w : World} (h : Inv w) {a : Archetype} (ha : a ∈ w.archetypes) {id : EcsId}
    (hid : id ∈ a.compIds) : w.entities.Live id ∧ ∃ m, compOf w.metas id.uindex = some m := by
  rw [← (h.shape a ha).ids] at hid
  obtain ⟨p, hp, rfl⟩ := List.mem_map.1 hid
  obtain ⟨_, _, h3⟩ := h.col a ha p hp
  obtain ⟨h1, m, h2, _⟩ := infoFn_some.1 h3
  exact ⟨h1, m, h2⟩

theorem alive_iff {w : World} {e : EcsId} : w.Alive e ↔ w.entities.Live e := Entities.isAlive_iff

theorem getEntityMeta_spec {w : World} (h : Inv w) (e : EcsId) :
    (w.getEntityMeta e = .error .noGeneration ∧ w.entities.generations.length ≤ e.uindex) ∨
    (w.getEntityMeta e = .ok none ∧ ¬ w.entities.Live e) ∨
    (w.getEntityMeta e = .ok none ∧ w.entities.Live e ∧ instOf w.metas e.uindex = none ∧ ¬ w.Row e) ∨
    (∃ im c, w.getEntityMeta e = .ok (some ⟨im, c⟩) ∧ w.entities.Live e ∧ instOf w.metas e.uindex = some im ∧
      compOf w.metas e.uindex = some c ∧ rowOf w.archetypes im.archetype im.index = some e) := by
  unfold getEntityMeta
  rcases w.entities.isAlive_cases e with ⟨h1, h2⟩ | ⟨h1, h2, _⟩ | ⟨h1, h2⟩
  · left; rw [h1]; exact ⟨rfl, h2⟩
  · right; left; rw [h1]; exact ⟨rfl, h2⟩
  · right; right
    have hrow : instOf w.metas e.uindex = none → ¬ w.Row e := by
      rintro hi ⟨k, r, a, ha, hr⟩
      have := (h.loc.ent k r e (by rw [rowOf_eq ha]; exact hr)).2
      rw [hi] at this; cases this
    rw [h1]
    cases hm : w.metas[e.uindex]? with
    | none =>
      left
      have : instOf w.metas e.uindex = none := by simp [instOf, hm]
      exact ⟨rfl, h2, this, hrow this⟩
    | some o =>
      cases o with
      | none =>
        left
        have : instOf w.metas e.uindex = none := by simp [instOf, hm]
        exact ⟨rfl, h2, this, hrow this⟩
      | some m =>
        right
        obtain ⟨e1, e2⟩ := inst_of_metas hm
        exact ⟨m.inst, m.comp, rfl, h2, e1, e2, h.loc.loc e _ _ h2 e1⟩

theorem getEntityMeta_row {w : World} (h : Inv w) {e : EcsId} (hr : w.Row e) :
    ∃ im c, w.getEntityMeta e = .ok (some ⟨im, c⟩) ∧ w.entities.Live e ∧ instOf w.metas e.uindex = some im ∧
      compOf w.metas e.uindex = some c ∧ rowOf w.archetypes im.archetype im.index = some e := by
  have hl : w.entities.Live e := by
    obtain ⟨k, r, a, ha, hr⟩ := hr
    exact (h.loc.ent k r e (by rw [rowOf_eq ha]; exact hr)).1
  rcases getEntityMeta_spec h e with ⟨_, h2⟩ | ⟨_, h2⟩ | ⟨_, _, _, h2⟩ | h2
  · have := hl.lt; omega
  · exact absurd hl h2
  · exact absurd hr h2
  · exact h2

/-- The value at row `r` and column `c` of table `k`. -/
def cellOf (archs : List Archetype) (k r : Nat) (c : EcsId) : Option Bytes :=
  (archs[k]?).bind (fun a => (elemsOf a.storages c).bind (fun l => l[r]?))

theorem cellOf_eq {archs : List Archetype} {k : Nat} {a : Archetype} (h : archs[k]? = some a) (r : Nat) (c : EcsId) :
    cellOf archs k r c = (elemsOf a.storages c).bind (fun l => l[r]?) := by simp [cellOf, h]

theorem has_iff {w : World} (h : ∀ a ∈ w.archetypes, Shape a) (e c : EcsId) (bs : Bytes) :
    w.Has e c bs ↔ ∃ k r, rowOf w.archetypes k r = some e ∧ cellOf w.archetypes k r c = some bs := by
  constructor
  · rintro ⟨k, r, a, v, h1, h2, h3, h4⟩
    refine ⟨k, r, by rw [rowOf_eq h1]; exact h2, ?_⟩
    have hs := h a (List.mem_of_getElem? h1)
    rw [cellOf_eq h1, elemsOf_of_mem (by rw [hs.ids]; exact hs.sorted.nodup) h3]
    exact h4
  · rintro ⟨k, r, h1, h2⟩
    obtain ⟨a, h3, h4⟩ := rowOf_some h1
    rw [cellOf_eq h3] at h2
    obtain ⟨l, h5, h6⟩ := Option.bind_eq_some_iff.1 h2
    obtain ⟨v, h7, rfl⟩ := elemsOf_mem h5
    exact ⟨k, r, a, v, h3, h4, h7, h6⟩

theorem row_iff {w : World} (e : EcsId) : w.Row e ↔ ∃ k r, rowOf w.archetypes k r = some e := by
  constructor
  · rintro ⟨k, r, a, h1, h2⟩; exact ⟨k, r, by rw [rowOf_eq h1]; exact h2⟩
  · rintro ⟨k, r, h⟩
    obtain ⟨a, h1, h2⟩ := rowOf_some h
    exact ⟨k, r, a, h1, h2⟩

/-- The place of an entity is unique. -/
theorem Inv.row_inj {w : World} (h : Inv w) {k r k' r' : Nat} {e : EcsId} (h1 : rowOf w.archetypes k r = some e)
    (h2 : rowOf w.archetypes k' r' = some e) : k = k' ∧ r = r' := by
  have e1 := (h.loc.ent _ _ _ h1).2
  have e2 := (h.loc.ent _ _ _ h2).2
  rw [e1] at e2
  injection e2 with e2; injection e2 with e3 e4
  exact ⟨e3, e4⟩

theorem has_at {w : World} (h : Inv w) {e : EcsId} {k r : Nat} (hr : rowOf w.archetypes k r = some e) (c : EcsId)
    (bs : Bytes) : w.Has e c bs ↔ cellOf w.archetypes k r c = some bs := by
  rw [has_iff h.shape]
  constructor
  · rintro ⟨k', r', h1, h2⟩
    obtain ⟨rfl, rfl⟩ := h.row_inj hr h1
    exact h2
  · intro h2; exact ⟨k, r, hr, h2⟩

/-- The part of an archetype that never changes after its creation. -/
def skel (a : Archetype) : List EcsId × (EcsId → Option Nat) := (a.compIds, a.compLookup)

theorem skel_ids {l l' : List Archetype} (h : l'.map skel = l.map skel) :
    l'.map Archetype.compIds = l.map Archetype.compIds := by
  have : ∀ l : List Archetype, l.map Archetype.compIds = (l.map skel).map Prod.fst := by
    intro l; rw [List.map_map]; rfl
  rw [this, this, h]

theorem skel_mem {l l' : List Archetype} (h : l'.map skel = l.map skel) {a' : Archetype} (ha : a' ∈ l') :
    ∃ a ∈ l, a.compIds = a'.compIds ∧ a.compLookup = a'.compLookup := by
  have : skel a' ∈ l.map skel := by rw [← h]; exact List.mem_map_of_mem ha
  obtain ⟨a, h1, h2⟩ := List.mem_map.1 this
  exact ⟨a, h1, congrArg Prod.fst h2, congrArg Prod.snd h2⟩

theorem used_skel {w w' : World} (h : w'.archetypes.map skel = w.archetypes.map skel) (c : EcsId) :
    w'.Used c ↔ w.Used c := by
  constructor
  · rintro ⟨a, ha, hc⟩
    obtain ⟨a', ha', e, _⟩ := skel_mem h ha
    exact ⟨a', ha', by rw [e]; exact hc⟩
  · rintro ⟨a, ha, hc⟩
    obtain ⟨a', ha', e, _⟩ := skel_mem h.symm ha
    exact ⟨a', ha', by rw [e]; exact hc⟩

/-- Operations that change rows, values, metadata and caches only. -/
theorem Inv.retable {w w' : World} (h : Inv w) (hskel : w'.archetypes.map skel = w.archetypes.map skel)
    (hent : w'.entities.Wf) (hloc : LocOk w'.entities.Live (instOf w'.metas) (rowOf w'.archetypes))
    (hids : ∀ a ∈ w'.archetypes, stIds a.storages = a.compIds)
    (hcol : ∀ a ∈ w'.archetypes, StOk (infoFn w'.entities w'.metas) (fun _ => a.entities.length) a.storages)
    (hcache : ∀ a ∈ w'.archetypes, CacheOk (w.archetypes.map Archetype.compIds) a.compIds a.cache)
    (hbs : w'.bitset = w.bitset) (heb : w'.entBits = w.entBits) (hlk : w'.lockLookup = w.lockLookup)
    (hlocks : w'.locks = w.locks) (htype : TypeOk w'.typeMap w'.entities w'.metas)
    (hreuse : ∀ ids d c, w'.reuse = some (ids, d, c) → ids = [] ∧ (0 < c ∧ d.length = c)) : Inv w' := by
  have hidl := skel_ids hskel
  have hlen : w'.archetypes.length = w.archetypes.length := by
    have := congrArg List.length hskel; simpa using this
  refine ⟨hent, hloc, ?_, hcol, ?_, ?_, ?_, htype, ?_, ?_, hreuse⟩
  · intro a' ha'
    obtain ⟨a, ha, e1, e2⟩ := skel_mem hskel ha'
    have := h.shape a ha
    exact ⟨e1 ▸ this.sorted, hids a' ha', e1 ▸ e2 ▸ this.look⟩
  · rw [hidl, hbs, heb]; exact h.bits
  · rw [hidl]; exact hcache
  · rw [hlk, hlocks]
    refine ⟨h.lock.range, h.lock.inj, ?_, h.lock.surj⟩
    intro a' ha' id hid
    obtain ⟨a, ha, e1, _⟩ := skel_mem hskel ha'
    exact h.lock.used a ha id (by rw [e1]; exact hid)
  · intro a' ha'
    have : (w'.archetypes.map Archetype.compIds)[0]? = some a'.compIds := by simp [ha']
    rw [hidl, List.getElem?_map] at this
    cases h0 : w.archetypes[0]? with
    | none => rw [h0] at this; cases this
    | some a =>
      rw [h0] at this
      injection this with this
      rw [← this]; exact h.arch0 a h0
  · rw [show w'.idLists = w.idLists from hidl]; exact h.uniq

/-- Replacing an element by one with the same image. -/
theorem map_set_same {α β : Type} {l : List α} {k : Nat} {a : α} (h : l[k]? = some a) (a' : α) (f : α → β)
    (hf : f a' = f a) : (l.set k a').map f = l.map f := by
  apply List.ext_getElem?
  intro i
  rw [List.getElem?_map, List.getElem?_map, List.getElem?_set]
  by_cases hk : k = i
  · subst hk
    rw [if_pos rfl, if_pos (List.getElem?_eq_some_iff.1 h).1, h]
    simp [hf]
  · rw [if_neg hk]

theorem flatMap_set {α β : Type} {l : List α} {k : Nat} {a : α} (h : l[k]? = some a) (a' : α) (f : α → List β) :
    ((l.set k a').flatMap f ++ f a).Perm (l.flatMap f ++ f a') := by
  induction l generalizing k with
  | nil => cases h
  | cons x xs ih =>
    cases k with
    | zero =>
      simp only [List.getElem?_cons_zero, Option.some.injEq] at h
      subst h
      simp only [List.set_cons_zero, List.flatMap_cons, List.append_assoc]
      refine List.perm_append_comm.trans ?_
      rw [← List.append_assoc]
      exact List.Perm.append_right _ List.perm_append_comm
    | succ k =>
      simp only [List.getElem?_cons_succ] at h
      simp only [List.set_cons_succ, List.flatMap_cons, List.append_assoc]
      exact List.Perm.append_left _ (ih h)

theorem cellOf_set {archs : List Archetype} {k : Nat} (h : k < archs.length) (a : Archetype) (k' r : Nat) (c : EcsId) :
    cellOf (archs.set k a) k' r c =
      if k' = k then (elemsOf a.storages c).bind (fun l => l[r]?) else cellOf archs k' r c := by
  unfold cellOf
  rw [List.getElem?_set]
  by_cases hk : k = k'
  · subst hk; simp [h]
  · rw [if_neg hk, if_neg (fun hh => hk hh.symm)]

theorem cellOf_append {archs : List Archetype} (a : Archetype) (k r : Nat) (c : EcsId) :
    cellOf (archs ++ [a]) k r c =
      if k = archs.length then (elemsOf a.storages c).bind (fun l => l[r]?) else cellOf archs k r c := by
  unfold cellOf
  by_cases hk : k = archs.length
  · subst hk; simp
  · rw [if_neg hk, List.getElem?_append]
    split
    · rfl
    · rw [List.getElem?_eq_none (by simp; omega), List.getElem?_eq_none (by omega)]

end World
end Ellecs
