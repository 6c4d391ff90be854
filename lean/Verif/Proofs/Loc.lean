import Verif.Proofs.Alloc
import Verif.Proofs.Bytes
import Verif.Model.Builder
/-! # Where entities are: the rows of the tables against the metadata of the entities -/
namespace Ellecs

/-- `instance_meta` of slot `i`. -/
def instOf (metas : List (Option EntityMeta)) (i : Nat) : Option InstanceMeta :=
  (metas[i]?).join.map EntityMeta.inst

/-- `component_meta` of slot `i`. -/
def compOf (metas : List (Option EntityMeta)) (i : Nat) : Option ComponentMeta :=
  (metas[i]?).join.map EntityMeta.comp

/-- The entity in row `r` of table `k`. -/
def rowOf (archs : List Archetype) (k r : Nat) : Option EcsId :=
  (archs[k]?).bind (fun a => a.entities[r]?)

/-- Rows and metadata agree. -/
structure LocOk (live : EcsId → Prop) (inst : Nat → Option InstanceMeta) (row : Nat → Nat → Option EcsId) :
    Prop where
  ent : ∀ k r e, row k r = some e → live e ∧ inst e.uindex = some ⟨k, r⟩
  loc : ∀ e k r, live e → inst e.uindex = some ⟨k, r⟩ → row k r = some e
  used : ∀ i im, inst i = some im → ∃ e, live e ∧ e.uindex = i

namespace LocOk
variable {live : EcsId → Prop} {inst : Nat → Option InstanceMeta} {row : Nat → Nat → Option EcsId}

theorem congr {live' : EcsId → Prop} {inst' : Nat → Option InstanceMeta} {row' : Nat → Nat → Option EcsId}
    (h : LocOk live inst row) (h1 : ∀ e, live' e ↔ live e) (h2 : ∀ i, inst' i = inst i)
    (h3 : ∀ k r, row' k r = row k r) : LocOk live' inst' row' := by
  obtain rfl : live' = live := funext (fun e => propext (h1 e))
  obtain rfl : inst' = inst := funext h2
  obtain rfl : row' = row := funext (fun k => funext (h3 k))
  exact h

/-- A row of an entity that had none. -/
theorem attach (h : LocOk live inst row) (huniq : ∀ e e', live e → live e' → e.uindex = e'.uindex → e = e')
    {e : EcsId} {k r : Nat} (he : live e) (hi : inst e.uindex = none) (hr : row k r = none) :
    LocOk live (fun i => if i = e.uindex then some ⟨k, r⟩ else inst i)
      (fun k' r' => if k' = k ∧ r' = r then some e else row k' r') := by
  constructor
  · intro k' r' x hx
    split at hx
    · rename_i hh; obtain ⟨rfl, rfl⟩ := hh
      injection hx with hx; subst hx
      simp [he]
    · obtain ⟨h1, h2⟩ := h.ent _ _ _ hx
      refine ⟨h1, ?_⟩
      rw [if_neg, h2]
      intro hh; rw [hh, hi] at h2; cases h2
  · intro x k' r' hx hxi
    split at hxi
    · rename_i hh
      have := huniq x e hx he hh; subst this
      injection hxi with hxi; injection hxi with h1 h2
      rw [if_pos ⟨h1.symm, h2.symm⟩]
    · have := h.loc x k' r' hx hxi
      rw [if_neg, this]
      rintro ⟨rfl, rfl⟩; rw [hr] at this; cases this
  · intro i im hi'
    split at hi'
    · rename_i hh; exact ⟨e, he, hh.symm⟩
    · exact h.used i im hi'

/-- The last row of a table goes away. -/
theorem detachLast (h : LocOk live inst row) {e : EcsId} {k r : Nat} (hr : row k r = some e) :
    LocOk live (fun i => if i = e.uindex then none else inst i)
      (fun k' r' => if k' = k ∧ r' = r then none else row k' r') := by
  obtain ⟨he, hei⟩ := h.ent _ _ _ hr
  constructor
  · intro k' r' x hx
    split at hx
    · cases hx
    · rename_i hh
      obtain ⟨h1, h2⟩ := h.ent _ _ _ hx
      refine ⟨h1, ?_⟩
      rw [if_neg, h2]
      intro hu
      rw [hu, hei] at h2
      injection h2 with h2; injection h2 with h3 h4
      exact hh ⟨h3.symm, h4.symm⟩
  · intro x k' r' hx hxi
    split at hxi
    · cases hxi
    · rename_i hh
      have := h.loc x k' r' hx hxi
      rw [if_neg, this]
      rintro ⟨rfl, rfl⟩; rw [hr] at this; injection this with this; exact hh (by rw [this])
  · intro i im hi'
    split at hi'
    · cases hi'
    · exact h.used i im hi'

/-- The last row `l` of a table replaces row `r`. -/
theorem detachSwap (h : LocOk live inst row) (huniq : ∀ e e', live e → live e' → e.uindex = e'.uindex → e = e')
    {e e' : EcsId} {k r l : Nat} (hr : row k r = some e) (hl : row k l = some e') (hrl : r ≠ l) :
    LocOk live (fun i => if i = e'.uindex then some ⟨k, r⟩ else if i = e.uindex then none else inst i)
      (fun k' r' => if k' = k ∧ r' = l then none else if k' = k ∧ r' = r then some e' else row k' r') := by
  obtain ⟨he, hei⟩ := h.ent _ _ _ hr
  obtain ⟨he', hei'⟩ := h.ent _ _ _ hl
  have hne : e ≠ e' := by
    rintro rfl; rw [hei] at hei'; injection hei' with h2; injection h2 with h3 h4; exact hrl h4
  have hnu : e.uindex ≠ e'.uindex := fun hh => hne (huniq _ _ he he' hh)
  constructor
  · intro k' r' x hx
    split at hx
    · cases hx
    · rename_i hh
      split at hx
      · rename_i hh'
        obtain ⟨rfl, rfl⟩ := hh'
        injection hx with hx; subst hx
        simp [he']
      · rename_i hh'
        obtain ⟨h1, h2⟩ := h.ent _ _ _ hx
        refine ⟨h1, ?_⟩
        rw [if_neg, if_neg, h2]
        · intro hu
          rw [hu, hei] at h2
          injection h2 with h2; injection h2 with h3 h4
          exact hh' ⟨h3.symm, h4.symm⟩
        · intro hu
          rw [hu, hei'] at h2
          injection h2 with h2; injection h2 with h3 h4
          exact hh ⟨h3.symm, h4.symm⟩
  · intro x k' r' hx hxi
    split at hxi
    · rename_i hu
      have := huniq x e' hx he' hu; subst this
      injection hxi with hxi; injection hxi with h1 h2
      subst h1; subst h2
      rw [if_neg (fun hh => hrl hh.2), if_pos ⟨rfl, rfl⟩]
    · rename_i hu'
      split at hxi
      · cases hxi
      · rename_i hu
        have := h.loc x k' r' hx hxi
        rw [if_neg, if_neg, this]
        · rintro ⟨rfl, rfl⟩; rw [hr] at this; injection this with this; exact hu (by rw [this])
        · rintro ⟨rfl, rfl⟩; rw [hl] at this; injection this with this; exact hu' (by rw [this])
  · intro i im hi'
    split at hi'
    · rename_i hu; exact ⟨e', he', hu.symm⟩
    · split at hi'
      · cases hi'
      · exact h.used i im hi'

/-- An entity without a row dies. -/
theorem kill (h : LocOk live inst row) {e : EcsId} (hi : inst e.uindex = none) :
    LocOk (fun x => live x ∧ x ≠ e) inst row := by
  constructor
  · intro k r x hx
    obtain ⟨h1, h2⟩ := h.ent _ _ _ hx
    exact ⟨⟨h1, by rintro rfl; rw [hi] at h2; cases h2⟩, h2⟩
  · intro x k r hx hxi
    exact h.loc x k r hx.1 hxi
  · intro i im hi'
    obtain ⟨x, hx, hxi⟩ := h.used i im hi'
    exact ⟨x, ⟨hx, by rintro rfl; rw [hxi, hi'] at hi; cases hi⟩, hxi⟩

/-- A new entity in a slot that has no live entity. -/
theorem birth (h : LocOk live inst row) {e : EcsId} (hf : ∀ x, live x → x.uindex ≠ e.uindex) :
    LocOk (fun x => live x ∨ x = e) inst row := by
  have hi : inst e.uindex = none := by
    cases hh : inst e.uindex with
    | none => rfl
    | some im =>
      obtain ⟨x, hx, hxi⟩ := h.used _ _ hh
      exact absurd hxi (hf x hx)
  constructor
  · intro k r x hx
    obtain ⟨h1, h2⟩ := h.ent _ _ _ hx
    exact ⟨Or.inl h1, h2⟩
  · rintro x k r (hx | rfl) hxi
    · exact h.loc x k r hx hxi
    · rw [hi] at hxi; cases hxi
  · intro i im hi'
    obtain ⟨x, hx, hxi⟩ := h.used i im hi'
    exact ⟨x, Or.inl hx, hxi⟩

theorem inst_none_of_fresh (h : LocOk live inst row) {e : EcsId} (hf : ∀ x, live x → x.uindex ≠ e.uindex) :
    inst e.uindex = none := by
  cases hh : inst e.uindex with
  | none => rfl
  | some im =>
    obtain ⟨x, hx, hxi⟩ := h.used _ _ hh
    exact absurd hxi (hf x hx)

end LocOk

theorem metas_of_inst {metas : List (Option EntityMeta)} {i : Nat} {im : InstanceMeta} (h : instOf metas i = some im) :
    ∃ c, metas[i]? = some (some ⟨im, c⟩) ∧ compOf metas i = some c := by
  unfold instOf at h
  unfold compOf
  cases hm : metas[i]? with
  | none => simp [hm] at h
  | some o =>
    cases o with
    | none => simp [hm] at h
    | some m => simp [hm] at h; subst h; exact ⟨m.comp, rfl, rfl⟩

theorem inst_of_metas {metas : List (Option EntityMeta)} {i : Nat} {m : EntityMeta} (h : metas[i]? = some (some m)) :
    instOf metas i = some m.inst ∧ compOf metas i = some m.comp := by
  simp [instOf, compOf, h]

theorem instOf_set {metas : List (Option EntityMeta)} {i : Nat} (h : i < metas.length) (o : Option EntityMeta)
    (j : Nat) : instOf (metas.set i o) j = if j = i then o.map EntityMeta.inst else instOf metas j := by
  unfold instOf
  rw [List.getElem?_set]
  by_cases hij : i = j
  · subst hij; simp [h]
  · rw [if_neg hij, if_neg (fun hh => hij hh.symm)]

theorem compOf_set {metas : List (Option EntityMeta)} {i : Nat} (h : i < metas.length) (o : Option EntityMeta)
    (j : Nat) : compOf (metas.set i o) j = if j = i then o.map EntityMeta.comp else compOf metas j := by
  unfold compOf
  rw [List.getElem?_set]
  by_cases hij : i = j
  · subst hij; simp [h]
  · rw [if_neg hij, if_neg (fun hh => hij hh.symm)]

theorem setInst_spec {metas : List (Option EntityMeta)} {i : Nat} {im0 : InstanceMeta}
    (h : instOf metas i = some im0) (im : InstanceMeta) :
    ∃ metas', setInst metas i im = .ok metas' ∧ metas'.length = metas.length ∧
      (∀ j, instOf metas' j = if j = i then some im else instOf metas j) ∧
      (∀ j, compOf metas' j = compOf metas j) := by
  obtain ⟨c, hc, hcc⟩ := metas_of_inst h
  have hlt := (List.getElem?_eq_some_iff.1 hc).1
  unfold setInst
  simp only [hc]
  refine ⟨_, rfl, by simp, ?_, ?_⟩
  · intro j; rw [instOf_set hlt]; rfl
  · intro j; rw [compOf_set hlt]
    split
    · rename_i hh; rw [hh, hcc]; rfl
    · rfl

theorem setInstIndex_spec {metas : List (Option EntityMeta)} {i : Nat} {im0 : InstanceMeta}
    (h : instOf metas i = some im0) (r : Nat) :
    ∃ metas', setInstIndex metas i r = .ok metas' ∧ metas'.length = metas.length ∧
      (∀ j, instOf metas' j = if j = i then some ⟨im0.archetype, r⟩ else instOf metas j) ∧
      (∀ j, compOf metas' j = compOf metas j) := by
  obtain ⟨c, hc, hcc⟩ := metas_of_inst h
  have hlt := (List.getElem?_eq_some_iff.1 hc).1
  unfold setInstIndex
  simp only [hc]
  refine ⟨_, rfl, by simp, ?_, ?_⟩
  · intro j; rw [instOf_set hlt]; rfl
  · intro j; rw [compOf_set hlt]
    split
    · rename_i hh; rw [hh, hcc]; rfl
    · rfl

theorem rowOf_set {archs : List Archetype} {k : Nat} (h : k < archs.length) (a : Archetype) (k' r : Nat) :
    rowOf (archs.set k a) k' r = if k' = k then a.entities[r]? else rowOf archs k' r := by
  unfold rowOf
  rw [List.getElem?_set]
  by_cases hk : k = k'
  · subst hk; simp [h]
  · rw [if_neg hk, if_neg (fun hh => hk hh.symm)]

theorem rowOf_append {archs : List Archetype} (a : Archetype) (k r : Nat) :
    rowOf (archs ++ [a]) k r = if k = archs.length then a.entities[r]? else rowOf archs k r := by
  unfold rowOf
  by_cases hk : k = archs.length
  · subst hk; simp
  · rw [if_neg hk, List.getElem?_append]
    split
    · rfl
    · rw [List.getElem?_eq_none (by simp; omega), List.getElem?_eq_none (by omega)]

theorem rowOf_eq {archs : List Archetype} {k : Nat} {a : Archetype} (h : archs[k]? = some a) (r : Nat) :
    rowOf archs k r = a.entities[r]? := by simp [rowOf, h]

theorem rowOf_some {archs : List Archetype} {k r : Nat} {e : EcsId} (h : rowOf archs k r = some e) :
    ∃ a, archs[k]? = some a ∧ a.entities[r]? = some e := Option.bind_eq_some_iff.1 h

end Ellecs
