import Verif.Proofs.Limits
import Verif.Spec.Peak
/-!
# Slots are reused before new ones are added
-/
namespace Ellecs
open World

/-- The slots that ids can name. -/
def World.room (w : World) : Nat := min w.slots (2 ^ 32)

theorem live_inj {s : Entities} {a b : EcsId} (ha : s.Live a) (hb : s.Live b) (h : a.uindex = b.uindex) : a = b := by
  unfold Entities.Live at ha hb
  rw [h, hb] at ha
  injection ha with ha; injection ha with _ ha
  cases a; cases b
  simp only at ha
  subst ha
  unfold EcsId.uindex at h
  simp only at h
  have := BitVec.eq_of_toNat_eq h
  subst this; rfl

/-- Slots are free or in use. -/
theorem World.Inv.census {w : World} (h : Inv w) {k : Nat} (hc : Census w k) : k + w.entities.despawned.length = w.room := by
  obtain ⟨l, hnd, hl, hm⟩ := hc
  have hlive : ∀ e, e ∈ l ↔ w.entities.Live e := fun e => (hm e).trans Entities.isAlive_iff
  have h1 : (l.map EcsId.uindex ++ w.entities.despawned).Nodup := by
    rw [List.nodup_append]
    refine ⟨?_, h.ent.free, ?_⟩
    · unfold List.Nodup
      rw [List.pairwise_map]
      refine List.Pairwise.imp_of_mem ?_ hnd
      intro a b ha hb hne he
      exact hne (live_inj ((hlive a).1 ha) ((hlive b).1 hb) he)
    · intro i hi j hj hij
      subst hij
      obtain ⟨e, he, rfl⟩ := List.mem_map.1 hi
      obtain ⟨_, g, hg⟩ := (h.ent.freeIff _).1 hj
      have := (hlive e).1 he
      unfold Entities.Live at this
      rw [this] at hg
      injection hg with hg; injection hg with hg _; cases hg
  have h2 : ∀ i, i ∈ l.map EcsId.uindex ++ w.entities.despawned ↔ i < w.room := by
    intro i
    rw [List.mem_append]
    constructor
    · rintro (hi | hi)
      · obtain ⟨e, he, rfl⟩ := List.mem_map.1 hi
        exact Nat.lt_min.2 ⟨((hlive e).1 he).lt, e.idx.isLt⟩
      · obtain ⟨h1, g, hg⟩ := (h.ent.freeIff _).1 hi
        exact Nat.lt_min.2 ⟨(List.getElem?_eq_some_iff.1 hg).1, h1⟩
    · intro hi
      obtain ⟨hi1, hi2⟩ := Nat.lt_min.1 hi
      have hg : w.entities.generations[i]? = some w.entities.generations[i] := List.getElem?_eq_getElem hi1
      generalize w.entities.generations[i] = p at hg
      obtain ⟨a, g⟩ := p
      cases a with
      | false => exact .inr ((h.ent.freeIff i).2 ⟨hi2, g, hg⟩)
      | true =>
        have hu : (EcsId.new (BitVec.ofNat 32 i) g).uindex = i := by
          unfold EcsId.uindex; simp only [BitVec.toNat_ofNat]; omega
        refine .inl (List.mem_map.2 ⟨EcsId.new (BitVec.ofNat 32 i) g, (hlive _).2 ?_, hu⟩)
        unfold Entities.Live
        rw [hu]; exact hg
  have h3 := h1.length_le_of_subset (l₂ := List.range w.room) (fun i hi => List.mem_range.2 ((h2 i).1 hi))
  have h4 := (List.nodup_range (n := w.room)).length_le_of_subset (l₂ := l.map EcsId.uindex ++ w.entities.despawned)
    (fun i hi => (h2 i).2 (List.mem_range.1 hi))
  simp only [List.length_append, List.length_map, List.length_range] at h3 h4
  omega

/-- The live ids can be counted. -/
theorem exists_census (w : World) : ∃ k, Census w k := by
  let f : Nat → Option EcsId := fun i =>
    match w.entities.generations[i]? with
    | some (true, g) => some (EcsId.new (BitVec.ofNat 32 i) g)
    | _ => none
  have hf : ∀ i e, f i = some e → ∃ g, w.entities.generations[i]? = some (true, g) ∧ e = EcsId.new (BitVec.ofNat 32 i) g := by
    intro i e he
    show _
    simp only [f] at he
    split at he
    · rename_i g hg
      injection he with he
      exact ⟨g, hg, he.symm⟩
    · cases he
  refine ⟨_, (List.range w.room).filterMap f, ?_, rfl, ?_⟩
  · unfold List.Nodup
    rw [List.pairwise_filterMap]
    refine List.Pairwise.imp_of_mem ?_ (List.nodup_range (n := w.room))
    intro i j hi hj hij e he e' he' hee
    subst hee
    obtain ⟨_, _, h1⟩ := hf i e he
    obtain ⟨_, _, h2⟩ := hf j e he'
    have hi' := (Nat.lt_min.1 (List.mem_range.1 hi)).2
    have hj' := (Nat.lt_min.1 (List.mem_range.1 hj)).2
    have h3 : e.uindex = i := by rw [h1]; unfold EcsId.uindex; simp only [BitVec.toNat_ofNat]; omega
    have h4 : e.uindex = j := by rw [h2]; unfold EcsId.uindex; simp only [BitVec.toNat_ofNat]; omega
    omega
  · intro e
    rw [List.mem_filterMap]
    refine Iff.trans ?_ (Entities.isAlive_iff (s := w.entities)).symm
    constructor
    · rintro ⟨i, hi, he⟩
      obtain ⟨g, h1, rfl⟩ := hf i e he
      have hi' := (Nat.lt_min.1 (List.mem_range.1 hi)).2
      have hu : (EcsId.new (BitVec.ofNat 32 i) g).uindex = i := by
        unfold EcsId.uindex; simp only [BitVec.toNat_ofNat]; omega
      unfold Entities.Live
      rw [hu]; exact h1
    · intro h
      refine ⟨e.uindex, List.mem_range.2 (Nat.lt_min.2 ⟨h.lt, e.idx.isLt⟩), ?_⟩
      unfold Entities.Live at h
      simp only [f, h]
      unfold EcsId.uindex
      rw [BitVec.ofNat_toNat, BitVec.setWidth_eq]

/-- `despawn` adds no slot. -/
theorem despawn_slots (e : EcsId) (w : World) : Tri (World.despawn e) w (fun _ w' => w'.slots = w.slots) (fun _ w' => w'.slots = w.slots) := by
  unfold World.despawn
  rw [tri_bind, tri_get, tri_bind, tri_liftE]
  cases w.isAlive e with
  | error f => exact rfl
  | ok b =>
    cases b with
    | false => exact rfl
    | true =>
      simp only [Bool.not_true, Bool.false_eq_true, if_false]
      by_cases hu : w.archetypes.any (fun a => (a.compLookup e).isSome) = true
      · rw [if_pos hu]; exact rfl
      · rw [if_neg hu, tri_bind, tri_liftE]
        cases w.getEntityMeta e with
        | error f => exact rfl
        | ok m =>
          simp only
          rw [tri_bind, tri_liftE]
          cases unwrap m with
          | error f => exact rfl
          | ok m =>
            simp only
            rw [tri_bind, tri_step]
            split
            · rename_i w1 h1
              have hw1 : w1.entities = w.entities := by
                split at h1
                · cases h1
                · split at h1
                  · cases h1
                  · injection h1 with h1; subst h1; rfl
              rw [tri_bind, tri_step]
              split
              · rename_i w2 h2
                split at h2
                · cases h2
                · rename_i es hes
                  injection h2 with h2; subst h2
                  unfold Entities.despawn at hes
                  rw [hw1] at hes
                  split at hes
                  · cases hes
                  · injection hes with hes; injection hes with _ hes; subst hes; exact rfl
                  · split at hes
                    · cases hes
                    · injection hes with hes; injection hes with _ hes; subst hes
                      exact List.length_set
              · unfold slots; rw [hw1]
            · exact rfl

/-- A call adds slots only when no free one is left. -/
theorem exec_room (c : Call) (w : World) :
    Tri c.exec w (fun _ w' => (w.slots ≤ w'.slots ∧ (w'.slots = w.slots ∨ w'.entities.despawned = [])) ∧ (MetaLen w → MetaLen w'))
      (fun _ w' => (w.slots ≤ w'.slots ∧ (w'.slots = w.slots ∨ w'.entities.despawned = [])) ∧ (MetaLen w → MetaLen w')) := by
  by_cases hd : ∃ e, c = .despawn e
  · obtain ⟨e, rfl⟩ := hd
    unfold Call.exec
    rw [tri_bind]
    have h1 := despawn_slots e w
    have h2 := despawn_gens (S := fun _ => True) e w
    unfold GensM1 at h2
    unfold Tri at h1 h2 ⊢
    revert h1 h2
    cases World.despawn e w <;> exact fun h1 h2 => ⟨⟨Nat.le_of_eq h1.symm, .inl h1⟩, h2.mlen⟩
  · have hb : c.Brings (fun _ => True) := by cases c <;> simp [Call.Brings]
    exact (exec_gens (S := fun _ => True) trivial (fun e he => hd ⟨e, he⟩) hb w).imp
      (fun _ _ h => ⟨⟨h.slots, h.grow⟩, h.mlen⟩) (fun _ _ h => ⟨⟨h.slots, h.grow⟩, h.mlen⟩)

theorem World.Peak.reachable {w : World} {n : Nat} (h : Peak w n) : Reachable w := by
  induction h with
  | new => exact .new
  | ok c _ hc he hn _ ih => exact .ok c ih hc he hn
  | panic c f _ hc he hl hd hn _ ih => exact .panic c f ih hc he hl hd hn

theorem metaLen_new : MetaLen World.new := ⟨Nat.le_refl _, Nat.zero_le _⟩

theorem World.Reachable.metaLen {w : World} (h : Reachable w) : MetaLen w := by
  induction h with
  | new => exact metaLen_new
  | ok c _ _ he _ ih => exact ((exec_room c _).ok he).2 ih
  | panic c f _ _ he _ _ _ ih => exact ((exec_room c _).error he).2 ih

theorem max_room {w w' : World} {n k : Nat} (hn : w.room = n) (hs : w.slots ≤ w'.slots ∧ (w'.slots = w.slots ∨ w'.entities.despawned = []))
    (hk : k + w'.entities.despawned.length = w'.room) : w'.room = max n k := by
  unfold World.room at *
  rcases hs with ⟨hle, hs | hs⟩
  · rw [hs] at hk ⊢; omega
  · rw [hs, List.length_nil] at hk; omega

theorem World.Peak.room {w : World} {n : Nat} (h : Peak w n) : w.room = n := by
  induction h with
  | new => exact Nat.zero_min _
  | ok c h0 hc he hn hk ih =>
    exact max_room ih ((exec_room c _).ok he).1 ((Reachable.ok c h0.reachable hc he hn).sound.inv.census hk)
  | panic c f h0 hc he hl hd hn hk ih =>
    exact max_room ih ((exec_room c _).error he).1 ((Reachable.panic c f h0.reachable hc he hl hd hn).sound.inv.census hk)

theorem World.Reachable.peak {w : World} (h : Reachable w) : ∃ n, Peak w n := by
  induction h with
  | new => exact ⟨0, .new⟩
  | @ok w w' c h0 hc he hn ih =>
    obtain ⟨n, ih⟩ := ih
    obtain ⟨k, hk⟩ := exists_census w'
    exact ⟨_, .ok c ih hc he hn hk⟩
  | @panic w w' c f h0 hc he hl hd hn ih =>
    obtain ⟨n, ih⟩ := ih
    obtain ⟨k, hk⟩ := exists_census w'
    exact ⟨_, .panic c f ih hc he hl hd hn hk⟩

/-- Entities in the tables are alive and there once. -/
theorem World.Inv.stored_le {w : World} (h : Inv w) {k : Nat} (hc : Census w k) : w.stored ≤ k := by
  obtain ⟨l, hnd, hl, hm⟩ := hc
  have hrow : ∀ (i r : Nat) (a : Archetype) (e : EcsId), w.archetypes[i]? = some a → a.entities[r]? = some e →
      w.entities.Live e ∧ instOf w.metas e.uindex = some ⟨i, r⟩ := fun i r a e ha he => h.loc.ent i r e (by rw [rowOf_eq ha]; exact he)
  have h1 : (w.archetypes.flatMap (fun a => a.entities)).Nodup := by
    unfold List.Nodup
    rw [List.pairwise_flatMap]
    constructor
    · intro a ha
      obtain ⟨i, hi, rfl⟩ := List.getElem_of_mem ha
      rw [List.pairwise_iff_getElem]
      intro r s hr hs hrs he
      have e1 := (hrow i r _ _ (List.getElem?_eq_getElem hi) (List.getElem?_eq_getElem hr)).2
      have e2 := (hrow i s _ _ (List.getElem?_eq_getElem hi) (List.getElem?_eq_getElem hs)).2
      rw [he, e2] at e1
      injection e1 with e1; injection e1 with _ e1; omega
    · rw [List.pairwise_iff_getElem]
      intro i j hi hj hij x hx y hy hxy
      subst hxy
      obtain ⟨r, hr, hrx⟩ := List.getElem_of_mem hx
      obtain ⟨s, hs, hsx⟩ := List.getElem_of_mem hy
      have e1 := (hrow i r _ x (List.getElem?_eq_getElem hi) (by rw [List.getElem?_eq_getElem hr, hrx])).2
      have e2 := (hrow j s _ x (List.getElem?_eq_getElem hj) (by rw [List.getElem?_eq_getElem hs, hsx])).2
      rw [e2] at e1
      injection e1 with e1; injection e1 with e1 _; omega
  have h2 := h1.length_le_of_subset (l₂ := l) (by
    intro x hx
    obtain ⟨a, ha, hx⟩ := List.mem_flatMap.1 hx
    obtain ⟨i, hi, rfl⟩ := List.getElem_of_mem ha
    obtain ⟨r, hr, rfl⟩ := List.getElem_of_mem hx
    exact (hm _).2 (Entities.isAlive_iff.2 (hrow i r _ _ (List.getElem?_eq_getElem hi) (List.getElem?_eq_getElem hr)).1))
  rw [List.length_flatMap] at h2
  unfold World.stored
  omega

end Ellecs
