import Verif.Proofs.Torn
import Verif.Props.Unwind
/-!
# C82: a destructor that panics harms at most two entities

When a destructor unwinds out of `despawn` or `remove_component`, the tables are left half updated.  The entities that can
notice are the one the call was about and the last one of its table.
-/
namespace Ellecs.WorldSpec
open World Demo

/-- C82: a `despawn` that unwinds leaves every other entity as it was. -/
theorem C82_despawn_confined {w w' : World} (hw : Reachable w) (pan : Panics) (e : EcsId)
    (h : despawnU pan e w = .error .dropPanic w') : Confined w w' e := by
  obtain ⟨k, row, a, st', evs, d⟩ := despawnU_torn hw.sound.inv h
  exact (d.torn hw.sound.inv).confined hw.sound.inv (by rw [rowOf_eq d.tab]; exact d.at_)

/-- C82: a `remove_component_dynamic` that unwinds leaves every other entity as it was. -/
theorem C82_remove_dynamic_confined {w w' : World} (hw : Reachable w) (pan : Panics) (e c : EcsId)
    (h : removeComponentDynamicU pan e c w = .error .dropPanic w') : Confined w w' e := by
  obtain ⟨k, row, tar, a, d⟩ := removeDynU_torn hw.sound.inv h
  exact d.torn.confined hw.sound.inv (by rw [rowOf_eq d.tab]; exact d.at_)

/-- C82: a `remove_component` that unwinds leaves every other entity as it was. -/
theorem C82_remove_confined {w w' : World} (hw : Reachable w) (pan : Panics) (e : EcsId) (t : Ty)
    (h : removeComponentU pan e t w = .error .dropPanic w') : Confined w w' e := by
  obtain ⟨c, _, h2⟩ := removeU_dyn hw h
  exact C82_remove_dynamic_confined hw pan e c h2

/-- C82: after a `despawn` that unwound the id is alive but in no table, and despawning it again panics before anything is
changed or dropped. -/
theorem C82_despawn_stuck {w w' : World} (hw : Reachable w) (pan : Panics) (e : EcsId)
    (h : despawnU pan e w = .error .dropPanic w') :
    w'.isAlive e = .ok true ∧ ¬ w'.Row e ∧
    ∀ pan', ∃ f, (f = .despawnAssert ∨ f = .indexOob) ∧ despawnU pan' e w' = .error f w' := by
  have hi := hw.sound.inv
  obtain ⟨k, row, a, st', evs, d⟩ := despawnU_torn hi h
  have hlt := (List.getElem?_eq_some_iff.1 d.at_).1
  have hklt := (List.getElem?_eq_some_iff.1 d.tab).1
  have he : rowOf w.archetypes k row = some e := by rw [rowOf_eq d.tab]; exact d.at_
  have halive : w.isAlive e = .ok true := by
    rcases isAlive_answer hi e with ⟨h1, h2⟩ | ⟨h1, h2⟩ | ⟨h1, h2⟩
    · exact absurd d.alive h2
    · exact absurd d.alive h2
    · exact h1
  have hw' := d.eq
  have hget : w'.archetypes[k]? = some { a with entities := swapRemove a.entities row, storages := st' } := by
    rw [hw']; simp only [List.getElem?_set, if_true]; rw [if_pos hklt]
  -- `e` is nowhere
  have hnot : ∀ r : Nat, (swapRemove a.entities row)[r]? ≠ some e := by
    intro r hr
    rw [getElem?_swapRemove _ _ _ hlt] at hr
    split at hr
    · split at hr
      · have := (hi.row_inj he (by rw [rowOf_eq d.tab]; exact hr)).2
        omega
      · rename_i hne
        exact hne (hi.row_inj he (by rw [rowOf_eq d.tab]; exact hr)).2.symm
    · cases hr
  have halive' : w'.isAlive e = .ok true := by rw [hw']; exact halive
  refine ⟨halive', ?_, ?_⟩
  · rw [row_iff]
    rintro ⟨k', r, hr⟩
    by_cases hk : k' = k
    · subst hk
      rw [rowOf_eq hget] at hr
      exact hnot r hr
    · have : rowOf w'.archetypes k' r = rowOf w.archetypes k' r := by
        rw [hw']; unfold rowOf; simp only [List.getElem?_set]; rw [if_neg (Ne.symm hk)]
      rw [this] at hr
      exact hk (hi.row_inj hr he).1
  · intro pan'
    obtain ⟨cm, hm⟩ := d.getMeta
    have hm' : w'.getEntityMeta e = .ok (some ⟨⟨k, row⟩, cm⟩) := by rw [hw']; exact hm
    have hany' : w'.archetypes.any (fun a => (a.compLookup e).isSome) = false := by
      rw [List.any_eq_false]
      intro x hx
      have hall := List.any_eq_false.1 d.any
      rw [hw'] at hx
      rcases List.mem_or_eq_of_mem_set hx with hx | hx
      · exact hall x hx
      · subst hx; exact hall a (List.mem_of_getElem? d.tab)
    suffices hs : Tri (despawnU pan' e) w' (fun _ _ => False)
        (fun f w'' => (f = .despawnAssert ∨ f = .indexOob) ∧ w'' = w') by
      unfold Tri at hs
      cases hr : despawnU pan' e w' with
      | ok b w2 => rw [hr] at hs; exact hs.elim
      | error f w2 => rw [hr] at hs; obtain ⟨h1, rfl⟩ := hs; exact ⟨f, h1, rfl⟩
    unfold despawnU
    simp only [tri_bind, tri_get, tri_liftE, halive', Bool.not_true, Bool.false_eq_true, if_false, hany', hm', unwrap,
      tri_step, tri_stepU, hget]
    unfold Archetype.despawnU
    cases hr : (swapRemove a.entities row)[row]? with
    | none => simp
    | some y =>
      simp only
      rw [if_pos (by rintro rfl; exact hnot row hr)]
      exact ⟨Or.inl rfl, trivial⟩

/-- C82: what a `despawn` that unwinds tears.  The last entity of the table has taken the place of the despawned one in
the list of entities, but only the columns up to the one whose destructor panicked have followed: in the others it now has the
components of the despawned entity.  The metadata has not followed at all: asking for a component of the last entity panics if
its column has followed and gives the pointer of before otherwise, and asking for a component of the despawned entity gives a
pointer to the one that the last entity has now. -/
theorem C82_despawn_mixed {w w' : World} (hw : Reachable w) (pan : Panics) (e : EcsId)
    (h : despawnU pan e w = .error .dropPanic w') :
    ∃ (k : Nat) (a : Archetype) (j : Nat), w.archetypes[k]? = some a ∧ e ∈ a.entities ∧ j < a.compIds.length ∧
      ∀ z, a.entities.getLast? = some z → ∀ (i : Nat) (c : EcsId), a.compIds[i]? = some c →
        w'.getComponentMutDynamic z c = (if i ≤ j then .error .unwrapNone else w.getComponentMutDynamic z c) ∧
        (z ≠ e → (∀ bs, w'.Has z c bs ↔ if i ≤ j then w.Has z c bs else w.Has e c bs) ∧
          ∃ p, w'.getComponentMutDynamic e c = .ok (some p) ∧ w'.PointsAt p z c) := by
  have hi := hw.sound.inv
  obtain ⟨k, row, a, st', evs, d⟩ := despawnU_torn hi h
  have hlt := (List.getElem?_eq_some_iff.1 d.at_).1
  have hklt := (List.getElem?_eq_some_iff.1 d.tab).1
  have he : rowOf w.archetypes k row = some e := by rw [rowOf_eq d.tab]; exact d.at_
  have ham := List.mem_of_getElem? d.tab
  have hs := hi.shape a ham
  have ht := d.torn hi
  obtain ⟨j, j1, j2, j3⟩ := swapRemoveAllU_cols (hi.col a ham) hlt d.all
  have hw' := d.eq
  have hget : w'.archetypes[k]? = some { a with entities := swapRemove a.entities row, storages := st' } := by
    rw [hw']; simp only [List.getElem?_set, if_true]; rw [if_pos hklt]
  refine ⟨k, a, j, d.tab, List.mem_of_getElem? d.at_, by rw [← hs.ids]; simpa [stIds] using j1, ?_⟩
  intro z hz i c hc
  rw [List.getLast?_eq_getElem?] at hz
  -- the pointers
  have hn : (stIds a.storages).Nodup := by rw [hs.ids]; exact hs.sorted.nodup
  have hnear := swapRemoveAllU_near (hi.col a ham) hlt d.all
  have hn' : (stIds st').Nodup := by rw [hnear.ids]; exact hn
  have hc2 := hc
  rw [← hs.ids] at hc2
  unfold stIds at hc2
  rw [List.getElem?_map] at hc2
  obtain ⟨p, hp, hpc⟩ := Option.map_eq_some_iff.1 hc2
  obtain ⟨pc, v⟩ := p
  simp only at hpc
  subst hpc
  obtain ⟨v', c1, c2⟩ := j3 i _ hp
  have o := hi.col a ham _ (List.mem_of_getElem? hp)
  have o' := hnear.col _ (List.mem_of_getElem? c1)
  have hinf : v'.info = v.info := by
    have := o.2.2; rw [o'.2] at this; exact Option.some.inj this
  have hvc : v.count = a.entities.length := o.2.1
  have hcnt : v'.count = if i ≤ j then a.entities.length - 1 else a.entities.length := by
    have := congrArg List.length c2
    rw [UVec.length_elems] at this
    rw [this]
    split
    · rw [length_swapRemove, UVec.length_elems, hvc]
    · rw [UVec.length_elems, hvc]
  have hent : w'.entities = w.entities := by rw [hw']
  have hmet : w'.metas = w.metas := by rw [hw']
  have hptr := fun {r : Nat} {x : EcsId} (hx : a.entities[r]? = some x) =>
    hi.ptr_at hent hmet d.tab hx hget rfl hp c1 o'.1 hinf
  refine ⟨?_, fun hze => ?_⟩
  · obtain ⟨p1, p2⟩ := hptr hz
    rw [p1, p2, hcnt]
    by_cases hij : i ≤ j
    · rw [if_pos hij, if_pos hij, if_neg (by omega)]
    · rw [if_neg hij, if_neg hij, if_pos (by omega)]
  have hrl : row < a.entities.length - 1 := by
    rcases Nat.lt_or_ge row (a.entities.length - 1) with h1 | h1
    · exact h1
    · exfalso
      have : row = a.entities.length - 1 := by omega
      rw [← this, d.at_] at hz
      cases hz; exact hze rfl
  refine ⟨fun bs => ?_, ⟨.storage k i, row * v.size⟩, ?_, k, i, row, _, v', hget, ?_, c1, ?_⟩
  rotate_left
  · rw [(hptr d.at_).2, if_pos (by rw [hcnt]; split <;> omega)]
  · simp only
    rw [getElem?_swapRemove _ _ _ hlt, if_pos hrl, if_pos rfl]; exact hz
  · unfold UVec.size; rw [hinf]
  have hzr : rowOf w.archetypes k (a.entities.length - 1) = some z := by rw [rowOf_eq d.tab]; exact hz
  -- the one row of `z`
  have hz' : rowOf w'.archetypes k row = some z := by
    rw [rowOf_eq hget]
    simp only
    rw [getElem?_swapRemove _ _ _ hlt, if_pos hrl, if_pos rfl]; exact hz
  have honly : ∀ k' r, rowOf w'.archetypes k' r = some z → k' = k ∧ r = row := by
    intro k' r hr
    by_cases hk : k' = k
    · subst hk
      refine ⟨rfl, ?_⟩
      rw [rowOf_eq hget] at hr
      simp only at hr
      rw [getElem?_swapRemove _ _ _ hlt] at hr
      split at hr
      · split at hr
        · assumption
        · have := (hi.row_inj hzr (by rw [rowOf_eq d.tab]; exact hr)).2
          omega
      · cases hr
    · have : rowOf w'.archetypes k' r = rowOf w.archetypes k' r := by
        rw [hw']; unfold rowOf; simp only [List.getElem?_set]; rw [if_neg (Ne.symm hk)]
      rw [this] at hr
      exact absurd (hi.row_inj hr hzr).1 hk
  have hhas : w'.Has z pc bs ↔ cellOf w'.archetypes k row pc = some bs := by
    rw [has_iff ht.shape]
    constructor
    · rintro ⟨k', r, h1, h2⟩; obtain ⟨rfl, rfl⟩ := honly k' r h1; exact h2
    · intro h2; exact ⟨k, row, hz', h2⟩
  -- the column of `c`
  have hel : v.elems.length = a.entities.length := by rw [UVec.length_elems]; exact hvc
  have hcz : w.Has z pc bs ↔ v.elems[a.entities.length - 1]? = some bs := by
    rw [has_at hi hzr, cellOf_eq d.tab]; have := elemsOf_getElem? hn hp; simp only at this; rw [this]; rfl
  have hce : w.Has e pc bs ↔ v.elems[row]? = some bs := by
    rw [has_at hi he, cellOf_eq d.tab]; have := elemsOf_getElem? hn hp; simp only at this; rw [this]; rfl
  rw [hhas, cellOf_eq hget]
  simp only
  have := elemsOf_getElem? hn' c1
  simp only at this
  rw [this, Option.bind_some, c2]
  split
  · rw [getElem?_swapRemove _ _ _ (by show row < v.elems.length; omega)]
    simp only [hel]
    rw [if_pos hrl, if_pos trivial, hcz]
  · rw [hce]

/-- C82: what a removal that unwinds tears.  The list of entities has not followed the columns: the last entity of the table has
lost all its components, and they are now those of the entity the call was about.  Asking for one of the last entity panics,
asking for one of the entity of the call, the removed one included, gives the pointer of before. -/
theorem C82_remove_shifted {w w' : World} (hw : Reachable w) (pan : Panics) (e c : EcsId)
    (h : removeComponentDynamicU pan e c w = .error .dropPanic w') :
    (∀ x, w'.Row x ↔ w.Row x) ∧ ∃ z, w.LastWith e z ∧ (∀ x bs, ¬ w'.Has z x bs) ∧
      (z ≠ e → ∀ x bs, w'.Has e x bs ↔ w.Has z x bs) ∧
      ∀ x, w.HasComp e x → w'.getComponentMutDynamic z x = .error .unwrapNone ∧
        (z ≠ e → ∃ p, w'.getComponentMutDynamic e x = .ok (some p) ∧ w.getComponentMutDynamic e x = .ok (some p) ∧ w'.PointsAt p e x) := by
  have hi := hw.sound.inv
  obtain ⟨k, row, tar, a, d⟩ := removeDynU_torn hi h
  have hlt := (List.getElem?_eq_some_iff.1 d.at_).1
  have he : rowOf w.archetypes k row = some e := by rw [rowOf_eq d.tab]; exact d.at_
  have ham := List.mem_of_getElem? d.tab
  obtain ⟨a', a1, a2, a3, a4⟩ := d.cur
  refine ⟨fun x => by rw [row_iff, row_iff]; simp only [d.rows], ?_⟩
  obtain ⟨z, hz⟩ : ∃ z, a.entities[a.entities.length - 1]? = some z := ⟨_, List.getElem?_eq_getElem (by omega)⟩
  have hzr : rowOf w.archetypes k (a.entities.length - 1) = some z := by rw [rowOf_eq d.tab]; exact hz
  have hhas : ∀ {y : EcsId} {r : Nat}, rowOf w.archetypes k r = some y → ∀ x bs,
      w'.Has y x bs ↔ cellOf w'.archetypes k r x = some bs := by
    intro y r hy x bs
    rw [has_iff d.torn.shape]
    constructor
    · rintro ⟨k', r', h1, h2⟩
      rw [d.rows] at h1
      obtain ⟨rfl, rfl⟩ := hi.row_inj hy h1
      exact h2
    · intro h2; exact ⟨k, r, by rw [d.rows]; exact hy, h2⟩
  have hcell : ∀ r x, cellOf w'.archetypes k r x =
      if r < a.entities.length - 1 then
        (if r = row then cellOf w.archetypes k (a.entities.length - 1) x else cellOf w.archetypes k r x)
      else none := by
    intro r x
    rw [cellOf_eq a1, a4, cellOf_eq d.tab, cellOf_eq d.tab]
    cases hx : elemsOf a.storages x with
    | none => simp
    | some l =>
      obtain ⟨v, v1, v2⟩ := elemsOf_mem hx
      have hl : l.length = a.entities.length := by
        rw [← v2, UVec.length_elems]; exact (hi.col a ham _ v1).2.1
      simp only [Option.map_some, Option.bind_some]
      rw [getElem?_swapRemove _ _ _ (by omega), hl]
  refine ⟨z, ⟨k, a, d.tab, List.mem_of_getElem? d.at_, by rw [List.getLast?_eq_getElem?]; exact hz⟩, ?_, ?_, ?_⟩
  · intro x bs hh
    rw [hhas hzr, hcell, if_neg (by omega)] at hh
    cases hh
  rotate_left
  · intro x hx
    rw [hasComp_at hi d.tab d.at_] at hx
    have hs := hi.shape a ham
    rw [← hs.ids] at hx
    obtain ⟨i, hix⟩ := List.getElem?_of_mem hx
    obtain ⟨a2', t1, t⟩ := d.torn.tab k a d.tab
    rw [a1] at t1; cases t1
    have hix' := hix
    rw [← t.near.ids] at hix'
    unfold stIds at hix hix'
    rw [List.getElem?_map] at hix hix'
    obtain ⟨⟨_, v⟩, hp, rfl⟩ := Option.map_eq_some_iff.1 hix
    obtain ⟨⟨_, v'⟩, hp', hpc⟩ := Option.map_eq_some_iff.1 hix'
    simp only at hpc
    subst hpc
    have o := hi.col a ham _ (List.mem_of_getElem? hp)
    have o' := t.near.col _ (List.mem_of_getElem? hp')
    have hinf : v'.info = v.info := by
      have := o.2.2; simp only at this; rw [o'.2] at this; exact Option.some.inj this
    have hvc : v.count = a.entities.length := o.2.1
    have hn : (stIds a.storages).Nodup := by rw [hs.ids]; exact hs.sorted.nodup
    have hn' : (stIds a'.storages).Nodup := by rw [t.near.ids]; exact hn
    have hcnt : v'.count = a.entities.length - 1 := by
      have e1 := elemsOf_getElem? hn hp
      have e2 := elemsOf_getElem? hn' hp'
      simp only at e1 e2
      rw [a4, e1] at e2
      have := congrArg List.length (Option.some.inj e2)
      simp only [UVec.length_elems, length_swapRemove] at this
      omega
    have hptr := fun {r : Nat} {y : EcsId} (hy : a.entities[r]? = some y) =>
      hi.ptr_at d.torn.ent d.torn.metas d.tab hy a1 t.look hp hp' o'.1 hinf
    refine ⟨by rw [(hptr hz).2, if_neg (by omega)], fun hze => ?_⟩
    have hrl : row < a.entities.length - 1 := by
      rcases Nat.lt_or_ge row (a.entities.length - 1) with h1 | h1
      · exact h1
      · exfalso
        have : row = a.entities.length - 1 := by omega
        rw [← this, d.at_] at hz
        cases hz; exact hze rfl
    refine ⟨_, by rw [(hptr d.at_).2, if_pos (by omega)], (hptr d.at_).1, k, i, row, a', v', a1, by rw [a3]; exact d.at_, hp', ?_⟩
    unfold UVec.size; rw [hinf]
  · intro hze x bs
    have hrl : row < a.entities.length - 1 := by
      rcases Nat.lt_or_ge row (a.entities.length - 1) with h1 | h1
      · exact h1
      · exfalso
        have : row = a.entities.length - 1 := by omega
        rw [← this, d.at_] at hz
        cases hz; exact hze rfl
    rw [hhas he, hcell, if_pos hrl, if_pos rfl, has_at hi hzr]

/-! ### Concrete cases -/

/-- The destructor of the first column panics. -/
def panA : Panics := fun _ ev => decide (ev.fn = .generic tA)

-- in `pair` the entities 6 and 5 share the table of A and B, 5 is its last one, and 3 is in another one
example : (pair.archetypes.map (fun a => (a.entities.map EcsId.uindex, a.compIds.map EcsId.uindex)))[1]? =
    some ([6, 5], [1, 2]) ∧ ⟨1, 5⟩ ∈ (pair.archetypes.flatMap Archetype.entities) := by decide +kernel
-- after the panic the list of entities and the column of A are one row shorter, the column of B is not
example : ((after (despawnU panA (ent 6) pair)).archetypes.map (fun a => (a.entities, a.storages.map (fun p => p.2.elems))))[1]? =
    some ([⟨1, 5⟩], [[val 4 9], [val 8 8, val 8 9]]) := by decide +kernel
-- after this one both columns are one row shorter than the list of entities
example : ((after (removeComponentU panB (ent 6) tB pair)).archetypes.map
    (fun a => (a.entities, a.storages.map (fun p => p.2.elems))))[1]? =
    some ([ent 6, ⟨1, 5⟩], [[val 4 9], [val 8 9]]) := by decide +kernel
-- the pointers to the components A and B of 6 (whose row 5 has now) and of 5 (whose row is gone in the column of A)
example : ((after (despawnU panA (ent 6) pair)).getComponentMutDynamic (ent 6) (ent 1)).toOption = some (some ⟨.storage 1 0, 0⟩) ∧
    ((after (despawnU panA (ent 6) pair)).getComponentMutDynamic ⟨1, 5⟩ (ent 1)).toOption = none ∧
    ((after (despawnU panA (ent 6) pair)).getComponentMutDynamic ⟨1, 5⟩ (ent 2)).toOption = some (some ⟨.storage 1 1, 8⟩) := by
  decide +kernel
example := C82_despawn_confined pair_reachable panA (ent 6) (eq_of_endsWith (by decide +kernel))
example := C82_despawn_stuck pair_reachable panA (ent 6) (eq_of_endsWith (by decide +kernel))
example := C82_despawn_mixed pair_reachable panA (ent 6) (eq_of_endsWith (by decide +kernel))
example := C82_remove_dynamic_confined pair_reachable panB (ent 6) (ent 2) (eq_of_endsWith (by decide +kernel))
example := C82_remove_confined pair_reachable panB (ent 6) tB (eq_of_endsWith (by decide +kernel))
example := C82_remove_shifted pair_reachable panB (ent 6) (ent 2) (eq_of_endsWith (by decide +kernel))

end Ellecs.WorldSpec
