import Verif.Proofs.Unwind
import Verif.Proofs.Access
import Verif.Spec.Torn
/-! # The state in which a destructor that panics leaves the tables -/
namespace Ellecs

/-- Columns that are the same in the rows `P`. -/
structure Near (info : EcsId → Option TypeInfo) (P : Nat → Prop) (st st' : List (EcsId × UVec)) : Prop where
  ids : stIds st' = stIds st
  col : ∀ p ∈ st', UVec.Inv p.2 ∧ info p.1 = some p.2.info
  cell : ∀ c r, P r → (elemsOf st' c).bind (fun l => l[r]?) = (elemsOf st c).bind (fun l => l[r]?)

theorem Near.refl {info : EcsId → Option TypeInfo} {n : Nat} {P : Nat → Prop} {st : List (EcsId × UVec)}
    (h : StOk info (fun _ => n) st) : Near info P st st :=
  ⟨rfl, fun p hp => ⟨(h p hp).1, (h p hp).2.2⟩, fun _ _ _ => rfl⟩

theorem swapRemove_other {l : List Bytes} {row r : Nat} (hr : row < l.length) (h1 : r ≠ row) (h2 : r + 1 < l.length) :
    (swapRemove l row)[r]? = l[r]? := by
  rw [getElem?_swapRemove l row r hr, if_pos (by omega), if_neg h1]

theorem swapRemoveAllU_near {pan : Panics} {info : EcsId → Option TypeInfo} {n row : Nat}
    {st st' : List (EcsId × UVec)} {evs : List DropEv} {u : Bool} (h : StOk info (fun _ => n) st) (hr : row < n)
    (he : swapRemoveAllU row pan st = .ok (st', evs, u)) : Near info (fun r => r ≠ row ∧ r + 1 < n) st st' := by
  induction st generalizing pan st' evs u with
  | nil => cases he; exact Near.refl h
  | cons p ps ih =>
    obtain ⟨⟨h1, h2, h3⟩, h'⟩ := StOk.cons.1 h
    have hc : row < p.2.count := by rw [h2]; exact hr
    obtain ⟨v', f1, f2, f3, f4, _⟩ := UVec.swapRemove_spec h1 hc
    obtain ⟨id, v⟩ := p
    unfold swapRemoveAllU at he
    simp only [f1] at he
    have hrow : ∀ r, r ≠ row ∧ r + 1 < n → v'.elems[r]? = v.elems[r]? := by
      intro r hr'
      rw [f4, swapRemove_other (by rw [UVec.length_elems]; exact hc) hr'.1 (by rw [UVec.length_elems, h2]; exact hr'.2)]
    have hcons : ∀ {st'}, Near info (fun r => r ≠ row ∧ r + 1 < n) ps st' →
        Near info (fun r => r ≠ row ∧ r + 1 < n) ((id, v) :: ps) ((id, v') :: st') := by
      intro st' hn
      refine ⟨by simp [stIds]; exact hn.ids, ?_, ?_⟩
      · intro q hq
        rcases List.mem_cons.1 hq with e | e
        · subst e; exact ⟨f2, by rw [f3]; exact h3⟩
        · exact hn.col q e
      · intro c r hP
        unfold elemsOf
        by_cases hc : id = c
        · simp only [if_pos hc, Option.bind_some]; exact hrow r hP
        · simp only [if_neg hc]; exact hn.cell c r hP
    split at he
    · cases he
      exact hcons (Near.refl h')
    · cases hs : swapRemoveAllU row (pan.after (UVec.dropEvs v.info [v.elem row])) ps with
      | error f => rw [hs] at he; cases he
      | ok q =>
        obtain ⟨st2, evs2, u2⟩ := q
        rw [hs] at he
        cases he
        exact hcons (ih h' hs)

/-- The columns up to the one in which the destructor panicked have lost the row, the others have not. -/
theorem swapRemoveAllU_cols {pan : Panics} {info : EcsId → Option TypeInfo} {n row : Nat}
    {st st' : List (EcsId × UVec)} {evs : List DropEv} (h : StOk info (fun _ => n) st) (hr : row < n)
    (he : swapRemoveAllU row pan st = .ok (st', evs, true)) :
    ∃ j, j < st.length ∧ st'.length = st.length ∧ ∀ i p, st[i]? = some p → ∃ v', st'[i]? = some (p.1, v') ∧
      v'.elems = if i ≤ j then swapRemove p.2.elems row else p.2.elems := by
  induction st generalizing pan st' evs with
  | nil => cases he
  | cons p ps ih =>
    obtain ⟨⟨h1, h2, h3⟩, h'⟩ := StOk.cons.1 h
    have hc : row < p.2.count := by rw [h2]; exact hr
    obtain ⟨v', f1, f2, f3, f4, _⟩ := UVec.swapRemove_spec h1 hc
    obtain ⟨id, v⟩ := p
    unfold swapRemoveAllU at he
    simp only [f1] at he
    split at he
    · cases he
      refine ⟨0, by simp, by simp, ?_⟩
      intro i q hq
      cases i with
      | zero => cases hq; exact ⟨v', rfl, by simpa using f4⟩
      | succ i => exact ⟨q.2, hq, by rw [if_neg (by omega)]⟩
    · cases hs : swapRemoveAllU row (pan.after (UVec.dropEvs v.info [v.elem row])) ps with
      | error f => rw [hs] at he; cases he
      | ok q =>
        obtain ⟨st2, evs2, u2⟩ := q
        rw [hs] at he
        cases he
        obtain ⟨j, j1, j2, j3⟩ := ih h' hs
        refine ⟨j + 1, by simpa using j1, by simpa using j2, ?_⟩
        intro i q hq
        cases i with
        | zero => cases hq; exact ⟨v', rfl, by simpa using f4⟩
        | succ i =>
          obtain ⟨v2, k1, k2⟩ := j3 i q hq
          exact ⟨v2, k1, by rw [k2]; simp⟩

namespace World

/-- The table `a` became `a'`; if `x`, then one row and the last one may have suffered. -/
structure TornTab (info : EcsId → Option TypeInfo) (x : Prop) (row : Nat) (a a' : Archetype) : Prop where
  ids : a'.compIds = a.compIds
  look : a'.compLookup = a.compLookup
  back : ∀ (r : Nat) (e : EcsId), a'.entities[r]? = some e → a.entities[r]? = some e ∨ (x ∧ a.entities.getLast? = some e)
  keep : ∀ (r : Nat) (e : EcsId), a.entities[r]? = some e → (x → r ≠ row ∧ r + 1 ≠ a.entities.length) → a'.entities[r]? = some e
  near : Near info (fun r => r < a.entities.length ∧ (x → r ≠ row ∧ r + 1 ≠ a.entities.length)) a.storages a'.storages

/-- What a call that unwound did to the world. -/
structure Torn (w w' : World) (k row : Nat) : Prop where
  ent : w'.entities = w.entities
  metas : w'.metas = w.metas
  typ : w'.typeMap = w.typeMap
  tab : ∀ (k' : Nat) (a : Archetype), w.archetypes[k']? = some a → ∃ a', w'.archetypes[k']? = some a' ∧
    TornTab (infoFn w.entities w.metas) (k' = k) row a a'
  fresh : ∀ (k' : Nat) (a' : Archetype), w'.archetypes[k']? = some a' → w.archetypes[k']? = none → a'.entities = []
  shape : ∀ a ∈ w'.archetypes, Shape a

theorem Torn.back {w w' : World} {k row k' r : Nat} {x : EcsId} (t : Torn w w' k row)
    (h : rowOf w'.archetypes k' r = some x) : rowOf w.archetypes k' r = some x ∨
      ∃ a, w.archetypes[k]? = some a ∧ a.entities.getLast? = some x := by
  obtain ⟨a', h1, h2⟩ := rowOf_some h
  cases ha : w.archetypes[k']? with
  | none => rw [t.fresh k' a' h1 ha] at h2; cases h2
  | some a =>
    obtain ⟨a2, e1, e2⟩ := t.tab k' a ha
    rw [h1] at e1; cases e1
    rcases e2.back r x h2 with h3 | ⟨rfl, h3⟩
    · exact Or.inl (by rw [rowOf_eq ha]; exact h3)
    · exact Or.inr ⟨a, ha, h3⟩

theorem Torn.confined {w w' : World} {k row : Nat} {e : EcsId} (h : Inv w) (t : Torn w w' k row)
    (he : rowOf w.archetypes k row = some e) : Confined w w' e := by
  obtain ⟨A, hA, hrow⟩ := rowOf_some he
  have hback : ∀ x, ¬ w.LastWith e x → ∀ k' r, rowOf w'.archetypes k' r = some x → rowOf w.archetypes k' r = some x := by
    intro x hl k' r hx
    rcases t.back hx with h1 | ⟨a, h1, h2⟩
    · exact h1
    · exact absurd ⟨k, a, h1, by rw [hA] at h1; cases h1; exact List.mem_of_getElem? hrow, h2⟩ hl
  -- the rows of the others
  have hrows : ∀ x, x ≠ e → ¬ w.LastWith e x → ∀ k' r a, w.archetypes[k']? = some a → a.entities[r]? = some x →
      (k' = k → r ≠ row ∧ r + 1 ≠ a.entities.length) := by
    intro x hx hl k' r a ha hr hk
    subst hk
    rw [hA] at ha; cases ha
    refine ⟨?_, ?_⟩
    · rintro rfl
      rw [hrow] at hr; cases hr
      exact hx rfl
    · intro hlast
      refine hl ⟨k', A, hA, List.mem_of_getElem? hrow, ?_⟩
      rw [List.getLast?_eq_getElem?, ← hr]
      congr 1
      omega
  have hplace : ∀ x, x ≠ e → ¬ w.LastWith e x → ∀ k' r, rowOf w.archetypes k' r = some x →
      rowOf w'.archetypes k' r = some x ∧ ∀ c, cellOf w'.archetypes k' r c = cellOf w.archetypes k' r c := by
    intro x hx hl k' r hr
    obtain ⟨a, ha, hr'⟩ := rowOf_some hr
    obtain ⟨a', e1, e2⟩ := t.tab k' a ha
    have hP := hrows x hx hl k' r a ha hr'
    refine ⟨by rw [rowOf_eq e1]; exact e2.keep r x hr' hP, fun c => ?_⟩
    rw [cellOf_eq e1, cellOf_eq ha]
    exact e2.near.cell c r ⟨(List.getElem?_eq_some_iff.1 hr').1, hP⟩
  refine ⟨t.ent, t.typ, ?_, ?_, ?_⟩
  · intro x hx hl
    rw [row_iff, row_iff]
    exact ⟨fun ⟨k', r, h1⟩ => ⟨k', r, hback x hl k' r h1⟩, fun ⟨k', r, h1⟩ => ⟨k', r, (hplace x hx hl k' r h1).1⟩⟩
  · intro x hx hl c bs
    rw [has_iff h.shape, has_iff t.shape]
    constructor
    · rintro ⟨k', r, h1, h2⟩
      have h3 := hback x hl k' r h1
      exact ⟨k', r, h3, by rw [← (hplace x hx hl k' r h3).2]; exact h2⟩
    · rintro ⟨k', r, h1, h2⟩
      obtain ⟨h3, h4⟩ := hplace x hx hl k' r h1
      exact ⟨k', r, h3, by rw [h4]; exact h2⟩
  · intro x hx hl c
    unfold getComponentMutDynamic
    have ha : ∀ y, w'.isAlive y = w.isAlive y := by intro y; unfold World.isAlive; rw [t.ent]
    have hm : w'.getEntityMeta x = w.getEntityMeta x := by unfold getEntityMeta; rw [t.ent, t.metas]
    rw [ha, ha, hm]
    rcases getEntityMeta_spec h x with ⟨g1, _⟩ | ⟨g1, _⟩ | ⟨g1, _⟩ | ⟨im, cm, g1, g2, g3, g4, g5⟩
    · rw [g1]
    · rw [g1]
    · rw [g1]
    · rw [g1]
      simp only
      obtain ⟨a, b1, b2⟩ := rowOf_some g5
      obtain ⟨a', e1, e2⟩ := t.tab _ a b1
      obtain ⟨q1, q2⟩ := hplace x hx hl _ _ g5
      rw [b1, e1]
      simp only
      rw [e2.look]
      cases hn : a.compLookup c with
      | none => rfl
      | some n =>
        simp only
        have hsh := h.shape a (List.mem_of_getElem? b1)
        have hsh' := t.shape a' (List.mem_of_getElem? e1)
        have hid : (stIds a'.storages)[n]? = (stIds a.storages)[n]? := by rw [e2.near.ids]
        unfold stIds at hid
        rw [List.getElem?_map, List.getElem?_map] at hid
        cases hs : a.storages[n]? with
        | none =>
          rw [hs] at hid
          cases hs' : a'.storages[n]? with
          | none => rfl
          | some _ => rw [hs'] at hid; cases hid
        | some s =>
          rw [hs] at hid
          cases hs' : a'.storages[n]? with
          | none => rw [hs'] at hid; cases hid
          | some s' =>
            rw [hs'] at hid
            simp only [Option.map_some, Option.some.injEq] at hid
            have o := h.col a (List.mem_of_getElem? b1) s (List.mem_of_getElem? hs)
            have o' := e2.near.col s' (List.mem_of_getElem? hs')
            have hinf : s'.2.info = s.2.info := by
              have := o.2.2; rw [← hid, o'.2] at this; exact Option.some.inj this
            have hlt : im.index < s.2.count := by
              rw [o.2.1]; exact (List.getElem?_eq_some_iff.1 b2).1
            have hlt' : im.index < s'.2.count := by
              have hc := q2 s.1
              rw [cellOf_eq e1, cellOf_eq b1, elemsOf_getElem? (by rw [hsh.ids]; exact hsh.sorted.nodup) hs, ← hid,
                elemsOf_getElem? (by rw [hsh'.ids]; exact hsh'.sorted.nodup) hs'] at hc
              simp only [Option.bind_some] at hc
              have h0 : im.index < s.2.elems.length := by rw [UVec.length_elems]; exact hlt
              rw [List.getElem?_eq_getElem h0] at hc
              rw [← UVec.length_elems]
              exact (List.getElem?_eq_some_iff.1 hc).1
            simp only
            rw [UVec.getRaw_eq o.1, UVec.getRaw_eq o'.1, if_pos hlt, if_pos hlt']
            simp only [UVec.size, hinf]

/-- The pointers to the components of `x`, whose metadata says row `r` of table `k`, before and after a call that changed the
columns only. -/
theorem Inv.ptr_at {w w' : World} (h : Inv w) (h1 : w'.entities = w.entities) (h2 : w'.metas = w.metas) {k r i : Nat}
    {a a' : Archetype} {x c : EcsId} {v v' : UVec} (ha : w.archetypes[k]? = some a) (hx : a.entities[r]? = some x)
    (ha' : w'.archetypes[k]? = some a') (hl : a'.compLookup = a.compLookup) (hs : a.storages[i]? = some (c, v))
    (hs' : a'.storages[i]? = some (c, v')) (hv' : UVec.Inv v') (hinf : v'.info = v.info) :
    w.getComponentMutDynamic x c = .ok (some ⟨.storage k i, r * v.size⟩) ∧
    w'.getComponentMutDynamic x c =
      if r < v'.count then .ok (some ⟨.storage k i, r * v.size⟩) else .error .unwrapNone := by
  have ham := List.mem_of_getElem? ha
  have hsh := h.shape a ham
  have o := h.col a ham _ (List.mem_of_getElem? hs)
  have hrow : rowOf w.archetypes k r = some x := by rw [rowOf_eq ha]; exact hx
  have hc : w.entities.Live c := (infoFn_some.1 o.2.2).1
  have hxL : w.entities.Live x := h.row_live ((row_iff x).2 ⟨_, _, hrow⟩)
  have alive : ∀ y, w'.isAlive y = w.isAlive y := by intro y; unfold World.isAlive; rw [h1]
  have met : w'.getEntityMeta x = w.getEntityMeta x := by unfold getEntityMeta; rw [h1, h2]
  have hlt : r < v.count := by rw [o.2.1]; exact (List.getElem?_eq_some_iff.1 hx).1
  have hlook : a.compLookup c = some i := by
    refine (hsh.look c i).2 ?_
    rw [← hsh.ids]; unfold stIds; rw [List.getElem?_map, hs]; rfl
  unfold getComponentMutDynamic
  rw [alive, alive, met]
  have hcl : w.isAlive c = .ok true := by
    rcases isAlive_answer h c with ⟨h3, h4⟩ | ⟨h3, h4⟩ | ⟨h3, h4⟩
    · exact absurd hc h4
    · exact absurd hc h4
    · exact h3
  rcases getEntityMeta_spec h x with ⟨g1, g2⟩ | ⟨g1, g2⟩ | ⟨g1, g2, g3, g4⟩ | ⟨im, cm, g1, g2, g3, g4, g5⟩
  · have := hxL.lt; omega
  · exact absurd hxL g2
  · exact absurd ((row_iff x).2 ⟨_, _, hrow⟩) g4
  · obtain ⟨e1, e2⟩ := h.row_inj g5 hrow
    have hxl : w.isAlive x = .ok true := by
      rcases isAlive_answer h x with ⟨h3, h4⟩ | ⟨h3, h4⟩ | ⟨h3, h4⟩
      · exact absurd hxL h4
      · exact absurd hxL h4
      · exact h3
    have hsz : v'.size = v.size := by unfold UVec.size; rw [hinf]
    simp only [hxl, hcl, g1, e1, e2, ha, ha', hl, hlook, hs, hs', UVec.getRaw_eq o.1, UVec.getRaw_eq hv', if_pos hlt, hsz, true_and]
    split <;> simp_all

/-! ### the two calls -/

theorem TornTab.refl {info : EcsId → Option TypeInfo} {x : Prop} {row : Nat} {a a' : Archetype}
    (h : StOk info (fun _ => a.entities.length) a.storages) (h1 : a'.compIds = a.compIds)
    (h2 : a'.compLookup = a.compLookup) (h3 : a'.entities = a.entities) (h4 : a'.storages = a.storages) :
    TornTab info x row a a' :=
  ⟨h1, h2, fun _ _ h => Or.inl (by rw [← h3]; exact h), fun _ _ h _ => by rw [h3]; exact h, by rw [h4]; exact Near.refl h⟩

/-- What `despawn` leaves behind when it unwinds. -/
structure DespawnTorn (pan : Panics) (w w' : World) (e : EcsId) (k row : Nat) (a : Archetype)
    (st' : List (EcsId × UVec)) (evs : List DropEv) : Prop where
  alive : w.entities.Live e
  any : w.archetypes.any (fun a => (a.compLookup e).isSome) = false
  getMeta : ∃ cm, w.getEntityMeta e = .ok (some ⟨⟨k, row⟩, cm⟩)
  tab : w.archetypes[k]? = some a
  at_ : a.entities[row]? = some e
  all : swapRemoveAllU row pan a.storages = .ok (st', evs, true)
  eq : w' = { w with
    archetypes := w.archetypes.set k { a with entities := swapRemove a.entities row, storages := st' }
    log := w.log ++ evs }

theorem despawnU_torn {pan : Panics} {w w' : World} (h : Inv w) {e : EcsId}
    (he : despawnU pan e w = .error .dropPanic w') : ∃ k row a st' evs, DespawnTorn pan w w' e k row a st' evs := by
  suffices hs : Tri (despawnU pan e) w (fun _ _ => True)
      (fun f w' => f = .dropPanic → ∃ k row a st' evs, DespawnTorn pan w w' e k row a st' evs) by
    unfold Tri at hs; rw [he] at hs; exact hs rfl
  unfold despawnU
  simp only [tri_bind, tri_get, tri_liftE]
  rcases isAlive_answer h e with ⟨h1, h2⟩ | ⟨h1, h2⟩ | ⟨h1, h2⟩
  · rw [h1]; intro hh; cases hh
  · rw [h1]; simp only [Bool.not_false, if_true, tri_pure]
  · rw [h1]
    simp only [Bool.not_true, Bool.false_eq_true, if_false]
    by_cases hany : w.archetypes.any (fun a => (a.compLookup e).isSome) = true
    · rw [if_pos hany]; intro hh; cases hh
    · rw [if_neg hany]
      have hun : ∀ a ∈ w.archetypes, e ∉ a.compIds := fun a ha hea =>
        hany (List.any_eq_true.2 ⟨a, ha, (looksUp_mem (h.shape a ha).look e).2 hea⟩)
      simp only [tri_bind, tri_liftE]
      rcases getEntityMeta_spec h e with ⟨g1, g2⟩ | ⟨g1, g2⟩ | ⟨g1, g2, g3, g4⟩ | ⟨im, cm, g1, g2, g3, g4, g5⟩
      · have := h2.lt; omega
      · exact absurd h2 g2
      · rw [g1]; intro hh; cases hh
      · rw [g1]
        simp only [unwrap, tri_step, tri_stepU]
        obtain ⟨a, a1, a2⟩ := rowOf_some g5
        have ham := List.mem_of_getElem? a1
        obtain ⟨A', metas', es', q1, q2, q3, q4⟩ := archDespawn_spec h a1 a2 hun
        rw [a1]
        simp only [tri_pure]
        obtain ⟨st', evs, u, s1, s2, s3, s4, s5⟩ := swapRemoveAllU_spec (pan := pan) (h.col a ham)
          (List.getElem?_eq_some_iff.1 a2).1
        cases u with
        | true =>
          have hd : a.despawnU pan e im.index w.metas =
              .ok ({ a with entities := swapRemove a.entities im.index, storages := st' }, w.metas, evs, true) := by
            unfold Archetype.despawnU
            simp only [a2, s1, ne_eq, not_true_eq_false, if_false, if_true]
          simp only [hd]
          intro _
          exact ⟨im.archetype, im.index, a, st', evs, h2, by simpa using hany, ⟨cm, g1⟩, a1, a2, s1, rfl⟩
        | false =>
          obtain ⟨t1, t2⟩ := s4 rfl
          have hd : a.despawnU pan e im.index w.metas = .ok (A', metas', rowEvs a.storages im.index, false) := by
            revert q1
            unfold Archetype.despawn Archetype.despawnU
            simp only [a2, s1, t1, ne_eq, not_true_eq_false, if_false, Bool.false_eq_true]
            intro q1
            split at q1
            · rw [if_pos (by assumption)]
              split at q1
              · rename_i hn
                simp only [hn]
                injection q1 with q1
                simp only [Prod.mk.injEq] at q1
                rw [q1.1, q1.2.1, q1.2.2]
              · rename_i y hn
                simp only [hn]
                split at q1
                · cases q1
                · rename_i m hm
                  simp only [hm]
                  injection q1 with q1
                  simp only [Prod.mk.injEq] at q1
                  rw [q1.1, q1.2.1, q1.2.2]
            · cases q1
          simp only [hd, q2]

theorem DespawnTorn.torn {pan : Panics} {w w' : World} (h : Inv w) {e : EcsId} {k row : Nat} {a : Archetype}
    {st' : List (EcsId × UVec)} {evs : List DropEv} (d : DespawnTorn pan w w' e k row a st' evs) : Torn w w' k row := by
  have ha := d.tab
  have hm := List.mem_of_getElem? ha
  have hrow := d.at_
  have hlt := (List.getElem?_eq_some_iff.1 hrow).1
  have hnear := swapRemoveAllU_near (h.col a hm) hlt d.all
  have hw' := d.eq
  subst hw'
  have hklt := (List.getElem?_eq_some_iff.1 ha).1
  refine ⟨rfl, rfl, rfl, ?_, ?_, ?_⟩
  · intro k' b hb
    show ∃ a', (w.archetypes.set k _)[k']? = some a' ∧ _
    rw [List.getElem?_set]
    by_cases hk : k = k'
    · subst hk
      rw [if_pos rfl, if_pos hklt]
      rw [ha] at hb; cases hb
      refine ⟨_, rfl, rfl, rfl, ?_, ?_, ⟨hnear.ids, hnear.col, ?_⟩⟩
      · intro r x hx
        simp only at hx
        rw [getElem?_swapRemove _ _ _ hlt] at hx
        split at hx
        · split at hx
          · exact Or.inr ⟨rfl, by rw [List.getLast?_eq_getElem?]; exact hx⟩
          · exact Or.inl hx
        · cases hx
      · intro r x hx hP
        obtain ⟨p1, p2⟩ := hP rfl
        have := (List.getElem?_eq_some_iff.1 hx).1
        simp only
        rw [getElem?_swapRemove _ _ _ hlt, if_pos (by omega), if_neg p1]
        exact hx
      · intro c r ⟨hr, hP⟩
        obtain ⟨p1, p2⟩ := hP rfl
        exact hnear.cell c r ⟨p1, by omega⟩
    · rw [if_neg hk]
      exact ⟨b, hb, TornTab.refl (h.col b (List.mem_of_getElem? hb)) rfl rfl rfl rfl⟩
  · intro k' b hb hn
    exfalso
    have h1 : k' < (w.archetypes.set k { a with entities := swapRemove a.entities row, storages := st' }).length :=
      (List.getElem?_eq_some_iff.1 hb).1
    rw [List.length_set] at h1
    have := List.getElem?_eq_none_iff.1 hn
    omega
  · intro b hb
    rcases List.mem_or_eq_of_mem_set hb with hb | hb
    · exact h.shape b hb
    · subst hb
      have hs := h.shape a hm
      exact ⟨hs.sorted, by simp only; rw [hnear.ids]; exact hs.ids, hs.look⟩

/-- What `remove_component_dynamic` leaves behind when it unwinds. -/
structure RemoveTorn (w w' : World) (e c : EcsId) (k row tar : Nat) (a : Archetype) : Prop where
  alive : w.entities.Live e
  getMeta : ∃ cm, w.getEntityMeta e = .ok (some ⟨⟨k, row⟩, cm⟩)
  tab : w.archetypes[k]? = some a
  at_ : a.entities[row]? = some e
  has : c ∈ a.compIds
  torn : Torn w w' k row
  rows : ∀ k' r, rowOf w'.archetypes k' r = rowOf w.archetypes k' r
  /-- Every column of the table has lost the row, the list of entities has not. -/
  cur : ∃ a', w'.archetypes[k]? = some a' ∧ a'.compIds = a.compIds ∧ a'.entities = a.entities ∧
    ∀ x, elemsOf a'.storages x = (elemsOf a.storages x).map (fun l => swapRemove l row)
  /-- The columns of the target have gained a row that belongs to nobody. -/
  tgt : ∃ b', k ≠ tar ∧ w'.archetypes[tar]? = some b' ∧ (∀ x, x ∈ b'.compIds ↔ x ∈ a.compIds ∧ x ≠ c) ∧
    ∀ p ∈ b'.storages, p.2.elems.length = b'.entities.length + 1 ∧
      p.2.elems[b'.entities.length]? = (elemsOf a.storages p.1).bind (fun l => l[row]?)

/-- The columns when the destructor of the removed value has panicked. -/
structure MoveTorn (w w' : World) (cur tar row : Nat) (c : EcsId) (A T : Archetype)
    (curSt tarSt : List (EcsId × UVec)) (evs : List DropEv) : Prop where
  ne : cur ≠ tar
  eq : w' = { w with
    archetypes := (w.archetypes.set cur { A with storages := curSt }).set tar { T with storages := tarSt }
    log := w.log ++ evs }
  curIds : stIds curSt = stIds A.storages
  tarIds : stIds tarSt = stIds T.storages
  curOk : ∀ p ∈ curSt, UVec.Inv p.2 ∧ infoFn w.entities w.metas p.1 = some p.2.info
  tarOk : StOk (infoFn w.entities w.metas) (fun _ => T.entities.length + 1) tarSt
  curEls : ∀ x, elemsOf curSt x = (elemsOf A.storages x).map (fun l => swapRemove l row)
  tarCell : ∀ x r, (elemsOf tarSt x).bind (fun l => l[r]?) =
    if r = T.entities.length then (if x = c then none else (elemsOf A.storages x).bind (fun l => l[row]?))
    else (elemsOf T.storages x).bind (fun l => l[r]?)

theorem moveRemoveRowU_torn {pan : Panics} {w w' : World} (h : Inv w) {cur tar row : Nat} {A T : Archetype}
    {e compId : EcsId} (hA : w.archetypes[cur]? = some A) (hT : w.archetypes[tar]? = some T)
    (hrow : A.entities[row]? = some e) (hid : compId ∈ A.compIds)
    (hids : ∀ x, x ∈ T.compIds ↔ x ∈ A.compIds ∧ x ≠ compId)
    (hok : moveRemoveRowU pan cur tar e row compId w = .ok (w', true)) :
    ∃ curSt tarSt evs, MoveTorn w w' cur tar row compId A T curSt tarSt evs := by
  have hAm := List.mem_of_getElem? hA
  have hTm := List.mem_of_getElem? hT
  have hrlt := (List.getElem?_eq_some_iff.1 hrow).1
  have hTid : compId ∉ T.compIds := fun hh => ((hids _).1 hh).2 rfl
  have hne : cur ≠ tar := by
    rintro rfl; rw [hA] at hT; injection hT with hT; subst hT; exact hTid hid
  have sA := h.shape A hAm
  have sT := h.shape T hTm
  have cA := h.col A hAm
  have cT := h.col T hTm
  have hAn : (stIds A.storages).Nodup := by rw [sA.ids]; exact sA.sorted.nodup
  have hfilter : stIds T.storages = (stIds A.storages).filter (fun i => i ≠ compId) := by
    rw [sA.ids, sT.ids]
    refine sT.sorted.ext (sA.sorted.filter _) ?_
    intro x
    simp [List.mem_filter, hids]
  revert hok
  unfold moveRemoveRowU
  rw [ArraySpec.C47_index_twice w.archetypes cur tar A T hne hA hT]
  simp only
  rcases moveRemove_spec (compId := compId) (row := row) 0 none hAn hfilter cA cT hrlt (fun _ => rfl) with
    ⟨f, m1, m2, m3⟩ | ⟨curSt, tarSt, sk, m1, m2, m3, m4, m5, m6, m7, m8, m9⟩
  · rw [m1]; intro hh; cases hh
  · rw [m1]
    simp only
    have hAid' : compId ∈ stIds A.storages := by rw [sA.ids]; exact hid
    rw [if_pos hAid'] at m9
    obtain ⟨n, n1, n2⟩ := m9
    rw [Nat.zero_add] at n1
    rw [n1]
    simp only
    rw [← m2] at n2
    obtain ⟨⟨pid, pv⟩, p1, p2⟩ : ∃ p, curSt[n]? = some p ∧ p.1 = compId := by
      unfold stIds at n2
      rw [List.getElem?_map] at n2
      cases hh : curSt[n]? with
      | none => rw [hh] at n2; cases n2
      | some p => rw [hh] at n2; injection n2 with n2; exact ⟨p, rfl, n2⟩
    simp only at p2
    subst p2
    rw [p1]
    simp only
    obtain ⟨v1, v2, v3⟩ := m4 _ (List.mem_of_getElem? p1)
    simp only [if_true] at v2
    have hcurn : (stIds curSt).Nodup := by rw [m2]; exact hAn
    obtain ⟨v', q1, q2, q3, q4, _⟩ := UVec.swapRemove_spec v1 (i := row) (by rw [v2]; exact hrlt)
    rw [q1]
    simp only
    have hpel : elemsOf curSt pid = some pv.elems := elemsOf_getElem? hcurn p1
    have h6 := m6 pid
    rw [if_pos rfl, hpel] at h6
    have hel := elemsOf_set hcurn p1 v'
    simp only at hel
    have hmemTA : ∀ c, c ≠ pid → (c ∈ stIds T.storages ↔ c ∈ stIds A.storages) := by
      intro c hc
      rw [sT.ids, sA.ids, hids]
      exact ⟨And.left, fun hh => ⟨hh, hc⟩⟩
    have hTnone : elemsOf T.storages pid = none := elemsOf_eq_none.2 (by rw [sT.ids]; exact hTid)
    have hset := stOk_set (cnt' := fun c => if c = pid then pv.count - 1 else A.entities.length - 1) hcurn m4 p1
      (p := (pid, pv)) (v := v') q2 q3 (by
        simp only [if_true]
        rw [← UVec.length_elems, q4, length_swapRemove, UVec.length_elems])
      (by intro c hc; simp only at hc; simp only [if_neg hc])
    split
    · intro hh
      injection hh with hh
      simp only [Prod.mk.injEq, and_true] at hh
      refine ⟨curSt.set n (pid, v'), tarSt, _, hne, hh.symm, by rw [stIds_set p1, m2], m3,
        fun p hp => ⟨(hset p hp).1, (hset p hp).2.2⟩, m5, ?_, ?_⟩
      · intro c
        rw [hel]
        by_cases hc : c = pid
        · subst hc; rw [if_pos rfl, ← h6, q4]; rfl
        · rw [if_neg hc, m6, if_neg hc]
      · intro c r
        rw [m7]
        by_cases hc : c = pid
        · subst hc; rw [hTnone, appRow_none_left]; simp
        · rw [appRow_eq cT cA hrlt c (hmemTA c hc), if_neg hc]
    · intro hh
      split at hh
      · cases hh
      · injection hh with hh; simp at hh

theorem removeDynU_torn {pan : Panics} {w w' : World} (h : Inv w) {e c : EcsId}
    (he : removeComponentDynamicU pan e c w = .error .dropPanic w') : ∃ k row tar a, RemoveTorn w w' e c k row tar a := by
  suffices hs : Tri (removeComponentDynamicU pan e c) w (fun _ _ => True)
      (fun f w' => f = .dropPanic → ∃ k row tar a, RemoveTorn w w' e c k row tar a) by
    unfold Tri at hs; rw [he] at hs; exact hs rfl
  unfold removeComponentDynamicU
  simp only [tri_bind, tri_get, tri_liftE]
  rcases isAlive_answer h e with ⟨h1, h2⟩ | ⟨h1, h2⟩ | ⟨h1, h2⟩
  · rw [h1]; intro hh; cases hh
  · rw [h1]; simp only [Bool.not_false, if_true, tri_pure]
  · rw [h1]
    simp only [Bool.not_true, Bool.false_eq_true, if_false, tri_bind, tri_liftE]
    rcases isAlive_answer h c with ⟨h3, h4⟩ | ⟨h3, h4⟩ | ⟨h3, h4⟩
    · rw [h3]; intro hh; cases hh
    · rw [h3]; simp only [Bool.not_false, if_true, tri_pure]
    · rw [h3]
      simp only [Bool.not_true, Bool.false_eq_true, if_false, tri_bind, tri_liftE]
      rcases getEntityMeta_spec h e with ⟨g1, g2⟩ | ⟨g1, g2⟩ | ⟨g1, g2, g3, g4⟩ | ⟨im, cm, g1, g2, g3, g4, g5⟩
      · have := h2.lt; omega
      · exact absurd h2 g2
      · rw [g1]; intro hh; cases hh
      · rw [g1]
        simp only [unwrap]
        obtain ⟨a, a1, a2⟩ := rowOf_some g5
        refine (resolveRemove_spec h a1 c).imp ?_ ?_
        · intro tar w1 ⟨r1, r2, r3, r4, b, b1, b2⟩
          rw [tri_stepU]
          obtain ⟨cc, hcc⟩ := r3.keep _ _ a1
          cases hm : moveRemoveRowU pan im.archetype tar e im.index c w1 with
          | error f =>
            simp only
            rintro rfl
            rcases moveRemoveRow_spec r2 hcc b1 a2 r1 b2 with ⟨f, m1, m2, m3⟩ | ⟨w', m, bs, m1, m2, m3, m4, m5⟩
            · rw [moveRemoveRowU_rel.1 f m1 m2] at hm
              injection hm with hm; subst hm; simp [Limit] at m2
            · obtain ⟨evs, q1, q2, q3⟩ := (moveRemoveRowU_rel (pan := pan)).2 _ m1
              by_cases ha : pan.fires evs = true
              · obtain ⟨w'', u1, _⟩ := q3 ha
                rw [u1] at hm; cases hm
              · rw [q2 ha] at hm; cases hm
          | ok q =>
            obtain ⟨w2, u⟩ := q
            cases u with
            | false => simp only
            | true =>
              simp only
              intro _
              obtain ⟨curSt, tarSt, evs, t⟩ := moveRemoveRowU_torn r2 hcc b1 a2 r1 b2 hm
              have hc1 := (List.getElem?_eq_some_iff.1 hcc).1
              have ht1 := (List.getElem?_eq_some_iff.1 b1).1
              have hget : ∀ k', w2.archetypes[k']? = if k' = tar then some { b with storages := tarSt }
                  else if k' = im.archetype then some { a with cache := cc, storages := curSt } else w1.archetypes[k']? := by
                intro k'
                have heq := t.eq
                subst heq
                simp only [List.getElem?_set, List.length_set]
                by_cases q1 : k' = tar
                · subst q1; rw [if_pos rfl, if_pos rfl, if_pos ht1]
                · rw [if_neg (Ne.symm q1), if_neg q1]
                  by_cases q2 : k' = im.archetype
                  · subst q2; rw [if_pos rfl, if_pos rfl, if_pos hc1]
                  · rw [if_neg (Ne.symm q2), if_neg q2]
              have hinfo : infoFn w1.entities w1.metas = infoFn w.entities w.metas := by rw [r3.ent, r3.metas]
              have hbm := List.mem_of_getElem? b1
              have ham := List.mem_of_getElem? a1
              have halt := (List.getElem?_eq_some_iff.1 a2).1
              refine ⟨im.archetype, im.index, tar, a, h2, ⟨cm, g1⟩, a1, a2, r1, ⟨?_, ?_, ?_, ?_, ?_, ?_⟩, ?_, ?_, ?_⟩
              · rw [← r3.ent, t.eq]
              · rw [← r3.metas, t.eq]
              · rw [← r3.typ, t.eq]
              · intro k' x hx
                obtain ⟨c', hc'⟩ := r3.keep _ _ hx
                have hcol := h.col x (List.mem_of_getElem? hx)
                rw [hget]
                by_cases q1 : k' = tar
                · subst q1
                  rw [b1] at hc'; injection hc' with hc'; subst hc'
                  rw [if_pos rfl]
                  refine ⟨_, rfl, rfl, rfl, fun r e hr => Or.inl hr, fun r e hr _ => hr, t.tarIds, ?_, ?_⟩
                  · intro p hp
                    have := t.tarOk p hp
                    rw [hinfo] at this
                    exact ⟨this.1, this.2.2⟩
                  · intro y r ⟨hr, _⟩
                    simp only
                    rw [t.tarCell, if_neg (by simp only; omega)]
                · rw [if_neg q1]
                  by_cases q2 : k' = im.archetype
                  · subst q2
                    rw [a1] at hx; cases hx
                    rw [if_pos rfl]
                    refine ⟨_, rfl, rfl, rfl, fun r e hr => Or.inl hr, fun r e hr _ => hr, t.curIds, ?_, ?_⟩
                    · intro p hp
                      have := t.curOk p hp
                      rw [hinfo] at this
                      exact this
                    · intro y r ⟨hr, hP⟩
                      obtain ⟨p1, p2⟩ := hP rfl
                      simp only
                      rw [t.curEls]
                      simp only
                      cases hy : elemsOf a.storages y with
                      | none => rfl
                      | some l =>
                        have hl : l.length = a.entities.length := by
                          obtain ⟨v, v1, v2⟩ := elemsOf_mem hy
                          rw [← v2, UVec.length_elems]
                          exact (hcol _ v1).2.1
                        simp only [Option.map_some, Option.bind_some]
                        exact swapRemove_other (by omega) p1 (by omega)
                  · rw [if_neg q2]
                    exact ⟨_, hc', TornTab.refl hcol rfl rfl rfl rfl⟩
              · intro k' x hx hn
                have hnone : ∀ r, rowOf w1.archetypes k' r = none := by
                  intro r
                  rw [r3.row]
                  unfold rowOf
                  rw [hn]; rfl
                rw [hget] at hx
                have hnil : ∀ y : Archetype, w1.archetypes[k']? = some y → y.entities = [] := by
                  intro y hy
                  have := hnone 0
                  rw [rowOf_eq hy] at this
                  cases hys : y.entities with
                  | nil => rfl
                  | cons z zs => rw [hys] at this; cases this
                by_cases q1 : k' = tar
                · subst q1; rw [if_pos rfl] at hx; cases hx; exact hnil b b1
                · rw [if_neg q1] at hx
                  by_cases q2 : k' = im.archetype
                  · subst q2; rw [a1] at hn; cases hn
                  · rw [if_neg q2] at hx; exact hnil x hx
              · intro x hx
                obtain ⟨k', hk'⟩ := List.mem_iff_getElem?.1 hx
                rw [hget] at hk'
                by_cases q1 : k' = tar
                · rw [if_pos q1] at hk'; cases hk'
                  have hs := r2.shape b hbm
                  exact ⟨hs.sorted, by simp only; rw [t.tarIds]; exact hs.ids, hs.look⟩
                · rw [if_neg q1] at hk'
                  by_cases q2 : k' = im.archetype
                  · rw [if_pos q2] at hk'; cases hk'
                    have hs := h.shape a ham
                    exact ⟨hs.sorted, by simp only; rw [t.curIds]; exact hs.ids, hs.look⟩
                  · rw [if_neg q2] at hk'; exact r2.shape x (List.mem_of_getElem? hk')
              · intro k' r
                rw [← r3.row]
                unfold rowOf
                rw [hget]
                by_cases q1 : k' = tar
                · subst q1; rw [if_pos rfl, b1]; rfl
                · rw [if_neg q1]
                  by_cases q2 : k' = im.archetype
                  · subst q2; rw [if_pos rfl, hcc]; rfl
                  · rw [if_neg q2]
              · refine ⟨{ a with cache := cc, storages := curSt }, ?_, rfl, rfl, t.curEls⟩
                rw [hget, if_neg t.ne, if_pos rfl]
              · refine ⟨{ b with storages := tarSt }, t.ne, by rw [hget, if_pos rfl], b2, ?_⟩
                intro p hp
                simp only at hp ⊢
                have hok := t.tarOk p hp
                refine ⟨by rw [UVec.length_elems]; exact hok.2.1, ?_⟩
                have hs := r2.shape b hbm
                have hcell := t.tarCell p.1 b.entities.length
                rw [elemsOf_of_mem (by rw [t.tarIds, hs.ids]; exact hs.sorted.nodup) hp, if_pos rfl, if_neg] at hcell
                · exact hcell
                · intro hpc
                  have : p.1 ∈ stIds tarSt := List.mem_map_of_mem hp
                  rw [t.tarIds, hs.ids, b2] at this
                  exact this.2 hpc
        · rintro f w1 ⟨rfl, -, -⟩ hh; cases hh

end World
end Ellecs
