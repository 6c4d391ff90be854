import Verif.Props.Safe
import Verif.Props.Torn
import Verif.Proofs.Drained
/-!
# C83: after a despawn that unwound, queries and further despawns are memory safe; spawning is not

`Drained w u`: starting from `w` the program has only made, used and dropped queries and despawned entities, and any of these
calls may have panicked and been caught, in particular because destructors panicked.
-/
namespace Ellecs.WorldSpec
open World Demo

theorem drained_loose {w u : World} {gs : List Guard} (hw : Safe w gs) (hd : Drained w u) : Loose u :=
  hw.inv.inv.loose.drained hd

/-- C83: no `despawn` touches memory it may not touch, even in a world earlier despawns have torn, and whichever destructors panic. -/
theorem C83_despawn {w u u' : World} {gs : List Guard} (hw : Safe w gs) (hd : Drained w u) {pan : Panics} {e : EcsId} {f : Fault}
    (h : despawnU pan e u = .error f u') : (∀ x, f ≠ .ub x) ∧ f ≠ .fuel := by
  have := despawnU_loose (pan := pan) (drained_loose hw hd) e
  unfold Tri at this; rw [h] at this; exact this.1

/-- C83: and no value is lost or dropped twice: what has been dropped and what is stored are together always the same values. -/
theorem C83_conserved {w u u' : World} {gs : List Guard} (hw : Safe w gs) (hd : Drained w u) {pan : Panics} {e : EcsId}
    (h : (∃ b, despawnU pan e u = .ok b u') ∨ ∃ f, despawnU pan e u = .error f u') :
    (u'.storedEvs ++ u'.log).Perm (u.storedEvs ++ u.log) := by
  have := despawnU_loose (pan := pan) (drained_loose hw hd) e
  unfold Tri at this
  rcases h with ⟨b, h⟩ | ⟨f, h⟩
  · rw [h] at this; exact this.2
  · rw [h] at this; exact this.2.2

/-- C83: the world can be dropped. -/
theorem C83_drop {w u : World} {gs : List Guard} (hw : Safe w gs) (hd : Drained w u) : ∃ evs, dropWorld u = .ok evs :=
  ⟨_, (drained_loose hw hd).droppable.dropWorld⟩

theorem acquireAt_fault {ls : List RwLock} {b : Bool} {i : Nat} {f : Fault} (h : acquireAt ls b i = .error f) :
    f = .indexOob ∨ f = .deadlock ∨ f = .poisoned := by
  unfold acquireAt at h
  split at h
  · injection h with h; exact Or.inl h.symm
  · split at h
    · rename_i l hl f' hf
      injection h with h; subst h
      cases b
      · simp only [Bool.false_eq_true, if_false, RwLock.read] at hf
        split at hf
        · injection hf with hf; exact Or.inr (Or.inl hf.symm)
        · split at hf
          · injection hf with hf; exact Or.inr (Or.inr hf.symm)
          · cases hf
      · simp only [if_true, RwLock.write] at hf
        split at hf
        · injection hf with hf; exact Or.inr (Or.inl hf.symm)
        · split at hf
          · injection hf with hf; exact Or.inr (Or.inr hf.symm)
          · cases hf
    · cases h

theorem acquireStatic_fault {w : World} : ∀ (fs : List Fetch) {ls ls' : List RwLock} {done : List Guard} {f : Fault},
    acquireAllStatic w done ls fs = .error (f, ls') → f = .indexOob ∨ f = .deadlock ∨ f = .poisoned := by
  intro fs
  induction fs with
  | nil => intro _ _ _ _ h; cases h
  | cons x xs ih =>
    intro ls ls' done f h
    unfold acquireAllStatic at h
    split at h
    · rename_i f' hf
      injection h with h; injection h with h _; subst h
      cases x with
      | ecsId => cases hf
      | «mut» c =>
        unfold Fetch.acquireStatic at hf
        simp only at hf
        split at hf
        · injection hf with hf; exact Or.inl hf.symm
        · exact acquireAt_fault hf
      | immut c =>
        unfold Fetch.acquireStatic at hf
        simp only at hf
        split at hf
        · injection hf with hf; exact Or.inl hf.symm
        · exact acquireAt_fault hf
    · exact ih h

/-- C83: making a query can only panic or wait for ever. -/
theorem C83_query_fault {u u' : World} {ps : List Param} {f : Fault} (h : query ps u = .error f u') :
    f = .indexOob ∨ f = .deadlock ∨ f = .poisoned := by
  unfold query at h
  split at h
  · cases h
  · split at h
    · rename_i f' ls hh
      injection h with h _; subst h
      exact acquireStatic_fault _ hh
    · cases h

/-! ## What the references and pointers may be used for -/

theorem validRef_wide {w : World} (h : Wide w) {t : Ty} {c : EcsId} (ht : w.typeMap t = some c) {p : Ptr} {e : EcsId}
    (hp : w.PointsAt p e c) : ValidRef w t p e := by
  obtain ⟨i, h1, ⟨bs, h2, h3, h4⟩, h5⟩ := hp.wide h
  have hi : i.layout.size = t.size := by
    obtain ⟨hl, m, hm, hi⟩ := infoFn_some.1 h1
    rw [h.type.comp t c ht hl] at hm
    injection hm with hm
    subst hm
    rw [← hi]; rfl
  rw [hi] at h2 h4 h5
  exact ⟨⟨bs, h2, ⟨c, ht, h3⟩, h4⟩, h5⟩

theorem row_valid_wide {w u : World} (hs : SameShape w u) (hi : Wide u) {e : EcsId} {ps : List Param} {items : List Item}
    (hd : Pairs (Denotes w e) ps items) : ∀ i ∈ items, ∀ t p, RefersTo i t p → ValidRef u t p e := by
  intro i hi' t p hr
  obtain ⟨m, hm⟩ := List.mem_iff_getElem?.1 hi'
  obtain ⟨x, x1, x2⟩ := Pairs.at' hd hm
  have htm : u.typeMap = w.typeMap := (congrArg World.typeMap hs).symm
  cases x with
  | ids => rcases hr with rfl | rfl <;> cases x2
  | «mut» t' =>
    obtain ⟨p', c, rfl, y1, y2⟩ := x2
    rcases hr with hr | hr <;> cases hr
    exact validRef_wide hi (htm ▸ y1) (SameShape.pointsAt hs y2)
  | ref t' =>
    obtain ⟨p', c, rfl, y1, y2⟩ := x2
    rcases hr with hr | hr <;> cases hr
    exact validRef_wide hi (htm ▸ y1) (SameShape.pointsAt hs y2)

theorem validPtr_comp_wide {w : World} (h : Wide w) {e c : EcsId} {p : Ptr} (hp : w.PointsAt p e c) :
    ∃ m, w.InfoIs c m ∧ (∃ bs, w.readPtr p m.layout.size = .ok bs) ∧ ∀ bs, bs.length = m.layout.size → ∃ w', w.writePtr p bs = .ok w' := by
  obtain ⟨i, h1, ⟨bs, h2, _, _⟩, h5⟩ := hp.wide h
  obtain ⟨m, hm, rfl⟩ := infoIs_of_fn h1
  exact ⟨m, hm, ⟨bs, h2⟩, h5⟩

theorem validPtr_wide {w : World} (h : Wide w) {e : EcsId} {f : Fetch} {p : Ptr} (hp : FetchAt w e f p) : ValidPtr w f p := by
  cases f with
  | ecsId => obtain ⟨k, r, a, h1, h2, h3⟩ := hp; exact ⟨k, r, a, h3, h1, (List.getElem?_eq_some_iff.1 h2).1⟩
  | «mut» c => exact validPtr_comp_wide h hp
  | immut c => exact validPtr_comp_wide h hp

/-! ## Queries -/

/-- C83: a static query made in the torn world `u`; `v` is what the program makes of the world while the query is alive.  See
`C61_static`. -/
theorem C83_static {w u u' v : World} {gs : List Guard} (hw : Safe w gs) (hd : Drained w u) {ps : List Param} {q : StaticQuery}
    (hq : query ps u = .ok q u') (hv : Drained u' v) (hs : SameShape u' v) :
    (∀ f, q.iter u' = .error f → f = .unwrapNone) ∧
    ∀ it, q.iter u' = .ok it → ∀ s, Steps (fun s => StaticIter.next u' s) it s →
      (∀ f, s.next v = .error f → f = .indexOob ∨ f = .unwrapNone) ∧
      ∀ items s', s.next v = .ok (some items, s') → ∃ e, v.Row e ∧ ∀ i ∈ items, ∀ t p, RefersTo i t p → ValidRef v t p e := by
  have hl := drained_loose hw (.query ps q hd hq)
  have hi' : Wide u' := hl.wide
  have hiv : Wide v := (hl.drained hv).wide
  rcases staticIter_safe hq with h1 | ⟨it, h1, h2⟩
  · rw [h1]
    exact ⟨fun f hf => by injection hf with hf; exact hf.symm, fun it hit => by cases hit⟩
  · rw [h1]
    refine ⟨fun f hf => (by cases hf), fun it' hit => ?_⟩
    injection hit with hit; subst hit
    intro s hst
    have hsafe : StaticSafe u' ps s := hst.keep (P := StaticSafe u' ps) (fun s x s' hp hn => by
      rcases staticNext_safe hi' hp with ⟨f, e1, _⟩ | ⟨x1, s1, e1, e2, _⟩
      · simp only [e1] at hn; cases hn
      · simp only [e1] at hn
        injection hn with hn; injection hn with _ hn; subst hn; exact e2) h2
    rw [(C14_values_irrelevant hs).1 s]
    rcases staticNext_safe hi' hsafe with ⟨f, e1, e2⟩ | ⟨x1, s1, e1, e2, e3⟩
    · rw [e1]
      exact ⟨fun f' hf => by injection hf with hf; subst hf; exact e2, fun items s' hh => by cases hh⟩
    · rw [e1]
      refine ⟨fun f' hf => (by cases hf), fun items s' hh => ?_⟩
      injection hh with hh; injection hh with hh _; subst hh
      obtain ⟨e, r1, r2⟩ := e3 items rfl
      exact ⟨e, SameShape.row hs r1, row_valid_wide hs hiv r2⟩

/-- C83: `StaticQuery::get` with any id.  The references may be those of another entity (`C53_despawn_confused`), but they may be
used. -/
theorem C83_get {w u u' v : World} {gs : List Guard} (hw : Safe w gs) (hd : Drained w u) {ps : List Param} {q : StaticQuery}
    (hq : query ps u = .ok q u') (hv : Drained u' v) (hs : SameShape u' v) (e : EcsId) :
    (∀ f, q.get v e = .error f → f = .noGeneration ∨ f = .indexOob ∨ f = .getAssert) ∧
    ∀ items, q.get v e = .ok (some items) → ∃ x, v.Row x ∧ ∀ i ∈ items, ∀ t p, RefersTo i t p → ValidRef v t p x := by
  have hl := drained_loose hw (.query ps q hd hq)
  have hi' : Wide u' := hl.wide
  have hiv : Wide v := (hl.drained hv).wide
  rw [(C14_values_irrelevant hs).2.2.2 q e]
  obtain ⟨h1, h2, h3, h4⟩ := query_ok hq
  have hal : allFetches u ps = allFetches u' ps := by
    obtain ⟨ls, hls, rfl⟩ := h2
    cases hx : allFetches u ps with
    | some fs => exact (allFetches_bound (w := { u with locks := ls }) |>.2 ((allFetches_bound (w := u)).1 hx)).symm
    | none => exact (allFetches_none (w := { u with locks := ls }) |>.2 ((allFetches_none (w := u)).1 hx)).symm
  unfold StaticQuery.get
  have hall : u'.isAlive e = u'.entities.isAlive e := rfl
  rcases u'.entities.isAlive_cases e with ⟨i1, i2⟩ | ⟨i1, i2, _⟩ | ⟨i1, i2⟩
  · rw [hall, i1]
    exact ⟨fun f hf => by injection hf with hf; exact Or.inl hf.symm, fun items hh => by cases hh⟩
  · rw [hall, i1]
    exact ⟨fun f hf => (by cases hf), fun items hh => by cases hh⟩
  · rw [hall, i1]
    simp only
    cases hm : u'.getEntityMeta e with
    | error f =>
      unfold getEntityMeta at hm
      rw [i1] at hm
      simp only at hm
      split at hm <;> cases hm
    | ok o =>
      cases o with
      | none => exact ⟨fun f hf => (by cases hf), fun items hh => by cases hh⟩
      | some m =>
        simp only
        cases ha : u'.archetypes[m.inst.archetype]? with
        | none => exact ⟨fun f hf => by injection hf with hf; exact Or.inr (Or.inl hf.symm), fun items hh => by cases hh⟩
        | some a =>
          simp only
          by_cases hlt : m.inst.index < a.entities.length
          · rw [if_pos hlt, h3, hal, h1]
            obtain ⟨x, hx⟩ : ∃ x, a.entities[m.inst.index]? = some x := ⟨_, List.getElem?_eq_getElem hlt⟩
            cases hf : allFetches u' ps with
            | none => exact ⟨fun f hf => (by cases hf), fun items hh => by cases hh⟩
            | some fs =>
              have hb := allFetches_bound.1 hf
              rcases createPtrs_cell hi' ha hb with ⟨hsu, hcp⟩ | ⟨hsu, hcp⟩
              · have ho := offsetPtrs_cell hi' ha hb hsu (r := 0) (n := m.inst.index) (by omega)
                rw [Nat.zero_add] at ho
                simp only [hcp, ho, castPtrs_cell hi' ha hb hsu hx]
                refine ⟨fun f hf => (by cases hf), fun items hh => ?_⟩
                injection hh with hh; injection hh with hh; subst hh
                exact ⟨x, SameShape.row hs ⟨_, _, a, ha, hx⟩,
                  row_valid_wide hs hiv (zip_denotes hb (rows_fetch hi' ha hx hsu))⟩
              · simp only [hcp]
                exact ⟨fun f hf => (by cases hf), fun items hh => by cases hh⟩
          · rw [if_neg hlt]
            exact ⟨fun f hf => by injection hf with hf; exact Or.inr (Or.inr hf.symm), fun items hh => by cases hh⟩

/-- C83: a dynamic query, see `C83_static`. -/
theorem C83_dynamic {w u u' v : World} {gs : List Guard} (hw : Safe w gs) (hd : Drained w u) {fs : List Fetch} {q : DynQuery}
    (hq : queryDynamic fs u = .ok q u') (hv : Drained u' v) (hs : SameShape u' v) :
    (∀ f, q.iter u' = .error f → f = .unwrapNone) ∧
    ∀ it, q.iter u' = .ok it → ∀ s, Steps (fun s => DynIter.next u' s) it s →
      (∀ f, s.next v = .error f → f = .indexOob ∨ f = .unwrapNone) ∧
      ∀ row s', s.next v = .ok (some row, s') → Pairs (ValidPtr v) fs row := by
  have hl := drained_loose hw (.queryDynamic fs q hd hq)
  have hi' : Wide u' := hl.wide
  have hiv : Wide v := (hl.drained hv).wide
  rcases dynIter_safe hq with h1 | ⟨it, h1, h2⟩
  · rw [h1]
    exact ⟨fun f hf => by injection hf with hf; exact hf.symm, fun it hit => by cases hit⟩
  · rw [h1]
    refine ⟨fun f hf => (by cases hf), fun it' hit => ?_⟩
    injection hit with hit; subst hit
    intro s hst
    have hsafe : DynSafe u' fs s := hst.keep (P := DynSafe u' fs) (fun s x s' hp hn => by
      rcases dynNext_safe hi' hp with ⟨f, e1, _⟩ | ⟨x1, s1, e1, e2, _⟩
      · simp only [e1] at hn; cases hn
      · simp only [e1] at hn
        injection hn with hn; injection hn with _ hn; subst hn; exact e2) h2
    rw [(C14_values_irrelevant hs).2.1 s]
    rcases dynNext_safe hi' hsafe with ⟨f, e1, e2⟩ | ⟨x1, s1, e1, e2, e3⟩
    · rw [e1]
      exact ⟨fun f' hf => by injection hf with hf; subst hf; exact e2, fun items s' hh => by cases hh⟩
    · rw [e1]
      refine ⟨fun f' hf => (by cases hf), fun row s' hh => ?_⟩
      injection hh with hh; injection hh with hh _; subst hh
      obtain ⟨e, r1, r2⟩ := e3 row rfl
      exact r2.imp (fun f p _ hp => validPtr_wide hiv (SameShape.fetchAt hs hp))

/-- C83: the columns of a dynamic query have the length that is reported, which is that of the list of entities and not that of the
column, and each element may be used. -/
theorem C83_columns {w u u' v : World} {gs : List Guard} (hw : Safe w gs) (hd : Drained w u) {fs : List Fetch} {q : DynQuery}
    (hq : queryDynamic fs u = .ok q u') (hv : Drained u' v) (hs : SameShape u' v) :
    (∀ f, q.columnIter u' = .error f → f = .unwrapNone) ∧
    ∀ it, q.columnIter u' = .ok it → ∀ s, Steps (fun s => ColumnIter.next u' s) it s →
      (∀ f, s.next v = .error f → f = .indexOob ∨ f = .unwrapNone) ∧
      ∀ item s', s.next v = .ok (some item, s') →
        Pairs (fun f x => ∀ r < x.2, ∃ n, FetchSize v f n ∧ ValidPtr v f ⟨x.1.col, x.1.off + r * n⟩) fs item := by
  have hl := drained_loose hw (.queryDynamic fs q hd hq)
  have hi' : Wide u' := hl.wide
  have hiv : Wide v := (hl.drained hv).wide
  rcases columnIter_safe hq with h1 | ⟨it, h1, h2, h3⟩
  · rw [h1]
    exact ⟨fun f hf => by injection hf with hf; exact hf.symm, fun it hit => by cases hit⟩
  · rw [h1]
    refine ⟨fun f hf => (by cases hf), fun it' hit => ?_⟩
    injection hit with hit; subst hit
    intro s hst
    have hsafe : s.fetches = fs ∧ s.archs.Good := hst.keep (P := fun s => s.fetches = fs ∧ s.archs.Good) (fun s x s' hp hn => by
      rcases columnNext_safe hi' hp.1 hp.2 with ⟨f, e1, _⟩ | ⟨x1, s1, e1, e2, _⟩
      · simp only [e1] at hn; cases hn
      · simp only [e1] at hn
        injection hn with hn; injection hn with _ hn; subst hn; exact e2) ⟨h2, h3⟩
    rw [(C14_values_irrelevant hs).2.2.1 s]
    rcases columnNext_safe hi' hsafe.1 hsafe.2 with ⟨f, e1, e2⟩ | ⟨x1, s1, e1, e2, e3⟩
    · rw [e1]
      exact ⟨fun f' hf => by injection hf with hf; subst hf; exact e2, fun items s' hh => by cases hh⟩
    · rw [e1]
      refine ⟨fun f' hf => (by cases hf), fun item s' hh => ?_⟩
      injection hh with hh; injection hh with hh _; subst hh
      obtain ⟨k, hk⟩ := e3 item rfl
      refine hk.imp (fun f x _ hx r hr => ?_)
      obtain ⟨a, a1, a2, a3⟩ := hx
      obtain ⟨e, he⟩ : ∃ e, a.entities[r]? = some e := ⟨_, List.getElem?_eq_getElem (by rw [← a2]; exact hr)⟩
      have hcomp : ∀ {c : EcsId} {j : Nat} {x : UVec}, a.storages[j]? = some (c, x) →
          ∃ m, v.InfoIs c m ∧ v.PointsAt ⟨.storage k j, r * m.layout.size⟩ e c := by
        intro c j x hj
        have hp : u'.PointsAt ⟨.storage k j, r * x.size⟩ e c := ⟨k, j, r, a, x, a1, he, hj, rfl⟩
        have hp' := SameShape.pointsAt hs hp
        obtain ⟨a', c1, c2, c3⟩ := SameShape.table hs a1
        obtain ⟨v', c4, c5⟩ := c3 j c x hj
        obtain ⟨_, _, q3⟩ := hiv.col a' (List.mem_of_getElem? c1) _ (List.mem_of_getElem? c4)
        obtain ⟨m, hm, hinf⟩ := infoIs_of_fn q3
        refine ⟨m, hm, ?_⟩
        have hvs : x.size = m.layout.size := by
          rw [← c5]; unfold UVec.size; rw [← hinf]; rfl
        rw [← hvs]; exact hp'
      cases f with
      | ecsId =>
        simp only at a3
        rw [a3]
        obtain ⟨a', b1, b2, _⟩ := SameShape.table hs a1
        refine ⟨8, rfl, k, r, a', ?_, b1, ?_⟩
        · simp only [Nat.zero_add, Nat.mul_comm]
        · rw [b2, ← a2]; exact hr
      | «mut» c =>
        obtain ⟨j, x, hj, hx⟩ := a3
        obtain ⟨m, hm, hp⟩ := hcomp hj
        rw [hx]
        refine ⟨m.layout.size, ⟨m, hm, rfl⟩, ?_⟩
        rw [show (⟨.storage k j, 0⟩ : Ptr).off + r * m.layout.size = r * m.layout.size from Nat.zero_add _]
        exact validPtr_wide hiv (f := .mut c) hp
      | immut c =>
        obtain ⟨j, x, hj, hx⟩ := a3
        obtain ⟨m, hm, hp⟩ := hcomp hj
        rw [hx]
        refine ⟨m.layout.size, ⟨m, hm, rfl⟩, ?_⟩
        rw [show (⟨.storage k j, 0⟩ : Ptr).off + r * m.layout.size = r * m.layout.size from Nat.zero_add _]
        exact validPtr_wide hiv (f := .immut c) hp

/-- C83: `get_component_mut_dynamic` with any ids.  The pointer may be to a row the list of entities does not have any more. -/
theorem C83_component_ptr {w u : World} {gs : List Guard} (hw : Safe w gs) (hd : Drained w u) (e c : EcsId) :
    (∀ f, u.getComponentMutDynamic e c = .error f → f = .noGeneration ∨ f = .indexOob ∨ f = .unwrapNone) ∧
    ∀ p, u.getComponentMutDynamic e c = .ok (some p) → ValidPtr u (.mut c) p := by
  have hl := drained_loose hw hd
  unfold getComponentMutDynamic
  have halive : ∀ x : EcsId, (∀ f, u.isAlive x = .error f → f = .noGeneration) := by
    intro x f hf
    rcases u.entities.isAlive_cases x with ⟨i1, i2⟩ | ⟨i1, i2, _⟩ | ⟨i1, i2⟩ <;> (unfold World.isAlive at hf; rw [i1] at hf; cases hf)
    rfl
  cases h1 : u.isAlive e with
  | error f => exact ⟨fun f' hf => by injection hf with hf; subst hf; exact Or.inl (halive e _ h1), fun p hp => by cases hp⟩
  | ok b =>
    cases b with
    | false => exact ⟨fun f hf => (by cases hf), fun p hp => by cases hp⟩
    | true =>
      simp only
      cases h2 : u.isAlive c with
      | error f => exact ⟨fun f' hf => by injection hf with hf; subst hf; exact Or.inl (halive c _ h2), fun p hp => by cases hp⟩
      | ok b =>
        cases b with
        | false => exact ⟨fun f hf => (by cases hf), fun p hp => by cases hp⟩
        | true =>
          simp only
          cases hm : u.getEntityMeta e with
          | error f =>
            unfold getEntityMeta at hm
            unfold World.isAlive at h1
            rw [h1] at hm
            simp only at hm
            split at hm <;> cases hm
          | ok o =>
            cases o with
            | none => exact ⟨fun f hf => (by cases hf), fun p hp => by cases hp⟩
            | some m =>
              simp only
              cases ha : u.archetypes[m.inst.archetype]? with
              | none => exact ⟨fun f hf => by injection hf with hf; exact Or.inr (Or.inl hf.symm), fun p hp => by cases hp⟩
              | some a =>
                simp only
                have hsh := hl.wide.shape a (List.mem_of_getElem? ha)
                cases hn : a.compLookup c with
                | none => exact ⟨fun f hf => by injection hf with hf; exact Or.inr (Or.inl hf.symm), fun p hp => by cases hp⟩
                | some n =>
                  simp only
                  cases hs : a.storages[n]? with
                  | none => exact ⟨fun f hf => by injection hf with hf; exact Or.inr (Or.inl hf.symm), fun p hp => by cases hp⟩
                  | some s =>
                    obtain ⟨c', x⟩ := s
                    obtain ⟨q1, _, _⟩ := hl.wide.col a (List.mem_of_getElem? ha) _ (List.mem_of_getElem? hs)
                    simp only
                    rw [UVec.getRaw_eq q1]
                    by_cases hlt : m.inst.index < x.count
                    · rw [if_pos hlt]
                      refine ⟨fun f hf => (by cases hf), fun p hp => ?_⟩
                      injection hp with hp; injection hp with hp; subst hp
                      have hcc : c' = c := by
                        have h5 := (hsh.look c n).1 hn
                        have h6 : (stIds a.storages)[n]? = some c' := by unfold stIds; rw [List.getElem?_map, hs]; rfl
                        rw [hsh.ids, h5] at h6
                        exact (Option.some.inj h6).symm
                      subst hcc
                      obtain ⟨e1, e2, e3, e4, e5⟩ := cell_wide hl.wide ha hs hlt
                      obtain ⟨cm, hcm, hinf⟩ := infoIs_of_fn e1
                      have hsz : cm.layout.size = x.size := by unfold UVec.size; rw [← hinf]; rfl
                      exact ⟨cm, hcm, ⟨_, by rw [hsz]; exact e3⟩, fun bs hb => e5 bs (by rw [← hsz]; exact hb)⟩
                    · rw [if_neg hlt]
                      exact ⟨fun f hf => by injection hf with hf; exact Or.inr (Or.inr hf.symm), fun p hp => by cases hp⟩

/-! ## Spawning -/

/-- The world after a `despawn` in which the destructor of the first component panicked. -/
def tornPair : World := after (despawnU panA (ent 6) pair)

/-- The call that spawns an entity with the two components of the torn table. -/
def respawn : M Unit := (Call.spawn .plain [.with tB (val 8 3), .with tA (val 4 3), .build]).exec

/-- C83 does not extend to spawning: after a `despawn` that unwound, `build` pushes a value onto a column that is already too
long and panics; the list of entities has grown, the other columns have not.  A query then reads a value that is not there. -/
theorem C83_spawn_unsound : ∃ (w w1 w2 : World) (pan : Panics) (e : EcsId), Reachable w ∧
    despawnU pan e w = .error .dropPanic w1 ∧ respawn w1 = .error .buildLenAssert w2 ∧
    ∃ q w' it, World.query [.ref tA] w2 = .ok q w' ∧ q.iter w' = .ok it ∧
      callN (StaticIter.next w') 3 it = .error (.ub .readOob) :=
  ⟨pair, tornPair, after (respawn tornPair), panA, ent 6, pair_reachable, eq_of_endsWith (by decide +kernel),
    eq_of_endsWith (by decide +kernel), queryFails_iff (by decide +kernel)⟩

/-! ## Concrete cases -/

theorem tornPair_made : despawnU panA (ent 6) pair = .error .dropPanic tornPair := eq_of_endsWith (by decide +kernel)
theorem tornPair_drained : Drained pair tornPair := .despawnPanic panA (ent 6) .dropPanic .refl tornPair_made
theorem pair_safe : Safe pair [] := C61_covers pair_reachable

-- the column of B is longer than the list of entities, and the entity 6 is alive without having a row
example : (tornPair.archetypes.map (fun a => (a.entities.length, a.storages.map (fun p => p.2.count))))[1]? = some (1, [1, 2]) ∧
    tornPair.Alive (ent 6) := by decide +kernel

/-- A query for both components in the torn world. -/
def tornQuery : StaticQuery × World :=
  match World.query [.ids, .mut tA, .ref tB] tornPair with
  | .ok q w => (q, w)
  | .error _ w => (⟨[], [], none⟩, w)
theorem tornQuery_made : World.query [.ids, .mut tA, .ref tB] tornPair = .ok tornQuery.1 tornQuery.2 := by
  have h : (World.query [.ids, .mut tA, .ref tB] tornPair matches .ok _ _) = true := by decide +kernel
  unfold tornQuery
  split at h
  · rename_i q w hq; rw [hq]
  · cases h

-- it yields the one row of the torn table, and `get` with the id of the despawned entity the same references
example : ((tornQuery.1.iter tornQuery.2).toOption.bind (fun it => (callN (StaticIter.next tornQuery.2) 1 it).toOption)).isSome = true ∧
    (tornQuery.1.get tornQuery.2 (ent 6)).toOption = some (some [.id ⟨1, 5⟩, .mut tA ⟨.storage 1 0, 0⟩, .ref tB ⟨.storage 1 1, 0⟩]) := by
  decide +kernel
-- the stale metadata of the entity 5 leads to the row the list of entities does not have any more
example : (tornPair.getComponentMutDynamic ⟨1, 5⟩ (ent 2)).toOption = some (some ⟨.storage 1 1, 8⟩) ∧
    (tornPair.getComponentMutDynamic ⟨1, 5⟩ (ent 1)).toOption = none := by decide +kernel

example := C83_static pair_safe tornPair_drained tornQuery_made .refl rfl
example := C83_get pair_safe tornPair_drained tornQuery_made .refl rfl (ent 6)
example := C83_component_ptr pair_safe tornPair_drained ⟨1, 5⟩ (ent 2)
example := C83_drop pair_safe tornPair_drained

/-- A dynamic query in the torn world. -/
def tornDyn : DynQuery × World :=
  match World.queryDynamic [.ecsId, .mut (ent 1), .immut (ent 2)] tornPair with
  | .ok q w => (q, w)
  | .error _ w => (⟨[], [], false⟩, w)
theorem tornDyn_made : World.queryDynamic [.ecsId, .mut (ent 1), .immut (ent 2)] tornPair = .ok tornDyn.1 tornDyn.2 := by
  have h : (World.queryDynamic [.ecsId, .mut (ent 1), .immut (ent 2)] tornPair matches .ok _ _) = true := by decide +kernel
  unfold tornDyn
  split at h
  · rename_i q w hq; rw [hq]
  · cases h
example := C83_dynamic pair_safe tornPair_drained tornDyn_made .refl rfl
example := C83_columns pair_safe tornPair_drained tornDyn_made .refl rfl

-- despawning the entity 6 again panics, and so does despawning the entity 5, whose row is not where its metadata says; the entity 3 can be despawned
example : endsWith (despawnU panA (ent 6) tornPair) .despawnAssert = true ∧ endsWith (despawnU panA ⟨1, 5⟩ tornPair) .indexOob = true ∧
    endsOk (despawnU panB (ent 3) tornPair) true = true := by decide +kernel
example := C83_despawn pair_safe tornPair_drained (pan := panA) (e := ⟨1, 5⟩) (f := .indexOob) (eq_of_endsWith (by decide +kernel))
example := C83_conserved pair_safe tornPair_drained (pan := panB) (e := ent 3) (Or.inl ⟨true, eq_of_endsOk (by decide +kernel)⟩)
-- the second destructor that panics
example := C83_conserved pair_safe tornPair_drained (pan := panA) (e := ent 3) (Or.inr ⟨.dropPanic, eq_of_endsWith (by decide +kernel)⟩)
-- a query that asks twice for the same component to write it waits for itself
example := C83_query_fault (u := tornPair) (ps := [.mut tA, .ref tA]) (f := .deadlock) (eq_of_endsWith (by decide +kernel))

end Ellecs.WorldSpec
