import Verif.Props.Safety
import Verif.Props.Build
import Verif.Props.Locks
import Verif.Proofs.Safe
import Verif.Proofs.Unwind
/-!
# C61: leaking queries and builders is safe

`Safe w gs` allows everything safe code can do with a world, including leaking queries and builders, except: calling
`build` again on the same builder (after it returned or panicked); `build` with a component supplied twice when some
table fits; going on after a panic because an allocation would exceed `isize::MAX` bytes; recycling the slot of a
despawned type `2^32` times (other slots may be recycled any number of times: `C87`).  The first two are known to break the world (`C27_build_twice`, `C27_build_again`, `C25_row_left_behind`).
-/
namespace Ellecs.WorldSpec
open World Demo

/-- All the histories of the other properties are covered. -/
theorem C61_covers {w : World} (h : Reachable w) : Safe w [] := by
  induction h with
  | new => exact .new
  | ok c _ hc he hn ih => exact .ok c ih hc he hn.type
  | panic c f _ hc he hl hd hn ih => exact .panic c f ih hc he hl hd hn.type

/-- C61: no call touches memory it may not touch, and none of the model's loops stops early. -/
theorem C61_calls {w w' : World} {gs : List Guard} (hw : Safe w gs) {c : Call} (hc : c.Ok w) {f : Fault} (h : c.exec w = .error f w') :
    (∀ u, f ≠ .ub u) ∧ f ≠ .fuel := by
  have hs := hw.inv
  exact ((exec_spec hs.inv hs.ready hs.held hc).error h).1

/-- C61: dropping the world touches only memory it owns, and deallocates with the right layouts. -/
theorem C61_drop {w : World} {gs : List Guard} (hw : Safe w gs) : ∃ evs, dropWorld w = .ok evs :=
  ⟨_, hw.inv.inv.droppable.dropWorld⟩

/-! ## What shapes determine -/

theorem SameShape.table {w u : World} (h : SameShape w u) {k : Nat} {a : Archetype} (ha : w.archetypes[k]? = some a) :
    ∃ a', u.archetypes[k]? = some a' ∧ a'.entities = a.entities ∧
      ∀ (j : Nat) (c : EcsId) (v : UVec), a.storages[j]? = some (c, v) → ∃ v' : UVec, a'.storages[j]? = some (c, v') ∧ v'.size = v.size := by
  have h1 : w.archetypes.map World.Archetype.blank = u.archetypes.map World.Archetype.blank := congrArg World.archetypes h
  have h2 : (w.archetypes.map World.Archetype.blank)[k]? = some (World.Archetype.blank a) := by rw [List.getElem?_map, ha]; rfl
  rw [h1, List.getElem?_map] at h2
  cases hu : u.archetypes[k]? with
  | none => rw [hu] at h2; cases h2
  | some a' =>
    rw [hu] at h2
    simp only [Option.map_some, Option.some.injEq] at h2
    refine ⟨a', rfl, (by have := congrArg Archetype.entities h2; exact this), fun j c v hj => ?_⟩
    have h3 := congrArg (fun x => (Archetype.storages x)[j]?) h2
    simp only [World.Archetype.blank, List.getElem?_map, hj, Option.map_some] at h3
    cases hj' : a'.storages[j]? with
    | none => rw [hj'] at h3; cases h3
    | some p =>
      rw [hj'] at h3
      simp only [Option.map_some, Option.some.injEq] at h3
      injection h3 with h3 h4
      refine ⟨p.2, by rw [← h3], ?_⟩
      have := congrArg UVec.info h4
      unfold UVec.size
      simp only at this
      rw [this]

theorem SameShape.row {w u : World} (h : SameShape w u) {e : EcsId} (hr : w.Row e) : u.Row e := by
  obtain ⟨k, r, a, h1, h2⟩ := hr
  obtain ⟨a', h3, h4, _⟩ := SameShape.table h h1
  exact ⟨k, r, a', h3, by rw [h4]; exact h2⟩

theorem SameShape.pointsAt {w u : World} (h : SameShape w u) {p : Ptr} {e c : EcsId} (hp : w.PointsAt p e c) : u.PointsAt p e c := by
  obtain ⟨k, j, r, a, v, h1, h2, h3, rfl⟩ := hp
  obtain ⟨a', h4, h5, h6⟩ := SameShape.table h h1
  obtain ⟨v', h7, h8⟩ := h6 j c v h3
  exact ⟨k, j, r, a', v', h4, by rw [h5]; exact h2, h7, by rw [h8]⟩

theorem SameShape.fetchAt {w u : World} (h : SameShape w u) {e : EcsId} {f : Fetch} {p : Ptr} (hp : FetchAt w e f p) : FetchAt u e f p := by
  cases f with
  | ecsId =>
    obtain ⟨k, r, a, h1, h2, h3⟩ := hp
    obtain ⟨a', h4, h5, _⟩ := SameShape.table h h1
    exact ⟨k, r, a', h4, by rw [h5]; exact h2, h3⟩
  | «mut» c => exact SameShape.pointsAt h hp
  | immut c => exact SameShape.pointsAt h hp

/-- The references in a row of a static query are valid in every world of the same shape. -/
theorem row_valid {w u : World} (hs : SameShape w u) (hi : Inv u) {e : EcsId} {ps : List Param} {items : List Item} (hd : Pairs (Denotes w e) ps items) :
    ∀ i ∈ items, ∀ t p, RefersTo i t p → ValidRef u t p e := by
  intro i hi' t p hr
  obtain ⟨m, hm⟩ := List.mem_iff_getElem?.1 hi'
  obtain ⟨x, x1, x2⟩ := Pairs.at' hd hm
  have htm : u.typeMap = w.typeMap := (congrArg World.typeMap hs).symm
  cases x with
  | ids => rcases hr with rfl | rfl <;> cases x2
  | «mut» t' =>
    obtain ⟨p', c, rfl, y1, y2⟩ := x2
    rcases hr with hr | hr <;> cases hr
    exact validRef_of hi (htm ▸ y1) (SameShape.pointsAt hs y2)
  | ref t' =>
    obtain ⟨p', c, rfl, y1, y2⟩ := x2
    rcases hr with hr | hr <;> cases hr
    exact validRef_of hi (htm ▸ y1) (SameShape.pointsAt hs y2)

/-! ## Queries -/

/-- C61: a static query.  `q` was made in `w`; `w'` is the world then, and `u` is any world the program makes of `w'` while the query is
alive (values may have been written, other queries may have been made: the shape is the same).  Making an iterator and calling `next` as often as one
likes never does more than panic, and every reference obtained may be used.  Nothing is assumed about which components are known. -/
theorem C61_static {w w' u : World} {gs gs' : List Guard} (hw : Safe w gs) {ps : List Param} {q : StaticQuery} (hq : query ps w = .ok q w')
    (hu : Safe u gs') (hs : SameShape w' u) :
    (∀ f, q.iter w' = .error f → f = .unwrapNone) ∧
    ∀ it, q.iter w' = .ok it → ∀ s, Steps (fun s => StaticIter.next w' s) it s →
      (∀ f, s.next u = .error f → f = .indexOob ∨ f = .unwrapNone) ∧
      ∀ items s', s.next u = .ok (some items, s') → ∃ e, u.Row e ∧ ∀ i ∈ items, ∀ t p, RefersTo i t p → ValidRef u t p e := by
  have hi' : Inv w' := (Safe.keep ps q hw hq).inv.inv
  rcases staticIter_safe hq with h1 | ⟨it, h1, h2⟩
  · rw [h1]
    exact ⟨fun f hf => by injection hf with hf; exact hf.symm, fun it hit => by cases hit⟩
  · rw [h1]
    refine ⟨fun f hf => (by cases hf), fun it' hit => ?_⟩
    injection hit with hit; subst hit
    intro s hst
    have hsafe : StaticSafe w' ps s := hst.keep (P := StaticSafe w' ps) (fun s x s' hp hn => by
      rcases staticNext_safe hi' hp with ⟨f, e1, _⟩ | ⟨x1, s1, e1, e2, _⟩
      · simp only [e1] at hn; cases hn
      · simp only [e1] at hn
        injection hn with hn; injection hn with _ hn; subst hn; exact e2) h2
    rw [(C14_values_irrelevant hs).1 s]
    rcases staticNext_safe hi' hsafe with ⟨f, e1, e2⟩ | ⟨x1, s1, e1, e2, e3⟩
    · rw [e1]
      exact ⟨fun f' hf => by injection hf with hf; subst hf; exact e2, fun items s' hh => by cases hh⟩
    · rw [e1]
      refine ⟨fun f' hf => (by cases hf), fun items s' hh => ?_⟩
      injection hh with hh; injection hh with hh _; subst hh
      obtain ⟨e, r1, r2⟩ := e3 items rfl
      exact ⟨e, SameShape.row hs r1, row_valid hs hu.inv.inv r2⟩

/-- C61: `StaticQuery::get` with any id. -/
theorem C61_get {w w' u : World} {gs gs' : List Guard} (hw : Safe w gs) {ps : List Param} {q : StaticQuery} (hq : query ps w = .ok q w')
    (hu : Safe u gs') (hs : SameShape w' u) (e : EcsId) :
    (∀ f, q.get u e = .error f → f = .noGeneration) ∧
    ∀ items, q.get u e = .ok (some items) → ∀ i ∈ items, ∀ t p, RefersTo i t p → ValidRef u t p e := by
  have hi := hw.inv.inv
  rw [(C14_values_irrelevant hs).2.2.2 q e]
  have hsame : SameShape w w' := C14_loop_body.2.1 ps q hq
  rcases get_spec hi ⟨w.locks, rfl, rfl⟩ hq e with ⟨h1, _⟩ | ⟨r, h1, _, h2⟩
  · rw [h1]
    exact ⟨fun f hf => by injection hf with hf; exact hf.symm, fun items hh => by cases hh⟩
  · rw [h1]
    refine ⟨fun f hf => (by cases hf), fun items hh => ?_⟩
    injection hh with hh
    exact row_valid (hsame.trans hs) hu.inv.inv (h2 items hh)

/-- C61: a dynamic query, see `C61_static`. -/
theorem C61_dynamic {w w' u : World} {gs gs' : List Guard} (hw : Safe w gs) {fs : List Fetch} {q : DynQuery} (hq : queryDynamic fs w = .ok q w')
    (hu : Safe u gs') (hs : SameShape w' u) :
    (∀ f, q.iter w' = .error f → f = .unwrapNone) ∧
    ∀ it, q.iter w' = .ok it → ∀ s, Steps (fun s => DynIter.next w' s) it s →
      (∀ f, s.next u = .error f → f = .indexOob ∨ f = .unwrapNone) ∧
      ∀ row s', s.next u = .ok (some row, s') → Pairs (ValidPtr u) fs row := by
  have hi' : Inv w' := (Safe.keepDynamic fs q hw hq).inv.inv
  rcases dynIter_safe hq with h1 | ⟨it, h1, h2⟩
  · rw [h1]
    exact ⟨fun f hf => by injection hf with hf; exact hf.symm, fun it hit => by cases hit⟩
  · rw [h1]
    refine ⟨fun f hf => (by cases hf), fun it' hit => ?_⟩
    injection hit with hit; subst hit
    intro s hst
    have hsafe : DynSafe w' fs s := hst.keep (P := DynSafe w' fs) (fun s x s' hp hn => by
      rcases dynNext_safe hi' hp with ⟨f, e1, _⟩ | ⟨x1, s1, e1, e2, _⟩
      · simp only [e1] at hn; cases hn
      · simp only [e1] at hn
        injection hn with hn; injection hn with _ hn; subst hn; exact e2) h2
    rw [(C14_values_irrelevant hs).2.1 s]
    rcases dynNext_safe hi' hsafe with ⟨f, e1, e2⟩ | ⟨x1, s1, e1, e2, e3⟩
    · rw [e1]
      exact ⟨fun f' hf => by injection hf with hf; subst hf; exact e2, fun items s' hh => by cases hh⟩
    · rw [e1]
      refine ⟨fun f' hf => (by cases hf), fun row s' hh => ?_⟩
      injection hh with hh; injection hh with hh _; subst hh
      obtain ⟨e, r1, r2⟩ := e3 row rfl
      exact r2.imp (fun f p _ hp => validPtr_of hu.inv.inv (SameShape.fetchAt hs hp))

/-- C61: the columns of a dynamic query: each has the length that is reported, and each element may be used. -/
theorem C61_columns {w w' u : World} {gs gs' : List Guard} (hw : Safe w gs) {fs : List Fetch} {q : DynQuery} (hq : queryDynamic fs w = .ok q w')
    (hu : Safe u gs') (hs : SameShape w' u) :
    (∀ f, q.columnIter w' = .error f → f = .unwrapNone) ∧
    ∀ it, q.columnIter w' = .ok it → ∀ s, Steps (fun s => ColumnIter.next w' s) it s →
      (∀ f, s.next u = .error f → f = .indexOob ∨ f = .unwrapNone) ∧
      ∀ item s', s.next u = .ok (some item, s') →
        Pairs (fun f x => ∀ r < x.2, ∃ n, FetchSize u f n ∧ ValidPtr u f ⟨x.1.col, x.1.off + r * n⟩) fs item := by
  have hi' : Inv w' := (Safe.keepDynamic fs q hw hq).inv.inv
  rcases columnIter_safe hq with h1 | ⟨it, h1, h2, h3⟩
  · rw [h1]
    exact ⟨fun f hf => by injection hf with hf; exact hf.symm, fun it hit => by cases hit⟩
  · rw [h1]
    refine ⟨fun f hf => (by cases hf), fun it' hit => ?_⟩
    injection hit with hit; subst hit
    intro s hst
    have hsafe : s.fetches = fs ∧ s.archs.Good := hst.keep (P := fun s => s.fetches = fs ∧ s.archs.Good) (fun s x s' hp hn => by
      rcases columnNext_safe hi'.wide hp.1 hp.2 with ⟨f, e1, _⟩ | ⟨x1, s1, e1, e2, _⟩
      · simp only [e1] at hn; cases hn
      · simp only [e1] at hn
        injection hn with hn; injection hn with _ hn; subst hn; exact e2) ⟨h2, h3⟩
    rw [(C14_values_irrelevant hs).2.2.1 s]
    rcases columnNext_safe hi'.wide hsafe.1 hsafe.2 with ⟨f, e1, e2⟩ | ⟨x1, s1, e1, e2, e3⟩
    · rw [e1]
      exact ⟨fun f' hf => by injection hf with hf; subst hf; exact e2, fun items s' hh => by cases hh⟩
    · rw [e1]
      refine ⟨fun f' hf => (by cases hf), fun item s' hh => ?_⟩
      injection hh with hh; injection hh with hh _; subst hh
      obtain ⟨k, hk⟩ := e3 item rfl
      refine hk.imp (fun f x _ hx r hr => ?_)
      obtain ⟨a, a1, a2, a3⟩ := hx
      obtain ⟨e, he⟩ : ∃ e, a.entities[r]? = some e := ⟨_, List.getElem?_eq_getElem (by rw [← a2]; exact hr)⟩
      have hcomp : ∀ {c : EcsId} {j : Nat} {v : UVec}, a.storages[j]? = some (c, v) →
          ∃ m, u.InfoIs c m ∧ u.PointsAt ⟨.storage k j, r * m.layout.size⟩ e c := by
        intro c j v hj
        have hp : w'.PointsAt ⟨.storage k j, r * v.size⟩ e c := ⟨k, j, r, a, v, a1, he, hj, rfl⟩
        have hp' := SameShape.pointsAt hs hp
        obtain ⟨a', c1, c2, c3⟩ := SameShape.table hs a1
        obtain ⟨v', c4, c5⟩ := c3 j c v hj
        obtain ⟨_, _, q3⟩ := hu.inv.inv.col a' (List.mem_of_getElem? c1) _ (List.mem_of_getElem? c4)
        obtain ⟨hl, m, hc, hinf⟩ := infoFn_some.1 q3
        refine ⟨m, live_info hu.inv.inv hl hc, ?_⟩
        have hv : v.size = m.layout.size := by
          rw [← c5]; unfold UVec.size; rw [← hinf]; rfl
        rw [← hv]; exact hp'
      cases f with
      | ecsId =>
        simp only at a3
        rw [a3]
        obtain ⟨a', b1, b2, _⟩ := SameShape.table hs a1
        refine ⟨8, rfl, k, r, a', ?_, b1, ?_⟩
        · simp only [Nat.zero_add, Nat.mul_comm]
        · rw [b2, ← a2]; exact hr
      | «mut» c =>
        obtain ⟨j, v, hj, hx⟩ := a3
        obtain ⟨m, hm, hp⟩ := hcomp hj
        rw [hx]
        refine ⟨m.layout.size, ⟨m, hm, rfl⟩, ?_⟩
        rw [show (⟨.storage k j, 0⟩ : Ptr).off + r * m.layout.size = r * m.layout.size from Nat.zero_add _]
        exact validPtr_of hu.inv.inv (f := .mut c) hp
      | immut c =>
        obtain ⟨j, v, hj, hx⟩ := a3
        obtain ⟨m, hm, hp⟩ := hcomp hj
        rw [hx]
        refine ⟨m.layout.size, ⟨m, hm, rfl⟩, ?_⟩
        rw [show (⟨.storage k j, 0⟩ : Ptr).off + r * m.layout.size = r * m.layout.size from Nat.zero_add _]
        exact validPtr_of hu.inv.inv (f := .immut c) hp

/-! ## Locks -/

/-- C61: whatever was leaked, guards that are alive never conflict. -/
theorem C61_exclusive {w : World} {gs : List Guard} (hw : Safe w gs) : Exclusive gs := by
  intro i
  have h := hw.inv.held i
  unfold LockHeld at h
  split at h
  · exact ⟨by omega, fun _ => h.1⟩
  · rename_i l _
    obtain ⟨h1, h2, h3⟩ := h
    cases hl : l.writer with
    | true =>
      rw [hl] at h2
      simp only [if_true] at h2
      exact ⟨by omega, fun _ => by rw [← h1]; exact h3 hl⟩
    | false =>
      rw [hl] at h2
      simp only [Bool.false_eq_true, if_false] at h2
      exact ⟨by omega, fun hh => by omega⟩

theorem exclusive_append {gs hs : List Guard} (h : Exclusive (gs ++ hs)) {i : Nat} (hm : .write i ∈ hs) : .write i ∉ gs ∧ .read i ∉ gs := by
  have := h i
  simp only [List.count_append] at this
  have hp := List.count_pos_iff.2 hm
  refine ⟨fun hx => ?_, fun hx => ?_⟩
  · have := List.count_pos_iff.2 hx; omega
  · have := List.count_pos_iff.2 hx; omega

theorem exclusive_append_read {gs hs : List Guard} (h : Exclusive (gs ++ hs)) {i : Nat} (hm : .read i ∈ hs) : .write i ∉ gs := by
  have := h i
  simp only [List.count_append] at this
  have hp := List.count_pos_iff.2 hm
  intro hx
  have := List.count_pos_iff.2 hx; omega

theorem Pairs.at1 {α β : Type} {R : α → β → Prop} {as : List α} {bs : List β} (h : Pairs R as bs) {i : Nat} {a : α} (ha : as[i]? = some a) :
    ∃ b, bs[i]? = some b ∧ R a b := by
  induction h generalizing i with
  | nil => cases ha
  | cons hp _ ih =>
    cases i with
    | zero => cases ha; exact ⟨_, rfl, hp⟩
    | succ i => exact ih ha

/-- C61: a static query that is made holds a guard for every component it accesses, and no guard that was alive
(perhaps leaked) conflicts with it. -/
theorem C61_static_access {w w' : World} {gs : List Guard} (hw : Safe w gs) {ps : List Param} {q : StaticQuery} (hq : query ps w = .ok q w')
    {fs : List Fetch} (hf : q.fetches = some fs) {c : EcsId} :
    (.mut c ∈ fs → ∃ i, w.lockLookup c = some i ∧ .write i ∈ q.guards ∧ .write i ∉ gs ∧ .read i ∉ gs) ∧
    (.immut c ∈ fs → ∃ i, w.lockLookup c = some i ∧ .read i ∈ q.guards ∧ .write i ∉ gs) := by
  have hx := C61_exclusive (.keep ps q hw hq)
  have hg : Pairs (GuardFor w) fs q.guards := by
    have hs := hw.inv
    obtain ⟨_, _, h3, _⟩ := query_ok hq
    rw [h3] at hf
    unfold query at hq
    rw [hf] at hq
    simp only at hq
    rcases acquireAllStatic_spec (w := w) fs (ls := w.locks) (base := gs) (done := []) (by rw [List.append_nil]; exact hs.held) hs.inv.lock.range with
      ⟨new, ls', a1, a2, _⟩ | ⟨e, ls', pre, f, post, new, a1, _⟩
    · rw [a1] at hq
      injection hq with h1 _
      rw [← h1]; simpa using a2
    · rw [a1] at hq; cases hq
  constructor
  · intro hm
    obtain ⟨n, hn⟩ := List.mem_iff_getElem?.1 hm
    obtain ⟨g, g1, i, g2, rfl⟩ := Pairs.at1 hg hn
    have := List.mem_of_getElem? g1
    exact ⟨i, g2, this, exclusive_append hx this⟩
  · intro hm
    obtain ⟨n, hn⟩ := List.mem_iff_getElem?.1 hm
    obtain ⟨g, g1, i, g2, rfl⟩ := Pairs.at1 hg hn
    have := List.mem_of_getElem? g1
    exact ⟨i, g2, this, exclusive_append_read hx this⟩

/-- C61: the same for a dynamic query; a component without lock is in no table, so nothing of it is accessed. -/
theorem C61_dynamic_access {w w' : World} {gs : List Guard} (hw : Safe w gs) {fs : List Fetch} {q : DynQuery} (hq : queryDynamic fs w = .ok q w')
    {c : EcsId} {a : Archetype} (ha : a ∈ w.archetypes) (hc : c ∈ a.compIds) :
    (.mut c ∈ fs → ∃ i, w.lockLookup c = some i ∧ .write i ∈ q.guards ∧ .write i ∉ gs ∧ .read i ∉ gs) ∧
    (.immut c ∈ fs → ∃ i, w.lockLookup c = some i ∧ .read i ∈ q.guards ∧ .write i ∉ gs) := by
  have hs := hw.inv
  have hx := C61_exclusive (.keepDynamic fs q hw hq)
  have hg : Pairs (GuardForDyn w) fs q.guards := by
    unfold queryDynamic at hq
    rcases acquireAllDyn_spec (w := w) fs (ls := w.locks) (base := gs) (done := []) false (by rw [List.append_nil]; exact hs.held) hs.inv.lock.range with
      ⟨new, ls', a1, a2, _⟩ | ⟨e, ls', pre, f, post, new, a1, _⟩
    · rw [a1] at hq
      injection hq with h1 _
      rw [← h1]; simpa using a2
    · rw [a1] at hq; cases hq
  have hlk : w.lockLookup c ≠ none := by
    exact hs.inv.lock.used a ha c hc
  constructor
  · intro hm
    obtain ⟨n, hn⟩ := List.mem_iff_getElem?.1 hm
    obtain ⟨g, g1, hg⟩ := Pairs.at1 hg hn
    rcases hg with ⟨i, g2, rfl⟩ | ⟨_, id, g2, g3⟩
    · have := List.mem_of_getElem? g1
      exact ⟨i, g2, this, exclusive_append hx this⟩
    · cases g2; exact absurd g3 hlk
  · intro hm
    obtain ⟨n, hn⟩ := List.mem_iff_getElem?.1 hm
    obtain ⟨g, g1, hg⟩ := Pairs.at1 hg hn
    rcases hg with ⟨i, g2, rfl⟩ | ⟨_, id, g2, g3⟩
    · have := List.mem_of_getElem? g1
      exact ⟨i, g2, this, exclusive_append_read hx this⟩
    · cases g2; exact absurd g3 hlk

/-! ## The buffer -/

/-- C61: while a builder is alive the world has no buffer, so no two builders share one; and the capacity recorded in the
builder, which is what it is deallocated with, is the size of its buffer. -/
theorem C61_one_buffer {w w1 w2 w' : World} {gs : List Guard} (hw : Safe w gs) {kind : SpawnKind} {as : List BAct} {e : EcsId} {b b' : Builder}
    (h1 : spawnId w = .ok e w1) (h2 : mkBuilder kind e w1 = .ok b w2) (h3 : b.acts as w2 = .ok b' w') :
    w'.reuse = none ∧ b'.data.length = b'.cap := by
  have hl := mkBuilder_lent h2 (by rw [spawnId_buf h1]; exact hw.inv.inv.reuse)
  have := acts_lent as h3 hl
  exact ⟨this.none, this.size⟩

/-! ## The rules can be used -/

def leaksB (w : World) (ps : List Param) (gs : List Guard) : Bool :=
  match query ps w with
  | .ok q _ => decide (q.guards = gs)
  | .error _ _ => false

theorem leaksB_ok {w : World} {ps : List Param} {gs : List Guard} (h : leaksB w ps gs = true) :
    ∃ q w', query ps w = .ok q w' ∧ w' = after (query ps w) ∧ q.guards = gs := by
  unfold leaksB at h
  split at h
  · rename_i q w' hq
    exact ⟨q, w', hq, by rw [hq]; rfl, of_decide_eq_true h⟩
  · cases h

/-- the demo world after a query `(&mut A, &B)` was leaked -/
theorem leaked_safe : Safe (after (query [.mut tA, .ref tB] demo)) [.write 0, .read 1] := by
  obtain ⟨q, w', h1, h2, h3⟩ := leaksB_ok (w := demo) (ps := [.mut tA, .ref tB]) (gs := [.write 0, .read 1]) (by decide +kernel)
  have := Safe.keep _ _ (C61_covers demo_reachable) h1
  rw [h3, h2] at this
  exact this

/-- after the leak, `despawn` still works, a query of `B` can still be made, and one of `A` never gets its lock -/
example : ∃ w w', Safe w [.write 0, .read 1] ∧ Safe w' [.write 0, .read 1] ∧ w' ≠ w ∧ Call.exec (.despawn (ent 0)) w = .ok () w' ∧
    (∃ q u, query [.ref tB] w' = .ok q u) ∧ ∃ u, query [.ref tA] w' = .error .deadlock u := by
  have h := leaked_safe
  have he : Call.exec (.despawn (ent 0)) (after (query [.mut tA, .ref tB] demo)) =
      .ok () (after (Call.exec (.despawn (ent 0)) (after (query [.mut tA, .ref tB] demo)))) := eq_of_endsOk (by decide +kernel)
  refine ⟨_, _, h, .ok (.despawn (ent 0)) h trivial he ?_, ?_, he, ?_, ?_⟩
  · exact NoFullSlot.type (by decide +kernel)
  · intro hw
    have := congrArg (fun w : World => w.log.length) hw
    revert this; decide +kernel
  · obtain ⟨q, u, h1, _⟩ := leaksB_ok (w := after (Call.exec (.despawn (ent 0)) (after (query [.mut tA, .ref tB] demo)))) (ps := [.ref tB]) (gs := [.read 1])
      (by decide +kernel)
    exact ⟨q, u, h1⟩
  · exact ⟨_, eq_of_endsWith (by decide +kernel)⟩

def forgetsB (w : World) (as : List BAct) : Bool :=
  match spawnId w with
  | .error _ _ => false
  | .ok e w1 =>
    match mkBuilder .plain e w1 with
    | .error _ _ => false
    | .ok b w2 =>
      match b.acts as w2 with
      | .error _ _ => false
      | .ok _ w' => decide (w'.NoFullSlot ∧ w'.reuse = none ∧ w.reuse ≠ none)

/-- a builder that was given an `A` is leaked: the world loses its buffer -/
example : ∃ w, Safe w [] ∧ w.reuse = none ∧ demo.reuse ≠ none := by
  have key : ∀ w as, Safe w [] → ChainOk w .plain as → forgetsB w as = true → ∃ w', Safe w' [] ∧ w'.reuse = none ∧ w.reuse ≠ none := by
    intro w as hs hc h
    unfold forgetsB at h
    split at h
    · cases h
    · rename_i e w1 h1
      split at h
      · cases h
      · rename_i b w2 h2
        split at h
        · cases h
        · rename_i b' w' h3
          simp only [decide_eq_true_eq] at h
          exact ⟨w', .forget .plain as e b b' hs hc h1 h2 h3 h.1.type, h.2⟩
  exact key demo [.with tA (val 4 1)] (C61_covers demo_reachable) (chainOk_nobuild demo_reachable.sound.inv demo_reachable.sound.nowrap.ready (by decide +kernel)) (by decide +kernel)

/-- a duplicated `C` is rejected, and the program goes on -/
example : ∃ w, Safe w [] ∧ w.log ≠ demo.log := by
  have h1 : spawnWith .plain [.with tC (val 2 7), .with tC (val 2 8)] demo =
      .ok ⟨1, 5⟩ (after (spawnWith .plain [.with tC (val 2 7), .with tC (val 2 8)] demo)) := eq_of_endsOk (by decide +kernel)
  have h2 : spawnWith .plain ([.with tC (val 2 7), .with tC (val 2 8)] ++ [.build]) demo =
      .error .duplicateComponent (after (spawnWith .plain ([.with tC (val 2 7), .with tC (val 2 8)] ++ [.build]) demo)) := eq_of_endsWith (by decide +kernel)
  have h3 : ¬ TableFits (after (spawnWith .plain [.with tC (val 2 7), .with tC (val 2 8)] demo)) [.with tC (val 2 7), .with tC (val 2 8)] := by
    decide +kernel
  exact ⟨_, .rejected .plain [.with tC (val 2 7), .with tC (val 2 8)] ⟨1, 5⟩ .duplicateComponent (C61_covers demo_reachable) (by decide +kernel)
    (by decide +kernel) h1 h3 h2 (by rintro (h | h | h) <;> cases h) (NoFullSlot.type (by decide +kernel)), by decide +kernel⟩

/-- an iterator over the leaked world: `C61_static` applies to a query made then, with other guards alive -/
example : ∃ w gs q w' it items s', Safe w gs ∧ gs ≠ [] ∧ query [.ref tB] w = .ok q w' ∧ q.iter w' = .ok it ∧ it.next w' = .ok (some items, s') := by
  have key : ∀ w, (match query [.ref tB] w with
      | .error _ _ => false
      | .ok q w' => match q.iter w' with
        | .error _ => false
        | .ok it => match it.next w' with
          | .ok (some _, _) => true
          | _ => false) = true → ∃ q w' it items s', query [.ref tB] w = .ok q w' ∧ q.iter w' = .ok it ∧ it.next w' = .ok (some items, s') := by
    intro w h
    split at h
    · cases h
    · rename_i q w' h1
      split at h
      · cases h
      · rename_i it h2
        split at h
        · rename_i items s' h3
          exact ⟨q, w', it, items, s', h1, h2, h3⟩
        · cases h
  obtain ⟨q, w', it, items, s', h⟩ := key (after (query [.mut tA, .ref tB] demo)) (by decide +kernel)
  exact ⟨_, _, q, w', it, items, s', leaked_safe, by simp, h⟩

/-! ## The theorems at work -/

/-- A query `(&B,)` in the world with a leaked query. -/
def leaked : World := after (query [.mut tA, .ref tB] demo)
def readB : World := after (query [.ref tB] leaked)
theorem readB_made : query [.ref tB] leaked = .ok ⟨[.ref tB], [.read 1], some [.immut (ent 2)]⟩ readB := (eq_of_endsOk (by decide +kernel))
def dynB : World := after (queryDynamic [.immut (ent 2)] leaked)
theorem dynB_made : queryDynamic [.immut (ent 2)] leaked = .ok ⟨[.read 1], [.immut (ent 2)], false⟩ dynB := (eq_of_endsOk (by decide +kernel))

example := C61_calls leaked_safe (c := .addComponent (ent 5) tA (val 4 9)) rfl (f := .notAlive) (eq_of_endsWith (by decide +kernel))
example := C61_drop leaked_safe
example := C61_static (w := leaked) leaked_safe readB_made (.keep [.ref tB] _ leaked_safe readB_made) (.refl _)
example := C61_get (w := leaked) leaked_safe readB_made (.keep [.ref tB] _ leaked_safe readB_made) (.refl _) (ent 6)
example := C61_dynamic (w := leaked) leaked_safe dynB_made (.keepDynamic [.immut (ent 2)] _ leaked_safe dynB_made) (.refl _)
example := C61_columns (w := leaked) leaked_safe dynB_made (.keepDynamic [.immut (ent 2)] _ leaked_safe dynB_made) (.refl _)
example := C61_exclusive leaked_safe
example := C61_static_access (w := leaked) leaked_safe readB_made rfl (c := ent 2)

theorem leaked_some : (leaked.archetypes[1]?).isSome = true := by decide +kernel
example := C61_dynamic_access (w := leaked) leaked_safe dynB_made (c := ent 2) (a := (leaked.archetypes[1]?).get leaked_some)
  (List.mem_of_getElem? (Option.some_get leaked_some).symm) (by decide +kernel)

/-! ## What is left out -/

/-- A builder that was given a `C`, an `A` and another `C`. -/
def supplied : M (EcsId × Builder) := do
  let e ← spawnId
  let b ← Builder.new e ComponentMeta.unit
  let b ← b.acts [.with tC (val 2 7), .with tA (val 4 1), .with tC (val 2 8)]
  pure (e, b)

def buildsAgain (w : World) : Bool :=
  match supplied w with
  | .error _ _ => false
  | .ok (_, b) u =>
    match b.build u with
    | .ok _ _ => false
    | .error f w1 =>
      match Builder.build { b with compIds := stableSort EcsId.lt b.compIds } w1 with
      | .ok _ _ => false
      | .error f' w2 => decide (f = .duplicateComponent ∧ f' = .duplicateComponent ∧
          ⟨.generic tA, val 2 7 ++ val 2 1⟩ ∉ w1.log ∧ ⟨.generic tA, val 2 7 ++ val 2 1⟩ ∈ w2.log)

/-- C27 also fails when `build` is called again after it panicked (safe code: `catch_unwind` around `build`, then `build`).  The three values
were dropped while the first panic unwound; the second call finds the ids sorted and the buffer as it was, so it reads the values at the wrong
places and drops two bytes of the first `C` followed by two bytes of the `A` as if they were an `A`. -/
theorem C27_build_again : ∃ w, Reachable w ∧ ∃ (e : EcsId) (b : Builder) (u w1 w2 : World),
    supplied w = .ok (e, b) u ∧
    b.build u = .error .duplicateComponent w1 ∧
    Builder.build { b with compIds := stableSort EcsId.lt b.compIds } w1 = .error .duplicateComponent w2 ∧
    ⟨.generic tA, val 2 7 ++ val 2 1⟩ ∉ w1.log ∧ ⟨.generic tA, val 2 7 ++ val 2 1⟩ ∈ w2.log := by
  have key : ∀ w, buildsAgain w = true → ∃ (e : EcsId) (b : Builder) (u w1 w2 : World), supplied w = .ok (e, b) u ∧
      b.build u = .error .duplicateComponent w1 ∧
      Builder.build { b with compIds := stableSort EcsId.lt b.compIds } w1 = .error .duplicateComponent w2 ∧
      ⟨.generic tA, val 2 7 ++ val 2 1⟩ ∉ w1.log ∧ ⟨.generic tA, val 2 7 ++ val 2 1⟩ ∈ w2.log := by
    intro w h
    unfold buildsAgain at h
    split at h
    · cases h
    · rename_i e b u hs
      split at h
      · cases h
      · rename_i f w1 h1
        split at h
        · cases h
        · rename_i f' w2 h2
          simp only [decide_eq_true_eq] at h
          obtain ⟨rfl, rfl, h3, h4⟩ := h
          exact ⟨e, b, u, w1, w2, hs, h1, h2, h3, h4⟩
  exact ⟨demo, demo_reachable, key demo (by decide +kernel)⟩

end Ellecs.WorldSpec
