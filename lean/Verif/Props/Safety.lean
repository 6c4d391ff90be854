import Verif.Proofs.Cases
import Verif.Props.Query
import Verif.Props.Drops
/-!
# C48: safe calls never touch memory they may not touch

In the model every access through a raw pointer checks that it stays inside the initialised part of the right allocation and fails with
`Fault.ub` if not.  So the property says that this fault never occurs.
-/
namespace Ellecs.WorldSpec
open World Demo

/-- C48: no call from the safe interface, and no unsafe call that respects its documented contract, touches memory it may not touch,
whatever happened before.  Earlier calls may even have panicked. -/
theorem C48_calls {w w' : World} (hw : Reachable w) {c : Call} (hc : c.Ok w) {f : Fault} (h : c.exec w = .error f w') (u : Ub) : f ≠ .ub u := by
  have hs := hw.sound
  exact ((exec_spec hs.inv hs.nowrap.ready hs.idle hc).error h).1.1 u

/-- C48: the loops of the model never run out of fuel, so that the model of a call never stops where the code would go on. -/
theorem C48_fuel {w w' : World} (hw : Reachable w) {c : Call} (hc : c.Ok w) {f : Fault} (h : c.exec w = .error f w') : f ≠ .fuel := by
  have hs := hw.sound
  exact ((exec_spec hs.inv hs.nowrap.ready hs.idle hc).error h).1.2

/-- C48: dropping the world touches only memory it owns, and deallocates with the right layouts. -/
theorem C48_drop {w : World} (hw : Reachable w) : ∃ evs, dropWorld w = .ok evs := by
  obtain ⟨d, hd⟩ := hw.hist
  obtain ⟨evs, h, _⟩ := C34_never_twice hd
  exact ⟨evs, h⟩

/-- Reading and writing through `p` as a `t` is allowed in `w`, and what is read is the value of the component `c` of `e`. -/
def ValidRef (w : World) (t : Ty) (p : Ptr) (e : EcsId) : Prop :=
  (∃ bs, w.readPtr p t.size = .ok bs ∧ w.HasT e t bs ∧ bs.length = t.size) ∧ ∀ bs, bs.length = t.size → ∃ w', w.writePtr p bs = .ok w'

theorem live_info {w : World} (h : Inv w) {c : EcsId} {m : ComponentMeta} (hl : w.entities.Live c) (hc : compOf w.metas c.uindex = some m) : w.InfoIs c m := by
  refine (infoIs_iff h).2 ⟨?_, hc⟩
  apply Classical.byContradiction
  intro hr
  have := (h.inst_none hl).2 hr
  rw [inst_none_iff_comp] at this
  rw [this] at hc; cases hc

theorem infoIs_type {w : World} (h : Inv w) {t : Ty} {c : EcsId} (ht : w.typeMap t = some c) {p : Ptr} {e : EcsId} (hp : w.PointsAt p e c) :
    w.InfoIs c (ComponentMeta.fromGeneric t) := by
  obtain ⟨k, j, r, a, v, h1, h2, h3, h4, q1, q2, hr, q3, hh⟩ := hp.cell h
  obtain ⟨hl, _⟩ := infoFn_some.1 q3
  exact h.type_info ht hl

theorem validRef_of {w : World} (h : Inv w) {t : Ty} {c : EcsId} (ht : w.typeMap t = some c) {p : Ptr} {e : EcsId} (hp : w.PointsAt p e c) : ValidRef w t p e := by
  have hm := infoIs_type h ht hp
  have hsz : (ComponentMeta.fromGeneric t).layout.size = t.size := rfl
  constructor
  · obtain ⟨bs, h1, h2⟩ := readPtr_spec h hp hm
    refine ⟨bs, hsz ▸ h1, ⟨c, ht, h2⟩, ?_⟩
    rw [hsz] at h1
    obtain ⟨k, j, r, a, v, h3, h4⟩ := hp
    obtain ⟨h4, h5, rfl⟩ := h4
    unfold readPtr at h1
    simp only [h3, h5] at h1
    split at h1
    · injection h1 with h1; subst h1; simp_all
    · split at h1
      · rename_i hx
        injection h1 with h1; subst h1
        unfold readAt
        simp only [List.length_take, List.length_drop]
        have := hx.2
        omega
      · cases h1
  · intro bs hb
    obtain ⟨w', h1, _⟩ := writePtr_spec h hp hm (hb.trans hsz.symm)
    exact ⟨w', h1⟩

/-- C48 for the references of a static query, whatever else is alive: every reference is to a value of the right type. -/
theorem C48_static_refs {w v v' : World} (hw : Reachable w) (hv : SameButLocks w v) (hlen : w.archetypes.length < 2 ^ 32) {ps : List Param}
    (hne : ps ≠ []) {q : StaticQuery} (hq : query ps v = .ok q v') :
    ∃ (it : StaticIter) (rows : List (List Item)), q.iter v' = .ok it ∧ Produces (fun s => StaticIter.next v' s) it rows ∧
      ∀ row ∈ rows, ∃ e, w.Row e ∧ ∀ i ∈ row, ∀ t p, RefersTo i t p → ValidRef v' t p e := by
  obtain ⟨it, es, rows, h1, h2, h3, h4, h5⟩ := C14_iter_exact hw hv hlen hne hq
  refine ⟨it, rows, h1, h2, fun row hrow => ?_⟩
  have hi := hw.sound.inv
  have hv' := hv.trans' (query_ok hq).2.1
  obtain ⟨n, hn⟩ := List.mem_iff_getElem?.1 hrow
  obtain ⟨e, e1, e2⟩ := Pairs.at' h5 hn
  refine ⟨e, ((h4 e).1 (List.mem_of_getElem? e1)).1, fun i hi' t p hr => ?_⟩
  obtain ⟨m, hm⟩ := List.mem_iff_getElem?.1 hi'
  obtain ⟨x, x1, x2⟩ := Pairs.at' e2 hm
  have hvi := hv'.inv hi
  obtain ⟨ls, _, rfl⟩ := hv'
  cases x with
  | ids => rcases hr with rfl | rfl <;> cases x2
  | «mut» t' =>
    obtain ⟨p', c, rfl, y1, y2⟩ := x2
    rcases hr with hr | hr <;> cases hr
    exact validRef_of hvi y1 y2
  | ref t' =>
    obtain ⟨p', c, rfl, y1, y2⟩ := x2
    rcases hr with hr | hr <;> cases hr
    exact validRef_of hvi y1 y2

/-- C48 for the references of `StaticQuery::get`. -/
theorem C48_get_refs {w v v' : World} (hw : Reachable w) (hv : SameButLocks w v) {ps : List Param} {q : StaticQuery} (hq : query ps v = .ok q v')
    {e : EcsId} (he : e.uindex < w.entities.generations.length) :
    ∃ r, q.get v' e = .ok r ∧ ∀ items, r = some items → ∀ i ∈ items, ∀ t p, RefersTo i t p → ValidRef v' t p e := by
  obtain ⟨r, h1, _, h2⟩ := C13_get_exact hw hv hq he
  refine ⟨r, h1, fun items hitems i hi' t p hr => ?_⟩
  have hi := hw.sound.inv
  have hv' := hv.trans' (query_ok hq).2.1
  obtain ⟨m, hm⟩ := List.mem_iff_getElem?.1 hi'
  obtain ⟨x, x1, x2⟩ := Pairs.at' (h2 items hitems) hm
  have hvi := hv'.inv hi
  obtain ⟨ls, _, rfl⟩ := hv'
  cases x with
  | ids => rcases hr with rfl | rfl <;> cases x2
  | «mut» t' =>
    obtain ⟨p', c, rfl, y1, y2⟩ := x2
    rcases hr with hr | hr <;> cases hr
    exact validRef_of hvi y1 y2
  | ref t' =>
    obtain ⟨p', c, rfl, y1, y2⟩ := x2
    rcases hr with hr | hr <;> cases hr
    exact validRef_of hvi y1 y2

/-- What the pointer of a fetch may be used for: an id of the table, or a component value of the recorded size. -/
def ValidPtr (w : World) : Fetch → Ptr → Prop
  | .ecsId, p => ∃ (k r : Nat) (a : Archetype), p = ⟨.entities k, 8 * r⟩ ∧ w.archetypes[k]? = some a ∧ r < a.entities.length
  | .mut c, p | .immut c, p => ∃ m, w.InfoIs c m ∧ (∃ bs, w.readPtr p m.layout.size = .ok bs) ∧
      ∀ bs, bs.length = m.layout.size → ∃ w', w.writePtr p bs = .ok w'

theorem validPtr_comp {w : World} (h : Inv w) {e c : EcsId} {p : Ptr} (hp : w.PointsAt p e c) :
    ∃ m, w.InfoIs c m ∧ (∃ bs, w.readPtr p m.layout.size = .ok bs) ∧ ∀ bs, bs.length = m.layout.size → ∃ w', w.writePtr p bs = .ok w' := by
  obtain ⟨k, j, r, a, v, h1, h2, h3, h4, q1, q2, hr, q3, hh⟩ := hp.cell h
  obtain ⟨hl, m, hm, _⟩ := infoFn_some.1 q3
  have hm : w.InfoIs c m := live_info h hl hm
  refine ⟨m, hm, ?_, fun bs hb => ?_⟩
  · obtain ⟨bs, hb, _⟩ := readPtr_spec h hp hm
    exact ⟨bs, hb⟩
  · obtain ⟨w', hb, _⟩ := writePtr_spec h hp hm hb
    exact ⟨w', hb⟩

theorem validPtr_of {w : World} (h : Inv w) {e : EcsId} {f : Fetch} {p : Ptr} (hp : FetchAt w e f p) : ValidPtr w f p := by
  cases f with
  | ecsId => obtain ⟨k, r, a, h1, h2, h3⟩ := hp; exact ⟨k, r, a, h3, h1, (List.getElem?_eq_some_iff.1 h2).1⟩
  | «mut» c => exact validPtr_comp h hp
  | immut c => exact validPtr_comp h hp

/-- C48 for the pointers of a dynamic query. -/
theorem C48_dynamic_ptrs {w v v' : World} (hw : Reachable w) (hv : SameButLocks w v) (hlen : w.archetypes.length < 2 ^ 32) {fs : List Fetch}
    (hne : fs ≠ []) (hb : Calm w ∨ ∀ f ∈ fs, ∀ c, f.Of c → w.Row c) {q : DynQuery} (hq : queryDynamic fs v = .ok q v') :
    ∃ (it : DynIter) (rows : List (List Ptr)), q.iter v' = .ok it ∧ Produces (fun s => DynIter.next v' s) it rows ∧
      ∀ row ∈ rows, Pairs (ValidPtr v') fs row := by
  obtain ⟨it, es, rows, h1, h2, h3, h4, h5⟩ := C15_iter_exact hw hv hlen hne hb hq
  refine ⟨it, rows, h1, h2, fun row hrow => ?_⟩
  have hi := hw.sound.inv
  have hv' := hv.trans' (queryDynamic_ok hq).2.1
  obtain ⟨n, hn⟩ := List.mem_iff_getElem?.1 hrow
  obtain ⟨e, e1, e2⟩ := Pairs.at' h5 hn
  have hvi := hv'.inv hi
  obtain ⟨ls, _, rfl⟩ := hv'
  clear hn hrow h1 h2
  have : ∀ {fs : List Fetch} {row : List Ptr}, Pairs (FetchAt w e) fs row → Pairs (ValidPtr { w with locks := ls }) fs row := by
    intro fs row h
    induction h with
    | nil => exact .nil
    | @cons f p fs row hp _ ih =>
      refine .cons (validPtr_of hvi (e := e) ?_) ih
      cases f <;> exact hp
  exact this e2

/-- C48 for columns: the whole column, `len` elements of the recorded size, may be read. -/
theorem C48_columns {w v v' : World} (hw : Reachable w) (hv : SameButLocks w v) (hlen : w.archetypes.length < 2 ^ 32) {fs : List Fetch}
    (hne : fs ≠ []) (hb : Calm w ∨ ∀ f ∈ fs, ∀ c, f.Of c → w.Row c) {q : DynQuery} (hq : queryDynamic fs v = .ok q v') :
    ∃ (it : ColumnIter) (items : List (List (Ptr × Nat))), q.columnIter v' = .ok it ∧ Produces (fun s => ColumnIter.next v' s) it items ∧
      ∀ item ∈ items, Pairs (fun f x => ∀ c, f.Of c → ∃ m, v'.InfoIs c m ∧ (∃ bs, v'.readPtr x.1 (x.2 * m.layout.size) = .ok bs) ∧
        ∀ r < x.2, ValidPtr v' f ⟨x.1.col, r * m.layout.size⟩) fs item := by
  obtain ⟨it, ks, items, h1, h2, h3, h4, h5, _⟩ := C16_columns_exact hw hv hlen hne hb hq
  refine ⟨it, items, h1, h2, fun item hitem => ?_⟩
  have hi := hw.sound.inv
  have hv' := hv.trans' (queryDynamic_ok hq).2.1
  obtain ⟨n, hn⟩ := List.mem_iff_getElem?.1 hitem
  obtain ⟨k, e1, e2⟩ := Pairs.at' h5 hn
  have hvi := hv'.inv hi
  obtain ⟨ls, _, rfl⟩ := hv'
  have key : ∀ {c : EcsId} {f : Fetch} {x : Ptr × Nat}, f.Of c → ColumnAt w k f x →
      ∃ m, { w with locks := ls }.InfoIs c m ∧ (∃ bs, { w with locks := ls }.readPtr x.1 (x.2 * m.layout.size) = .ok bs) ∧
        ∀ r < x.2, ValidPtr { w with locks := ls } f ⟨x.1.col, r * m.layout.size⟩ := by
    rintro c f ⟨p, len⟩ hc ⟨a, a1, a2, a3⟩
    have hcol : ∃ (j : Nat) (v : UVec), a.storages[j]? = some (c, v) ∧ p = ⟨.storage k j, 0⟩ := by
      rcases hc with rfl | rfl <;> exact a3
    obtain ⟨j, u, b1, rfl⟩ := hcol
    have ha := List.mem_of_getElem? a1
    obtain ⟨q1, q2, q3⟩ := hi.col a ha _ (List.mem_of_getElem? b1)
    obtain ⟨hl, m, hm, hinf⟩ := infoFn_some.1 q3
    have hsz : m.layout.size = u.size := by unfold UVec.size; rw [← hinf]; rfl
    simp only at a2
    have hmi : InfoIs { w with locks := ls } c m := live_info hvi hl hm
    refine ⟨m, hmi, ?_, fun r hr => ?_⟩
    · unfold readPtr
      have a1' : ({ w with locks := ls } : World).archetypes[k]? = some a := a1
      simp only [a1', b1]
      by_cases h0 : len * m.layout.size = 0
      · rw [if_pos h0]; exact ⟨_, rfl⟩
      · rw [if_neg h0]
        have hcount : u.count = len := by rw [a2]; exact q2
        have hpos : u.size ≠ 0 := by intro hz; rw [hsz, hz] at h0; simp at h0
        have hl : len * m.layout.size ≤ u.len := by
          rw [hsz, ← hcount]
          unfold UVec.count
          rw [if_neg hpos]
          exact Nat.div_mul_le_self _ _
        have hle := q1.le hpos
        have hmem := q1.mem
        have : 0 + len * m.layout.size ≤ u.len ∧ 0 + len * m.layout.size ≤ u.mem.length := by
          rw [Nat.zero_add, hmem]; exact ⟨hl, Nat.le_trans hl hle⟩
        rw [if_pos this]; exact ⟨_, rfl⟩
    · obtain ⟨e, he⟩ : ∃ e, a.entities[r]? = some e := ⟨_, List.getElem?_eq_getElem (by rw [← a2]; exact hr)⟩
      have hp : PointsAt { w with locks := ls } ⟨.storage k j, r * m.layout.size⟩ e c := ⟨k, j, r, a, u, a1, he, b1, by rw [hsz]⟩
      rcases hc with rfl | rfl
      · exact validPtr_of hvi (f := .mut c) hp
      · exact validPtr_of hvi (f := .immut c) hp
  clear hn hitem h1 h2
  have : ∀ {fs : List Fetch} {item : List (Ptr × Nat)}, Pairs (ColumnAt w k) fs item →
      Pairs (fun f x => ∀ c, f.Of c → ∃ m, { w with locks := ls }.InfoIs c m ∧ (∃ bs, { w with locks := ls }.readPtr x.1 (x.2 * m.layout.size) = .ok bs) ∧
        ∀ r < x.2, ValidPtr { w with locks := ls } f ⟨x.1.col, r * m.layout.size⟩) fs item := by
    intro fs row h
    induction h with
    | nil => exact .nil
    | cons hp _ ih => exact .cons (fun c hc => key hc hp) ih
  exact this e2

/-- C48 for `get_component_mut_dynamic`. -/
theorem C48_component_ptr {w : World} (hw : Reachable w) {e c : EcsId} {p : Ptr} (h : w.getComponentMutDynamic e c = .ok (some p)) : ValidPtr w (.mut c) p := by
  rcases getComponentMut_spec hw.sound.inv e c with ⟨h1, _⟩ | ⟨h1, _⟩ | ⟨h1, _⟩ | ⟨p', h1, h2⟩
  · rw [h] at h1; cases h1
  · rw [h] at h1; cases h1
  · rw [h] at h1; cases h1
  · rw [h] at h1; injection h1 with h1; injection h1 with h1; subst h1
    exact validPtr_of hw.sound.inv (f := .mut c) h2

/-- Concrete cases: the pointers of the demo world are valid, and the checks of the model are not vacuous: the same pointers used with a larger
type, or beyond the last row, are faults. -/
example : (demo.getComponentMutDynamic (ent 6) (ent 2)).toOption = some (some ⟨.storage 1 1, 0⟩) := by decide +kernel

example : (demo.readPtr ⟨.storage 1 1, 0⟩ 8).toOption = some (val 8 8) ∧ (demo.readPtr ⟨.storage 1 1, 0⟩ 9).toOption = none ∧
    (demo.readPtr ⟨.storage 1 1, 8⟩ 8).toOption = none ∧ (demo.readPtr ⟨.storage 9 1, 0⟩ 8).toOption = none := by decide +kernel

example : (Call.addDynamicWithData (ent 3) (ent 2) (val 8 9)).Ok demo ∧ endsOk ((Call.addDynamicWithData (ent 3) (ent 2) (val 8 9)).exec demo) () = true ∧
    endsWith ((Call.addDynamicWithData (ent 3) (ent 2) (val 7 9)).exec demo) (.ub .srcTooShort) = true :=
  ⟨okB_ok demo_reachable.sound (by decide +kernel), by decide +kernel, by decide +kernel⟩

/-! ### The theorems at work -/

example := fun f w' => C48_calls demo_reachable (c := .despawn (ent 1)) trivial (f := f) (w' := w')
example := C48_calls demo_reachable (c := .despawn (ent 1)) trivial (f := .despawnTodo) (eq_of_endsWith (by decide +kernel))
example := C48_fuel demo_reachable (c := .removeComponent (ent 0) tB) trivial (f := .notPresent) (eq_of_endsWith (by decide +kernel))
example := C48_drop demo_reachable
example := C48_static_refs demo_reachable busy_same demo_small (by decide) qA_made
example := C48_get_refs demo_reachable busy_same qA_made (e := ent 6) (by decide +kernel)
example := C48_dynamic_ptrs demo_reachable busy_same demo_small (by decide) (.inl demo_calm) dA_made
example := C48_columns demo_reachable busy_same demo_small (by decide) (.inl demo_calm) dA_made

end Ellecs.WorldSpec
