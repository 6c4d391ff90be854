import Verif.Proofs.Cases
import Verif.Proofs.Demo
import Verif.Proofs.Frame
import Verif.Proofs.LockRun
/-!
# C13-C18, C20, C44: queries

`w` is the world without live queries, `v` the same world while other queries may be live, `v'` the world while the
query of the theorem is live too.
-/
namespace Ellecs.WorldSpec
open World Demo

/-! ## C13 -/

/-- C13: `get(e)` returns `Some` iff `e` is built and has every requested type, and then each item denotes that value of
that entity. -/
theorem C13_get_exact {w v v' : World} (hw : Reachable w) (hv : SameButLocks w v) {ps : List Param} {q : StaticQuery}
    (hq : query ps v = .ok q v') {e : EcsId} (he : e.uindex < w.entities.generations.length) :
    ∃ r, q.get v' e = .ok r ∧ (r.isSome = true ↔ HasTypes w ps e) ∧ ∀ items, r = some items → Pairs (Denotes w e) ps items := by
  rcases get_spec hw.sound.inv hv hq e with ⟨_, h⟩ | h
  · omega
  · exact h

/-- Entity 6 has `A`, entity 5 is dead; both have a slot. -/
example := C13_get_exact demo_reachable busy_same qA_made (e := ent 6) (by decide +kernel)
example := C13_get_exact demo_reachable busy_same qA_made (e := ent 5) (by decide +kernel)

/-! ## C14 -/

/-- C14: the iteration of a static query produces one row for each entity that has the requested types. -/
theorem C14_iter_exact {w v v' : World} (hw : Reachable w) (hv : SameButLocks w v) (hlen : w.archetypes.length < 2 ^ 32) {ps : List Param}
    (hne : ps ≠ []) {q : StaticQuery} (hq : query ps v = .ok q v') :
    ∃ (it : StaticIter) (es : List EcsId) (rows : List (List Item)), q.iter v' = .ok it ∧ Produces (fun s => StaticIter.next v' s) it rows ∧
      es.Nodup ∧ (∀ e, e ∈ es ↔ HasTypes w ps e) ∧ Pairs (fun e row => Pairs (Denotes w e) ps row) es rows := by
  have hi := hw.sound.inv
  obtain ⟨_, ⟨fs, ks, hb, h1, h2, it, h3, h4⟩ | ⟨⟨p, hp, t, hpt, ht⟩, it, h3, h4⟩⟩ :=
    static_main hi hv hlen hne (fun p _ t c _ ht hl => typesUsed hw ht hl) hq
  · exact ⟨it, _, _, h3, h4, ents_nodup hi h1, fun e => (mem_visited hi h2 e).trans (hasAll_types hb e),
      static_rows hi hb (fun k hk => (h2 k).1 hk)⟩
  · refine ⟨it, [], [], h3, h4, List.nodup_nil, fun e => ?_, .nil⟩
    simp only [List.not_mem_nil, false_iff]
    rintro ⟨_, hh⟩
    obtain ⟨bs, c, hc, _⟩ := hh p hp t hpt
    rw [ht] at hc; cases hc

example := C14_iter_exact demo_reachable busy_same demo_small (by simp) qA_made

/-- C14, C15, C16: the iterators do not depend on the values nor on the state of the locks.  So what is proved about
iterating in one world also holds if between the calls of `next` values are written through the references and other
queries are created and dropped, see `C14_loop_body`. -/
theorem C14_values_irrelevant {w v : World} (h : SameShape w v) :
    (∀ s, StaticIter.next v s = StaticIter.next w s) ∧ (∀ s, DynIter.next v s = DynIter.next w s) ∧ (∀ s, ColumnIter.next v s = ColumnIter.next w s) ∧
    ∀ q e, StaticQuery.get q v e = StaticQuery.get q w e := by
  refine ⟨fun s => ?_, fun s => ?_, fun s => ?_, fun q e => ?_⟩
  · unfold StaticIter.next; rw [← staticLoop_blank v, ← staticLoop_blank w, h]
  · unfold DynIter.next; rw [← dynLoop_blank v, ← dynLoop_blank w, h]
  · rw [← columnNext_blank v, ← columnNext_blank w, h]
  · rw [← get_blank v, ← get_blank w, h]

/-- What a loop body can do to the world: write values, create and drop queries. -/
theorem C14_loop_body {w w' : World} :
    (∀ p bs, w.writePtr p bs = .ok w' → SameShape w w') ∧ (∀ ps q, query ps w = .ok q w' → SameShape w w') ∧
    (∀ fs q, queryDynamic fs w = .ok q w' → SameShape w w') ∧ ∀ b gs, dropGuards b gs w = .ok () w' → SameShape w w' := by
  refine ⟨fun p bs h => blank_write h, fun ps q h => ?_, fun fs q h => ?_, fun b gs h => ?_⟩
  · obtain ⟨_, ⟨ls, _, rfl⟩, _⟩ := query_ok h; rfl
  · obtain ⟨_, ⟨ls, _, rfl⟩, _⟩ := queryDynamic_ok h; rfl
  · injection h with _ h; subst h; rfl

/-- A write of `A` of entity 6, and the creation of two queries. -/
example := C14_loop_body.1 _ _ wrote_made
example := C14_loop_body.2.1 _ _ qA_made
example := C14_loop_body.2.2.1 _ _ dA_made

/-- So `C14_values_irrelevant` applies to them. -/
example := C14_values_irrelevant (w := busy) (v := vA) (C14_loop_body.2.1 _ _ qA_made)

/-! ## C15 -/

/-- C15: the same for dynamic queries.  The requested components must be built entities; without earlier panics they may
be any ids (see C26 for the corner where this fails). -/
theorem C15_iter_exact {w v v' : World} (hw : Reachable w) (hv : SameButLocks w v) (hlen : w.archetypes.length < 2 ^ 32) {fs : List Fetch}
    (hne : fs ≠ []) (hb : Calm w ∨ ∀ f ∈ fs, ∀ c, f.Of c → w.Row c) {q : DynQuery} (hq : queryDynamic fs v = .ok q v') :
    ∃ (it : DynIter) (es : List EcsId) (rows : List (List Ptr)), q.iter v' = .ok it ∧ Produces (fun s => DynIter.next v' s) it rows ∧
      es.Nodup ∧ (∀ e, e ∈ es ↔ HasAll w fs e) ∧ Pairs (fun e row => Pairs (FetchAt w e) fs row) es rows := by
  have hi := hw.sound.inv
  obtain ⟨_, ks, h1, h2, ⟨it, h3, h4⟩, _⟩ := dynamic_main hi hv hlen hne (locksUsed_of hw hb) hq
  exact ⟨it, _, _, h3, h4, ents_nodup hi h1, mem_visited hi h2, dyn_rows hi (fun k hk => (h2 k).1 hk)⟩

example := C15_iter_exact demo_reachable busy_same demo_small (by simp) (Or.inl demo_calm) dA_made

/-! ## C16 -/

/-- C16: `column_iter` produces one item for each table that has all requested columns, with the starts of the columns
and their length; `iter` goes through the rows of these tables in the same order. -/
theorem C16_columns_exact {w v v' : World} (hw : Reachable w) (hv : SameButLocks w v) (hlen : w.archetypes.length < 2 ^ 32) {fs : List Fetch}
    (hne : fs ≠ []) (hb : Calm w ∨ ∀ f ∈ fs, ∀ c, f.Of c → w.Row c) {q : DynQuery} (hq : queryDynamic fs v = .ok q v') :
    ∃ (it : ColumnIter) (ks : List Nat) (items : List (List (Ptr × Nat))), q.columnIter v' = .ok it ∧
      Produces (fun s => ColumnIter.next v' s) it items ∧ ks.Nodup ∧ (∀ k, k ∈ ks ↔ TableFor w fs k) ∧
      Pairs (fun k item => Pairs (ColumnAt w k) fs item) ks items ∧
      ∃ (it' : DynIter) (rows : List (List Ptr)), q.iter v' = .ok it' ∧ Produces (fun s => DynIter.next v' s) it' rows ∧
        Pairs (fun e row => Pairs (FetchAt w e) fs row) (ks.flatMap (entitiesOf w)) rows := by
  have hi := hw.sound.inv
  obtain ⟨_, ks, h1, h2, ⟨it', h3, h4⟩, it, h5, h6⟩ := dynamic_main hi hv hlen hne (locksUsed_of hw hb) hq
  refine ⟨it, ks, _, h5, h6, h1.imp (fun h => Nat.ne_of_lt h), h2, Pairs.map_right ?_, it', _, h3, h4, dyn_rows hi (fun k hk => (h2 k).1 hk)⟩
  intro k hk
  obtain ⟨a, ha, hs⟩ := (h2 k).1 hk
  unfold columnsOf rowPtrs
  simp only [ha, List.map_map]
  refine Pairs.map_right ?_
  intro f hf
  rcases fetch_cases f with rfl | ⟨c, hc⟩
  · exact ⟨a, ha, rfl, rfl⟩
  · obtain ⟨j, u, q1, q2⟩ := column (hi.shape a (List.mem_of_getElem? ha)) (hs f hf c hc)
    refine ⟨a, ha, rfl, ?_⟩
    have : (cell k a 0 f).1 = ⟨.storage k j, 0⟩ := by rw [cell_of q1 q2 hc]; simp
    rcases hc with rfl | rfl <;> exact ⟨j, u, q2, this⟩

example := C16_columns_exact demo_reachable busy_same demo_small (by simp) (Or.inl demo_calm) dA_made

/-! ## C17 -/

theorem sameRow_zip {w : World} {k r : Nat} {a : Archetype} {e : EcsId} (ha : w.archetypes[k]? = some a) (hr : a.entities[r]? = some e)
    {ps : List Param} {fs : List Fetch} (hb : Pairs (Bound w) ps fs) :
    SameRow w ps (rowPtrs k a fs r) (List.zipWith (itemOf e) ps (rowPtrs k a fs r)) := by
  unfold rowPtrs
  induction hb with
  | nil => exact .nil
  | @cons p f ps fs hpf _ ih =>
    rw [List.map_cons, List.zipWith_cons_cons]
    refine .cons ?_ ih
    cases p with
    | ids =>
      have : f = .ecsId := hpf
      subst this
      exact ⟨k, r, a, e, ha, hr, rfl, rfl⟩
    | «mut» t => exact rfl
    | ref t => exact rfl

/-- C17: a static query and a dynamic query for the ids of its types produce the same rows in the same order. -/
theorem C17_static_dynamic_agree {w v1 v1' v2 v2' : World} (hw : Reachable w) (hv1 : SameButLocks w v1) (hv2 : SameButLocks w v2)
    (hlen : w.archetypes.length < 2 ^ 32) {ps : List Param} {fs : List Fetch} (hne : ps ≠ []) (hb : Pairs (Bound w) ps fs)
    {q1 : StaticQuery} {q2 : DynQuery} (hq1 : query ps v1 = .ok q1 v1') (hq2 : queryDynamic fs v2 = .ok q2 v2') :
    ∃ (it1 : StaticIter) (it2 : DynIter) (rows1 : List (List Item)) (rows2 : List (List Ptr)),
      q1.iter v1' = .ok it1 ∧ Produces (fun s => StaticIter.next v1' s) it1 rows1 ∧
      q2.iter v2' = .ok it2 ∧ Produces (fun s => DynIter.next v2' s) it2 rows2 ∧ Pairs (SameRow w ps) rows2 rows1 := by
  have hi := hw.sound.inv
  have hlu : LocksUsed w fs := by
    intro f hf c hc hl
    obtain ⟨_, _, t, _, ht⟩ := bound_mem hb hf hc
    exact typesUsed hw ht hl
  obtain ⟨_, hs⟩ := static_main hi hv1 hlen hne (fun p _ t c _ ht hl => typesUsed hw ht hl) hq1
  obtain ⟨_, ks', g1, g2, ⟨it2, g3, g4⟩, _⟩ := dynamic_main hi hv2 hlen (fun hh => hne ((bound_nil hb).2 hh)) hlu hq2
  rcases hs with ⟨fs', ks, hb', h1, h2, it1, h3, h4⟩ | ⟨⟨p, hp, t, hpt, ht⟩, _⟩
  · have hfs : fs' = fs := by
      have e1 := allFetches_bound.2 hb'
      rw [allFetches_bound.2 hb] at e1
      injection e1 with e1; exact e1.symm
    subst hfs
    have hks : ks' = ks := by
      have hp : ks'.Perm ks := (List.perm_ext_iff_of_nodup (g1.imp (fun h => Nat.ne_of_lt h)) (h1.imp (fun h => Nat.ne_of_lt h))).2
        (fun k => (g2 k).trans (h2 k).symm)
      exact hp.eq_of_pairwise (le := fun a b => a < b) (fun a b _ _ h h' => absurd h (Nat.lt_asymm h')) g1 h1
    subst hks
    refine ⟨it1, it2, _, _, h3, h4, g3, g4, Pairs.flatMap' ?_⟩
    intro k hk
    obtain ⟨a, ha, hs⟩ := (h2 k).1 hk
    unfold tableRows tableItems
    simp only [ha]
    have : ∀ n ≤ a.entities.length, Pairs (SameRow w ps) ((List.range n).map (rowPtrs k a fs')) ((List.range n).map (rowItems k a ps fs')) := by
      intro n
      induction n with
      | zero => intro _; exact .nil
      | succ n ih =>
        intro hn
        rw [List.range_succ, List.map_append, List.map_append]
        refine Pairs.append' (ih (by omega)) (.cons ?_ .nil)
        have hr : a.entities[n]? = some a.entities[n] := List.getElem?_eq_getElem hn
        unfold rowItems
        rw [hr]
        exact sameRow_zip ha hr hb
    exact this _ (Nat.le_refl _)
  · exfalso
    have := allFetches_none.2 ⟨p, hp, t, hpt, ht⟩
    rw [allFetches_bound.2 hb] at this
    cases this

/-- Two queries for `A` (mutable, so they are not alive at the same time). -/
example := C17_static_dynamic_agree demo_reachable busy_same (.refl demo) demo_small (by simp) bound_mutA qA_made dM_made

/-! ## C18 -/

/-- C18 for dynamic queries: if nobody has one of the requested components, there are no rows and no columns with rows.
That creating the query does not panic because of such a component is `C18_dynamic_creation`. -/
theorem C18_dynamic_absent {w v v' : World} (hw : Reachable w) (hv : SameButLocks w v) (hlen : w.archetypes.length < 2 ^ 32) {fs : List Fetch}
    (hb : Calm w ∨ ∀ f ∈ fs, ∀ c, f.Of c → w.Row c) {f : Fetch} (hf : f ∈ fs) {c : EcsId} (hc : f.Of c) (hno : ∀ e, ¬ w.HasComp e c)
    {q : DynQuery} (hq : queryDynamic fs v = .ok q v') :
    (∃ it, q.iter v' = .ok it ∧ Produces (fun s => DynIter.next v' s) it []) ∧
    ∃ it items, q.columnIter v' = .ok it ∧ Produces (fun s => ColumnIter.next v' s) it items ∧ ∀ item ∈ items, ∀ x ∈ item, x.2 = 0 := by
  refine ⟨?_, ?_⟩
  rotate_left
  · have hi := hw.sound.inv
    obtain ⟨it, ks, items, h1, h2, _, h3, h4, _⟩ := C16_columns_exact hw hv hlen (List.ne_nil_of_mem hf) hb hq
    refine ⟨it, items, h1, h2, fun item hitem x hx => ?_⟩
    obtain ⟨_, k, hk, h5⟩ := h4.mem' hitem
    have hk := List.mem_of_getElem? hk
    obtain ⟨_, g, _, a, ha, hl, _⟩ := h5.mem' hx
    rw [hl]
    obtain ⟨a', ha', hcs⟩ := (h3 k).1 hk
    rw [ha] at ha'; injection ha' with ha'; subst ha'
    cases hes : a.entities with
    | nil => rfl
    | cons e _ =>
      have hsh := hi.shape a (List.mem_of_getElem? ha)
      have hcc := hcs f hf c hc
      rw [← hsh.ids] at hcc
      obtain ⟨⟨c1, u⟩, hp, rfl⟩ := List.mem_map.1 hcc
      have hcnt : u.count = a.entities.length := (hi.col a (List.mem_of_getElem? ha) _ hp).2.1
      have h0 : 0 < u.count := by rw [hcnt, hes]; exact Nat.succ_pos _
      exact absurd ⟨u.elem 0, k, 0, a, u, ha, by rw [hes]; rfl, hp, elems_row h0⟩ (hno e)
  obtain ⟨it, es, rows, h1, h2, _, h3, h4⟩ := C15_iter_exact hw hv hlen (List.ne_nil_of_mem hf) hb hq
  have : es = [] := by
    apply List.eq_nil_iff_forall_not_mem.2
    intro e he
    exact hno e (((h3 e).1 he).2 f hf c hc)
  subst this
  cases h4
  exact ⟨it, h1, h2⟩

/-- Nothing has the component entity 0. -/
example := C18_dynamic_absent demo_reachable busy_same demo_small (Or.inl demo_calm) (f := .mut (ent 0)) (by simp) (c := ent 0) (Or.inl rfl)
  (nobody_of (by decide +kernel)) d0_made

/-- C18 for static queries, if one of the types has no component entity. -/
theorem C18_static_unregistered {w v : World} (hw : Reachable w) (hv : SameButLocks w v) (hlen : w.archetypes.length < 2 ^ 32) {ps : List Param}
    {p : Param} (hp : p ∈ ps) {t : Ty} (hpt : p.Of t) (ht : w.typeMap t = none) :
    ∃ q, query ps v = .ok q v ∧ (∃ it, q.iter v = .ok it ∧ Produces (fun s => StaticIter.next v s) it []) ∧
      ∀ e, e.uindex < w.entities.generations.length → q.get v e = .ok none := by
  have hn : allFetches v ps = none := by
    refine allFetches_none.2 ⟨p, hp, t, hpt, ?_⟩
    obtain ⟨ls, _, rfl⟩ := hv; exact ht
  have hq : query ps v = .ok ⟨ps, ps.map (fun _ => .none), none⟩ v := by
    unfold query; rw [hn]
  have hno : ∀ e, ¬ HasTypes w ps e := by
    rintro e ⟨_, hh⟩
    obtain ⟨bs, c, hc, _⟩ := hh p hp t hpt
    rw [ht] at hc; cases hc
  refine ⟨_, hq, ?_, ?_⟩
  · obtain ⟨it, es, rows, h1, h2, _, h3, h4⟩ := C14_iter_exact hw hv hlen (List.ne_nil_of_mem hp) hq
    have : es = [] := List.eq_nil_iff_forall_not_mem.2 (fun e he => hno e ((h3 e).1 he))
    subst this
    cases h4
    exact ⟨it, h1, h2⟩
  · intro e he
    obtain ⟨r, h1, h2, _⟩ := C13_get_exact hw hv hq he
    cases r with
    | none => exact h1
    | some x => exact absurd (h2.1 rfl) (hno e)

example := C18_static_unregistered demo_reachable busy_same demo_small (ps := [.mut tA, .ref tC]) (p := .ref tC) (by simp) (t := tC) (Or.inr rfl)
  (by decide +kernel)

/-- C18, the part that holds for static queries in general: if the query can be created it yields nothing.  Missing: it
cannot be created if the component of a type was registered and never used, see `C18_static_unused_panics`. -/
theorem C18_static_absent_partial {w v v' : World} (hw : Reachable w) (hv : SameButLocks w v) (hlen : w.archetypes.length < 2 ^ 32)
    {ps : List Param} {p : Param} (hp : p ∈ ps) {t : Ty} (hpt : p.Of t) (hno : ∀ e bs, ¬ w.HasT e t bs) {q : StaticQuery}
    (hq : query ps v = .ok q v') : ∃ it, q.iter v' = .ok it ∧ Produces (fun s => StaticIter.next v' s) it [] := by
  obtain ⟨it, es, rows, h1, h2, _, h3, h4⟩ := C14_iter_exact hw hv hlen (List.ne_nil_of_mem hp) hq
  have : es = [] := by
    apply List.eq_nil_iff_forall_not_mem.2
    intro e he
    obtain ⟨bs, hb⟩ := ((h3 e).1 he).2 p hp t hpt
    exact hno e bs hb
  subst this
  cases h4
  exact ⟨it, h1, h2⟩

/-- The only entity with `B` has been despawned. -/
example := C18_static_absent_partial noB_reachable (.refl noB) (by decide +kernel) (p := .mut tB) (by simp) (t := tB) (Or.inl rfl) noB_none qB_made

/-- C18 fails: a static query of a type whose component entity exists, but was never used, panics. -/
theorem C18_static_unused_panics {w : World} (hw : Reachable w) {t : Ty} {c : EcsId} (ht : w.typeMap t = some c) (hu : ¬ w.Used c) :
    query [.ref t] w = .error .indexOob w ∧ query [.mut t] w = .error .indexOob w := by
  have hl : w.lockLookup c = none := by
    cases hl : w.lockLookup c with
    | none => rfl
    | some i => exact absurd (typesUsed hw ht (by rw [hl]; simp)) hu
  constructor <;> simp [query, allFetches, Param.fetchType, ht, acquireAllStatic, Fetch.acquireStatic, hl, releaseAll]

theorem unused_runs : (runP [.register tC] demo).isSome = true := by decide +kernel
/-- A world in which the type `tC` was registered and not used. -/
def unused : World := (runP [.register tC] demo).get unused_runs
theorem unused_reachable : Reachable unused := runP_reachable demo_reachable (Option.some_get unused_runs).symm

/-- C18 fails, second witness: that panic poisons the lock of a component that comes before it in the query. -/
theorem C18_static_unused_poisons : Reachable unused ∧ (∃ w', query [.mut tA, .ref tC] unused = .error .indexOob w' ∧
    ∃ w'', query [.ref tA] w' = .error .poisoned w'') :=
  ⟨unused_reachable, _, eq_of_endsWith (by decide +kernel), _, eq_of_endsWith (by decide +kernel)⟩

/-- The hypotheses of `C18_static_unused_panics`. -/
example := C18_static_unused_panics C18_static_unused_poisons.1 (t := tC) (c := ⟨1, 5⟩) (by decide +kernel) (by decide +kernel)

example : ∃ c, unused.typeMap tC = some c ∧ ¬ unused.Used c :=
  ⟨_, (Option.some_get (by decide +kernel)).symm, by decide +kernel⟩

/-! ## C20 -/

/-- C20: pointers for different entities or different components never overlap. -/
theorem C20_apart {w : World} (hw : Reachable w) {e e' : EcsId} {f f' : Fetch} {p p' : Ptr} (hp : FetchAt w e f p) (hp' : FetchAt w e' f' p')
    (hne : e ≠ e' ∨ f.getId ≠ f'.getId) {n n' : Nat} (hn : FetchSize w f n) (hn' : FetchSize w f' n') : Apart p n p' n' :=
  fetch_apart hw.sound.inv hp hp' hne hn hn'

/-- `A` and `B` of entity 6. -/
example := C20_apart demo_reachable (e := ent 6) (e' := ent 6) (f := .mut (ent 1)) (f' := .mut (ent 2)) six_A six_B (Or.inr (by decide)) sizeA sizeB

theorem Pairs.at' {α β : Type} {R : α → β → Prop} {as : List α} {bs : List β} (h : Pairs R as bs) {i : Nat} {b : β} (hb : bs[i]? = some b) :
    ∃ a, as[i]? = some a ∧ R a b := by
  induction h generalizing i with
  | nil => cases hb
  | cons h1 _ ih =>
    cases i with
    | zero => injection hb with hb; subst hb; exact ⟨_, rfl, h1⟩
    | succ i => exact ih hb

/-- C20 for the rows of a dynamic query: position `x` of row `i` and position `y` of row `j`. -/
theorem C20_dynamic_rows {w v v' : World} (hw : Reachable w) (hv : SameButLocks w v) (hlen : w.archetypes.length < 2 ^ 32) {fs : List Fetch}
    (hb : Calm w ∨ ∀ f ∈ fs, ∀ c, f.Of c → w.Row c) {q : DynQuery} (hq : queryDynamic fs v = .ok q v') {it : DynIter} {rows : List (List Ptr)}
    (hit : q.iter v' = .ok it) (hrows : Produces (fun s => DynIter.next v' s) it rows) {i j x y : Nat} {r r' : List Ptr} {p p' : Ptr} {f f' : Fetch}
    (h1 : rows[i]? = some r) (h2 : r[x]? = some p) (h3 : fs[x]? = some f) (h1' : rows[j]? = some r') (h2' : r'[y]? = some p') (h3' : fs[y]? = some f')
    (hne : i ≠ j ∨ f.getId ≠ f'.getId) {n n' : Nat} (hn : FetchSize w f n) (hn' : FetchSize w f' n') : Apart p n p' n' := by
  have hfs : fs ≠ [] := by rintro rfl; cases h3
  obtain ⟨it', es, rows', g1, g2, g3, _, g4⟩ := C15_iter_exact hw hv hlen hfs hb hq
  rw [hit] at g1; injection g1 with g1; subst g1
  have := Produces.uniq' hrows g2; subst this
  obtain ⟨e, e1, e2⟩ := Pairs.at' g4 h1
  obtain ⟨e', e1', e2'⟩ := Pairs.at' g4 h1'
  obtain ⟨_, a1, a2⟩ := Pairs.at' e2 h2
  obtain ⟨_, b1, b2⟩ := Pairs.at' e2' h2'
  rw [h3] at a1; injection a1 with a1; subst a1
  rw [h3'] at b1; injection b1 with b1; subst b1
  refine C20_apart hw a2 b2 (hne.imp_left ?_) hn hn'
  rintro hij rfl
  exact hij ((List.getElem?_inj (List.getElem?_eq_some_iff.1 e1).1 g3).1 (e1.trans e1'.symm))

/-- The first and the third row of `dA`. -/
example {it : DynIter} {rows : List (List Ptr)} (hit : dA.iter uA = .ok it) (hrows : Produces (fun s => DynIter.next uA s) it rows) :=
  have e := dA_rows hit hrows
  C20_dynamic_rows demo_reachable busy_same demo_small (Or.inl demo_calm) dA_made hit hrows (i := 0) (j := 2) (x := 0) (y := 0) (by rw [e]; rfl) rfl rfl
    (by rw [e]; rfl) rfl rfl (Or.inl (by decide)) sizeA sizeA

/-- The item is a reference to a `t` at `p`. -/
def RefersTo (i : Item) (t : Ty) (p : Ptr) : Prop := i = .mut t p ∨ i = .ref t p

/-- C20 for the rows of a static query. -/
theorem C20_static_rows {w v v' : World} (hw : Reachable w) (hv : SameButLocks w v) (hlen : w.archetypes.length < 2 ^ 32) {ps : List Param}
    (hps : ps ≠ []) {q : StaticQuery} (hq : query ps v = .ok q v') {it : StaticIter} {rows : List (List Item)}
    (hit : q.iter v' = .ok it) (hrows : Produces (fun s => StaticIter.next v' s) it rows) {i j x y : Nat} {r r' : List Item} {a b : Item} {t t' : Ty}
    {p p' : Ptr} (h1 : rows[i]? = some r) (h2 : r[x]? = some a) (h3 : RefersTo a t p) (h1' : rows[j]? = some r') (h2' : r'[y]? = some b)
    (h3' : RefersTo b t' p') (hne : i ≠ j ∨ t ≠ t') : Apart p t.size p' t'.size := by
  have hi := hw.sound.inv
  obtain ⟨it', es, rows', g1, g2, g3, _, g4⟩ := C14_iter_exact hw hv hlen hps hq
  rw [hit] at g1; injection g1 with g1; subst g1
  have := Produces.uniq' hrows g2; subst this
  obtain ⟨e, e1, e2⟩ := Pairs.at' g4 h1
  obtain ⟨e', e1', e2'⟩ := Pairs.at' g4 h1'
  obtain ⟨k, a1, a2⟩ := Pairs.at' e2 h2
  obtain ⟨k', b1, b2⟩ := Pairs.at' e2' h2'
  obtain ⟨c, q1, q2⟩ := denotes_points a2 h3
  obtain ⟨c', q1', q2'⟩ := denotes_points b2 h3'
  refine fetch_apart hi (f := .immut c) (f' := .immut c') q2 q2' ?_ ⟨_, type_info hi q1 q2, rfl⟩ ⟨_, type_info hi q1' q2', rfl⟩
  rcases hne with hij | ht
  · left
    rintro rfl
    exact hij ((List.getElem?_inj (List.getElem?_eq_some_iff.1 e1).1 g3).1 (e1.trans e1'.symm))
  · right
    intro hcc
    injection hcc with hcc
    subst hcc
    exact ht (hi.type.inj _ _ _ q1 q1')

/-- The first and the third row of `qA`. -/
example {it : StaticIter} {rows : List (List Item)} (hit : qA.iter vA = .ok it) (hrows : Produces (fun s => StaticIter.next vA s) it rows) :=
  have e := qA_rows hit hrows
  C20_static_rows demo_reachable busy_same demo_small (by simp) qA_made hit hrows (i := 0) (j := 2) (x := 0) (y := 0) (by rw [e]; rfl) rfl (Or.inl rfl)
    (by rw [e]; rfl) rfl (Or.inl rfl) (Or.inl (by decide))

/-- C20 for columns: different tables and different components have different columns. -/
theorem C20_columns {w : World} {k k' : Nat} {f f' : Fetch} {x x' : Ptr × Nat} (hx : ColumnAt w k f x) (hx' : ColumnAt w k' f' x')
    (hne : k ≠ k' ∨ f.getId ≠ f'.getId) : x.1.col ≠ x'.1.col := by
  obtain ⟨a, a1, _, a2⟩ := hx
  obtain ⟨b, b1, _, b2⟩ := hx'
  intro hcol
  cases f <;> cases f' <;> simp only [Fetch.getId, ne_eq, not_true_eq_false, or_false] at hne a2 b2
  all_goals (try obtain ⟨j, u, a3, a2⟩ := a2)
  all_goals (try obtain ⟨j', u', b3, b2⟩ := b2)
  all_goals rw [a2, b2] at hcol
  all_goals injection hcol
  all_goals (subst_vars; simp_all)

/-- The columns of `A` and `B` of table 1. -/
example := C20_columns one_A one_B (Or.inr (by decide))

/-! ## C44 -/

theorem produces_fused {σ α : Type} {next : σ → Except Fault (Option α × σ)} {s : σ} {xs : List α} (h : Produces next s xs) {n : Nat}
    {ys : List (Option α)} (hy : callN next n s = .ok ys) {i j : Nat} (hi : ys[i]? = some none) (hij : i ≤ j) (hj : j < n) : ys[j]? = some none := by
  rw [h n] at hy
  injection hy with hy
  subst hy
  by_cases hn : n ≤ xs.length
  · rw [show n - xs.length = 0 by omega, List.replicate_zero, List.append_nil] at hi
    have := List.mem_of_getElem? hi
    have := List.mem_of_mem_take this
    simp at this
  · rw [List.take_of_length_le (by simp; omega)] at hi ⊢
    by_cases hix : i < xs.length
    · rw [List.getElem?_append_left (by simpa using hix), List.getElem?_map, List.getElem?_eq_getElem hix] at hi
      simp at hi
    · rw [List.getElem?_append_right (by simp; omega), List.getElem?_replicate, List.length_map, if_pos (by omega)]

/-- C44: in `n` calls of `next` on the iterator of a static query, no call panics, and after a `None` all are `None`. -/
theorem C44_static_fused {w v v' : World} (hw : Reachable w) (hv : SameButLocks w v) (hlen : w.archetypes.length < 2 ^ 32) {ps : List Param}
    (hne : ps ≠ []) {q : StaticQuery} (hq : query ps v = .ok q v') {it : StaticIter} (hit : q.iter v' = .ok it) (n : Nat) :
    ∃ ys, callN (fun s => StaticIter.next v' s) n it = .ok ys ∧ ys.length = n ∧
      ∀ i j, ys[i]? = some none → i ≤ j → j < n → ys[j]? = some none := by
  obtain ⟨it', es, rows', g1, g2, _⟩ := C14_iter_exact hw hv hlen hne hq
  rw [hit] at g1; injection g1 with g1; subst g1
  exact ⟨_, g2 n, by simp; omega, fun i j h1 h2 h3 => produces_fused g2 (g2 n) h1 h2 h3⟩

example (it : StaticIter) (hit : qA.iter vA = .ok it) := C44_static_fused demo_reachable busy_same demo_small (by simp) qA_made hit 5
example : ∃ it, qA.iter vA = .ok it := have ⟨it, _, _, h, _⟩ := C14_iter_exact demo_reachable busy_same demo_small (by simp) qA_made; ⟨it, h⟩

/-- C44 for dynamic queries. -/
theorem C44_dynamic_fused {w v v' : World} (hw : Reachable w) (hv : SameButLocks w v) (hlen : w.archetypes.length < 2 ^ 32) {fs : List Fetch}
    (hne : fs ≠ []) (hb : Calm w ∨ ∀ f ∈ fs, ∀ c, f.Of c → w.Row c) {q : DynQuery} (hq : queryDynamic fs v = .ok q v') (n : Nat) :
    (∀ it, q.iter v' = .ok it → ∃ ys, callN (fun s => DynIter.next v' s) n it = .ok ys ∧ ys.length = n ∧
      ∀ i j, ys[i]? = some none → i ≤ j → j < n → ys[j]? = some none) ∧
    (∀ it, q.columnIter v' = .ok it → ∃ ys, callN (fun s => ColumnIter.next v' s) n it = .ok ys ∧ ys.length = n ∧
      ∀ i j, ys[i]? = some none → i ≤ j → j < n → ys[j]? = some none) := by
  obtain ⟨it0, ks, items, h1, h2, _, _, _, it1, rows, h3, h4, _⟩ := C16_columns_exact hw hv hlen hne hb hq
  constructor
  · intro it hit
    rw [hit] at h3; injection h3 with h3; subst h3
    exact ⟨_, h4 n, by simp; omega, fun i j q1 q2 q3 => produces_fused h4 (h4 n) q1 q2 q3⟩
  · intro it hit
    rw [hit] at h1; injection h1 with h1; subst h1
    exact ⟨_, h2 n, by simp; omega, fun i j q1 q2 q3 => produces_fused h2 (h2 n) q1 q2 q3⟩

example := C44_dynamic_fused demo_reachable busy_same demo_small (by simp) (Or.inl demo_calm) dA_made 5

/-! ## The theorems are not vacuous

`busy` is a world with a live query.  Queries of it visit three entities in three tables. -/


example : SameButLocks demo busy ∧ busy.locks ≠ demo.locks := ⟨busy_same, by decide +kernel⟩

/-- The items of the first `n` calls. -/
def rowsStatic (n : Nat) (ps : List Param) (w : World) : Option (List (Option (List Item))) :=
  match query ps w with
  | .ok q w' =>
    match q.iter w' with
    | .ok it => (callN (fun s => StaticIter.next w' s) n it).toOption
    | .error _ => none
  | .error _ _ => none

/-- The same for dynamic queries. -/
def rowsDynamic (n : Nat) (fs : List Fetch) (w : World) : Option (List (Option (List Ptr))) :=
  match queryDynamic fs w with
  | .ok q w' =>
    match q.iter w' with
    | .ok it => (callN (fun s => DynIter.next w' s) n it).toOption
    | .error _ => none
  | .error _ _ => none

example : (∃ q v', query [.mut tA, .ids] busy = .ok q v') ∧ (∃ q v', queryDynamic [.immut (ent 1), .ecsId] busy = .ok q v') ∧
    demo.archetypes.length < 2 ^ 32 ∧ Calm demo ∧ Pairs (Bound demo) [.mut tA, .ids] [.mut (ent 1), .ecsId] ∧
    HasTypes demo [.mut tA, .ids] (ent 6) ∧ ¬ HasTypes demo [.mut tB, .ids] (ent 3) := by
  refine ⟨⟨_, _, eq_of_endsOk (a := (⟨[.mut tA, .ids], [.write 0, .none], some [.mut (ent 1), .ecsId]⟩ : StaticQuery)) (by decide +kernel)⟩,
    ⟨_, _, eq_of_endsOk (a := (⟨[.read 0, .none], [.immut (ent 1), .ecsId], false⟩ : DynQuery)) (by decide +kernel)⟩,
    by decide +kernel, demo_calm, .cons ⟨ent 1, by decide +kernel, rfl⟩ (.cons rfl .nil), ⟨by decide +kernel, ?_⟩, ?_⟩
  · intro p hp t ht
    simp only [List.mem_cons, List.not_mem_nil, or_false] at hp
    rcases hp with rfl | rfl <;> rcases ht with ht | ht <;> cases ht
    exact ⟨val 4 7, ent 1, by decide +kernel, by decide +kernel⟩
  · rintro ⟨_, h⟩
    obtain ⟨bs, c, hc, hb⟩ := h (.mut tB) (by simp) tB (Or.inl rfl)
    have e : demo.typeMap tB = some (ent 2) := by decide +kernel
    rw [e] at hc
    injection hc with hc
    subst hc
    have hn : ¬ demo.HasComp (ent 3) (ent 2) := by decide +kernel
    exact hn ⟨bs, hb⟩

example : rowsStatic 5 [.mut tA, .ids] busy = some [some [.mut tA ⟨.storage 1 0, 0⟩, .id (ent 6)], some [.mut tA ⟨.storage 2 0, 0⟩, .id (ent 3)],
    some [.mut tA ⟨.storage 4 0, 0⟩, .id (ent 0)], none, none] := by decide +kernel

example : rowsDynamic 5 [.immut (ent 1), .ecsId] busy = some [some [⟨.storage 1 0, 0⟩, ⟨.entities 1, 0⟩], some [⟨.storage 2 0, 0⟩, ⟨.entities 2, 0⟩],
    some [⟨.storage 4 0, 0⟩, ⟨.entities 4, 0⟩], none, none] := by decide +kernel

end Ellecs.WorldSpec
