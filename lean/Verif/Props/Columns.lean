import Verif.Proofs.Cases
import Verif.Proofs.Columns
/-!
# C80: loops over columns

`ForEachColumn` (in `Spec/Columns.lean`) runs `for columns in query.column_iter() { .. }` on the tables; the body walks the
columns itself.  `AWorld.sweepLines` is what such a loop is meant to do.
-/
namespace Ellecs.WorldSpec
open World Demo

/-- C80: walking all columns of `column_iter`, row by row with the element sizes as strides, gives the very pointers that `iter`
gives, in the same order. -/
theorem C80_rows {w v v' : World} (hw : Reachable w) (hv : SameButLocks w v) (hlen : w.archetypes.length < 2 ^ 32) {fs : List Fetch}
    (hne : fs ≠ []) (hb : Calm w ∨ ∀ f ∈ fs, ∀ c, f.Of c → w.Row c) {q : DynQuery} (hq : queryDynamic fs v = .ok q v') :
    ∃ (it : DynIter) (it' : ColumnIter) (rows : List (List Ptr)) (items : List (List (Ptr × Nat))), q.iter v' = .ok it ∧ q.columnIter v' = .ok it' ∧
      Produces (fun s => DynIter.next v' s) it rows ∧ Produces (fun s => ColumnIter.next v' s) it' items ∧
      (∀ ns, w.Strides fs ns → items.flatMap (rowsAt ns) = rows) ∧ (items ≠ [] → ∃ ns, w.Strides fs ns ∧ Pairs (FetchSize w) fs ns) ∧
      ∀ item ∈ items, ∀ x ∈ item, x.2 = height item := by
  have hi := hw.sound.inv
  obtain ⟨_, ks, h1, h2, ⟨it, h3, h4⟩, it', h5, h6⟩ := dynamic_main hi hv hlen hne (locksUsed_of hw hb) hq
  refine ⟨it, it', _, _, h3, h5, h4, h6, fun ns hn => rowsAt_flatMap hi hne hn (fun k hk => (h2 k).1 hk), fun hx => ?_, ?_⟩
  · cases ks with
    | nil => exact absurd rfl hx
    | cons k ks => exact strides_of hi ((h2 k).1 List.mem_cons_self)
  · intro item hitem x hx
    obtain ⟨k, _, rfl⟩ := List.mem_map.1 hitem
    unfold columnsOf at hx ⊢
    cases ha : w.archetypes[k]? with
    | none => simp only [ha] at hx; cases hx
    | some a =>
      simp only [ha] at hx ⊢
      obtain ⟨p, _, rfl⟩ := List.mem_map.1 hx
      cases fs with
      | nil => exact absurd rfl hne
      | cons f fs => rfl

/-- C80: a loop over columns ends, without a fault, and does what `sweepLines` says: the body runs once for each line (C72)
that has what is asked for, is shown what its entities had when the loop began, and what it stores are their new values.
Other queries may be live (`LockRun`); they are still live afterwards. -/
theorem C80_loop {τ : Type} {w : World} (hw : Reachable w) (hlen : w.archetypes.length < 2 ^ 32) {ls : List RwLock} {qs : List LiveQuery}
    (hr : LockRun w ls qs) {a : AWorld} (ha : w.Shows a) {fs : List Fetch} (hne : fs ≠ []) (hc : Calm w ∨ ∀ f ∈ fs, ∀ c, f.Of c → a.info c ≠ none)
    {q : DynQuery} {v : World} (hq : queryDynamic fs { w with locks := ls } = .ok q v) {ns : List Nat} (hn : w.Strides fs ns) {body : ColBody τ}
    (hb : body.Sized a fs) (x : τ) :
    ∃ (it : ColumnIter) (ess : List (List EcsId)) (v' u : World), q.columnIter v = .ok it ∧ ess = visits (lines w) (WantsIds fs) ∧ ess.flatten.Nodup ∧
      (∀ e, e ∈ ess.flatten ↔ (a.rowDyn fs e).isSome = true) ∧ a.Grouped ess ∧
      ForEachColumn fs ns body v it x v' (AWorld.sweepLines fs (a.rowDyn fs) body ess a x).2 ∧
      dropGuards false q.guards v' = .ok () { u with locks := ls } ∧
      Reachable u ∧ SameShape w u ∧ u.locks = w.locks ∧ LockRun u ls qs ∧ u.Shows (AWorld.sweepLines fs (a.rowDyn fs) body ess a x).1 := by
  have hi := hw.sound.inv
  have hc : Calm w ∨ ∀ f ∈ fs, ∀ c, f.Of c → w.Row c := hc.imp_right (fun hh f hf c hc => by
    apply Classical.byContradiction
    intro hr
    exact hh f hf c hc ((ha.infoNone hi).2 hr))
  obtain ⟨_, ks, h1, h2, _, it, h3, h4⟩ := dynamic_main hi ⟨ls, (hr.inv hw).len, rfl⟩ hlen hne (locksUsed_of hw hc) hq
  obtain ⟨_, ⟨ls', _, hv⟩, _⟩ := queryDynamic_ok hq
  have hdrop := C22_dynamic_drop hw hr hq
  subst hv
  have hnd := ents_nodup hi h1
  obtain ⟨u, f1, f2, ⟨f3, f4⟩, f5⟩ := forEachColumn_spec (ls := ls') (a0 := a) hne hi hn hb ks (fun k hk => (h2 k).1 hk) x hnd hw ha rfl rfl (fun _ _ => rfl)
    (by
      have : (fun s => ColumnIter.next { w with locks := ls' } s) = fun s => ColumnIter.next w s :=
        funext (fun s => (C14_values_irrelevant (show SameShape w { w with locks := ls' } from rfl)).2.2.1 s)
      rw [← this]; exact h4)
  refine ⟨it, _, _, u, h3, visits_eq h1 h2, by rw [← List.flatMap_def]; exact hnd, fun e => ?_, tables_grouped hi hlen ha (fun k hk => (h2 k).1 hk), f1, ?_, f2, f3, f4, lockRun_shape f3 f4 hr, f5⟩
  · rw [← List.flatMap_def]
    exact (mem_visited hi h2 e).trans (rowDyn_isSome hi ha).symm
  · unfold dropGuards at hdrop ⊢
    injection hdrop with _ hd
    have : releaseAll false ls' q.guards = ls := congrArg World.locks hd
    rw [this]

/-- C80: running the body of a loop over rows on row after row of the columns is the same as the loop over rows (C63). -/
theorem C80_row_bodies {τ : Type} {fs : List Fetch} {a : AWorld} {body : Body τ} {ess : List (List EcsId)}
    (he : ∀ e, e ∈ ess.flatten → (a.rowDyn fs e).isSome = true) (x : τ) :
    AWorld.sweepLines fs (a.rowDyn fs) (ColBody.ofRows body 0) ess a x = AWorld.sweep (a.rowDyn fs) (AWorld.cellsDyn fs) body ess.flatten a x :=
  sweepLines_rows ess (fun es h e h' => he e (List.mem_flatten.2 ⟨es, h, h'⟩)) a x

/-- C80: a loop has one result, so the loop of `C80_loop` is the only one. -/
theorem C80_one_result {τ : Type} {fs : List Fetch} {ns : List Nat} {body : ColBody τ} {w w1 w2 : World} {it : ColumnIter} {x z1 z2 : τ}
    (h1 : ForEachColumn fs ns body w it x w1 z1) (h2 : ForEachColumn fs ns body w it x w2 z2) : w1 = w2 ∧ z1 = z2 := forEachColumn_det h1 h2

/-! ### a case -/

open Classical in
theorem visits_cons (l : Line) (L : List Line) (want : (EcsId → Prop) → Prop) : visits (l :: L) want = (if want l.1 then [l.2] else []) ++ visits L want := by
  unfold visits
  by_cases h : want l.1
  · rw [List.filter_cons_of_pos (by rw [decide_eq_true_eq]; exact h), List.map_cons, if_pos h]; rfl
  · rw [List.filter_cons_of_neg (by rw [decide_eq_true_eq]; exact h), if_neg h]; rfl

/-- The columns of `A`: the lines of the entities 6, 3, nobody, and 0. -/
theorem demo_visits : visits (lines demo) (WantsIds [.mut (ent 1), .ecsId]) = [[ent 6], [ent 3], [], [ent 0]] := by
  rw [lines_eq, demo_roster]
  have hw : ∀ ids : List EcsId, WantsIds [.mut (ent 1), .ecsId] (fun c => c ∈ ids) ↔ ent 1 ∈ ids := by
    intro ids; simp [WantsIds, Fetch.Of]
  simp only [view, List.map_cons, List.map_nil, visits_cons, hw]
  rw [if_neg (by decide), if_pos (by decide), if_pos (by decide), if_pos (by decide), if_pos (by decide)]
  rfl

theorem columns_here {τ : Type} {w : World} (hw : Reachable w) (hlen : w.archetypes.length < 2 ^ 32) {a : AWorld} (ha : w.Shows a) {fs : List Fetch} (hne : fs ≠ [])
    (hc : ∀ f ∈ fs, ∀ c, f.Of c → a.info c ≠ none) {q : DynQuery} {v : World} (hq : queryDynamic fs w = .ok q v) {ns : List Nat} (hn : w.Strides fs ns)
    {body : ColBody τ} (hb : body.Sized a fs) (x : τ) {ess : List (List EcsId)} (hess : visits (lines w) (WantsIds fs) = ess) :
    ∃ (it : ColumnIter) (v' u : World), q.columnIter v = .ok it ∧ (∀ e, e ∈ ess.flatten ↔ (a.rowDyn fs e).isSome = true) ∧
      ForEachColumn fs ns body v it x v' (AWorld.sweepLines fs (a.rowDyn fs) body ess a x).2 ∧ dropGuards false q.guards v' = .ok () u ∧
      Reachable u ∧ u.Shows (AWorld.sweepLines fs (a.rowDyn fs) body ess a x).1 := by
  obtain ⟨it, ess', v', u, k1, k2, _, k4, _, k5, k6, k7, _, k8, _, k9⟩ := C80_loop (ls := w.locks) hw hlen (.refl _ _) ha hne (Or.inr hc) hq hn hb x
  rw [hess] at k2
  subst k2
  have : ({ u with locks := w.locks } : World) = u := by rw [← k8]
  rw [this] at k6
  exact ⟨it, v', u, k1, k4, k5, k6, k7, k9⟩

/-- Count the rows, and store the value 9 in each. -/
def fill : ColBody Nat := fun n sss => (n + sss.length, (List.range sss.length).map (fun i => (i, 0, val 4 9)))

theorem demo_columns : queryDynamic [.mut (ent 1), .ecsId] demo =
    .ok ⟨[.write 0, .none], [.mut (ent 1), .ecsId], false⟩ (after (queryDynamic [.mut (ent 1), .ecsId] demo)) := eq_of_endsOk (by decide +kernel)

/-- The loop in the world of the demonstration: three rows are counted, entity 0 gets its new `A`, entity 6 keeps its `B`. -/
example : ∃ q v it v' u, queryDynamic [.mut (ent 1), .ecsId] demo = .ok q v ∧ q.columnIter v = .ok it ∧
    ForEachColumn [.mut (ent 1), .ecsId] [4, 8] fill v it 0 v' 3 ∧ dropGuards false q.guards v' = .ok () u ∧ Reachable u ∧
    demo.Has (ent 0) (ent 1) (val 4 1) ∧ u.Has (ent 0) (ent 1) (val 4 9) ∧ u.Has (ent 6) (ent 2) (val 8 8) := by
  have hi := demo_reachable.sound.inv
  obtain ⟨a, ha, _⟩ := C57_view demo_reachable
  have hh : demo.Has (ent 0) (ent 1) (val 4 1) := by decide +kernel
  have h2 : a.cell (ent 6) (ent 2) = some (val 8 8) := (ha.cell _ _ _).2 (by decide +kernel)
  have hinfo : demo.InfoIs (ent 1) (.fromGeneric tA) := by decide +kernel
  have hinfo' := (ha.info _ _).2 hinfo
  have hsz : (ComponentMeta.fromGeneric tA).layout.size = 4 := by decide +kernel
  have hn : demo.Strides [.mut (ent 1), .ecsId] [4, 8] := by
    refine .cons ⟨nofun, ?_⟩ (.cons ⟨fun _ => rfl, fun c m hc => by rcases hc with hc | hc <;> cases hc⟩ .nil)
    rintro c m (hc | hc) hm
    · cases hc
      have := (ha.info _ _).2 hm
      rw [hinfo'] at this
      cases this
      exact hsz.symm
    · cases hc
  have hb : fill.Sized a [.mut (ent 1), .ecsId] := by
    intro x sss i j c m bs h1 h3 h4
    simp only [fill, List.mem_map] at h1
    obtain ⟨_, _, h1⟩ := h1
    cases h1
    cases h3
    rw [hinfo'] at h4
    cases h4
    rw [hsz]; rfl
  obtain ⟨it, v', u, k1, k4, k5, k6, k7, k9⟩ := columns_here demo_reachable demo_short ha (fs := [.mut (ent 1), .ecsId]) (by simp)
    (fun f hf c hc => by
      simp only [List.mem_cons, List.not_mem_nil, or_false] at hf
      rcases hf with rfl | rfl
      · rcases hc with hc | hc <;> cases hc
        rw [hinfo']; nofun
      · rcases hc with hc | hc <;> cases hc)
    demo_columns hn hb 0 demo_visits
  have row : ∀ e, e ∈ [[ent 6], [ent 3], [], [ent 0]].flatten → ∃ ss, a.rowDyn [.mut (ent 1), .ecsId] e = some ss := fun e he => Option.isSome_iff_exists.1 ((k4 e).1 he)
  obtain ⟨s6, r6⟩ := row (ent 6) (by decide)
  obtain ⟨s3, r3⟩ := row (ent 3) (by decide)
  obtain ⟨s0, r0⟩ := row (ent 0) (by decide)
  have e1 : ∀ {e ss}, a.rowDyn [.mut (ent 1), .ecsId] e = some ss → [e].mapM (a.rowDyn [.mut (ent 1), .ecsId]) = some [ss] := fun h => mapM_some h rfl
  have e0 : ([] : List EcsId).mapM (a.rowDyn [.mut (ent 1), .ecsId]) = some [] := rfl
  simp only [AWorld.sweepLines, e1 r6, e1 r3, e1 r0, e0, fill, List.length_cons, List.length_nil, List.range_succ, List.range_zero, List.map_nil, List.nil_append, List.map_cons,
    AWorld.storeLine, List.getElem?_cons_zero] at k5 k9
  refine ⟨_, _, it, v', u, demo_columns, k1, k5, k6, k7, hh,
    (k9.cell _ _ _).1 ?_, (k9.cell _ _ _).1 ?_⟩
  · simp
  · simp only
    rw [if_neg (by decide), if_neg (by decide), if_neg (by decide)]
    exact h2

example := C80_rows demo_reachable busy_same demo_small (by decide) (.inl demo_calm) dA_made

end Ellecs.WorldSpec
