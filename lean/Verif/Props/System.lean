import Verif.Proofs.System
/-!
# C63: loops over queries

`ForEachStatic` and `ForEachDyn` (in `Spec/System.lean`) run `for row in query.iter() { .. }` on the tables, pointer by
pointer.  `AWorld.sweep` is what such a loop is meant to do: the body runs once for each entity that has the components,
is shown what that entity had when the loop began, and what it stores are the new values of that entity.
-/
namespace Ellecs.WorldSpec
open World Demo

/-- C63: a loop over a static query ends, without a fault, and does what `sweep` says.  Other queries may be live
(`LockRun`); they are still live afterwards, and so is everything that holds of reachable worlds. -/
theorem C63_static {τ : Type} {w : World} (hw : Reachable w) (hlen : w.archetypes.length < 2 ^ 32) {ls : List RwLock} {qs : List LiveQuery}
    (hr : LockRun w ls qs) {a : AWorld} (ha : w.Shows a) {ps : List Param} (hne : ps ≠ []) {q : StaticQuery} {v : World}
    (hq : query ps { w with locks := ls } = .ok q v) {body : Body τ} (hb : body.Typed ps) (x : τ) :
    ∃ (it : StaticIter) (es : List EcsId) (v' u : World), q.iter v = .ok it ∧ es.Nodup ∧ (∀ e, e ∈ es ↔ (a.row ps e).isSome = true) ∧
      ForEachStatic body v it x v' (AWorld.sweep (a.row ps) (a.cells ps) body es a x).2 ∧
      dropGuards false q.guards v' = .ok () { u with locks := ls } ∧
      Reachable u ∧ SameShape w u ∧ u.locks = w.locks ∧ LockRun u ls qs ∧ u.Shows (AWorld.sweep (a.row ps) (a.cells ps) body es a x).1 := by
  have hi := hw.sound.inv
  obtain ⟨it, es, rows, h1, h2, h3, h4, h5⟩ := C14_iter_exact hw ⟨ls, (hr.inv hw).len, rfl⟩ hlen hne hq
  obtain ⟨_, ⟨ls', _, hv⟩, _⟩ := query_ok hq
  have hdrop := C22_static_drop hw hr hq
  subst hv
  have hshape : SameShape w { w with locks := ls' } := rfl
  have hp : Pairs (fun e row => w.Row e ∧ Pairs (Denotes w e) ps row) es rows := h5.imp (fun e row he hh => ⟨((h4 e).1 he).1, hh⟩)
  obtain ⟨u, f1, f2, ⟨f3, f4⟩, f5⟩ := forEach_spec (next := StaticIter.next) (see := fun w r => r.mapM w.readItem) (target := targets) (body := body) (w := w)
    (ls := ls') (a0 := a) (row := fun b => b.row ps) (cells := a.cells ps) (R := fun e row => w.Row e ∧ Pairs (Denotes w e) ps row)
    (fun u hs s => (C14_values_irrelevant hs).1 s)
    (fun u b e r hu hub hs hR => by
      have hd : Pairs (Denotes u e) ps r := hR.2.imp (fun p i _ hh => sameShape_denotes hs hh)
      obtain ⟨ss, s1, s2⟩ := readRow_eq hu.sound.inv hub hd
      exact ⟨ss, s1, by rw [row_eq hu.sound.inv hub (sameShape_row hs hR.1)]; exact s2⟩)
    (fun u b e r x ss hu hub hs _ hR => by
      have hd : Pairs (Denotes u e) ps r := hR.2.imp (fun p i _ hh => sameShape_denotes hs hh)
      rw [cells_types (show a.types = b.types from by rw [ha.types, hub.types, sameShape_types hs])]
      exact targets_spec hu.sound.inv hub hd (hb x ss))
    (fun b e x cs hx => row_frame hx ps) hp x h3 hw ha rfl rfl (fun _ _ => rfl)
    (by
      have : (fun s => StaticIter.next { w with locks := ls' } s) = fun s => StaticIter.next w s := funext (fun s => (C14_values_irrelevant hshape).1 s)
      rw [← this]; exact h2)
  refine ⟨it, es, _, u, h1, h3, fun e => (h4 e).trans (row_isSome hi ha).symm, f1, ?_, f2, f3, f4, lockRun_shape f3 f4 hr, f5⟩
  unfold dropGuards at hdrop ⊢
  injection hdrop with _ hd
  have : releaseAll false ls' q.guards = ls := congrArg World.locks hd
  rw [this]

/-- C63 for dynamic queries.  The second case of `hb`: the query asks only for existing entities (C15 explains why that
is needed). -/
theorem C63_dynamic {τ : Type} {w : World} (hw : Reachable w) (hlen : w.archetypes.length < 2 ^ 32) {ls : List RwLock} {qs : List LiveQuery}
    (hr : LockRun w ls qs) {a : AWorld} (ha : w.Shows a) {fs : List Fetch} (hne : fs ≠ []) (hc : Calm w ∨ ∀ f ∈ fs, ∀ c, f.Of c → a.info c ≠ none)
    {q : DynQuery} {v : World} (hq : queryDynamic fs { w with locks := ls } = .ok q v) {body : Body τ} (hb : body.Sized a fs) (x : τ) :
    ∃ (it : DynIter) (es : List EcsId) (v' u : World), q.iter v = .ok it ∧ es.Nodup ∧ (∀ e, e ∈ es ↔ (a.rowDyn fs e).isSome = true) ∧
      ForEachDyn fs body v it x v' (AWorld.sweep (a.rowDyn fs) (AWorld.cellsDyn fs) body es a x).2 ∧
      dropGuards false q.guards v' = .ok () { u with locks := ls } ∧
      Reachable u ∧ SameShape w u ∧ u.locks = w.locks ∧ LockRun u ls qs ∧ u.Shows (AWorld.sweep (a.rowDyn fs) (AWorld.cellsDyn fs) body es a x).1 := by
  have hi := hw.sound.inv
  have hc : Calm w ∨ ∀ f ∈ fs, ∀ c, f.Of c → w.Row c := hc.imp_right (fun hh f hf c hc => by
    apply Classical.byContradiction
    intro hr
    exact hh f hf c hc ((ha.infoNone hi).2 hr))
  obtain ⟨it, es, rows, h1, h2, h3, h4, h5⟩ := C15_iter_exact hw ⟨ls, (hr.inv hw).len, rfl⟩ hlen hne hc hq
  obtain ⟨_, ⟨ls', _, hv⟩, _⟩ := queryDynamic_ok hq
  have hdrop := C22_dynamic_drop hw hr hq
  subst hv
  have hshape : SameShape w { w with locks := ls' } := rfl
  have hp : Pairs (fun e row => w.Row e ∧ Pairs (FetchAt w e) fs row) es rows := h5.imp (fun e row he hh => ⟨((h4 e).1 he).1, hh⟩)
  obtain ⟨u, f1, f2, ⟨f3, f4⟩, f5⟩ := forEach_spec (next := DynIter.next) (see := fun w r => (fs.zip r).mapM (fun x => w.readFetch x.1 x.2)) (target := targetsDyn fs)
    (body := body) (w := w) (ls := ls') (a0 := a) (row := fun b => b.rowDyn fs) (cells := AWorld.cellsDyn fs) (R := fun e row => w.Row e ∧ Pairs (FetchAt w e) fs row)
    (fun u hs s => (C14_values_irrelevant hs).2.1 s)
    (fun u b e r hu hub hs hR => by
      have hd : Pairs (FetchAt u e) fs r := hR.2.imp (fun p i _ hh => sameShape_fetchAt hs hh)
      obtain ⟨ss, s1, s2⟩ := readDyn_eq hu.sound.inv hub hd
      exact ⟨ss, s1, by rw [rowDyn_eq hu.sound.inv hub (sameShape_row hs hR.1)]; exact s2⟩)
    (fun u b e r x ss hu hub hs hinfo hR => by
      have hd : Pairs (FetchAt u e) fs r := hR.2.imp (fun p i _ hh => sameShape_fetchAt hs hh)
      exact targetsDyn_spec hu.sound.inv hub hinfo hd (hb x ss))
    (fun b e x cs hx => rowDyn_frame hx fs) hp x h3 hw ha rfl rfl (fun _ _ => rfl)
    (by
      have : (fun s => DynIter.next { w with locks := ls' } s) = fun s => DynIter.next w s := funext (fun s => (C14_values_irrelevant hshape).2.1 s)
      rw [← this]; exact h2)
  refine ⟨it, es, _, u, h1, h3, fun e => (h4 e).trans (rowDyn_isSome hi ha).symm, f1, ?_, f2, f3, f4, lockRun_shape f3 f4 hr, f5⟩
  unfold dropGuards at hdrop ⊢
  injection hdrop with _ hd
  have : releaseAll false ls' q.guards = ls := congrArg World.locks hd
  rw [this]

/-- C63: a loop has one result, so the loops of `C63_static` and `C63_dynamic` are the only ones. -/
theorem C63_one_result {τ : Type} {body : Body τ} {w w1 w2 : World} {x z1 z2 : τ} :
    (∀ it, ForEachStatic body w it x w1 z1 → ForEachStatic body w it x w2 z2 → w1 = w2 ∧ z1 = z2) ∧
    ∀ fs it, ForEachDyn fs body w it x w1 z1 → ForEachDyn fs body w it x w2 z2 → w1 = w2 ∧ z1 = z2 :=
  ⟨fun _ h1 h2 => ForEach.det h1 h2, fun _ _ h1 h2 => ForEach.det h1 h2⟩

/-- C63: if the body remembers nothing, the order of the rows does not matter: afterwards every entity has the values the
body gave it, computed from the values it had before. -/
theorem C63_static_each {w : World} (hw : Reachable w) (hlen : w.archetypes.length < 2 ^ 32) {ls : List RwLock} {qs : List LiveQuery}
    (hr : LockRun w ls qs) {a : AWorld} (ha : w.Shows a) {ps : List Param} (hne : ps ≠ []) {q : StaticQuery} {v : World}
    (hq : query ps { w with locks := ls } = .ok q v) {f : List AWorld.Seen → List (Option Bytes)} (hb : (Body.of f).Typed ps) :
    ∃ (it : StaticIter) (v' u : World), q.iter v = .ok it ∧ ForEachStatic (Body.of f) v it () v' () ∧
      dropGuards false q.guards v' = .ok () { u with locks := ls } ∧
      Reachable u ∧ SameShape w u ∧ u.locks = w.locks ∧ LockRun u ls qs ∧ u.Shows (a.run ps f) := by
  obtain ⟨it, es, v', u, h1, h2, h3, h4, h5, h6, h7, h8, h9, h10⟩ := C63_static hw hlen hr ha hne hq hb ()
  exact ⟨it, v', u, h1, h4, h5, h6, h7, h8, h9, by rw [AWorld.run, ← sweep_each a h2 h3]; exact h10⟩

/-- C63: the same for dynamic queries. -/
theorem C63_dynamic_each {w : World} (hw : Reachable w) (hlen : w.archetypes.length < 2 ^ 32) {ls : List RwLock} {qs : List LiveQuery}
    (hr : LockRun w ls qs) {a : AWorld} (ha : w.Shows a) {fs : List Fetch} (hne : fs ≠ []) (hc : Calm w ∨ ∀ f ∈ fs, ∀ c, f.Of c → a.info c ≠ none)
    {q : DynQuery} {v : World} (hq : queryDynamic fs { w with locks := ls } = .ok q v) {f : List AWorld.Seen → List (Option Bytes)} (hb : (Body.of f).Sized a fs) :
    ∃ (it : DynIter) (v' u : World), q.iter v = .ok it ∧ ForEachDyn fs (Body.of f) v it () v' () ∧
      dropGuards false q.guards v' = .ok () { u with locks := ls } ∧
      Reachable u ∧ SameShape w u ∧ u.locks = w.locks ∧ LockRun u ls qs ∧ u.Shows (a.runDyn fs f) := by
  obtain ⟨it, es, v', u, h1, h2, h3, h4, h5, h6, h7, h8, h9, h10⟩ := C63_dynamic hw hlen hr ha hne hc hq hb ()
  exact ⟨it, v', u, h1, h4, h5, h6, h7, h8, h9, by rw [AWorld.runDyn, ← sweep_each a h2 h3]; exact h10⟩

/-- Add one to every byte of the first value of the row. -/
def bump : List AWorld.Seen → List (Option Bytes)
  | .value bs :: _ => [if bs.length = 4 then some (bs.map (fun (b : Byte) => b.map (· + 1))) else none]
  | _ => []

theorem bump_typed : (Body.of bump).Typed [.mut tA, .ids] := by
  intro x ss i t bs h1 h2
  match i, h1 with
  | 0, h1 =>
    cases h1
    simp only [Body.of] at h2
    unfold bump at h2
    split at h2
    · split at h2
      · rename_i hl
        simp only [List.getElem?_cons_zero, Option.some.injEq] at h2
        subst h2
        rw [List.length_map]; exact hl
      · cases h2
    · cases h2
  | 1, h1 => cases h1
  | i + 2, h1 => cases h1

theorem loop_here {w : World} (hw : Reachable w) (hlen : w.archetypes.length < 2 ^ 32) {a : AWorld} (ha : w.Shows a) {ps : List Param} (hne : ps ≠ []) {q : StaticQuery}
    {v : World} (hq : query ps w = .ok q v) {f : List AWorld.Seen → List (Option Bytes)} (hb : (Body.of f).Typed ps) :
    ∃ (it : StaticIter) (v' u : World), q.iter v = .ok it ∧ ForEachStatic (Body.of f) v it () v' () ∧ dropGuards false q.guards v' = .ok () u ∧
      Reachable u ∧ u.Shows (a.run ps f) := by
  obtain ⟨it, v', u, h1, h2, h3, h4, _, h5, _, h6⟩ := C63_static_each (ls := w.locks) hw hlen (.refl _ _) ha hne hq hb
  have : ({ u with locks := w.locks } : World) = u := by rw [← h5]
  rw [this] at h3
  exact ⟨it, v', u, h1, h2, h3, h4, h6⟩

/-- The loop of benches/bench_static.rs in the world of the demonstration: all values of `A` are increased, entity 6 keeps
its `B`. -/
example : ∃ q v it v' u, query [.mut tA, .ids] demo = .ok q v ∧ q.iter v = .ok it ∧ ForEachStatic (Body.of bump) v it () v' () ∧
    dropGuards false q.guards v' = .ok () u ∧ Reachable u ∧ demo.Has (ent 0) (ent 1) (val 4 1) ∧ u.Has (ent 0) (ent 1) (val 4 2) ∧ u.Has (ent 6) (ent 2) (val 8 8) := by
  have hi := demo_reachable.sound.inv
  obtain ⟨a, ha, _⟩ := C57_view demo_reachable
  have hh : demo.Has (ent 0) (ent 1) (val 4 1) := by decide +kernel
  have h1 : a.cell (ent 0) (ent 1) = some (val 4 1) := (ha.cell _ _ _).2 hh
  have h2 : a.cell (ent 6) (ent 2) = some (val 8 8) := (ha.cell _ _ _).2 (by decide +kernel)
  have t1 : a.types tA = some (ent 1) := by rw [ha.types]; decide +kernel
  have r0 : a.row [.mut tA, .ids] (ent 0) = some [.value (val 4 1), .id (ent 0)] := by
    rw [row_eq hi ha (by decide +kernel)]
    exact mapM_some (by simp only [AWorld.seen, t1, Option.bind_some, h1, Option.map_some]) (mapM_some rfl rfl)
  obtain ⟨it, v', u, k1, k2, k3, k4, k5⟩ := loop_here demo_reachable (by decide +kernel) ha (ps := [.mut tA, .ids]) (by simp)
    (eq_of_endsOk (a := (⟨[.mut tA, .ids], [.write 0, .none], some [.mut (ent 1), .ecsId]⟩ : StaticQuery)) (by decide +kernel)) bump_typed
  refine ⟨_, _, it, v', u, eq_of_endsOk (a := (⟨[.mut tA, .ids], [.write 0, .none], some [.mut (ent 1), .ecsId]⟩ : StaticQuery)) (by decide +kernel), k1, k2, k3, k4,
    hh, (k5.cell _ _ _).1 ?_, (k5.cell _ _ _).1 ?_⟩
  · simp only [AWorld.run, AWorld.each, r0]
    have : bump [.value (val 4 1), .id (ent 0)] = [some (val 4 2)] := by decide
    rw [this]
    simp only [AWorld.cells, t1, AWorld.storeAll, and_self, if_true]
  · simp only [AWorld.run, AWorld.each]
    cases a.row [.mut tA, .ids] (ent 6) with
    | none => exact h2
    | some ss =>
      simp only
      have key : ∀ out, (a.storeAll (ent 6) (a.cells [.mut tA, .ids] out)).cell (ent 6) (ent 2) = some (val 8 8) := by
        intro out
        match out with
        | [] => exact h2
        | [some bs] => simp only [AWorld.cells, t1, AWorld.storeAll]; rw [if_neg (by decide)]; exact h2
        | some bs :: _ :: [] => simp only [AWorld.cells, t1, AWorld.storeAll]; rw [if_neg (by decide)]; exact h2
        | some bs :: _ :: _ :: _ => simp only [AWorld.cells, t1, AWorld.storeAll]; rw [if_neg (by decide)]; exact h2
        | [none] => exact h2
        | none :: _ :: [] => exact h2
        | none :: _ :: _ :: _ => exact h2
      exact key _

end Ellecs.WorldSpec
