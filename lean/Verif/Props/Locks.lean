import Verif.Proofs.Cases
import Verif.Proofs.LockRun
import Verif.Proofs.Demo
/-!
# C21, C22, C23: queries that are alive at the same time, and poisoning

Throughout `w` is a world without queries, `ls` the state of its locks some steps later and `qs` the queries that are then alive.
-/
namespace Ellecs.WorldSpec
open World Demo

/-! ## C21 -/

/-- C21: whatever queries were made and dropped in whatever order, if two different accesses of live queries (or of one query)
concern the same component and one is mutable, then no entity has this component (there is no memory to access). -/
theorem C21_no_alias {w : World} (hw : Reachable w) {ls : List RwLock} {qs : List LiveQuery} (hr : LockRun w ls qs) {i j : Nat} {f f' : Fetch} (hij : i ≠ j)
    (hi : (accesses qs)[i]? = some f) (hj : (accesses qs)[j]? = some f') {c : EcsId} (hf : f = .mut c) (hf' : f'.Of c) :
    ¬ w.Used c ∧ ∀ e, ¬ w.HasComp e c := by
  have hinv := hr.inv hw
  obtain ⟨g, g1, g2⟩ := access_guard hinv.guards hi
  obtain ⟨g', g1', g2'⟩ := access_guard hinv.guards hj
  have hn := clash_lock hinv.held hij g1 g1' g2 g2' (Or.inl hf) hf' (Or.inl hf)
  have hu : ¬ w.Used c := by
    rintro ⟨a, h1, h2⟩
    exact hw.sound.inv.lock.used a h1 c h2 hn
  exact ⟨hu, fun e ⟨bs, h⟩ => hu (has_used hw.sound.inv h)⟩

/-- A dynamic query with two mutable accesses to something that is no component; it takes no locks for them. -/
example := C21_no_alias demo_reachable unused_run (i := 0) (j := 1) (by decide) rfl rfl (c := ent 0) rfl (Or.inl rfl)

theorem points_used {w : World} (h : Inv w) {e c : EcsId} {p : Ptr} (hp : w.PointsAt p e c) : w.Used c := by
  obtain ⟨k, j, r, a, v, h1, _, h3, _⟩ := hp
  have hm := List.mem_of_getElem? h1
  refine ⟨a, hm, ?_⟩
  have hs := (h.shape a hm).ids
  rw [← hs]
  exact List.mem_map.2 ⟨_, List.mem_of_getElem? h3, rfl⟩

/-- C21 for references: the bytes behind a mutable reference of one access and behind any reference of another access are disjoint,
whether the accesses belong to two queries or to one. -/
theorem C21_references_apart {w : World} (hw : Reachable w) {ls : List RwLock} {qs : List LiveQuery} (hr : LockRun w ls qs) {i j : Nat} {f f' : Fetch} (hij : i ≠ j)
    (hi : (accesses qs)[i]? = some f) (hj : (accesses qs)[j]? = some f') {c : EcsId} (hf : f = .mut c) {e e' : EcsId} {p p' : Ptr}
    (hp : FetchAt w e f p) (hp' : FetchAt w e' f' p') {n n' : Nat} (hn : FetchSize w f n) (hn' : FetchSize w f' n') : Apart p n p' n' := by
  by_cases hc : f'.Of c
  · exfalso
    have := (C21_no_alias hw hr hij hi hj hf hc).1
    subst hf
    exact this (points_used hw.sound.inv hp)
  · refine fetch_apart hw.sound.inv hp hp' (Or.inr ?_) hn hn'
    subst hf
    intro hh
    exact hc (fetch_of_getId hh.symm)

/-- `A` of entity 6 through the first query, `B` of entity 6 through the second. -/
example := C21_references_apart demo_reachable two_run (i := 0) (j := 1) (by decide) rfl rfl (c := ent 1) rfl (e := ent 6) (e' := ent 6) six_A six_B sizeA sizeB

theorem Pairs.zip' {α β : Type} {R : α → β → Prop} {as : List α} {bs : List β} (h : Pairs R as bs) : (as.zip bs).map Prod.fst = as ∧ (as.zip bs).map Prod.snd = bs := by
  induction h with
  | nil => exact ⟨rfl, rfl⟩
  | cons _ _ ih => simp [ih.1, ih.2]

theorem releaseAll_none {α : Type} (p : Bool) (ls : List RwLock) (xs : List α) : releaseAll p ls (xs.map (fun _ => .none)) = ls := by
  induction xs with
  | nil => rfl
  | cons x xs ih => exact ih

/-- `World::query` is a sequence of such steps: it adds a live query that accesses the fetches of the query and holds its guards. -/
theorem C21_static_steps {w : World} (hw : Reachable w) {ls : List RwLock} {qs : List LiveQuery} (hr : LockRun w ls qs) {ps : List Param} {q : StaticQuery} {v : World}
    (hq : query ps { w with locks := ls } = .ok q v) :
    ∃ ls' held, v = { w with locks := ls' } ∧ LockRun w ls' (qs ++ [⟨[], held, none⟩]) ∧
      held.map Prod.fst = q.fetches.getD [] ∧ ∀ p l, releaseAll p l q.guards = releaseAll p l (held.map Prod.snd) := by
  rw [query_locks] at hq
  cases hf : allFetches w ps with
  | none =>
    simp only [hf] at hq
    injection hq with h1 h2; subst h1 h2
    exact ⟨ls, [], rfl, .step hr (.create []), rfl, fun p l => releaseAll_none p l ps⟩
  | some fs =>
    simp only [hf] at hq
    rcases static_made hw.sound.inv (hr.inv hw) fs with ⟨gs, ls', a1, a2, _⟩ | ⟨e, ls', a1, _⟩
    · simp only [a1] at hq
      injection hq with h1 h2; subst h1 h2
      have := acquireAllStatic_run (w := w) fs [] ls qs
      rw [show (List.map Prod.snd ([] : List (Fetch × Guard))) = [] from rfl, a1] at this
      refine ⟨ls', fs.zip gs, rfl, ?_, (Pairs.zip' a2.guards).1, ?_⟩
      · exact LockSteps.trans (.step hr (.create fs)) this
      · intro p l; rw [(Pairs.zip' a2.guards).2]
    · simp only [a1] at hq; cases hq

example := C21_static_steps demo_reachable two_run heldBZ_made

/-- The same for `World::query_dynamic`. -/
theorem C21_dynamic_steps {w : World} (hw : Reachable w) {ls : List RwLock} {qs : List LiveQuery} (hr : LockRun w ls qs) {fs : List Fetch} {q : DynQuery} {v : World}
    (hq : queryDynamic fs { w with locks := ls } = .ok q v) :
    ∃ ls' held, v = { w with locks := ls' } ∧ LockRun w ls' (qs ++ [⟨[], held, none⟩]) ∧ held.map Prod.fst = fs ∧ held.map Prod.snd = q.guards := by
  rw [queryDynamic_locks] at hq
  rcases dyn_made hw.sound.inv (hr.inv hw) fs with ⟨gs, inc, ls', a1, a2⟩ | ⟨e, ls', a1, _⟩
  · simp only [a1] at hq
    injection hq with h1 h2; subst h1 h2
    have := acquireAllDyn_run (w := w) fs [] false ls qs
    rw [show (List.map Prod.snd ([] : List (Fetch × Guard))) = [] from rfl, a1] at this
    exact ⟨ls', fs.zip gs, rfl, LockSteps.trans (.step hr (.create fs)) this, (Pairs.zip' a2.guards).1, (Pairs.zip' a2.guards).2⟩
  · simp only [a1] at hq; cases hq

example := C21_dynamic_steps demo_reachable two_run four_made

/-- A creation that panics is a sequence of steps that leaves no query behind. -/
theorem C21_static_panic_steps {w : World} {ls : List RwLock} {qs : List LiveQuery} (hr : LockRun w ls qs) {ps : List Param} {f : Fault} {v : World}
    (hq : query ps { w with locks := ls } = .error f v) (hf : f ≠ .deadlock) : ∃ ls', v = { w with locks := ls' } ∧ LockRun w ls' qs := by
  rw [query_locks] at hq
  cases hfs : allFetches w ps with
  | none => simp only [hfs] at hq; cases hq
  | some fs =>
    simp only [hfs] at hq
    have := acquireAllStatic_run (w := w) fs [] ls qs
    rw [show (List.map Prod.snd ([] : List (Fetch × Guard))) = [] from rfl] at this
    cases ha : acquireAllStatic w [] ls fs with
    | ok x => simp only [ha] at hq; cases hq
    | error x =>
      simp only [ha] at hq this
      injection hq with h1 h2; subst h1 h2
      exact ⟨x.2, rfl, LockSteps.trans (.step hr (.create fs)) (this hf)⟩

/-- `A` is poisoned. -/
example := C21_static_panic_steps sick_run (ps := [.ref tB, .mut tA]) (f := .poisoned) (eq_of_endsWith (by decide +kernel)) (by decide)

theorem C21_dynamic_panic_steps {w : World} {ls : List RwLock} {qs : List LiveQuery} (hr : LockRun w ls qs) {fs : List Fetch} {f : Fault} {v : World}
    (hq : queryDynamic fs { w with locks := ls } = .error f v) (hf : f ≠ .deadlock) : ∃ ls', v = { w with locks := ls' } ∧ LockRun w ls' qs := by
  rw [queryDynamic_locks] at hq
  have := acquireAllDyn_run (w := w) fs [] false ls qs
  rw [show (List.map Prod.snd ([] : List (Fetch × Guard))) = [] from rfl] at this
  cases ha : acquireAllDyn w [] false ls fs with
  | ok x => simp only [ha] at hq; cases hq
  | error x =>
    simp only [ha] at hq this
    injection hq with h1 h2; subst h1 h2
    exact ⟨x.2, rfl, LockSteps.trans (.step hr (.create fs)) (this hf)⟩

example := C21_dynamic_panic_steps sick_run (fs := [.immut (ent 2), .mut (ent 1)]) (f := .poisoned) (eq_of_endsWith (by decide +kernel)) (by decide)

/-- Dropping any live query, in any order, is a sequence of steps. -/
theorem C21_drop_steps {w : World} {ls : List RwLock} {pre post : List LiveQuery} {held : List (Fetch × Guard)}
    (hr : LockRun w ls (pre ++ ⟨[], held, none⟩ :: post)) (p : Bool) : LockRun w (releaseAll p ls (held.map Prod.snd)) (pre ++ post) :=
  LockSteps.trans (.step hr (.close p)) (close_run held ls)

/-- The first of two live queries is dropped. -/
example := C21_drop_steps (pre := []) (post := [liveB]) two_run false

/-! ## C22 -/

/-- C22: dropping a static query right after its creation restores the world, whatever other queries are alive. -/
theorem C22_static_drop {w : World} (hw : Reachable w) {ls : List RwLock} {qs : List LiveQuery} (hr : LockRun w ls qs) {ps : List Param} {q : StaticQuery} {v : World}
    (hq : query ps { w with locks := ls } = .ok q v) : dropGuards false q.guards v = .ok () { w with locks := ls } := by
  rw [query_locks] at hq
  cases hf : allFetches w ps with
  | none =>
    simp only [hf] at hq
    injection hq with h1 h2; subst h1 h2
    unfold dropGuards
    simp only [releaseAll_none]
  | some fs =>
    simp only [hf] at hq
    rcases static_made hw.sound.inv (hr.inv hw) fs with ⟨gs, ls', a1, a2, _⟩ | ⟨e, ls', a1, _⟩
    · simp only [a1] at hq
      injection hq with h1 h2; subst h1 h2
      unfold dropGuards
      simp only [a2.drop (hr.inv hw)]
    · simp only [a1] at hq; cases hq

example := C22_static_drop demo_reachable two_run heldBZ_made

/-- The same for dynamic queries. -/
theorem C22_dynamic_drop {w : World} (hw : Reachable w) {ls : List RwLock} {qs : List LiveQuery} (hr : LockRun w ls qs) {fs : List Fetch} {q : DynQuery} {v : World}
    (hq : queryDynamic fs { w with locks := ls } = .ok q v) : dropGuards false q.guards v = .ok () { w with locks := ls } := by
  rw [queryDynamic_locks] at hq
  rcases dyn_made hw.sound.inv (hr.inv hw) fs with ⟨gs, inc, ls', a1, a2⟩ | ⟨e, ls', a1, _⟩
  · simp only [a1] at hq
    injection hq with h1 h2; subst h1 h2
    unfold dropGuards
    simp only [a2.drop (hr.inv hw)]
  · simp only [a1] at hq; cases hq

example := C22_dynamic_drop demo_reachable two_run four_made

/-- C22, no leak: when all queries are gone, dropped in whatever order and panicking or not, no lock is held. -/
theorem C22_no_leak {w : World} (hw : Reachable w) {ls : List RwLock} (hr : LockRun w ls []) : Unlocked { w with locks := ls } ∧ ls.length = w.locks.length := by
  have h := hr.inv hw
  refine ⟨?_, h.len⟩
  intro l hl
  obtain ⟨i, hi⟩ := List.mem_iff_getElem?.1 hl
  have := h.held i
  rw [hi] at this
  obtain ⟨h1, h2, _⟩ := this
  refine ⟨by simpa [guardsOf] using h1, ?_⟩
  cases hx : l.writer with
  | false => rfl
  | true => rw [hx] at h2; simp [guardsOf] at h2

example := C22_no_leak demo_reachable sick_run

/-- A creation of a static query that blocks: two accesses to the same component, one of them mutable, the other held by a live query or
by an earlier position of the query itself. -/
theorem C22_static_blocks {w : World} (hw : Reachable w) {ls : List RwLock} {qs : List LiveQuery} (hr : LockRun w ls qs) {ps : List Param} {v : World}
    (hq : query ps { w with locks := ls } = .error .deadlock v) :
    ∃ fs, Pairs (Bound w) ps fs ∧ (SelfClash fs ∨ ∃ f ∈ fs, ∃ f' ∈ accesses qs, Clash f f') := by
  rw [query_locks] at hq
  cases hfs : allFetches w ps with
  | none => simp only [hfs] at hq; cases hq
  | some fs =>
    simp only [hfs] at hq
    refine ⟨fs, allFetches_bound.1 hfs, ?_⟩
    rcases static_made hw.sound.inv (hr.inv hw) fs with ⟨gs, ls', a1, a2, _⟩ | ⟨e, ls', a1, a2⟩
    · simp only [a1] at hq; cases hq
    · simp only [a1] at hq
      injection hq with h1 h2; subst h1
      rcases a2 with ⟨h, _⟩ | ⟨h, _⟩ | ⟨_, n, f, h1, f', h2, _, h3 | ⟨i, h3, h4⟩⟩
      · cases h
      · cases h
      · exact Or.inr ⟨f, List.mem_of_getElem? h1, f', h3, h2⟩
      · exact Or.inl ⟨n, i, f, f', by omega, h1, h4, h2⟩

example := C22_static_blocks demo_reachable two_run (ps := [.ref tB, .ref tA]) (eq_of_endsWith (by decide +kernel))

/-- The same for dynamic queries; moreover the component they clash on has been put on some entity or into some lock table. -/
theorem C22_dynamic_blocks {w : World} (hw : Reachable w) {ls : List RwLock} {qs : List LiveQuery} (hr : LockRun w ls qs) {fs : List Fetch} {v : World}
    (hq : queryDynamic fs { w with locks := ls } = .error .deadlock v) : SelfClash fs ∨ ∃ f ∈ fs, ∃ f' ∈ accesses qs, Clash f f' := by
  rw [queryDynamic_locks] at hq
  rcases dyn_made hw.sound.inv (hr.inv hw) fs with ⟨gs, inc, ls', a1, a2⟩ | ⟨e, ls', a1, a2, _⟩
  · simp only [a1] at hq; cases hq
  · simp only [a1] at hq
    injection hq with h1 h2; subst h1
    rcases a2 with ⟨h, _⟩ | ⟨h, _⟩ | ⟨_, n, f, h1, f', h2, _, h3 | ⟨i, h3, h4⟩⟩
    · cases h
    · cases h
    · exact Or.inr ⟨f, List.mem_of_getElem? h1, f', h3, h2⟩
    · exact Or.inl ⟨n, i, f, f', by omega, h1, h4, h2⟩

example := C22_dynamic_blocks demo_reachable two_run (fs := [.ecsId, .mut (ent 2)]) (eq_of_endsWith (by decide +kernel))

/-- C22, creation: a static query that clashes neither with itself nor with a live query is created if every type it asks for either is unknown
or is on some entity (or was) and not poisoned. -/
theorem C22_static_creation {w : World} (hw : Reachable w) {ls : List RwLock} {qs : List LiveQuery} (hr : LockRun w ls qs) {ps : List Param}
    (hself : ∀ fs, Pairs (Bound w) ps fs → ¬ SelfClash fs) (hlive : ∀ fs, Pairs (Bound w) ps fs → ∀ f ∈ fs, ∀ f' ∈ accesses qs, ¬ Clash f f')
    (hused : ∀ p ∈ ps, ∀ t c, p.Of t → w.typeMap t = some c → w.Used c ∧ ¬ Poisoned { w with locks := ls } c) :
    ∃ q v, query ps { w with locks := ls } = .ok q v := by
  rw [query_locks]
  cases hfs : allFetches w ps with
  | none => exact ⟨_, _, rfl⟩
  | some fs =>
    simp only
    have hb := allFetches_bound.1 hfs
    have hasked : ∀ f ∈ fs, ∀ c, f.Of c → w.Used c ∧ ¬ Poisoned { w with locks := ls } c := by
      intro f hf c hc
      obtain ⟨p, h1, t, h2, h3⟩ := bound_mem hb hf hc
      exact hused p h1 t c h2 h3
    rcases static_made hw.sound.inv (hr.inv hw) fs with ⟨gs, ls', a1, a2, _⟩ | ⟨e, ls', a1, a2⟩
    · simp only [a1]; exact ⟨_, _, rfl⟩
    · exfalso
      rcases a2 with ⟨_, f, h1, c, h2, h3⟩ | ⟨_, f, h1, c, h2, h3⟩ | ⟨_, n, f, h1, f', h2, _, h3 | ⟨i, h3, h4⟩⟩
      · obtain ⟨a, q1, q2⟩ := (hasked f h1 c h2).1
        exact hw.sound.inv.lock.used a q1 c q2 h3
      · exact (hasked f h1 c h2).2 h3
      · exact hlive fs hb f (List.mem_of_getElem? h1) f' h3 h2
      · exact hself fs hb ⟨n, i, f, f', by omega, h1, h4, h2⟩

/-- A further reader of `B` and writer of `Z` while two queries are alive. -/
example := C22_static_creation demo_reachable two_run (ps := [.ref tB, .mut tZ]) (bound_all bound_BZ (by decide)) (bound_all bound_BZ (by decide))
  (fun p hp t c ht hc => types_all (ps := [.ref tB, .mut tZ])
    (P := fun t => ∀ c ∈ demo.typeMap t, demo.Used c ∧ ¬ Poisoned { demo with locks := two.locks } c) (by decide +kernel) p hp t ht c hc)

/-- The same for dynamic queries; here components that were never used do no harm. -/
theorem C22_dynamic_creation {w : World} (hw : Reachable w) {ls : List RwLock} {qs : List LiveQuery} (hr : LockRun w ls qs) {fs : List Fetch}
    (hself : ¬ SelfClash fs) (hlive : ∀ f ∈ fs, ∀ f' ∈ accesses qs, ¬ Clash f f')
    (hp : ∀ f ∈ fs, ∀ c, f.Of c → ¬ Poisoned { w with locks := ls } c) : ∃ q v, queryDynamic fs { w with locks := ls } = .ok q v := by
  rw [queryDynamic_locks]
  rcases dyn_made hw.sound.inv (hr.inv hw) fs with ⟨gs, inc, ls', a1, a2⟩ | ⟨e, ls', a1, a2, a3⟩
  · simp only [a1]; exact ⟨_, _, rfl⟩
  · exfalso
    rcases a2 with ⟨rfl, _⟩ | ⟨_, f, h1, c, h2, h3⟩ | ⟨_, n, f, h1, f', h2, _, h3 | ⟨i, h3, h4⟩⟩
    · exact a3 rfl
    · exact hp f h1 c h2 h3
    · exact hlive f (List.mem_of_getElem? h1) f' h3 h2
    · exact hself ⟨n, i, f, f', by omega, h1, h4, h2⟩

example := C22_dynamic_creation demo_reachable two_run (fs := [.immut (ent 2), .mut (ent 4)]) (by decide) (by decide) (comps_all (by decide +kernel))

/-- C22: a static query that asks for the same type mutably and again is never created. -/
theorem C22_static_self_clash {w : World} (hw : Reachable w) {ls : List RwLock} {qs : List LiveQuery} (hr : LockRun w ls qs) {ps : List Param}
    {i j : Nat} {t : Ty} {p : Param} (hij : i ≠ j) (hi : ps[i]? = some (.mut t)) (hj : ps[j]? = some p) (hp : p.Of t)
    (hall : ∀ p ∈ ps, ∀ t, p.Of t → w.typeMap t ≠ none) (q : StaticQuery) (v : World) : query ps { w with locks := ls } ≠ .ok q v := by
  intro hq
  rw [query_locks] at hq
  cases hfs : allFetches w ps with
  | none =>
    obtain ⟨p, h1, t, h2, h3⟩ := allFetches_none.1 hfs
    exact hall p h1 t h2 h3
  | some fs =>
    simp only [hfs] at hq
    have hb := allFetches_bound.1 hfs
    obtain ⟨f, f1, c, f2, rfl⟩ := Pairs.get' hb hi
    obtain ⟨f', f1', f2'⟩ := Pairs.get' hb hj
    have hof : f'.Of c := by
      rcases hp with rfl | rfl
      · obtain ⟨c', e1, rfl⟩ := f2'; rw [f2] at e1; injection e1 with e1; subst e1; exact Or.inl rfl
      · obtain ⟨c', e1, rfl⟩ := f2'; rw [f2] at e1; injection e1 with e1; subst e1; exact Or.inr rfl
    rcases static_made hw.sound.inv (hr.inv hw) fs with ⟨gs, ls', a1, a2, a3⟩ | ⟨e, ls', a1, a2⟩
    · have hn := a2.selfClash hij f1 f1' (Or.inl rfl) hof (Or.inl rfl)
      obtain ⟨g, _, k, hk, _⟩ := Pairs.get' a3 f1
      rw [hn] at hk; cases hk
    · simp only [a1] at hq; cases hq

example := C22_static_self_clash demo_reachable two_run (ps := [.mut tZ, .ids, .ref tZ]) (i := 0) (j := 2) (t := tZ) (by decide) rfl rfl (Or.inr rfl)
  (types_all (P := fun t => demo.typeMap t ≠ none) (by decide +kernel))

/-- The same for dynamic queries of a component that some entity has. -/
theorem C22_dynamic_self_clash {w : World} (hw : Reachable w) {ls : List RwLock} {qs : List LiveQuery} (hr : LockRun w ls qs) {fs : List Fetch}
    {i j : Nat} {c : EcsId} {f : Fetch} (hij : i ≠ j) (hi : fs[i]? = some (.mut c)) (hj : fs[j]? = some f) (hf : f.Of c) (hu : w.Used c)
    (q : DynQuery) (v : World) : queryDynamic fs { w with locks := ls } ≠ .ok q v := by
  intro hq
  rw [queryDynamic_locks] at hq
  rcases dyn_made hw.sound.inv (hr.inv hw) fs with ⟨gs, inc, ls', a1, a2⟩ | ⟨e, ls', a1, a2, _⟩
  · have hn := a2.selfClash hij hi hj (Or.inl rfl) hf (Or.inl rfl)
    obtain ⟨a, q1, q2⟩ := hu
    exact hw.sound.inv.lock.used a q1 c q2 hn
  · simp only [a1] at hq; cases hq

example := C22_dynamic_self_clash demo_reachable two_run (fs := [.mut (ent 4), .ecsId, .immut (ent 4)]) (i := 0) (j := 2) (c := ent 4) (by decide) rfl rfl
  (Or.inr rfl) (by decide +kernel)

/-- C18 for dynamic queries: their creation fails only because of a poisoned lock or because the query asks for one component
mutably and again; never because a component is absent. -/
theorem C18_dynamic_creation {w w' : World} (hw : Reachable w) {fs : List Fetch} {f : Fault} (hq : queryDynamic fs w = .error f w') :
    (f = .poisoned ∧ ∃ x ∈ fs, ∃ c, x.Of c ∧ Poisoned w c) ∨ (f = .deadlock ∧ SelfClash fs) := by
  have hr : LockRun w w.locks [] := .refl _ _
  have hq' : queryDynamic fs { w with locks := w.locks } = .error f w' := hq
  rw [queryDynamic_locks] at hq'
  rcases dyn_made hw.sound.inv (hr.inv hw) fs with ⟨gs, inc, ls', a1, a2⟩ | ⟨e, ls', a1, a2, a3⟩
  · simp only [a1] at hq'; cases hq'
  · simp only [a1] at hq'
    injection hq' with h1 h2; subst h1
    rcases a2 with ⟨rfl, _⟩ | ⟨h, x, h1, c, h2, h3⟩ | ⟨h, n, x, h1, f', h2, _, h3 | ⟨i, h3, h4⟩⟩
    · exact absurd rfl a3
    · exact Or.inl ⟨h, x, h1, c, h2, h3⟩
    · cases h3
    · exact Or.inr ⟨h, n, i, x, f', by omega, h1, h4, h2⟩

/-- `A` is poisoned; and a query that asks for `A` mutably and again. -/
example := C18_dynamic_creation bad_reachable (fs := [.immut (ent 1)]) (f := .poisoned) (eq_of_endsWith (by decide +kernel))
example := C18_dynamic_creation demo_reachable (fs := [.immut (ent 1), .mut (ent 1)]) (f := .deadlock) (eq_of_endsWith (by decide +kernel))

/-! ## C23 -/

/-- What a single step does to poison. -/
theorem step_poison {w : World} (hw : Inv w) {ls ls' : List RwLock} {qs qs' : List LiveQuery} (hr : RunInv w ls qs) (hs : LockStep w ls qs ls' qs') (j : Nat) :
    poisonAt ls' j = poisonAt ls j ∨ (poisonAt ls' j = (poisonAt ls j).map (fun _ => true) ∧ ∃ q ∈ qs, q.closing = some true ∧ ∃ x ∈ q.held, x.2 = .write j) := by
  have hli : LooksIn w ls.length := by rw [hr.len]; exact looksIn hw
  cases hs with
  | create fs => exact Or.inl rfl
  | @acquire _ pre post f todo held g ha =>
    left
    have : f.acquireStatic w ls = .ok (g, ls') ∨ (g = .none ∧ ls' = ls ∧ ∃ id, f.getId = some id ∧ w.lockLookup id = none) := by
      rcases ha with ha | ⟨inc, ha⟩
      · exact Or.inl ha
      · exact acquireDyn_of_static ha
    rcases this with ha | ⟨_, h2, _⟩
    · rcases acquireStatic_spec hr.held hli f with ⟨g', ls2, a1, a2, a3, a4, a5, _⟩ | ⟨e, a1, _⟩
      · rw [a1] at ha
        injection ha with ha; injection ha with h1 h2; subst h1 h2
        exact a5 j
      · rw [a1] at ha; cases ha
    · rw [h2]
  | fail _ _ => exact Or.inl rfl
  | close _ => exact Or.inl rfl
  | @release pre post todo f g held p =>
    have hh := hr.held
    rw [guardsOf_append, guardsOf_cons] at hh
    obtain ⟨r1, r2, r3⟩ := release_spec (g := g) (gs := guardsOf pre ++ (held.map Prod.snd ++ guardsOf post)) (hh.perm (by
      simp only [List.map_cons, List.cons_append]; exact List.perm_middle)) p
    rw [r3]
    by_cases hx : p = true ∧ g = .write j
    · obtain ⟨rfl, rfl⟩ := hx
      right
      refine ⟨by congr 1; funext b; simp, ⟨todo, (f, .write j) :: held, some true⟩, by simp, rfl, (f, .write j), by simp, rfl⟩
    · left
      have : (fun b : Bool => b || (p && decide (g = .write j))) = id := by
        funext b
        cases p with
        | false => simp
        | true => simp only [true_and] at hx; simp [hx]
      rw [this]; simp
  | gone => exact Or.inl rfl

/-- C23: a poisoned component stays poisoned, whatever queries are made and dropped. -/
theorem C23_stays_poisoned {w : World} (hw : Reachable w) {ls ls' : List RwLock} {qs qs' : List LiveQuery} (hr : LockRun w ls qs) (hs : LockSteps w ls qs ls' qs')
    {c : EcsId} (hp : Poisoned { w with locks := ls } c) : Poisoned { w with locks := ls' } c := by
  obtain ⟨i, h1, h2⟩ := poisoned_iff.1 hp
  refine poisoned_iff.2 ⟨i, h1, ?_⟩
  have h0 := hr.inv hw
  induction hs with
  | refl => exact h2
  | step hss hstep ih =>
    have h3 := ih hr h0
    rcases step_poison hw.sound.inv (h0.steps hw.sound.inv hss) hstep i with h | ⟨h, _⟩
    · rw [h]; exact h3
    · rw [h, h3]; rfl

/-- `A` is poisoned and another query is begun. -/
example := C23_stays_poisoned demo_reachable sick_run (.step (.refl _ _) (.create [.immut (ent 2)])) sick_poisoned

/-- C23: only the drop of a query during a panic poisons a component, and only one the query has mutable access to. -/
theorem C23_poisoned_by {w : World} (hw : Reachable w) {ls ls' : List RwLock} {qs qs' : List LiveQuery} (hr : LockRun w ls qs) (hs : LockStep w ls qs ls' qs')
    {c : EcsId} (hp : Poisoned { w with locks := ls' } c) :
    Poisoned { w with locks := ls } c ∨ ∃ q ∈ qs, q.closing = some true ∧ .mut c ∈ q.held.map Prod.fst := by
  obtain ⟨i, h1, h2⟩ := poisoned_iff.1 hp
  have h0 := hr.inv hw
  rcases step_poison hw.sound.inv h0 hs i with h | ⟨_, q, q1, q2, x, q3, q4⟩
  · left; exact poisoned_iff.2 ⟨i, h1, by rw [← h]; exact h2⟩
  · right
    refine ⟨q, q1, q2, ?_⟩
    have := h0.guards q q1 x q3
    rw [q4] at this
    obtain ⟨id, e1, e2⟩ := this.write
    have := hw.sound.inv.lock.inj _ _ _ e2 h1; subst this
    exact List.mem_map.2 ⟨x, q3, e1⟩

example := C23_poisoned_by demo_reachable closing_run release_step sick_poisoned

theorem took_poison {w : World} (hw : Inv w) {ls ls' : List RwLock} {qs : List LiveQuery} {fs : List Fetch} {gs : List Guard} (h : Took w ls ls' qs fs gs)
    (c : EcsId) : Poisoned { w with locks := releaseAll true ls' gs } c ↔ Poisoned { w with locks := ls } c ∨ (.mut c ∈ fs ∧ w.lockLookup c ≠ none) := by
  obtain ⟨r1, r2, r3⟩ := releaseAll_spec (p := true) gs h.held
  rw [poisoned_iff, poisoned_iff]
  constructor
  · rintro ⟨i, h1, h2⟩
    rw [r3, h.poison] at h2
    cases hx : poisonAt ls i with
    | none => rw [hx] at h2; cases h2
    | some b =>
      rw [hx] at h2
      simp only [Bool.true_and, Option.map_some, Option.some.injEq, Bool.or_eq_true, decide_eq_true_eq] at h2
      rcases h2 with h2 | h2
      · subst h2; exact Or.inl ⟨i, h1, hx⟩
      · right
        obtain ⟨k, f, q1, q2⟩ := Pairs.mem' h.guards h2
        obtain ⟨id, e1, e2⟩ := q2.write
        have := hw.lock.inj _ _ _ e2 h1; subst this
        exact ⟨e1 ▸ List.mem_of_getElem? q1, by rw [h1]; simp⟩
  · rintro (⟨i, h1, h2⟩ | ⟨h1, h2⟩)
    · exact ⟨i, h1, by rw [r3, h.poison, h2]; rfl⟩
    · obtain ⟨k, hk⟩ := List.mem_iff_getElem?.1 h1
      obtain ⟨g, g1, g2⟩ := Pairs.get' h.guards hk
      rcases g2 with ⟨i, g2, g3⟩ | ⟨_, id, g2, g3⟩
      · refine ⟨i, g2, ?_⟩
        subst g3
        have hb := h.held i
        have hm := List.mem_of_getElem? g1
        cases hl : ls'[i]? with
        | none =>
          rw [hl] at hb
          have := List.count_pos_iff.2 hm
          have := hb.2
          rw [List.count_append] at this
          omega
        | some l =>
          rw [r3]
          unfold poisonAt
          rw [hl]
          simp [hm]
      · injection g2 with g2; subst g2; exact absurd g3 h2

/-- C23: a panic while a static query is alive poisons exactly the components the query has `&mut` access to. -/
theorem C23_static_poisons {w : World} (hw : Reachable w) {ls : List RwLock} {qs : List LiveQuery} (hr : LockRun w ls qs) {ps : List Param} {q : StaticQuery} {v v' : World}
    (hq : query ps { w with locks := ls } = .ok q v) (hd : dropGuards true q.guards v = .ok () v') (c : EcsId) :
    Poisoned v' c ↔ Poisoned { w with locks := ls } c ∨ ((∃ t, .mut t ∈ ps ∧ w.typeMap t = some c) ∧ ∀ p ∈ ps, ∀ t, p.Of t → w.typeMap t ≠ none) := by
  rw [query_locks] at hq
  unfold dropGuards at hd
  injection hd with _ hd; subst hd
  cases hfs : allFetches w ps with
  | none =>
    simp only [hfs] at hq
    injection hq with h1 h2; subst h1 h2
    simp only [releaseAll_none]
    refine ⟨Or.inl, fun h => h.elim (fun h => h) ?_⟩
    rintro ⟨_, h⟩
    obtain ⟨p, h1, t, h2, h3⟩ := allFetches_none.1 hfs
    exact absurd h3 (h p h1 t h2)
  | some fs =>
    simp only [hfs] at hq
    have hb := allFetches_bound.1 hfs
    rcases static_made hw.sound.inv (hr.inv hw) fs with ⟨gs, ls', a1, a2, a3⟩ | ⟨e, ls', a1, _⟩
    · simp only [a1] at hq
      injection hq with h1 h2; subst h1 h2
      have := took_poison hw.sound.inv a2 c
      refine this.trans (or_congr_right ?_)
      constructor
      · rintro ⟨h1, _⟩
        constructor
        · obtain ⟨i, p, p1, p2⟩ := Pairs.mem' hb h1
          have p1 := List.mem_of_getElem? p1
          cases p with
          | ids => cases p2
          | «mut» t => obtain ⟨c', e1, e2⟩ := p2; injection e2 with e2; subst e2; exact ⟨t, p1, e1⟩
          | ref t => obtain ⟨c', e1, e2⟩ := p2; cases e2
        · intro p hp t ht hn
          obtain ⟨i, hi⟩ := List.mem_iff_getElem?.1 hp
          obtain ⟨f, _, f2⟩ := Pairs.get' hb hi
          rcases ht with rfl | rfl
          · obtain ⟨c', e1, _⟩ := f2; rw [hn] at e1; cases e1
          · obtain ⟨c', e1, _⟩ := f2; rw [hn] at e1; cases e1
      · rintro ⟨⟨t, h1, h2⟩, _⟩
        obtain ⟨i, hi⟩ := List.mem_iff_getElem?.1 h1
        obtain ⟨f, f1, c', e1, rfl⟩ := Pairs.get' hb hi
        rw [h2] at e1; injection e1 with e1; subst e1
        obtain ⟨g, _, k, hk, _⟩ := Pairs.get' a3 f1
        exact ⟨List.mem_of_getElem? f1, by rw [hk]; simp⟩
    · simp only [a1] at hq; cases hq

/-- The owner of the third query panics. -/
example := fun v' hd => C23_static_poisons demo_reachable two_run heldBZ_made (v' := v') hd (ent 4)
example : ∃ v', dropGuards true qBZ.guards heldBZ = .ok () v' := ⟨_, eq_of_endsOk (by decide +kernel)⟩

/-- The same for dynamic queries: components that have a lock, that is components that were ever put on an entity. -/
theorem C23_dynamic_poisons {w : World} (hw : Reachable w) {ls : List RwLock} {qs : List LiveQuery} (hr : LockRun w ls qs) {fs : List Fetch} {q : DynQuery} {v v' : World}
    (hq : queryDynamic fs { w with locks := ls } = .ok q v) (hd : dropGuards true q.guards v = .ok () v') (c : EcsId) :
    (Poisoned v' c → Poisoned { w with locks := ls } c ∨ .mut c ∈ fs) ∧ (Poisoned { w with locks := ls } c ∨ (.mut c ∈ fs ∧ w.Used c) → Poisoned v' c) := by
  rw [queryDynamic_locks] at hq
  unfold dropGuards at hd
  injection hd with _ hd; subst hd
  rcases dyn_made hw.sound.inv (hr.inv hw) fs with ⟨gs, inc, ls', a1, a2⟩ | ⟨e, ls', a1, _⟩
  · simp only [a1] at hq
    injection hq with h1 h2; subst h1 h2
    have := took_poison hw.sound.inv a2 c
    refine ⟨fun h => (this.1 h).imp_right And.left, fun h => this.2 (h.imp_right fun h => ⟨h.1, ?_⟩)⟩
    obtain ⟨a, q1, q2⟩ := h.2
    exact hw.sound.inv.lock.used a q1 c q2
  · simp only [a1] at hq; cases hq

example := fun v' hd => C23_dynamic_poisons demo_reachable two_run four_made (v' := v') hd (ent 4)
example : ∃ v', dropGuards true dBZ.guards four = .ok () v' := ⟨_, eq_of_endsOk (by decide +kernel)⟩

/-- C23: no static query of a poisoned component is created: its creation panics (or blocks because of a clash, or panics because another
type it asks for is on no entity). -/
theorem C23_static_panics {w : World} (hw : Reachable w) {ls : List RwLock} {qs : List LiveQuery} (hr : LockRun w ls qs) {ps : List Param} {p : Param} {t : Ty} {c : EcsId}
    (hp : p ∈ ps) (ht : p.Of t) (hc : w.typeMap t = some c) (hpo : Poisoned { w with locks := ls } c) (hall : ∀ p ∈ ps, ∀ t, p.Of t → w.typeMap t ≠ none) :
    ∃ f v, query ps { w with locks := ls } = .error f v ∧
      (f = .poisoned ∨ (f = .deadlock ∧ ∃ fs, Pairs (Bound w) ps fs ∧ (SelfClash fs ∨ ∃ f ∈ fs, ∃ f' ∈ accesses qs, Clash f f')) ∨
        (f = .indexOob ∧ ∃ p ∈ ps, ∃ t c, p.Of t ∧ w.typeMap t = some c ∧ ¬ w.Used c)) := by
  have hne : ∀ q v, query ps { w with locks := ls } ≠ .ok q v := by
    intro q v hq
    rw [query_locks] at hq
    cases hfs : allFetches w ps with
    | none =>
      obtain ⟨p, h1, t, h2, h3⟩ := allFetches_none.1 hfs
      exact hall p h1 t h2 h3
    | some fs =>
      simp only [hfs] at hq
      have hb := allFetches_bound.1 hfs
      obtain ⟨i, hi⟩ := List.mem_iff_getElem?.1 hp
      obtain ⟨f, f1, f2⟩ := Pairs.get' hb hi
      have hof : f.Of c := by
        rcases ht with rfl | rfl
        · obtain ⟨c', e1, rfl⟩ := f2; rw [hc] at e1; injection e1 with e1; subst e1; exact Or.inl rfl
        · obtain ⟨c', e1, rfl⟩ := f2; rw [hc] at e1; injection e1 with e1; subst e1; exact Or.inr rfl
      obtain ⟨k, k1, k2⟩ := poisoned_iff.1 hpo
      cases ha : acquireAllStatic w [] ls fs with
      | error x => simp only [ha] at hq; cases hq
      | ok r =>
        have := acquireAllStatic_clean fs ha f (List.mem_of_getElem? f1) c k hof k1
        rw [k2] at this; cases this
  cases hq : query ps { w with locks := ls } with
  | ok q v => exact absurd hq (hne q v)
  | error f v =>
    refine ⟨f, v, rfl, ?_⟩
    have hq' := hq
    rw [query_locks] at hq
    cases hfs : allFetches w ps with
    | none => simp only [hfs] at hq; cases hq
    | some fs =>
      simp only [hfs] at hq
      rcases static_made hw.sound.inv (hr.inv hw) fs with ⟨gs, ls', a1, a2, _⟩ | ⟨e, ls', a1, a2⟩
      · simp only [a1] at hq; cases hq
      · simp only [a1] at hq
        injection hq with h1 h2; subst h1
        rcases a2 with ⟨rfl, f, h1, c', h2, h3⟩ | ⟨rfl, _⟩ | ⟨rfl, _⟩
        · refine Or.inr (Or.inr ⟨rfl, ?_⟩)
          obtain ⟨p, p1, t, p2, p3⟩ := bound_mem (allFetches_bound.1 hfs) h1 h2
          refine ⟨p, p1, t, c', p2, p3, ?_⟩
          rintro ⟨a, q1, q2⟩
          exact hw.sound.inv.lock.used a q1 c' q2 h3
        · exact Or.inl rfl
        · exact Or.inr (Or.inl ⟨rfl, C22_static_blocks hw hr hq'⟩)

example := C23_static_panics demo_reachable sick_run (ps := [.ref tB, .ref tA]) (p := .ref tA) (by simp) (Or.inr rfl) demo_typeA sick_poisoned
  (types_all (P := fun t => demo.typeMap t ≠ none) (by decide +kernel))

/-- The same for dynamic queries. -/
theorem C23_dynamic_panics {w : World} (hw : Reachable w) {ls : List RwLock} {qs : List LiveQuery} (hr : LockRun w ls qs) {fs : List Fetch} {x : Fetch} {c : EcsId}
    (hx : x ∈ fs) (hc : x.Of c) (hpo : Poisoned { w with locks := ls } c) :
    ∃ f v, queryDynamic fs { w with locks := ls } = .error f v ∧
      (f = .poisoned ∨ (f = .deadlock ∧ (SelfClash fs ∨ ∃ f ∈ fs, ∃ f' ∈ accesses qs, Clash f f'))) := by
  cases hq : queryDynamic fs { w with locks := ls } with
  | ok q v =>
    exfalso
    rw [queryDynamic_locks] at hq
    obtain ⟨k, k1, k2⟩ := poisoned_iff.1 hpo
    cases ha : acquireAllDyn w [] false ls fs with
    | error x => simp only [ha] at hq; cases hq
    | ok r =>
      have := acquireAllDyn_clean fs ha x hx c k hc k1
      rw [k2] at this; cases this
  | error f v =>
    refine ⟨f, v, rfl, ?_⟩
    have hq' := hq
    rw [queryDynamic_locks] at hq
    rcases dyn_made hw.sound.inv (hr.inv hw) fs with ⟨gs, inc, ls', a1, a2⟩ | ⟨e, ls', a1, a2, a3⟩
    · simp only [a1] at hq; cases hq
    · simp only [a1] at hq
      injection hq with h1 h2; subst h1
      rcases a2 with ⟨rfl, _⟩ | ⟨rfl, _⟩ | ⟨rfl, _⟩
      · exact absurd rfl a3
      · exact Or.inl rfl
      · exact Or.inr ⟨rfl, C22_dynamic_blocks hw hr hq'⟩

example := C23_dynamic_panics demo_reachable sick_run (fs := [.ecsId, .immut (ent 1)]) (x := .immut (ent 1)) (by simp) (Or.inr rfl) sick_poisoned

/-! ### Over the life of a world -/

/-- Splitting the call that makes and drops a query. -/
theorem query_call {w : World} {ps : List Param} {p : Bool} :
    (Call.query ps p).exec w = match query ps w with | .ok q v => dropGuards p q.guards v | .error f v => .error f v := by
  show (EStateM.bind _ _) w = _
  unfold EStateM.bind
  split <;> rename_i h <;> rw [h]

theorem queryDynamic_call {w : World} {fs : List Fetch} {p : Bool} :
    (Call.queryDynamic fs p).exec w = match queryDynamic fs w with | .ok q v => dropGuards p q.guards v | .error f v => .error f v := by
  show (EStateM.bind _ _) w = _
  unfold EStateM.bind
  split <;> rename_i h <;> rw [h]

theorem spoiled_poisoned {w : World} (hw : Inv w) {fs : List Fetch} {ls' : List RwLock} (h : Spoiled w fs w.locks ls') (x : EcsId) :
    (Poisoned w x → Poisoned { w with locks := ls' } x) ∧ (Poisoned { w with locks := ls' } x → Poisoned w x ∨ .mut x ∈ fs) := by
  have e : ∀ y, Poisoned w y ↔ ∃ i, w.lockLookup y = some i ∧ poisonAt w.locks i = some true := fun y => poisoned_iff (w := w) (ls := w.locks)
  rw [e, poisoned_iff]
  constructor
  · rintro ⟨i, h1, h2⟩
    exact ⟨i, h1, h.2.1 i h2⟩
  · rintro ⟨i, h1, h2⟩
    rcases h.2.2 i h2 with h3 | ⟨c, h3, h4⟩
    · exact Or.inl ⟨i, h1, h3⟩
    · have := hw.lock.inj _ _ _ h1 h4; subst this
      exact Or.inr h3

/-- C23, every call that ends normally: a component is poisoned afterwards exactly if it was before, or if the call was a query with mutable
access to it whose owner panicked while it was alive (for a dynamic query of a component that was never on an entity there is nothing to poison). -/
theorem C23_call_ok {w w' : World} (hw : Reachable w) {c : Call} (h : c.exec w = .ok () w') (x : EcsId) :
    (Poisoned w' x → Poisoned w x ∨ (c.Panics ∧ c.Mutates w x)) ∧ (Poisoned w x ∨ (c.Panics ∧ c.Mutates w x ∧ c.Known w ∧ w.Used x) → Poisoned w' x) := by
  have hr : LockRun w w.locks [] := .refl _ _
  by_cases hp : c.Plain
  · have hk : LockExt w w' := (exec_keeps hp w).ok h
    have := hk.poisoned hw.sound.inv x
    refine ⟨fun h => Or.inl (this.1 h), fun h => this.2 (h.elim (fun h => h) fun h => ?_)⟩
    cases c <;> first | exact h.1.elim | exact hp.elim
  · cases c with
    | query ps p =>
      rw [query_call] at h
      cases hq : query ps w with
      | error f v => rw [hq] at h; cases h
      | ok q v =>
        rw [hq] at h
        simp only at h
        cases p with
        | false =>
          have := C22_static_drop hw hr hq
          rw [h] at this
          injection this with _ this; subst this
          exact ⟨Or.inl, fun h => h.elim (fun h => h) fun h => by cases h.1⟩
        | true =>
          have := C23_static_poisons hw hr hq h x
          refine ⟨fun h => (this.1 h).imp_right fun h => ⟨rfl, h.1⟩, fun h => this.2 (h.imp_right fun h => ⟨h.2.1, h.2.2.1⟩)⟩
    | queryDynamic fs p =>
      rw [queryDynamic_call] at h
      cases hq : queryDynamic fs w with
      | error f v => rw [hq] at h; cases h
      | ok q v =>
        rw [hq] at h
        simp only at h
        cases p with
        | false =>
          have := C22_dynamic_drop hw hr hq
          rw [h] at this
          injection this with _ this; subst this
          exact ⟨Or.inl, fun h => h.elim (fun h => h) fun h => by cases h.1⟩
        | true =>
          have := C23_dynamic_poisons hw hr hq h x
          exact ⟨fun h => (this.1 h).imp_right fun h => ⟨rfl, h⟩, fun h => this.2 (h.imp_right fun h => ⟨h.2.1, h.2.2.2⟩)⟩
    | _ => exact absurd trivial hp

example := C23_call_ok demo_reachable bad_made (ent 1)

/-- C23, every call that panics: poison stays, and only a failed creation of a query with mutable access poisons a component (the guards it already
had are dropped while panicking). -/
theorem C23_call_panic {w w' : World} (hw : Reachable w) {c : Call} {f : Fault} (h : c.exec w = .error f w') (x : EcsId) :
    (Poisoned w x → Poisoned w' x) ∧ (Poisoned w' x → Poisoned w x ∨ c.Mutates w x) := by
  have hr : LockRun w w.locks [] := .refl _ _
  by_cases hp : c.Plain
  · have hk : LockExt w w' := (exec_keeps hp w).error h
    have := hk.poisoned hw.sound.inv x
    exact ⟨this.2, fun h => Or.inl (this.1 h)⟩
  · cases c with
    | query ps p =>
      rw [query_call] at h
      cases hq : query ps w with
      | ok q v => rw [hq] at h; cases h
      | error f' v =>
        rw [hq] at h
        injection h with h1 h2; subst h1 h2
        have hq' : query ps { w with locks := w.locks } = .error f' v := hq
        rw [query_locks] at hq'
        cases hfs : allFetches w ps with
        | none => simp only [hfs] at hq'; cases hq'
        | some fs =>
          simp only [hfs] at hq'
          cases ha : acquireAllStatic w [] w.locks fs with
          | ok r => simp only [ha] at hq'; cases hq'
          | error r =>
            simp only [ha] at hq'
            injection hq' with h1 h2; subst h1 h2
            have := spoiled_poisoned hw.sound.inv (static_spoiled hw.sound.inv (hr.inv hw) (e := r.1) (ls' := r.2) ha) x
            refine ⟨this.1, fun h => (this.2 h).imp_right fun h => ?_⟩
            obtain ⟨i, p, p1, p2⟩ := Pairs.mem' (allFetches_bound.1 hfs) h
            have p1 := List.mem_of_getElem? p1
            cases p with
            | ids => cases p2
            | «mut» t => obtain ⟨c', e1, e2⟩ := p2; injection e2 with e2; subst e2; exact ⟨t, p1, e1⟩
            | ref t => obtain ⟨c', e1, e2⟩ := p2; cases e2
    | queryDynamic fs p =>
      rw [queryDynamic_call] at h
      cases hq : queryDynamic fs w with
      | ok q v => rw [hq] at h; cases h
      | error f' v =>
        rw [hq] at h
        injection h with h1 h2; subst h1 h2
        have hq' : queryDynamic fs { w with locks := w.locks } = .error f' v := hq
        rw [queryDynamic_locks] at hq'
        cases ha : acquireAllDyn w [] false w.locks fs with
        | ok r => simp only [ha] at hq'; cases hq'
        | error r =>
          simp only [ha] at hq'
          injection hq' with h1 h2; subst h1 h2
          exact spoiled_poisoned hw.sound.inv (dyn_spoiled hw.sound.inv (hr.inv hw) (e := r.1) (ls' := r.2) ha) x
    | _ => exact absurd trivial hp

/-- A query fails because `A` is poisoned, an addition because the entity is dead. -/
example := C23_call_panic bad_reachable (c := .query [.mut tB, .ref tA] false) (f := .poisoned) (eq_of_endsWith (by decide +kernel)) (ent 1)
example := C23_call_panic bad_reachable (c := .addComponent (ent 5) tA (val 4 1)) (f := .notAlive) (eq_of_endsWith (by decide +kernel)) (ent 1)

theorem later_reach {w w' : World} (hw : Reachable w) (h : Later w w') : Reachable w' := by
  induction h with
  | refl => exact hw
  | ok c _ h1 h2 h3 ih => exact .ok c ih h1 h2 h3
  | panic c f _ h1 h2 h3 h4 h5 ih => exact .panic c f ih h1 h2 h3 h4 h5

/-- C23: a poisoned component is poisoned for ever. -/
theorem C23_for_ever {w w' : World} (hw : Reachable w) (h : Later w w') {x : EcsId} (hx : Poisoned w x) : Poisoned w' x := by
  induction h with
  | refl => exact hx
  | ok c hl h1 h2 h3 ih => exact (C23_call_ok (later_reach hw hl) h2 x).2 (Or.inl ih)
  | panic c f hl h1 h2 h3 h4 h5 ih => exact (C23_call_panic (later_reach hw hl) h2 x).1 ih

example := C23_for_ever bad_reachable (w' := bad) (.refl _) (x := ent 1) (by decide +kernel)

/-- C23: once the owner of a query with mutable access to `x` has panicked, no query of `x` succeeds at any later time. -/
theorem C23_later_queries {w w' w2 : World} (hw : Reachable w) {c c' : Call} {x : EcsId} (hok : c.Ok w) (hc : c.exec w = .ok () w') (hn : w'.NoFullSlot)
    (hp : c.Panics) (hm : c.Mutates w x) (hk : c.Known w) (hu : w.Used x) (hl : Later w' w2) (ha : c'.Asks w2 x) (hk' : c'.Known w2) :
    ∀ w3, c'.exec w2 ≠ .ok () w3 := by
  intro w3 h3
  have hw' : Reachable w' := .ok c hw hok hc hn
  have hw2 := later_reach hw' hl
  have hpo := C23_for_ever hw' hl ((C23_call_ok hw hc x).2 (Or.inr ⟨hp, hm, hk, hu⟩))
  have hr : LockRun w2 w2.locks [] := .refl _ _
  cases c' with
  | query ps p =>
    obtain ⟨p', h1, t, h2, h4⟩ := ha
    obtain ⟨f, v, h5, _⟩ := C23_static_panics hw2 hr h1 h2 h4 hpo hk'
    rw [query_call] at h3
    have h5 : query ps w2 = .error f v := h5
    rw [h5] at h3; cases h3
  | queryDynamic fs p =>
    obtain ⟨y, h1, h2⟩ := ha
    obtain ⟨f, v, h5, _⟩ := C23_dynamic_panics hw2 hr h1 h2 hpo
    rw [queryDynamic_call] at h3
    have h5 : queryDynamic fs w2 = .error f v := h5
    rw [h5] at h3; cases h3
  | _ => exact ha

example := C23_later_queries demo_reachable (c := .query [.mut tA, .ref tB] true) (c' := .queryDynamic [.immut (ent 1)] false) (x := ent 1) trivial bad_made
  (by decide +kernel) rfl ⟨tA, by simp, by decide +kernel⟩ (types_all (P := fun t => demo.typeMap t ≠ none) (by decide +kernel)) (by decide +kernel)
  (w2 := bad) (.refl _) ⟨.immut (ent 1), by simp, Or.inr rfl⟩ trivial

/-! ## Concrete cases -/

/-- While `(&mut A,)` and `(&B, EcsIds)` are alive: further readers of `B` and writers of `Z` can be made, readers of `A` and writers of `B` cannot. -/
example : (∃ q v, query [.ref tB, .mut tZ] two = .ok q v) ∧ (∃ v, query [.ref tA] two = .error .deadlock v) ∧
    (∃ v, queryDynamic [.mut (ent 2)] two = .error .deadlock v) :=
  ⟨⟨_, _, eq_of_endsOk (a := (⟨[.ref tB, .mut tZ], [.read 1, .write 2], some [.immut (ent 2), .mut (ent 4)]⟩ : StaticQuery)) (by decide +kernel)⟩,
    ⟨_, eq_of_endsWith (by decide +kernel)⟩, ⟨_, eq_of_endsWith (by decide +kernel)⟩⟩

/-- The corner excluded from `C22_dynamic_self_clash`: a dynamic query takes no lock for a component that was never on an entity, so it can ask
for it mutably twice (here entity 0, which is no component, but the same holds for components). -/
theorem C22_dynamic_unused_twice : ¬ demo.Used (ent 0) ∧ ∃ q v, queryDynamic [.mut (ent 0), .mut (ent 0)] demo = .ok q v ∧ q.guards = [.none, .none] :=
  ⟨by decide +kernel, ⟨[.none, .none], [.mut (ent 0), .mut (ent 0)], true⟩, _, eq_of_endsOk (by decide +kernel), rfl⟩

/-- A static query that asks for `A` mutably and again blocks for ever. -/
example : (∃ v, query [.mut tA, .ref tA] demo = .error .deadlock v) ∧ (∃ v, queryDynamic [.immut (ent 1), .mut (ent 1)] demo = .error .deadlock v) :=
  ⟨⟨_, eq_of_endsWith (by decide +kernel)⟩, ⟨_, eq_of_endsWith (by decide +kernel)⟩⟩

/-- The hypotheses of `C23_later_queries` can be met, and other components are still accessible. -/
example : Reachable demo ∧ demo.Used (ent 1) ∧ (Call.query [.mut tA, .ref tB] true).Mutates demo (ent 1) ∧ bad.NoFullSlot ∧ Poisoned bad (ent 1) ∧
    ¬ Poisoned bad (ent 2) ∧ (∃ v, query [.ref tB, .ref tA] bad = .error .poisoned v) ∧ (∃ q v, query [.mut tB] bad = .ok q v) := by
  exact ⟨demo_reachable, by decide +kernel, ⟨tA, by simp, by decide +kernel⟩, by decide +kernel, by decide +kernel, by decide +kernel,
    ⟨_, eq_of_endsWith (by decide +kernel)⟩, ⟨_, _, eq_of_endsOk (a := (⟨[.mut tB], [.write 1], some [.mut (ent 2)]⟩ : StaticQuery)) (by decide +kernel)⟩⟩

/-- A later history after which `A` is still poisoned. -/
theorem bad_later_runs : (runP [.spawn .plain [.with tA (val 4 9), .build], .query [.ref tA] false, .despawn (ent 3)] bad).isSome = true := by decide +kernel

end Ellecs.WorldSpec
