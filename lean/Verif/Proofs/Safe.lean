import Verif.Spec.Safe
import Verif.Proofs.Query
import Verif.Proofs.DupExact
import Verif.Proofs.Demo
import Verif.Proofs.TableTrace
/-!
# Invariants for `Safe`
-/
namespace Ellecs
namespace World

structure SafeInv (w : World) (gs : List Guard) : Prop where
  inv : Inv w
  ready : w.Ready
  held : Under gs w

theorem query_held {w w' : World} {gs : List Guard} (h : Inv w) (hid : Under gs w) {ps : List Param} {q : StaticQuery}
    (hq : query ps w = .ok q w') : Under (gs ++ q.guards) w' := by
  unfold query at hq
  cases hf : allFetches w ps with
  | none =>
    rw [hf] at hq
    injection hq with h1 h2
    subst h1 h2
    intro i
    have := hid i
    have z1 : ∀ x, x ≠ Guard.none → List.count x (ps.map (fun _ => Guard.none)) = 0 := by
      intro x hx
      rw [List.count_eq_zero]
      intro hh
      obtain ⟨_, _, hh⟩ := List.mem_map.1 hh
      exact hx hh.symm
    unfold LockHeld at *
    simp only [List.count_append, z1 (.read i) (by simp), z1 (.write i) (by simp), Nat.add_zero]
    exact this
  | some fs =>
    rw [hf] at hq
    simp only at hq
    rcases acquireAllStatic_spec (w := w) fs (ls := w.locks) (base := gs) (done := []) (by rw [List.append_nil]; exact hid) h.lock.range with
      ⟨new, ls', a1, a2, a3, a4, a5⟩ | ⟨e, ls', pre, f, post, new, a1, _⟩
    · rw [a1] at hq
      injection hq with h1 h2
      subst h1 h2
      exact a3
    · rw [a1] at hq; cases hq

theorem queryDynamic_held {w w' : World} {gs : List Guard} (h : Inv w) (hid : Under gs w) {fs : List Fetch} {q : DynQuery}
    (hq : queryDynamic fs w = .ok q w') : Under (gs ++ q.guards) w' := by
  unfold queryDynamic at hq
  rcases acquireAllDyn_spec (w := w) fs (ls := w.locks) (base := gs) (done := []) false (by rw [List.append_nil]; exact hid) h.lock.range with
    ⟨new, ls', a1, a2, a3, a4, a5⟩ | ⟨e, ls', pre, f, post, new, a1, _⟩
  · rw [a1] at hq
    injection hq with h1 h2
    subst h1 h2
    exact a3
  · rw [a1] at hq; cases hq

theorem SafeInv.new : SafeInv World.new [] := ⟨sound_new.inv, sound_new.nowrap.ready, sound_new.idle⟩

/-- Dropping a builder changes at most the buffer. -/
theorem drop_cases {b : Builder} {u : World} : (∃ x, b.drop u = .error (.ub x) u) ∨
    ∃ r, b.drop u = .ok () { u with reuse := r } ∧ (u.reuse = none ∨ r = u.reuse) := by
  unfold Builder.drop
  split
  · split
    · rename_i hr; exact Or.inr ⟨_, rfl, Or.inl hr⟩
    · split
      · exact Or.inr ⟨u.reuse, rfl, Or.inr rfl⟩
      · exact Or.inl ⟨_, rfl⟩
  · exact Or.inr ⟨u.reuse, rfl, Or.inr rfl⟩

theorem spawnWith_run {kind : SpawnKind} {as : List BAct} {w w1 w2 w' : World} {e : EcsId} {b b' : Builder} (h1 : spawnId w = .ok e w1)
    (h2 : mkBuilder kind e w1 = .ok b w2) (h3 : b.acts as w2 = .ok b' w') :
    spawnWith kind as w = (do b'.drop; return e : M EcsId) w' := by
  rw [spawnWith_eq]
  simp only [bind, EStateM.bind, h1, h2, h3]

theorem Safe.inv {w : World} {gs : List Guard} (h : Safe w gs) : SafeInv w gs := by
  induction h with
  | new => exact SafeInv.new
  | ok c _ hc he hn ih =>
    have := (exec_spec ih.inv ih.ready ih.held hc).ok he
    exact ⟨this.1.inv, hn, this.1.idle⟩
  | panic c f _ hc he hl hd hn ih =>
    rcases ((exec_spec ih.inv ih.ready ih.held hc).error he).2 with (h1 | h1) | h1
    · exact absurd h1 hl
    · exact absurd h1 hd
    · exact ⟨h1.inv, hn, h1.idle⟩
  | keep ps q _ hq ih =>
    obtain ⟨_, ⟨ls, h1, h2⟩, _⟩ := query_ok hq
    refine ⟨?_, ?_, query_held ih.inv ih.held hq⟩
    · rw [h2]; exact ih.inv.withLocks h1
    · rw [h2]; exact ih.ready
  | keepDynamic fs q _ hq ih =>
    obtain ⟨_, ⟨ls, h1, h2⟩, _⟩ := queryDynamic_ok hq
    refine ⟨?_, ?_, queryDynamic_held ih.inv ih.held hq⟩
    · rw [h2]; exact ih.inv.withLocks h1
    · rw [h2]; exact ih.ready
  | release p _ hp hd ih =>
    injection hd with _ hd
    obtain ⟨h1, h2, _⟩ := releaseAll_spec (p := p) _ (ih.held.perm hp)
    subst hd
    exact ⟨ih.inv.withLocks h2, ih.ready, h1⟩
  | @forget w w1 w2 w' gs kind as e b b' _ hc h1 h2 h3 hn ih =>
    have hx := exec_spec ih.inv ih.ready ih.held (c := .spawn kind as) hc
    have he := spawnWith_run h1 h2 h3
    have hex : Call.exec (.spawn kind as) w = (do let _ ← spawnWith kind as : M Unit) w := rfl
    rcases drop_cases (b := b') (u := w') with ⟨x, hd⟩ | ⟨r, hd, hr⟩
    · simp only [bind, EStateM.bind, hd, he] at hex
      exact absurd rfl ((hx.error hex).1.1 x)
    · simp only [bind, EStateM.bind, hd, he, pure, EStateM.pure] at hex
      have hok := (hx.ok hex).1
      refine ⟨?_, hn, hok.idle⟩
      have := hok.inv.withReuse (r := w'.reuse) ?_
      · exact this
      · rcases hr with hr | rfl
        · rw [hr]; intro _ _ _ hh; cases hh
        · exact hok.inv.reuse
  | @rejected w u w' gs kind as e f _ hv hd hu hf hx hl hn ih =>
    have hc : Call.Ok w (.spawn kind as) := chainOk_nobuild ih.inv ih.ready hv
    have hex : Call.exec (.spawn kind as) w = .ok () u := by
      show (do let _ ← spawnWith kind as : M Unit) w = _
      simp only [bind, EStateM.bind, hu]; rfl
    have hok := ((exec_spec ih.inv ih.ready ih.held hc).ok hex).1
    obtain ⟨f', w'', h1, h2⟩ := chain_dup_exact ih.inv ih.ready hv hd hu
    rw [hx] at h1
    injection h1 with h1 h1'
    subst h1 h1'
    rcases h2 with ⟨_, ⟨h2, _⟩ | ⟨rfl, h2, h3, h4, h5, h6, h7⟩⟩ | ⟨h2, _⟩
    · exact absurd h2 hl
    · refine ⟨?_, hn, under_append hok.idle h5⟩
      have hi := hok.inv
      have harch : w'.archetypes = u.archetypes := by rw [h3]
      rw [harch] at h7
      rw [h3]
      exact ⟨hi.ent, hi.loc, hi.shape, hi.col, hi.bits, hi.cache, h7, hi.type, hi.arch0, hi.uniq, hi.reuse⟩
    · exact absurd h2 hf

/-! ## Iterators, whatever the query asks for

No assumption about which components are used, or about the number of tables: the iterators may panic, but not more. -/

/-- A panic of an iterator. -/
def IterFault (f : Fault) : Prop := f = .indexOob ∨ f = .unwrapNone

theorem queryIters_fault {w : World} (fs : List Fetch) : ∀ {bl : Nat} {f : Fault}, queryIters w fs bl = .error f → f = .unwrapNone := by
  induction fs with
  | nil => intro bl f h; cases h
  | cons x fs ih =>
    intro bl f h
    unfold queryIters at h
    split at h
    · split at h
      · rename_i hh; injection h with h; subst h; exact ih hh
      · cases h
    · split at h
      · injection h with h; exact h.symm
      · split at h
        · rename_i hh; injection h with h; subst h; exact ih hh
        · cases h

theorem archNext_cases {w : World} {it : BitsetIter} (hg : it.Good) :
    (∃ it', archNext w it = .ok (none, it') ∧ it'.Good) ∨
    (∃ k a it', w.archetypes[k]? = some a ∧ archNext w it = .ok (some (k, a), it') ∧ it'.Good ∧ it'.pend.length < it.pend.length) ∨
    archNext w it = .error .indexOob := by
  unfold archNext
  rcases hg.step with ⟨h1, it', h2, h3, h4⟩ | ⟨k, ks, it', h1, h2, h3, h4⟩
  · rw [h2]; exact Or.inl ⟨it', rfl, h3⟩
  · rw [h2]
    cases ha : w.archetypes[k]? with
    | none => simp only [ha]; exact Or.inr (Or.inr trivial)
    | some a =>
      simp only [ha]
      exact Or.inr (Or.inl ⟨k, a, it', ha, rfl, h3, by rw [h1, h4]; simp⟩)

/-- The iterator of a static query is between tables or at a row of a table that has all the columns. -/
structure StaticSafe (w : World) (ps : List Param) (s : StaticIter) : Prop where
  params : s.params = ps
  good : s.archs.Good
  at' : s.remaining = 0 ∨ ∃ fs k a r, s.fetches = some fs ∧ w.archetypes[k]? = some a ∧ Suits fs a ∧
    r + s.remaining = a.entities.length ∧ s.ptrs = rowPtrs k a fs r
  bound : ∀ fs, s.fetches = some fs → Pairs (Bound w) ps fs

theorem staticLoop_safe {w : World} (h : Wide w) {ps : List Param} : ∀ (fuel : Nat) (s : StaticIter), StaticSafe w ps s →
    s.archs.pend.length < fuel →
    (∃ f, s.loop w fuel = .error f ∧ IterFault f) ∨ ∃ x s', s.loop w fuel = .ok (x, s') ∧ StaticSafe w ps s' ∧
      ∀ items, x = some items → ∃ e, w.Row e ∧ Pairs (Denotes w e) ps items := by
  intro fuel
  induction fuel with
  | zero => intro s _ hf; omega
  | succ fuel ih =>
    intro s hs hf
    unfold StaticIter.loop
    by_cases hrem : s.remaining = 0
    · rw [if_neg (by simp [hrem])]
      rcases archNext_cases (w := w) hs.good with ⟨it', a1, a2⟩ | ⟨k, a, it', a1, a2, a3, a4⟩ | a1
      · rw [a1]
        exact Or.inr ⟨none, _, rfl, ⟨hs.params, a2, Or.inl hrem, hs.bound⟩, by simp⟩
      · rw [a2]
        cases hfe : s.fetches with
        | none => exact Or.inl ⟨_, rfl, Or.inr rfl⟩
        | some fs =>
          have hb := hs.bound fs hfe
          simp only [hs.params]
          rcases createPtrs_cell h a1 hb with ⟨c1, c2⟩ | ⟨c1, c2⟩
          · rw [c2]
            have := ih { s with archs := it', remaining := a.entities.length, ptrs := rowPtrs k a fs 0 }
              ⟨hs.params, a3, Or.inr ⟨fs, k, a, 0, hfe, a1, c1, by simp, rfl⟩, hs.bound⟩ (by show it'.pend.length < fuel; omega)
            rw [← hs.params, ← hfe]
            simpa only [hs.params] using this
          · rw [c2]
            exact Or.inl ⟨_, rfl, Or.inr rfl⟩
      · rw [a1]; exact Or.inl ⟨_, rfl, Or.inl rfl⟩
    · rw [if_pos hrem]
      rcases hs.at' with h4 | ⟨fs, k, a, r, q0, q1, q2, q3, q4⟩
      · exact absurd h4 hrem
      · have hb := hs.bound fs q0
        have hr : r < a.entities.length := by omega
        have hre : a.entities[r]? = some (a.entities[r]) := List.getElem?_eq_getElem hr
        rw [hs.params, q4, offsetPtrs_cell h q1 hb q2 (n := 1) (by omega), castPtrs_cell h q1 hb q2 hre]
        refine Or.inr ⟨_, _, rfl, ⟨rfl, hs.good, Or.inr ⟨fs, k, a, r + 1, q0, q1, q2, ?_, rfl⟩, hs.bound⟩, ?_⟩
        · show r + 1 + (s.remaining - 1) = _; omega
        · intro items hit
          injection hit with hit; subst hit
          exact ⟨a.entities[r], ⟨k, r, a, q1, hre⟩, zip_denotes hb (rows_fetch h q1 hre q2)⟩

theorem staticNext_safe {w : World} (h : Wide w) {ps : List Param} {s : StaticIter} (hs : StaticSafe w ps s) :
    (∃ f, s.next w = .error f ∧ IterFault f) ∨ ∃ x s', s.next w = .ok (x, s') ∧ StaticSafe w ps s' ∧
      ∀ items, x = some items → ∃ e, w.Row e ∧ Pairs (Denotes w e) ps items :=
  staticLoop_safe h _ s hs (Nat.lt_succ_of_lt hs.good.fuel)

theorem staticIter_safe {v v' : World} {ps : List Param} {q : StaticQuery} (hq : query ps v = .ok q v') :
    q.iter v' = .error .unwrapNone ∨ ∃ it, q.iter v' = .ok it ∧ StaticSafe v' ps it := by
  obtain ⟨h1, ⟨ls, h2, h2'⟩, h3, h4⟩ := query_ok hq
  have hb : ∀ fs, q.fetches = some fs → Pairs (Bound v') ps fs := by
    intro fs hfs
    rw [h3] at hfs
    have := allFetches_bound.1 hfs
    rw [h2']
    exact this
  unfold StaticQuery.iter
  cases hf : q.fetches with
  | none => exact Or.inr ⟨_, rfl, h1, BitsetIter.good_new _ _, Or.inl rfl, fun fs hfs => by cases hfs⟩
  | some fs =>
    simp only
    cases hi : queryIters v' fs (v'.entBits.len % 2 ^ 32) with
    | error f => rw [queryIters_fault fs hi]; exact Or.inl rfl
    | ok x => exact Or.inr ⟨_, rfl, h1, BitsetIter.good_new _ _, Or.inl rfl, fun fs' hfs => hb fs' (hf.trans hfs)⟩

/-- The same for a dynamic query. -/
structure DynSafe (w : World) (fs : List Fetch) (s : DynIter) : Prop where
  fetches : s.fetches = fs
  good : s.archs.Good
  at' : s.remaining = 0 ∨ ∃ k a r, w.archetypes[k]? = some a ∧ Suits fs a ∧ r + s.remaining = a.entities.length ∧ s.ptrs = fs.map (cell k a r)

theorem dynPtrs_cases {a : Archetype} (hs : Shape a) (fs : List Fetch) (k : Nat) :
    (Suits fs a ∧ dynPtrs k a fs = .ok (fs.map (cell k a 0))) ∨ dynPtrs k a fs = .error .indexOob := by
  by_cases hsu : Suits fs a
  · exact Or.inl ⟨hsu, dynPtrs_cell hs hsu k⟩
  · refine Or.inr ?_
    induction fs with
    | nil => exact absurd (by simp [Suits]) hsu
    | cons f fs ih =>
      unfold dynPtrs
      by_cases hf : ∀ c, f.Of c → c ∈ a.compIds
      · rw [createPtr_cell hs hf k]
        have := ih (fun hh => hsu (by
          intro g hg
          rcases List.mem_cons.1 hg with rfl | hg
          · exact hf
          · exact hh g hg))
        simp only [this]
      · have hcp : f.createPtr k a = .error .indexOob := by
          rcases fetch_cases f with rfl | ⟨c, hc⟩
          · exfalso; apply hf; rintro c (hc | hc) <;> cases hc
          · have hnot : a.compLookup c = none := by
              cases hl : a.compLookup c with
              | none => rfl
              | some j =>
                exfalso
                apply hf
                intro c' hc'
                have e1 := fetch_of_getId.2 hc
                rw [fetch_of_getId.2 hc'] at e1
                injection e1 with e1; subst e1
                exact (looksUp_mem hs.look _).1 (by rw [hl]; rfl)
            rcases hc with rfl | rfl <;> simp only [Fetch.createPtr, hnot]
        rw [hcp]

theorem dynLoop_safe {w : World} (h : Wide w) {fs : List Fetch} : ∀ (fuel : Nat) (s : DynIter), DynSafe w fs s →
    s.archs.pend.length < fuel →
    (∃ f, s.loop w fuel = .error f ∧ IterFault f) ∨ ∃ x s', s.loop w fuel = .ok (x, s') ∧ DynSafe w fs s' ∧
      ∀ row, x = some row → ∃ e, w.Row e ∧ Pairs (FetchAt w e) fs row := by
  intro fuel
  induction fuel with
  | zero => intro s _ hf; omega
  | succ fuel ih =>
    intro s hs hf
    unfold DynIter.loop
    by_cases hrem : s.remaining = 0
    · rw [if_neg (by simp [hrem])]
      rcases archNext_cases (w := w) hs.good with ⟨it', a1, a2⟩ | ⟨k, a, it', a1, a2, a3, a4⟩ | a1
      · rw [a1]
        exact Or.inr ⟨none, _, rfl, ⟨hs.fetches, a2, Or.inl hrem⟩, by simp⟩
      · rw [a2]
        simp only [hs.fetches]
        rcases dynPtrs_cases (h.shape a (List.mem_of_getElem? a1)) fs k with ⟨c1, c2⟩ | c2
        · rw [c2]
          have := ih { s with archs := it', remaining := a.entities.length, ptrs := fs.map (cell k a 0) }
            ⟨hs.fetches, a3, Or.inr ⟨k, a, 0, a1, c1, by simp, rfl⟩⟩ (by show it'.pend.length < fuel; omega)
          rw [← hs.fetches]
          simpa only [hs.fetches] using this
        · rw [c2]
          exact Or.inl ⟨_, rfl, Or.inl rfl⟩
      · rw [a1]; exact Or.inl ⟨_, rfl, Or.inl rfl⟩
    · rw [if_pos hrem]
      rcases hs.at' with h4 | ⟨k, a, r, q1, q2, q3, q4⟩
      · exact absurd h4 hrem
      · have hr : r < a.entities.length := by omega
        have hre : a.entities[r]? = some (a.entities[r]) := List.getElem?_eq_getElem hr
        rw [q4, advancePtrs_cell h q1 q2 hr]
        refine Or.inr ⟨_, _, rfl, ⟨hs.fetches, hs.good, Or.inr ⟨k, a, r + 1, q1, q2, ?_, rfl⟩⟩, ?_⟩
        · show r + 1 + (s.remaining - 1) = _; omega
        · intro row hrow
          injection hrow with hrow; subst hrow
          refine ⟨a.entities[r], ⟨k, r, a, q1, hre⟩, ?_⟩
          have := rows_fetch h q1 hre q2
          unfold rowPtrs at this
          rw [List.map_map]
          exact this

theorem dynNext_safe {w : World} (h : Wide w) {fs : List Fetch} {s : DynIter} (hs : DynSafe w fs s) :
    (∃ f, s.next w = .error f ∧ IterFault f) ∨ ∃ x s', s.next w = .ok (x, s') ∧ DynSafe w fs s' ∧
      ∀ row, x = some row → ∃ e, w.Row e ∧ Pairs (FetchAt w e) fs row :=
  dynLoop_safe h _ s hs (Nat.lt_succ_of_lt hs.good.fuel)

theorem archIter_safe (q : DynQuery) (w : World) : q.archIter w = .error .unwrapNone ∨ ∃ it, q.archIter w = .ok it ∧ it.Good := by
  unfold DynQuery.archIter
  split
  · exact Or.inr ⟨_, rfl, BitsetIter.good_new _ _⟩
  · split
    · rename_i f hi
      rw [queryIters_fault q.fetches hi]; exact Or.inl rfl
    · exact Or.inr ⟨_, rfl, BitsetIter.good_new _ _⟩

theorem dynIter_safe {v v' : World} {fs : List Fetch} {q : DynQuery} (hq : queryDynamic fs v = .ok q v') :
    q.iter v' = .error .unwrapNone ∨ ∃ it, q.iter v' = .ok it ∧ DynSafe v' fs it := by
  obtain ⟨h1, _⟩ := queryDynamic_ok hq
  unfold DynQuery.iter
  rcases archIter_safe q v' with h | ⟨it, h, hg⟩
  · rw [h]; exact Or.inl rfl
  · rw [h]; exact Or.inr ⟨_, rfl, h1, hg, Or.inl rfl⟩

theorem columnIter_safe {v v' : World} {fs : List Fetch} {q : DynQuery} (hq : queryDynamic fs v = .ok q v') :
    q.columnIter v' = .error .unwrapNone ∨ ∃ it, q.columnIter v' = .ok it ∧ it.fetches = fs ∧ it.archs.Good := by
  obtain ⟨h1, _⟩ := queryDynamic_ok hq
  unfold DynQuery.columnIter
  rcases archIter_safe q v' with h | ⟨it, h, hg⟩
  · rw [h]; exact Or.inl rfl
  · rw [h]; exact Or.inr ⟨_, rfl, h1, hg⟩

theorem columnNext_safe {w : World} (h : Wide w) {fs : List Fetch} {s : ColumnIter} (h1 : s.fetches = fs) (h2 : s.archs.Good) :
    (∃ f, s.next w = .error f ∧ IterFault f) ∨ ∃ x s', s.next w = .ok (x, s') ∧ (s'.fetches = fs ∧ s'.archs.Good) ∧
      ∀ item, x = some item → ∃ k, Pairs (ColumnAt w k) fs item := by
  unfold ColumnIter.next
  rcases archNext_cases (w := w) h2 with ⟨it', a1, a2⟩ | ⟨k, a, it', a1, a2, a3, a4⟩ | a1
  · rw [a1]
    exact Or.inr ⟨none, _, rfl, ⟨h1, a2⟩, by simp⟩
  · rw [a2]
    simp only [h1]
    have hsh := h.shape a (List.mem_of_getElem? a1)
    rcases dynPtrs_cases hsh fs k with ⟨c1, c2⟩ | c2
    · rw [c2]
      refine Or.inr ⟨_, _, rfl, ⟨rfl, a3⟩, ?_⟩
      intro item hit
      injection hit with hit; subst hit
      refine ⟨k, ?_⟩
      rw [List.map_map]
      refine Pairs.map_right (fun f hf => ⟨a, a1, rfl, ?_⟩)
      rcases fetch_cases f with rfl | ⟨c, hc⟩
      · rfl
      · obtain ⟨j, v, e1, e2⟩ := column hsh (c1 f hf c hc)
        simp only [Function.comp, cell_of e1 e2 hc, Nat.zero_mul]
        rcases hc with rfl | rfl <;> exact ⟨j, v, e2, rfl⟩
    · rw [c2]
      exact Or.inl ⟨_, rfl, Or.inl rfl⟩
  · rw [a1]; exact Or.inl ⟨_, rfl, Or.inl rfl⟩

/-- Whatever holds at the start and is kept by `next` holds after some calls. -/
theorem Steps.keep {σ α : Type} {next : σ → Except Fault (Option α × σ)} {P : σ → Prop} (hk : ∀ s x s', P s → next s = .ok (x, s') → P s')
    {s s' : σ} (h : Steps next s s') (hs : P s) : P s' := by
  induction h with
  | refl => exact hs
  | step _ h2 ih => exact hk _ _ _ ih h2

/-! ## The buffer of a builder -/

/-- If `x` returns, the world's cached buffer is as before. -/
def SameBuf {α : Type} (x : M α) (w : World) : Prop := ∀ a w', x w = .ok a w' → w'.reuse = w.reuse

theorem SameBuf.pure {α : Type} (a : α) (w : World) : SameBuf (pure a) w := by
  intro _ _ h; injection h with _ h; rw [h]

theorem SameBuf.get (w : World) : SameBuf get w := by
  intro _ _ h; injection h with _ h; rw [h]

theorem SameBuf.liftE {α : Type} (x : Except Fault α) (w : World) : SameBuf (liftE x) w := by
  intro a w' h
  exact congrArg World.reuse (liftE_ok h).2

theorem bind_ok {α β : Type} {x : M α} {f : α → M β} {w w' : World} {b : β} (h : (x >>= f) w = .ok b w') :
    ∃ a w1, x w = .ok a w1 ∧ f a w1 = .ok b w' := by
  simp only [bind, EStateM.bind] at h
  cases hx : x w with
  | ok a w1 => rw [hx] at h; exact ⟨a, w1, rfl, h⟩
  | error e w1 => rw [hx] at h; cases h

theorem SameBuf.bind {α β : Type} {x : M α} {f : α → M β} {w : World} (hx : SameBuf x w) (hf : ∀ a w', SameBuf (f a) w') : SameBuf (x >>= f) w := by
  intro b w' h
  obtain ⟨a, w1, h1, h2⟩ := bind_ok h
  exact (hf a w1 b w' h2).trans (hx a w1 h1)

theorem SameBuf.step {g : World → Except Fault World} {w : World} (h : ∀ w', g w = .ok w' → w'.reuse = w.reuse) : SameBuf (step g) w := by
  intro a w' h'
  unfold World.step at h'
  cases hg : g w with
  | ok w1 => rw [hg] at h'; injection h' with _ h'; subst h'; exact h _ hg
  | error e => rw [hg] at h'; cases h'

theorem SameBuf.modify {g : World → World} {w : World} (h : (g w).reuse = w.reuse) : SameBuf (modify g) w := by
  intro a w' h'; injection h' with _ h'; rw [← h']; exact h

theorem pushComps_buf (b : Builder) (k : Nat) (ids : List EcsId) : ∀ (off : Nat) (w : World), SameBuf (b.pushComps k off ids) w := by
  induction ids with
  | nil => exact fun off w => SameBuf.pure _ w
  | cons id ids ih =>
    intro off w
    unfold Builder.pushComps
    refine (SameBuf.get w).bind fun _ w => (SameBuf.liftE _ w).bind fun _ w => (SameBuf.liftE _ w).bind fun _ w => (SameBuf.step ?_).bind fun _ w =>
      (SameBuf.get w).bind fun _ w => (SameBuf.liftE _ w).bind fun _ w => ih _ w
    intro w' h
    repeat' split at h
    all_goals first
      | cases h; done
      | (injection h with h; subst h; rfl)

theorem setEntityMeta_buf {w w' : World} {e : EcsId} {m : EntityMeta} (h : w.setEntityMeta e m = .ok w') : w'.reuse = w.reuse := by
  unfold setEntityMeta at h
  split at h
  · cases h
  · injection h with h; subst h; rfl
  · split at h <;> (injection h with h; subst h; rfl)

theorem ensureLocks_buf (ids : List EcsId) : ∀ w : World, (ids.foldl ensureLock w).reuse = w.reuse := by
  induction ids with
  | nil => exact fun w => rfl
  | cons id ids ih =>
    intro w
    rw [List.foldl_cons, ih]
    unfold ensureLock; split <;> rfl

theorem pushArchetype_buf {w w' : World} {a : Archetype} (h : w.pushArchetype a = .ok w') : w'.reuse = w.reuse := by
  unfold pushArchetype at h
  split at h
  · cases h
  · split at h
    · cases h
    · injection h with h; subst h; rfl

theorem createArchetype_buf {b b' : Builder} {a : Archetype} {w w' : World} (h : b.createArchetype w = .ok (b', a) w') :
    w' = w ∧ b'.data = b.data ∧ b'.cap = b.cap := by
  unfold Builder.createArchetype at h
  obtain ⟨v, w1, h1, h2⟩ := bind_ok h
  injection h1 with h1 h1'; subst h1 h1'
  have hfail : ∀ {f : Fault} {st : List (EcsId × UVec)} {x : Builder × Archetype}, (failDropping f st : M (Builder × Archetype)) w = .ok x w' → False := by
    intro f st x hh
    unfold failDropping at hh
    split at hh <;> cases hh
  cases hst : b.createStorages w 0 b.compIds [] with
  | error x => rw [hst] at h2; exact (hfail h2).elim
  | ok st =>
    rw [hst] at h2
    simp only at h2
    cases hck : Builder.checkedLookup (stableSort EcsId.lt b.compIds).zipIdx (fun _ => none) with
    | error x => rw [hck] at h2; exact (hfail h2).elim
    | ok l =>
      rw [hck] at h2
      simp only at h2
      by_cases hg : idsAgree (stableSort EcsId.lt b.compIds) (stableSort storageLt st) = true
      · rw [if_pos hg] at h2
        injection h2 with h2 h3; injection h2 with h2 _; subst h2 h3; exact ⟨rfl, rfl, rfl⟩
      · rw [if_neg hg] at h2; exact (hfail h2).elim

theorem build_buf {b b' : Builder} {w w' : World} (h : b.build w = .ok b' w') : w'.reuse = w.reuse ∧ b'.data = b.data ∧ b'.cap = b.cap := by
  unfold Builder.build at h
  obtain ⟨v, w1, h1, h⟩ := bind_ok h
  injection h1 with h1 h1'; subst h1 h1'
  obtain ⟨found, w1, h1, h⟩ := bind_ok h
  have h1 := (liftE_ok h1).2
  subst h1
  cases found with
  | some k =>
    simp only at h
    obtain ⟨_, w2, h2, h⟩ := bind_ok h
    have e2 : w2.reuse = w1.reuse := by
      refine SameBuf.step ?_ _ _ h2
      intro w' h
      split at h
      · cases h
      · injection h with h; subst h; rfl
    obtain ⟨_, w3, h3, h⟩ := bind_ok h
    have e3 := pushComps_buf b k _ _ w2 _ _ h3
    obtain ⟨_, w4, h4, h⟩ := bind_ok h
    have e4 := SameBuf.get _ _ _ h4
    obtain ⟨_, w5, h5, h⟩ := bind_ok h
    have e5 := SameBuf.liftE _ _ _ _ h5
    obtain ⟨_, w6, h6, h⟩ := bind_ok h
    have e6 := SameBuf.step (fun _ hh => setEntityMeta_buf hh) _ _ h6
    injection h with h h'; subst h h'
    exact ⟨by rw [e6, e5, e4, e3, e2], rfl, rfl⟩
  | none =>
    simp only at h
    obtain ⟨_, w2, h2, h⟩ := bind_ok h
    have e2 := SameBuf.modify (g := fun w => b.compIds.foldl ensureLock w) (ensureLocks_buf _ _) _ _ h2
    obtain ⟨⟨b1, a⟩, w3, h3, h⟩ := bind_ok h
    obtain ⟨d0, d1, d2⟩ := createArchetype_buf h3
    obtain ⟨_, w4, h4, h⟩ := bind_ok h
    have e4 := SameBuf.step (fun _ hh => pushArchetype_buf hh) _ _ h4
    obtain ⟨_, w5, h5, h⟩ := bind_ok h
    have e5 := SameBuf.get _ _ _ h5
    obtain ⟨_, w6, h6, h⟩ := bind_ok h
    have e6 := SameBuf.step (fun _ hh => setEntityMeta_buf hh) _ _ h6
    injection h with h h'; subst h h'
    exact ⟨by rw [e6, e5, e4, d0, e2], d1, d2⟩

theorem orDrop_ok {α : Type} {b : Builder} {x : M α} {w w' : World} {a : α} (h : b.orDrop x w = .ok a w') : x w = .ok a w' := by
  unfold Builder.orDrop at h
  cases hx : x w with
  | ok a w1 => rw [hx] at h; exact h
  | error f w1 =>
    rw [hx] at h
    simp only at h
    split at h <;> cases h

theorem spawnId_buf {w w' : World} {e : EcsId} (h : spawnId w = .ok e w') : w'.reuse = w.reuse := by
  unfold spawnId at h
  cases hs : w.entities.spawn with
  | mk r s =>
    rw [hs] at h
    cases r with
    | ok x => injection h with _ h; subst h; rfl
    | error f => cases h

/-- Registering a type while the buffer is lent: the builder it uses never allocates. -/
theorem getOrCreate_buf {t : Ty} {w w' : World} {e : EcsId} (h : getOrCreate t w = .ok e w') (hr : w.reuse = none) : w'.reuse = none := by
  unfold getOrCreate at h
  obtain ⟨v, w1, h1, h⟩ := bind_ok h
  injection h1 with h1 h1'; subst h1 h1'
  cases ht : w.typeMap t with
  | some id =>
    rw [ht] at h
    injection h with _ h; subst h; exact hr
  | none =>
    rw [ht] at h
    simp only at h
    obtain ⟨e1, w1, h1, h⟩ := bind_ok h
    have r1 := (spawnId_buf h1).trans hr
    obtain ⟨b, w2, h2, h⟩ := bind_ok h
    unfold Builder.new at h2
    rw [r1] at h2
    injection h2 with h2 h2'; subst h2'
    have hcap : b.cap = 0 := by rw [← h2]
    obtain ⟨b2, w3, h3, h⟩ := bind_ok h
    obtain ⟨q1, q2, q3⟩ := build_buf (orDrop_ok h3)
    obtain ⟨_, w4, h4, h⟩ := bind_ok h
    have e4 : w4 = w3 := by
      unfold Builder.drop at h4
      rw [if_neg (by rw [q3, hcap]; simp)] at h4
      injection h4 with _ h4; exact h4.symm
    obtain ⟨_, w5, h5, h⟩ := bind_ok h
    have e5 : w5.reuse = w4.reuse := by
      refine SameBuf.step ?_ _ _ h5
      intro w' h
      split at h
      · cases h
      · cases h
      · injection h with h; subst h; rfl
    obtain ⟨_, w6, h6, h⟩ := bind_ok h
    have e6 := SameBuf.modify rfl _ _ h6
    injection h with _ h; subst h
    rw [e6, e5, e4, q1, r1]

theorem withData_buf {b b' : Builder} {src : Bytes} {id : EcsId} {w : World} (h : b.withDynamicWithData src id w = .ok b') (hb : b.data.length = b.cap) :
    b'.data.length = b'.cap := by
  unfold Builder.withDynamicWithData at h
  split at h
  · cases h
  · cases h
  · simp only at h
    rename_i m _
    split at h
    · cases h
    · rename_i b1 hr
      split at h
      · cases h
      · split at h
        · cases h
        · rename_i hs hl
          injection h with h; subst h
          have hb1 : b1.data.length = b1.cap := by
            split at hr
            · unfold Builder.realloc at hr
              split at hr
              · cases hr
              · split at hr
                · cases hr
                · split at hr
                  · injection hr with hr; subst hr; simp
                  · first
                    | (injection hr with hr; subst hr
                       simp only [List.length_append, List.length_take, List.length_replicate]
                       omega)
                    | (rw [if_pos hb] at hr
                       injection hr with hr; subst hr
                       simp only [List.length_append, List.length_take, List.length_replicate]
                       omega)
            · injection hr with hr; subst hr; exact hb
          show (writeAt b1.data b1.len (List.take m.comp.layout.size src)).length = b1.cap
          rw [length_writeAt _ _ _ (by rw [List.length_take]; omega)]
          exact hb1

/-- While a builder is alive the world has no cached buffer, and the builder's block has the size it remembers. -/
structure Lent (b : Builder) (w : World) : Prop where
  none : w.reuse = Option.none
  size : b.data.length = b.cap

theorem act_lent {b b' : Builder} {a : BAct} {w w' : World} (h : b.act a w = .ok b' w') (hl : Lent b w) : Lent b' w' := by
  unfold Builder.act at h
  have h := orDrop_ok h
  cases a with
  | «with» t v =>
    simp only at h
    obtain ⟨id, w1, h1, h⟩ := bind_ok h
    have r1 := getOrCreate_buf h1 hl.none
    obtain ⟨v, w2, h2, h⟩ := bind_ok h
    injection h2 with h2 h2'; subst h2 h2'
    obtain ⟨h3, h4⟩ := liftE_ok h
    subst h4
    exact ⟨r1, withData_buf h3 hl.size⟩
  | withDynamic id =>
    simp only at h
    obtain ⟨v, w2, h2, h⟩ := bind_ok h
    injection h2 with h2 h2'; subst h2 h2'
    obtain ⟨h3, h4⟩ := liftE_ok h
    subst h4
    refine ⟨hl.none, ?_⟩
    unfold Builder.withDynamic at h3
    repeat' split at h3
    all_goals first
      | cases h3; done
      | (injection h3 with h3; subst h3; exact hl.size)
  | withDynamicWithData id v =>
    simp only at h
    obtain ⟨v, w2, h2, h⟩ := bind_ok h
    injection h2 with h2 h2'; subst h2 h2'
    obtain ⟨h3, h4⟩ := liftE_ok h
    subst h4
    exact ⟨hl.none, withData_buf h3 hl.size⟩
  | build =>
    obtain ⟨q1, q2, q3⟩ := build_buf h
    exact ⟨q1.trans hl.none, by rw [q2, q3]; exact hl.size⟩

theorem acts_lent (as : List BAct) : ∀ {b b' : Builder} {w w' : World}, b.acts as w = .ok b' w' → Lent b w → Lent b' w' := by
  induction as with
  | nil => intro b b' w w' h hl; injection h with h h'; subst h h'; exact hl
  | cons a as ih =>
    intro b b' w w' h hl
    obtain ⟨b1, w1, h1, h2⟩ := bind_ok h
    exact ih h2 (act_lent h1 hl)

theorem mkBuilder_lent {kind : SpawnKind} {e : EcsId} {b : Builder} {w w' : World} (h : mkBuilder kind e w = .ok b w')
    (hr : ∀ ids d c, w.reuse = some (ids, d, c) → ids = [] ∧ (0 < c ∧ d.length = c)) : Lent b w' := by
  have hnew : ∀ cm, Builder.new e cm w = .ok b w' → Lent b w' := by
    intro cm h
    unfold Builder.new at h
    split at h
    · rename_i hu
      injection h with h h'; subst h h'
      exact ⟨rfl, (hr _ _ _ hu).2.2⟩
    · rename_i hu
      injection h with h h'; subst h h'
      exact ⟨hu, rfl⟩
  cases kind with
  | plain => exact hnew _ h
  | withMeta m => exact hnew _ h
  | capacity n =>
    unfold mkBuilder Builder.withCapacity at h
    simp only at h
    split at h
    · rename_i hu
      injection h with h h'; subst h h'
      exact ⟨rfl, (hr _ _ _ hu).2.2⟩
    · rename_i hu
      split at h
      · injection h with h h'; subst h h'; exact ⟨hu, rfl⟩
      · split at h
        · injection h with h h'; subst h h'; exact ⟨hu, by simp⟩
        · cases h

end World
end Ellecs
