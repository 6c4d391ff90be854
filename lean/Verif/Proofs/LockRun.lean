import Verif.Spec.Locks
import Verif.Proofs.LockTrace
import Verif.Proofs.Query
/-!
# Runs of live queries
-/
namespace Ellecs
open World

/-- All guards, query by query. -/
def guardsOf (qs : List LiveQuery) : List Guard := qs.flatMap (fun q => q.held.map Prod.snd)

/-- The invariant of runs. -/
structure RunInv (w : World) (ls : List RwLock) (qs : List LiveQuery) : Prop where
  held : Held ls (guardsOf qs)
  len : ls.length = w.locks.length
  guards : ∀ q ∈ qs, ∀ x ∈ q.held, GuardForDyn w x.1 x.2

theorem guardsOf_append (qs qs' : List LiveQuery) : guardsOf (qs ++ qs') = guardsOf qs ++ guardsOf qs' := List.flatMap_append

theorem guardsOf_cons (q : LiveQuery) (qs : List LiveQuery) : guardsOf (q :: qs) = q.held.map Prod.snd ++ guardsOf qs := by
  simp [guardsOf, List.flatMap_cons]

theorem looksIn {w : World} (h : Inv w) : LooksIn w w.locks.length := h.lock.range

theorem acquireDyn_of_static {w : World} {f : Fetch} {ls ls' : List RwLock} {g : Guard} {inc : Bool} (h : f.acquireDyn w ls = .ok (g, ls', inc)) :
    f.acquireStatic w ls = .ok (g, ls') ∨ (g = .none ∧ ls' = ls ∧ ∃ id, f.getId = some id ∧ w.lockLookup id = none) := by
  rw [acquireDyn_eq] at h
  cases hg : f.getId with
  | none =>
    rw [hg] at h
    have hf : f = .ecsId := by cases f <;> simp_all [Fetch.getId]
    subst hf
    injection h with h; injection h with h1 h2; injection h2 with h2 h3
    subst h1 h2
    exact Or.inl rfl
  | some id =>
    rw [hg] at h
    cases hk : w.lockLookup id with
    | none =>
      simp only [hk] at h
      injection h with h; injection h with h1 h2; injection h2 with h2 h3
      exact Or.inr ⟨h1.symm, h2.symm, id, rfl, hk⟩
    | some i =>
      simp only [hk] at h
      left
      cases hs : f.acquireStatic w ls with
      | error e => rw [hs] at h; cases h
      | ok x =>
        obtain ⟨g', ls2⟩ := x
        rw [hs] at h
        injection h with h; injection h with h1 h2; injection h2 with h2 h3
        rw [h1, h2]

theorem perm_mid {α : Type} (a b c d : List α) : (a ++ (b ++ c) ++ d).Perm (a ++ (b ++ d) ++ c) := by
  simp only [List.append_assoc]
  exact List.Perm.append_left a (List.Perm.append_left b List.perm_append_comm)

theorem RunInv.step {w : World} (hw : Inv w) {ls ls' : List RwLock} {qs qs' : List LiveQuery} (h : RunInv w ls qs) (hs : LockStep w ls qs ls' qs') :
    RunInv w ls' qs' := by
  have hli : LooksIn w ls.length := by rw [h.len]; exact looksIn hw
  cases hs with
  | create fs =>
    refine ⟨?_, h.len, ?_⟩
    · rw [guardsOf_append, guardsOf_cons]; simpa [guardsOf] using h.held
    · intro q hq x hx
      rcases List.mem_append.1 hq with hq | hq
      · exact h.guards q hq x hx
      · rw [List.mem_singleton] at hq; subst hq; cases hx
  | @acquire _ pre post f todo held g ha =>
    have key : Held ls' (guardsOf (pre ++ ⟨f :: todo, held, none⟩ :: post) ++ [g]) ∧ ls'.length = ls.length ∧ GuardForDyn w f g := by
      have hh := h.held
      have : f.acquireStatic w ls = .ok (g, ls') ∨ (g = .none ∧ ls' = ls ∧ ∃ id, f.getId = some id ∧ w.lockLookup id = none) := by
        rcases ha with ha | ⟨inc, ha⟩
        · exact Or.inl ha
        · exact acquireDyn_of_static ha
      rcases this with ha | ⟨h1, h2, h3⟩
      · rcases acquireStatic_spec hh hli f with ⟨g', ls2, a1, a2, a3, a4, a5, _⟩ | ⟨e, a1, _⟩
        · rw [a1] at ha
          injection ha with ha; injection ha with h1 h2; subst h1 h2
          exact ⟨a3, a4, Or.inl a2⟩
        · rw [a1] at ha; cases ha
      · subst h1 h2
        exact ⟨hh.noneL, rfl, Or.inr ⟨rfl, h3⟩⟩
    refine ⟨?_, key.2.1.trans h.len, ?_⟩
    · refine key.1.perm ?_
      simp only [guardsOf_append, guardsOf_cons, List.map_append, List.map_cons, List.map_nil]
      have := perm_mid (guardsOf pre) (List.map Prod.snd held) (guardsOf post) [g]
      simpa [List.append_assoc] using this
    · intro q hq x hx
      rcases List.mem_append.1 hq with hq | hq
      · exact h.guards q (List.mem_append_left _ hq) x hx
      · rcases List.mem_cons.1 hq with rfl | hq
        · rcases List.mem_append.1 hx with hx | hx
          · exact h.guards ⟨f :: todo, held, none⟩ (by simp) x hx
          · rw [List.mem_singleton] at hx; subst hx; exact key.2.2
        · exact h.guards q (by simp [hq]) x hx
  | @fail pre post f todo held e ha he =>
    refine ⟨?_, h.len, ?_⟩
    · have := h.held; rw [guardsOf_append, guardsOf_cons] at *; exact this
    · intro q hq x hx
      rcases List.mem_append.1 hq with hq | hq
      · exact h.guards q (List.mem_append_left _ hq) x hx
      · rcases List.mem_cons.1 hq with rfl | hq
        · exact h.guards ⟨f :: todo, held, none⟩ (by simp) x hx
        · exact h.guards q (by simp [hq]) x hx
  | @close pre post held p =>
    refine ⟨?_, h.len, ?_⟩
    · have := h.held; rw [guardsOf_append, guardsOf_cons] at *; exact this
    · intro q hq x hx
      rcases List.mem_append.1 hq with hq | hq
      · exact h.guards q (List.mem_append_left _ hq) x hx
      · rcases List.mem_cons.1 hq with rfl | hq
        · exact h.guards ⟨[], held, none⟩ (by simp) x hx
        · exact h.guards q (by simp [hq]) x hx
  | @release pre post todo f g held p =>
    have hh := h.held
    rw [guardsOf_append, guardsOf_cons] at hh
    obtain ⟨r1, r2, r3⟩ := release_spec (g := g) (gs := guardsOf pre ++ (held.map Prod.snd ++ guardsOf post)) (hh.perm (by
      simp only [List.map_cons, List.cons_append]; exact List.perm_middle)) p
    refine ⟨?_, r2.trans h.len, ?_⟩
    · rw [guardsOf_append, guardsOf_cons]; exact r1
    · intro q hq x hx
      rcases List.mem_append.1 hq with hq | hq
      · exact h.guards q (List.mem_append_left _ hq) x hx
      · rcases List.mem_cons.1 hq with rfl | hq
        · exact h.guards ⟨todo, (f, g) :: held, some p⟩ (by simp) x (List.mem_cons_of_mem _ hx)
        · exact h.guards q (by simp [hq]) x hx
  | @gone pre post todo p =>
    refine ⟨?_, h.len, ?_⟩
    · have := h.held; rw [guardsOf_append, guardsOf_cons] at this; rw [guardsOf_append]; simpa using this
    · intro q hq x hx
      rcases List.mem_append.1 hq with hq | hq
      · exact h.guards q (List.mem_append_left _ hq) x hx
      · exact h.guards q (by simp [hq]) x hx

theorem RunInv.steps {w : World} (hw : Inv w) {ls ls' : List RwLock} {qs qs' : List LiveQuery} (h : RunInv w ls qs) (hs : LockSteps w ls qs ls' qs') :
    RunInv w ls' qs' := by
  induction hs with
  | refl => exact h
  | step _ hs ih => exact (ih h).step hw hs

theorem RunInv.start {w : World} (hw : Sound w) : RunInv w w.locks [] := ⟨hw.idle, rfl, by simp⟩

theorem LockRun.inv {w : World} (hw : Reachable w) {ls : List RwLock} {qs : List LiveQuery} (h : LockRun w ls qs) : RunInv w ls qs :=
  (RunInv.start hw.sound).steps hw.sound.inv h

/-! ## Counting guards -/

theorem two_le_count {α : Type} [BEq α] [LawfulBEq α] {l : List α} {a : α} {i j : Nat} (hij : i ≠ j) (hi : l[i]? = some a) (hj : l[j]? = some a) :
    2 ≤ l.count a := by
  have main : ∀ {i j : Nat}, i < j → l[i]? = some a → l[j]? = some a → 2 ≤ l.count a := by
    intro i j h hi hj
    have h1 : a ∈ l.take (i + 1) := by
      rw [List.mem_iff_getElem?]; exact ⟨i, by rw [List.getElem?_take, if_pos (by omega)]; exact hi⟩
    have h2 : a ∈ l.drop (i + 1) := by
      rw [List.mem_iff_getElem?]; exact ⟨j - (i + 1), by rw [List.getElem?_drop, show i + 1 + (j - (i + 1)) = j by omega]; exact hj⟩
    rw [← List.take_append_drop (i + 1) l, List.count_append]
    have := List.count_pos_iff.2 h1
    have := List.count_pos_iff.2 h2
    omega
  rcases Nat.lt_or_gt_of_ne hij with h | h
  · exact main h hi hj
  · exact main h hj hi

theorem held_excl {ls : List RwLock} {gs : List Guard} (h : Held ls gs) {i j k : Nat} {g : Guard} (hij : i ≠ j) (hi : gs[i]? = some (.write k))
    (hj : gs[j]? = some g) : g ≠ .write k ∧ g ≠ .read k := by
  have hk := h k
  have hm := List.count_pos_iff.2 (List.mem_iff_getElem?.2 ⟨i, hi⟩)
  cases hl : ls[k]? with
  | none =>
    rw [hl] at hk
    have := hk.2
    omega
  | some l =>
    rw [hl] at hk
    obtain ⟨h1, h2, h3⟩ := hk
    have hw : l.writer = true := by
      cases hx : l.writer with
      | true => rfl
      | false => rw [hx] at h2; simp only [Bool.false_eq_true, if_false] at h2; omega
    rw [hw] at h2
    simp only [if_true] at h2
    constructor
    · rintro rfl
      have := two_le_count hij hi hj
      omega
    · rintro rfl
      have := List.count_pos_iff.2 (List.mem_iff_getElem?.2 ⟨j, hj⟩)
      rw [← h1, h3 hw] at this
      omega

/-- `accesses` and `guardsOf` go in step. -/
theorem access_guard {w : World} {qs : List LiveQuery} (h : ∀ q ∈ qs, ∀ x ∈ q.held, GuardForDyn w x.1 x.2) {i : Nat} {f : Fetch}
    (hf : (accesses qs)[i]? = some f) : ∃ g, (guardsOf qs)[i]? = some g ∧ GuardForDyn w f g := by
  have e1 : accesses qs = (qs.flatMap (fun q => q.held)).map Prod.fst := by simp [accesses, List.map_flatMap]
  have e2 : guardsOf qs = (qs.flatMap (fun q => q.held)).map Prod.snd := by simp [guardsOf, List.map_flatMap]
  rw [e1, List.getElem?_map] at hf
  rw [e2, List.getElem?_map]
  cases hx : (qs.flatMap (fun q => q.held))[i]? with
  | none => rw [hx] at hf; cases hf
  | some x =>
    rw [hx] at hf
    simp only [Option.map_some, Option.some.injEq] at hf
    obtain ⟨q, hq, hxq⟩ := List.mem_flatMap.1 (List.mem_of_getElem? hx)
    exact ⟨x.2, rfl, hf ▸ h q hq x hxq⟩

theorem fetch_of_getId {f : Fetch} {c : EcsId} (h : f.getId = some c) : f.Of c := by
  cases f with
  | ecsId => cases h
  | «mut» id => injection h with h; subst h; exact Or.inl rfl
  | immut id => injection h with h; subst h; exact Or.inr rfl

theorem getId_of_fetch {f : Fetch} {c : EcsId} (h : f.Of c) : f.getId = some c := by
  rcases h with rfl | rfl <;> rfl

theorem clash_lock {w : World} {gs : List Guard} {ls : List RwLock} (hh : Held ls gs) {f f' : Fetch} {c : EcsId} {i j : Nat} {g g' : Guard} (hij : i ≠ j)
    (hi : gs[i]? = some g) (hj : gs[j]? = some g') (hg : GuardForDyn w f g) (hg' : GuardForDyn w f' g') (hf : f.Of c) (hf' : f'.Of c)
    (hm : f = .mut c ∨ f' = .mut c) : w.lockLookup c = none := by
  have guard : ∀ {f : Fetch} {g : Guard}, f.Of c → GuardForDyn w f g → w.lockLookup c = none ∨
      ∃ k, w.lockLookup c = some k ∧ ((f = .mut c ∧ g = .write k) ∨ (f = .immut c ∧ g = .read k)) := by
    intro f g h1 h2
    rcases h2 with h2 | ⟨_, id, h2, h3⟩
    · right
      rcases h1 with rfl | rfl
      · obtain ⟨k, h3, h4⟩ := h2; exact ⟨k, h3, Or.inl ⟨rfl, h4⟩⟩
      · obtain ⟨k, h3, h4⟩ := h2; exact ⟨k, h3, Or.inr ⟨rfl, h4⟩⟩
    · left
      rw [getId_of_fetch h1] at h2; injection h2 with h2; subst h2; exact h3
  rcases guard hf hg with h1 | ⟨k, h1, h2⟩
  · exact h1
  rcases guard hf' hg' with h1' | ⟨k', h1', h2'⟩
  · exact h1'
  exfalso
  rw [h1] at h1'; injection h1' with h1'; subst h1'
  rcases h2 with ⟨_, rfl⟩ | ⟨e1, rfl⟩
  · have := held_excl hh hij hi hj
    rcases h2' with ⟨_, rfl⟩ | ⟨_, rfl⟩
    · exact this.1 rfl
    · exact this.2 rfl
  · rcases h2' with ⟨_, rfl⟩ | ⟨e2, rfl⟩
    · exact (held_excl hh (Ne.symm hij) hj hi).2 rfl
    · subst e1 e2
      rcases hm with hm | hm <;> cases hm

/-- Whole queries. -/
theorem Pairs.guards {w : World} {fs : List Fetch} {gs : List Guard} (h : Pairs (GuardFor w) fs gs) : Pairs (GuardForDyn w) fs gs := by
  induction h with
  | nil => exact .nil
  | cons h1 _ ih => exact .cons (Or.inl h1) ih

theorem LockSteps.head {w : World} {ls ls1 ls' : List RwLock} {qs qs1 qs' : List LiveQuery} (h : LockStep w ls qs ls1 qs1) (h' : LockSteps w ls1 qs1 ls' qs') :
    LockSteps w ls qs ls' qs' := by
  induction h' with
  | refl => exact .step (.refl _ _) h
  | step _ hs ih => exact .step (ih h) hs

theorem LockSteps.trans {w : World} {ls ls1 ls' : List RwLock} {qs qs1 qs' : List LiveQuery} (h : LockSteps w ls qs ls1 qs1) (h' : LockSteps w ls1 qs1 ls' qs') :
    LockSteps w ls qs ls' qs' := by
  induction h' with
  | refl => exact h
  | step _ hs ih => exact .step (ih h) hs

theorem zip_fst_snd (done : List (Fetch × Guard)) : (done.map Prod.fst ++ []).zip (done.map Prod.snd) = done := by
  rw [List.append_nil]
  induction done with
  | nil => rfl
  | cons x xs ih => simp [ih]

/-- Dropping the guards one after the other. -/
theorem close_run {w : World} {pre post : List LiveQuery} {todo : List Fetch} {p : Bool} (held : List (Fetch × Guard)) : ∀ (ls : List RwLock),
    LockSteps w ls (pre ++ ⟨todo, held, some p⟩ :: post) (releaseAll p ls (held.map Prod.snd)) (pre ++ post) := by
  induction held with
  | nil => exact fun ls => .step (.refl _ _) .gone
  | cons x held ih =>
    intro ls
    obtain ⟨f, g⟩ := x
    exact LockSteps.head .release (ih _)

theorem acquireAllStatic_run {w : World} (fs : List Fetch) : ∀ (done : List (Fetch × Guard)) (ls : List RwLock) (qs : List LiveQuery),
    match acquireAllStatic w (done.map Prod.snd) ls fs with
    | .ok (gs, ls') => LockSteps w ls (qs ++ [⟨fs, done, none⟩]) ls' (qs ++ [⟨[], (done.map Prod.fst ++ fs).zip gs, none⟩])
    | .error (e, ls') => e ≠ .deadlock → LockSteps w ls (qs ++ [⟨fs, done, none⟩]) ls' qs := by
  induction fs with
  | nil =>
    intro done ls qs
    unfold acquireAllStatic
    simp only [zip_fst_snd]
    exact .refl _ _
  | cons f fs ih =>
    intro done ls qs
    unfold acquireAllStatic
    cases ha : f.acquireStatic w ls with
    | error e =>
      simp only
      intro he
      have := close_run (w := w) (pre := qs) (post := []) (todo := f :: fs) (p := true) done ls
      rw [List.append_nil] at this
      exact LockSteps.head (.fail (Or.inl ha) he) this
    | ok x =>
      obtain ⟨g, ls1⟩ := x
      simp only
      have h' := ih (done ++ [(f, g)]) ls1 qs
      have s1 : LockStep w ls (qs ++ [⟨f :: fs, done, none⟩]) ls1 (qs ++ [⟨fs, done ++ [(f, g)], none⟩]) := .acquire (Or.inl ha)
      have e : (done ++ [(f, g)]).map Prod.fst ++ fs = done.map Prod.fst ++ f :: fs := by simp
      have e2 : (done ++ [(f, g)]).map Prod.snd = done.map Prod.snd ++ [g] := by simp
      rw [e2, e] at h'
      revert h'
      cases acquireAllStatic w (done.map Prod.snd ++ [g]) ls1 fs with
      | ok y => exact fun h' => LockSteps.head s1 h'
      | error y => exact fun h' he => LockSteps.head s1 (h' he)

theorem acquireAllDyn_run {w : World} (fs : List Fetch) : ∀ (done : List (Fetch × Guard)) (inc : Bool) (ls : List RwLock) (qs : List LiveQuery),
    match acquireAllDyn w (done.map Prod.snd) inc ls fs with
    | .ok (gs, _, ls') => LockSteps w ls (qs ++ [⟨fs, done, none⟩]) ls' (qs ++ [⟨[], (done.map Prod.fst ++ fs).zip gs, none⟩])
    | .error (e, ls') => e ≠ .deadlock → LockSteps w ls (qs ++ [⟨fs, done, none⟩]) ls' qs := by
  induction fs with
  | nil =>
    intro done inc ls qs
    unfold acquireAllDyn
    simp only [zip_fst_snd]
    exact .refl _ _
  | cons f fs ih =>
    intro done inc ls qs
    unfold acquireAllDyn
    cases ha : f.acquireDyn w ls with
    | error e =>
      simp only
      intro he
      have := close_run (w := w) (pre := qs) (post := []) (todo := f :: fs) (p := true) done ls
      rw [List.append_nil] at this
      exact LockSteps.head (.fail (Or.inr ha) he) this
    | ok x =>
      obtain ⟨g, ls1, i⟩ := x
      simp only
      have h' := ih (done ++ [(f, g)]) (inc || i) ls1 qs
      have s1 : LockStep w ls (qs ++ [⟨f :: fs, done, none⟩]) ls1 (qs ++ [⟨fs, done ++ [(f, g)], none⟩]) := .acquire (Or.inr ⟨i, ha⟩)
      have e : (done ++ [(f, g)]).map Prod.fst ++ fs = done.map Prod.fst ++ f :: fs := by simp
      have e2 : (done ++ [(f, g)]).map Prod.snd = done.map Prod.snd ++ [g] := by simp
      rw [e2, e] at h'
      revert h'
      cases acquireAllDyn w (done.map Prod.snd ++ [g]) (inc || i) ls1 fs with
      | ok y => exact fun h' => LockSteps.head s1 h'
      | error y => exact fun h' he => LockSteps.head s1 (h' he)

/-! ## The functions do not look at the state of the locks in the world -/

theorem acquireAllStatic_locks {w : World} (l : List RwLock) (fs : List Fetch) : ∀ (done : List Guard) (ls : List RwLock),
    acquireAllStatic { w with locks := l } done ls fs = acquireAllStatic w done ls fs := by
  induction fs with
  | nil => exact fun _ _ => rfl
  | cons f fs ih =>
    intro done ls
    unfold acquireAllStatic
    have : f.acquireStatic { w with locks := l } ls = f.acquireStatic w ls := by cases f <;> rfl
    rw [this]
    cases f.acquireStatic w ls with
    | error e => rfl
    | ok x => exact ih _ _

theorem acquireAllDyn_locks {w : World} (l : List RwLock) (fs : List Fetch) : ∀ (done : List Guard) (inc : Bool) (ls : List RwLock),
    acquireAllDyn { w with locks := l } done inc ls fs = acquireAllDyn w done inc ls fs := by
  induction fs with
  | nil => exact fun _ _ _ => rfl
  | cons f fs ih =>
    intro done inc ls
    unfold acquireAllDyn
    have : f.acquireDyn { w with locks := l } ls = f.acquireDyn w ls := by cases f <;> rfl
    rw [this]
    cases f.acquireDyn w ls with
    | error e => rfl
    | ok x => exact ih _ _ _

theorem allFetches_locks {w : World} (l : List RwLock) (ps : List Param) : allFetches { w with locks := l } ps = allFetches w ps := by
  induction ps with
  | nil => rfl
  | cons p ps ih =>
    unfold allFetches
    have : p.fetchType { w with locks := l } = p.fetchType w := by cases p <;> rfl
    rw [this, ih]

theorem query_locks (w : World) (ls : List RwLock) (ps : List Param) : query ps { w with locks := ls } =
    match allFetches w ps with
    | none => .ok ⟨ps, ps.map (fun _ => .none), none⟩ { w with locks := ls }
    | some fs =>
      match acquireAllStatic w [] ls fs with
      | .error (f, ls') => .error f { w with locks := ls' }
      | .ok (gs, ls') => .ok ⟨ps, gs, some fs⟩ { w with locks := ls' } := by
  unfold query
  rw [allFetches_locks]
  cases allFetches w ps with
  | none => rfl
  | some fs =>
    simp only [acquireAllStatic_locks]
    cases acquireAllStatic w [] ls fs <;> rfl

theorem queryDynamic_locks (w : World) (ls : List RwLock) (fs : List Fetch) : queryDynamic fs { w with locks := ls } =
    match acquireAllDyn w [] false ls fs with
    | .error (f, ls') => .error f { w with locks := ls' }
    | .ok (gs, inc, ls') => .ok ⟨gs, fs, inc⟩ { w with locks := ls' } := by
  unfold queryDynamic
  rw [acquireAllDyn_locks]
  cases acquireAllDyn w [] false ls fs <;> rfl

/-! ## Creation -/

theorem GuardForDyn.write {w : World} {f : Fetch} {i : Nat} (h : GuardForDyn w f (.write i)) : ∃ id, f = .mut id ∧ w.lockLookup id = some i := by
  rcases h with h | ⟨h, _⟩
  · cases f with
    | ecsId => cases h
    | «mut» id => obtain ⟨k, h1, h2⟩ := h; injection h2 with h2; subst h2; exact ⟨id, rfl, h1⟩
    | immut id => obtain ⟨k, h1, h2⟩ := h; cases h2
  · cases h

theorem GuardForDyn.read {w : World} {f : Fetch} {i : Nat} (h : GuardForDyn w f (.read i)) : ∃ id, f = .immut id ∧ w.lockLookup id = some i := by
  rcases h with h | ⟨h, _⟩
  · cases f with
    | ecsId => cases h
    | «mut» id => obtain ⟨k, h1, h2⟩ := h; cases h2
    | immut id => obtain ⟨k, h1, h2⟩ := h; injection h2 with h2; subst h2; exact ⟨id, rfl, h1⟩
  · cases h

theorem mem_guardsOf {w : World} {qs : List LiveQuery} (h : ∀ q ∈ qs, ∀ x ∈ q.held, GuardForDyn w x.1 x.2) {g : Guard} (hg : g ∈ guardsOf qs) :
    ∃ f ∈ accesses qs, GuardForDyn w f g := by
  obtain ⟨q, hq, hg⟩ := List.mem_flatMap.1 hg
  obtain ⟨x, hx, rfl⟩ := List.mem_map.1 hg
  exact ⟨x.1, List.mem_flatMap.2 ⟨q, hq, List.mem_map.2 ⟨x, hx, rfl⟩⟩, h q hq x hx⟩

theorem Pairs.mem' {α β : Type} {R : α → β → Prop} {as : List α} {bs : List β} (h : Pairs R as bs) {b : β} (hb : b ∈ bs) :
    ∃ (i : Nat) (a : α), as[i]? = some a ∧ R a b := by
  induction h with
  | nil => cases hb
  | cons h1 _ ih =>
    rcases List.mem_cons.1 hb with rfl | hb
    · exact ⟨0, _, rfl, h1⟩
    · obtain ⟨i, a, h2, h3⟩ := ih hb; exact ⟨i + 1, a, h2, h3⟩

/-- Why the creation of a query stops. -/
def Cause (w : World) (ls : List RwLock) (qs : List LiveQuery) (fs : List Fetch) (e : Fault) : Prop :=
  (e = .indexOob ∧ ∃ f ∈ fs, ∃ c, f.Of c ∧ w.lockLookup c = none) ∨
  (e = .poisoned ∧ ∃ f ∈ fs, ∃ c, f.Of c ∧ Poisoned { w with locks := ls } c) ∨
  (e = .deadlock ∧ ∃ (n : Nat) (f : Fetch), fs[n]? = some f ∧ ∃ f', Clash f f' ∧ (∃ c, f.Of c ∧ w.lockLookup c ≠ none) ∧ (f' ∈ accesses qs ∨ ∃ i, i < n ∧ fs[i]? = some f'))

theorem poisoned_iff {w : World} {ls : List RwLock} {c : EcsId} : Poisoned { w with locks := ls } c ↔ ∃ i, w.lockLookup c = some i ∧ poisonAt ls i = some true := by
  unfold Poisoned poisonAt
  constructor
  · rintro ⟨i, l, h1, h2, h3⟩
    exact ⟨i, h1, by rw [show ls[i]? = some l from h2]; simp [h3]⟩
  · rintro ⟨i, h1, h2⟩
    cases hl : ls[i]? with
    | none => rw [hl] at h2; cases h2
    | some l => rw [hl] at h2; simp only [Option.map_some, Option.some.injEq] at h2; exact ⟨i, l, h1, hl, h2⟩

theorem blocked_cause {w : World} (hw : Inv w) {ls : List RwLock} {qs : List LiveQuery} (hr : RunInv w ls qs) {fs pre post : List Fetch} {f : Fetch} {new : List Guard}
    (hfs : fs = pre ++ f :: post) (hp : Pairs (GuardForDyn w) pre new) {e : Fault} (hb : Blocked w ls (guardsOf qs ++ ([] ++ new)) f e) : Cause w ls qs fs e := by
  have hmem : f ∈ fs := by rw [hfs]; simp
  have hget : fs[pre.length]? = some f := by rw [hfs]; simp
  have hpre : ∀ (i : Nat) (a : Fetch), pre[i]? = some a → i < pre.length ∧ fs[i]? = some a := by
    intro i a hi
    have := (List.getElem?_eq_some_iff.1 hi).1
    exact ⟨this, by rw [hfs, List.getElem?_append_left this]; exact hi⟩
  obtain ⟨id, h1, h2⟩ := hb
  rcases h2 with ⟨rfl, h2⟩ | ⟨i, h2, ⟨rfl, h3⟩ | ⟨rfl, h3⟩⟩
  · exact Or.inl ⟨rfl, f, hmem, id, fetch_of_getId h1, h2⟩
  · exact Or.inr (Or.inl ⟨rfl, f, hmem, id, fetch_of_getId h1, poisoned_iff.2 ⟨i, h2, h3⟩⟩)
  · refine Or.inr (Or.inr ⟨rfl, pre.length, f, hget, ?_⟩)
    have hl : ∃ c, f.Of c ∧ w.lockLookup c ≠ none := ⟨id, fetch_of_getId h1, by rw [h2]; simp⟩
    have hclash : ∀ (g : Guard) (f' : Fetch), (g = .write i ∨ (f = .mut id ∧ g = .read i)) → GuardForDyn w f' g → Clash f f' := by
      rintro g f' (rfl | ⟨hf, rfl⟩) hg
      · obtain ⟨id', e1, e2⟩ := hg.write
        have := hw.lock.inj _ _ _ e2 h2; subst this
        exact ⟨id', fetch_of_getId h1, Or.inl e1, Or.inr e1⟩
      · obtain ⟨id', e1, e2⟩ := hg.read
        have := hw.lock.inj _ _ _ e2 h2; subst this
        exact ⟨id', fetch_of_getId h1, Or.inr e1, Or.inl hf⟩
    have hmm : ∃ g, g ∈ guardsOf qs ++ ([] ++ new) ∧ (g = .write i ∨ (f = .mut id ∧ g = .read i)) := by
      rcases h3 with h3 | ⟨h3, h4⟩
      · exact ⟨_, h3, Or.inl rfl⟩
      · exact ⟨_, h4, Or.inr ⟨h3, rfl⟩⟩
    obtain ⟨g, hg, hgi⟩ := hmm
    rcases List.mem_append.1 hg with hg | hg
    · obtain ⟨f', q1, q2⟩ := mem_guardsOf hr.guards hg
      exact ⟨f', hclash g f' hgi q2, hl, Or.inl q1⟩
    · obtain ⟨k, f', q1, q2⟩ := Pairs.mem' hp (by simpa using hg)
      obtain ⟨q3, q4⟩ := hpre k f' q1
      exact ⟨f', hclash g f' hgi q2, hl, Or.inr ⟨k, q3, q4⟩⟩

/-- What making a query with these fetches does. -/
structure Took (w : World) (ls ls' : List RwLock) (qs : List LiveQuery) (fs : List Fetch) (gs : List Guard) : Prop where
  guards : Pairs (GuardForDyn w) fs gs
  held : Held ls' (guardsOf qs ++ gs)
  len : ls'.length = ls.length
  poison : ∀ j, poisonAt ls' j = poisonAt ls j

theorem static_made {w : World} (hw : Inv w) {ls : List RwLock} {qs : List LiveQuery} (hr : RunInv w ls qs) (fs : List Fetch) :
    (∃ gs ls', acquireAllStatic w [] ls fs = .ok (gs, ls') ∧ Took w ls ls' qs fs gs ∧ Pairs (GuardFor w) fs gs) ∨
    (∃ e ls', acquireAllStatic w [] ls fs = .error (e, ls') ∧ Cause w ls qs fs e) := by
  rcases acquireAllStatic_spec fs (base := guardsOf qs) (done := []) (ls := ls) (by simpa using hr.held) (by rw [hr.len]; exact looksIn hw) with
    ⟨new, ls', a1, a2, a3, a4, a5⟩ | ⟨e, ls', pre, f, post, new, a1, a2, a3, a4, a5, a6, a7⟩
  · exact Or.inl ⟨new, ls', by simpa using a1, ⟨a2.guards, by simpa using a3, a4, a5⟩, a2⟩
  · exact Or.inr ⟨e, ls', a1, blocked_cause hw hr a2 a3.guards a4⟩

theorem dyn_made {w : World} (hw : Inv w) {ls : List RwLock} {qs : List LiveQuery} (hr : RunInv w ls qs) (fs : List Fetch) :
    (∃ gs inc ls', acquireAllDyn w [] false ls fs = .ok (gs, inc, ls') ∧ Took w ls ls' qs fs gs) ∨
    (∃ e ls', acquireAllDyn w [] false ls fs = .error (e, ls') ∧ Cause w ls qs fs e ∧ e ≠ .indexOob) := by
  rcases acquireAllDyn_spec fs (base := guardsOf qs) (done := []) (ls := ls) false (by simpa using hr.held) (by rw [hr.len]; exact looksIn hw) with
    ⟨new, ls', a1, a2, a3, a4, a5⟩ | ⟨e, ls', pre, f, post, new, a1, a2, a3, a4, a4', a5, a6, a7⟩
  · exact Or.inl ⟨new, _, ls', by rw [a1]; rfl, ⟨a2, by simpa using a3, a4, a5⟩⟩
  · exact Or.inr ⟨e, ls', a1, blocked_cause hw hr a2 a3 a4, a4'⟩

theorem Pairs.get' {α β : Type} {R : α → β → Prop} {as : List α} {bs : List β} (h : Pairs R as bs) {i : Nat} {a : α} (ha : as[i]? = some a) :
    ∃ b, bs[i]? = some b ∧ R a b := by
  induction h generalizing i with
  | nil => cases ha
  | cons h1 _ ih =>
    cases i with
    | zero => injection ha with ha; subst ha; exact ⟨_, rfl, h1⟩
    | succ i => exact ih ha

theorem Took.selfClash {w : World} {ls ls' : List RwLock} {qs : List LiveQuery} {fs : List Fetch} {gs : List Guard} (h : Took w ls ls' qs fs gs)
    {i j : Nat} {f f' : Fetch} {c : EcsId} (hij : i ≠ j) (hi : fs[i]? = some f) (hj : fs[j]? = some f') (hf : f.Of c) (hf' : f'.Of c)
    (hm : f = .mut c ∨ f' = .mut c) : w.lockLookup c = none := by
  obtain ⟨g, g1, g2⟩ := Pairs.get' h.guards hi
  obtain ⟨g', g1', g2'⟩ := Pairs.get' h.guards hj
  have sh : ∀ {i : Nat} {g : Guard}, gs[i]? = some g → (guardsOf qs ++ gs)[(guardsOf qs).length + i]? = some g := by
    intro i g hg; rw [List.getElem?_append_right (by omega)]; simpa using hg
  exact clash_lock h.held (i := (guardsOf qs).length + i) (j := (guardsOf qs).length + j) (by omega) (sh g1) (sh g1') g2 g2' hf hf' hm

/-- Dropping the guards of a query just made. -/
theorem Took.drop {w : World} {ls ls' : List RwLock} {qs : List LiveQuery} {fs : List Fetch} {gs : List Guard} (hr : RunInv w ls qs) (h : Took w ls ls' qs fs gs) :
    releaseAll false ls' gs = ls := by
  obtain ⟨r1, r2, r3⟩ := releaseAll_spec (p := false) gs h.held
  refine Held.ext hr.held r1 (fun i => ?_)
  rw [r3, h.poison]
  simp

/-! ## Poison -/

theorem acquireAt_clean {ls ls' : List RwLock} {wr : Bool} {i : Nat} {g : Guard} (h : acquireAt ls wr i = .ok (g, ls')) :
    (∀ j, poisonAt ls' j = poisonAt ls j) ∧ poisonAt ls i = some false := by
  unfold acquireAt at h
  cases hl : ls[i]? with
  | none => simp only [hl] at h; cases h
  | some l =>
    simp only [hl] at h
    have key : ∀ l', (if wr then l.write else l.read) = .ok l' → l'.poisoned = l.poisoned ∧ l.poisoned = false := by
      intro l' h'
      cases wr
      · simp only [Bool.false_eq_true, if_false, RwLock.read] at h'
        repeat' split at h'
        all_goals first | (injection h' with h'; subst h'; simp_all) | cases h'
      · simp only [if_true, RwLock.write] at h'
        repeat' split at h'
        all_goals first | (injection h' with h'; subst h'; simp_all) | cases h'
    cases hx : (if wr then l.write else l.read) with
    | error e => simp only [hx] at h; cases h
    | ok l' =>
      simp only [hx] at h
      injection h with h; injection h with h1 h2; subst h2
      obtain ⟨k1, k2⟩ := key l' hx
      refine ⟨fun j => ?_, by unfold poisonAt; rw [hl]; simp [k2]⟩
      unfold poisonAt
      rw [List.getElem?_set]
      by_cases hij : i = j
      · subst hij
        have := (List.getElem?_eq_some_iff.1 hl).1
        rw [hl]
        simp [this, k1]
      · rw [if_neg hij]

theorem acquireStatic_clean {w : World} {ls ls' : List RwLock} {f : Fetch} {g : Guard} (h : f.acquireStatic w ls = .ok (g, ls')) :
    (∀ j, poisonAt ls' j = poisonAt ls j) ∧ ∀ c i, f.Of c → w.lockLookup c = some i → poisonAt ls i = some false := by
  cases f with
  | ecsId =>
    injection h with h; injection h with h1 h2; subst h2
    exact ⟨fun _ => rfl, fun c i hc => by rcases hc with hc | hc <;> cases hc⟩
  | «mut» id =>
    unfold Fetch.acquireStatic at h
    cases hk : w.lockLookup id with
    | none => simp only [hk] at h; cases h
    | some i =>
      simp only [hk] at h
      obtain ⟨h1, h2⟩ := acquireAt_clean h
      refine ⟨h1, fun c j hc hj => ?_⟩
      rcases hc with hc | hc <;> cases hc
      rw [hk] at hj; injection hj with hj; subst hj; exact h2
  | immut id =>
    unfold Fetch.acquireStatic at h
    cases hk : w.lockLookup id with
    | none => simp only [hk] at h; cases h
    | some i =>
      simp only [hk] at h
      obtain ⟨h1, h2⟩ := acquireAt_clean h
      refine ⟨h1, fun c j hc hj => ?_⟩
      rcases hc with hc | hc <;> cases hc
      rw [hk] at hj; injection hj with hj; subst hj; exact h2

theorem acquireDyn_clean {w : World} {ls ls' : List RwLock} {f : Fetch} {g : Guard} {inc : Bool} (h : f.acquireDyn w ls = .ok (g, ls', inc)) :
    (∀ j, poisonAt ls' j = poisonAt ls j) ∧ ∀ c i, f.Of c → w.lockLookup c = some i → poisonAt ls i = some false := by
  rcases acquireDyn_of_static h with h | ⟨_, rfl, id, h1, h2⟩
  · exact acquireStatic_clean h
  · refine ⟨fun _ => rfl, fun c i hc hi => ?_⟩
    have := fetch_of_getId h1
    have e := getId_of_fetch hc
    rw [h1] at e; injection e with e; subst e
    rw [h2] at hi; cases hi

theorem acquireAllStatic_clean {w : World} (fs : List Fetch) : ∀ {ls : List RwLock} {done : List Guard} {r : List Guard × List RwLock},
    acquireAllStatic w done ls fs = .ok r → ∀ f ∈ fs, ∀ c i, f.Of c → w.lockLookup c = some i → poisonAt ls i = some false := by
  induction fs with
  | nil => intro _ _ _ _ f hf; cases hf
  | cons f fs ih =>
    intro ls done r h f' hf' c i hc hi
    unfold acquireAllStatic at h
    cases ha : f.acquireStatic w ls with
    | error e => simp only [ha] at h; cases h
    | ok x =>
      simp only [ha] at h
      obtain ⟨h1, h2⟩ := acquireStatic_clean (g := x.1) (ls' := x.2) ha
      rcases List.mem_cons.1 hf' with rfl | hf'
      · exact h2 c i hc hi
      · rw [← h1]; exact ih h f' hf' c i hc hi

theorem acquireAllDyn_clean {w : World} (fs : List Fetch) : ∀ {ls : List RwLock} {done : List Guard} {inc : Bool} {r : List Guard × Bool × List RwLock},
    acquireAllDyn w done inc ls fs = .ok r → ∀ f ∈ fs, ∀ c i, f.Of c → w.lockLookup c = some i → poisonAt ls i = some false := by
  induction fs with
  | nil => intro _ _ _ _ _ f hf; cases hf
  | cons f fs ih =>
    intro ls done inc r h f' hf' c i hc hi
    unfold acquireAllDyn at h
    cases ha : f.acquireDyn w ls with
    | error e => simp only [ha] at h; cases h
    | ok x =>
      simp only [ha] at h
      obtain ⟨h1, h2⟩ := acquireDyn_clean (g := x.1) (ls' := x.2.1) (inc := x.2.2) ha
      rcases List.mem_cons.1 hf' with rfl | hf'
      · exact h2 c i hc hi
      · rw [← h1]; exact ih h f' hf' c i hc hi

/-- What a failed creation does to poison. -/
def Spoiled (w : World) (fs : List Fetch) (ls ls' : List RwLock) : Prop :=
  ls'.length = ls.length ∧ (∀ j, poisonAt ls j = some true → poisonAt ls' j = some true) ∧
    ∀ j, poisonAt ls' j = some true → poisonAt ls j = some true ∨ ∃ c, .mut c ∈ fs ∧ w.lockLookup c = some j

theorem spoiled_of {w : World} {pre fs : List Fetch} {ls ls' : List RwLock} {new : List Guard} (hsub : ∀ f ∈ pre, f ∈ fs) (hp : Pairs (GuardForDyn w) pre new)
    (hl : ls'.length = ls.length) (h : ∀ j, poisonAt ls' j = (poisonAt ls j).map (fun b => b || decide (Guard.write j ∈ new))) : Spoiled w fs ls ls' := by
  refine ⟨hl, fun j hj => by rw [h, hj]; rfl, fun j hj => ?_⟩
  rw [h] at hj
  cases hx : poisonAt ls j with
  | none => rw [hx] at hj; cases hj
  | some b =>
    rw [hx] at hj
    simp only [Option.map_some, Option.some.injEq, Bool.or_eq_true, decide_eq_true_eq] at hj
    rcases hj with hj | hj
    · subst hj; exact Or.inl rfl
    · right
      obtain ⟨k, f, q1, q2⟩ := Pairs.mem' hp hj
      obtain ⟨id, e1, e2⟩ := q2.write
      exact ⟨id, hsub _ (e1 ▸ List.mem_of_getElem? q1), e2⟩

theorem static_spoiled {w : World} (hw : Inv w) {ls ls' : List RwLock} {qs : List LiveQuery} (hr : RunInv w ls qs) {fs : List Fetch} {e : Fault}
    (h : acquireAllStatic w [] ls fs = .error (e, ls')) : Spoiled w fs ls ls' := by
  rcases acquireAllStatic_spec fs (base := guardsOf qs) (done := []) (ls := ls) (by simpa using hr.held) (by rw [hr.len]; exact looksIn hw) with
    ⟨new, ls', a1, a2, a3, a4, a5⟩ | ⟨e, ls', pre, f, post, new, a1, a2, a3, a4, a5, a6, a7⟩
  · rw [a1] at h; cases h
  · rw [a1] at h
    injection h with h; injection h with h1 h2; subst h1 h2
    exact spoiled_of (by intro f hf; rw [a2]; simp [hf]) a3.guards a6 (by simpa using a7)

theorem dyn_spoiled {w : World} (hw : Inv w) {ls ls' : List RwLock} {qs : List LiveQuery} (hr : RunInv w ls qs) {fs : List Fetch} {e : Fault}
    (h : acquireAllDyn w [] false ls fs = .error (e, ls')) : Spoiled w fs ls ls' := by
  rcases acquireAllDyn_spec fs (base := guardsOf qs) (done := []) (ls := ls) false (by simpa using hr.held) (by rw [hr.len]; exact looksIn hw) with
    ⟨new, ls', a1, a2, a3, a4, a5⟩ | ⟨e, ls', pre, f, post, new, a1, a2, a3, a4, a4', a5, a6, a7⟩
  · rw [a1] at h; cases h
  · rw [a1] at h
    injection h with h; injection h with h1 h2; subst h1 h2
    exact spoiled_of (by intro f hf; rw [a2]; simp [hf]) a3 a6 (by simpa using a7)

/-- Plain calls do not touch poison. -/
theorem LockExt.poisoned {w w' : World} (hw : Inv w) (h : LockExt w w') (c : EcsId) : w'.Poisoned c ↔ w.Poisoned c := by
  obtain ⟨n, hn⟩ := h.locks
  constructor
  · rintro ⟨i, l, h1, h2, h3⟩
    rw [hn] at h2
    rcases h.fresh c i h1 with h4 | h4
    · have := hw.lock.range c i h4
      rw [List.getElem?_append_left this] at h2
      exact ⟨i, l, h4, h2, h3⟩
    · rw [List.getElem?_append_right h4] at h2
      have := List.eq_of_mem_replicate (List.mem_of_getElem? h2)
      subst this; cases h3
  · rintro ⟨i, l, h1, h2, h3⟩
    refine ⟨i, l, h.look c i h1, ?_, h3⟩
    rw [hn, List.getElem?_append_left (List.getElem?_eq_some_iff.1 h2).1]; exact h2

end Ellecs
