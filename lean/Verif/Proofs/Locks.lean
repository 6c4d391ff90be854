import Verif.Proofs.Access
import Verif.Spec.History
/-! # Locks and the guards that hold them -/
namespace Ellecs

/-- The state of lock `i` is the one that the live guards `gs` account for. -/
def LockHeld (i : Nat) (gs : List Guard) : Option RwLock → Prop
  | none => gs.count (.read i) = 0 ∧ gs.count (.write i) = 0
  | some l => l.readers = gs.count (.read i) ∧ gs.count (.write i) = (if l.writer then 1 else 0) ∧ (l.writer = true → l.readers = 0)

/-- The state of the locks is the one that the live guards `gs` account for. -/
def Held (ls : List RwLock) (gs : List Guard) : Prop := ∀ i, LockHeld i gs ls[i]?

/-- The poison flag of lock `i`. -/
def poisonAt (ls : List RwLock) (i : Nat) : Option Bool := ls[i]?.map RwLock.poisoned

theorem Held.perm {ls : List RwLock} {gs gs' : List Guard} (h : Held ls gs) (hp : gs.Perm gs') : Held ls gs' := by
  intro i
  have := h i
  unfold LockHeld at *
  cases hl : ls[i]? with
  | none => rw [hl] at this; simp only at *; rw [← hp.count_eq, ← hp.count_eq]; exact this
  | some l => rw [hl] at this; simp only at *; rw [← hp.count_eq, ← hp.count_eq]; exact this

theorem Held.noneL {ls : List RwLock} {gs : List Guard} (h : Held ls gs) : Held ls (gs ++ [.none]) := by
  intro i
  have := h i
  unfold LockHeld at *
  cases hl : ls[i]? with
  | none => rw [hl] at this; simpa using this
  | some l => rw [hl] at this; simpa using this

theorem Held.ext {ls ls' : List RwLock} {gs : List Guard} (h : Held ls gs) (h' : Held ls' gs) (hp : ∀ i, poisonAt ls' i = poisonAt ls i) :
    ls' = ls := by
  apply List.ext_getElem?
  intro i
  have h1 := h i
  have h2 := h' i
  have h3 := hp i
  unfold poisonAt at h3
  unfold LockHeld at h1 h2
  cases hl : ls[i]? with
  | none =>
    rw [hl] at h3
    cases hl' : ls'[i]? with
    | none => rfl
    | some l' => rw [hl'] at h3; cases h3
  | some l =>
    rw [hl] at h3 h1
    cases hl' : ls'[i]? with
    | none => rw [hl'] at h3; cases h3
    | some l' =>
      rw [hl'] at h3 h2
      simp only [Option.map_some, Option.some.injEq] at h3 h1 h2
      have hw : l'.writer = l.writer := by
        have := h1.2.1; have := h2.2.1
        cases hx : l.writer <;> cases hy : l'.writer <;> simp [hx, hy] at * <;> omega
      have hr : l'.readers = l.readers := by rw [h1.1, h2.1]
      cases l; cases l'
      simp only at hw hr h3
      rw [hw, hr, h3]

/-- What acquiring one lock does. -/
theorem acquireAt_spec {ls : List RwLock} {gs : List Guard} (h : Held ls gs) (wr : Bool) {i : Nat} (hi : i < ls.length) :
    (∃ g ls', acquireAt ls wr i = .ok (g, ls') ∧ g = (if wr then .write i else .read i) ∧ Held ls' (gs ++ [g]) ∧
      ls'.length = ls.length ∧ (∀ j, poisonAt ls' j = poisonAt ls j) ∧ poisonAt ls i = some false ∧ Guard.write i ∉ gs ∧
      (wr = true → Guard.read i ∉ gs)) ∨
    (acquireAt ls wr i = .error .deadlock ∧ (Guard.write i ∈ gs ∨ (wr = true ∧ Guard.read i ∈ gs))) ∨
    (acquireAt ls wr i = .error .poisoned ∧ poisonAt ls i = some true) := by
  have h1 := h i
  unfold acquireAt
  cases hl : ls[i]? with
  | none => rw [List.getElem?_eq_none_iff] at hl; omega
  | some l =>
    rw [hl] at h1
    simp only [LockHeld] at h1
    obtain ⟨h1, h2, h3⟩ := h1
    have hw : l.writer = true ↔ Guard.write i ∈ gs := by
      rw [← List.count_pos_iff, h2]
      cases l.writer <;> simp
    have hr : l.readers > 0 ↔ Guard.read i ∈ gs := by rw [← List.count_pos_iff, h1]
    have hset : ∀ l' : RwLock, l'.poisoned = l.poisoned → ∀ j, poisonAt (ls.set i l') j = poisonAt ls j := by
      intro l' hp j
      unfold poisonAt
      rw [List.getElem?_set]
      by_cases hij : i = j
      · subst hij; rw [if_pos rfl, if_pos hi, hl]; simp [hp]
      · rw [if_neg hij]
    have hheld : ∀ (l' : RwLock) (g : Guard), (g = .write i ∨ g = .read i) →
        LockHeld i (gs ++ [g]) (some l') → Held (ls.set i l') (gs ++ [g]) := by
      intro l' g hg hh j
      rw [List.getElem?_set]
      by_cases hij : i = j
      · subst hij; rw [if_pos rfl, if_pos hi]; exact hh
      · rw [if_neg hij]
        have := h j
        unfold LockHeld at *
        have c1 : [g].count (.read j) = 0 := by
          rw [List.count_eq_zero]; simp only [List.mem_singleton]; rintro rfl
          rcases hg with hg | hg
          · cases hg
          · injection hg with hg; exact hij hg.symm
        have c2 : [g].count (.write j) = 0 := by
          rw [List.count_eq_zero]; simp only [List.mem_singleton]; rintro rfl
          rcases hg with hg | hg
          · injection hg with hg; exact hij hg.symm
          · cases hg
        simp only [List.count_append, c1, c2, Nat.add_zero]
        exact this
    have hpo : poisonAt ls i = some l.poisoned := by unfold poisonAt; rw [hl]; rfl
    cases wr with
    | false =>
      simp only [Bool.false_eq_true, if_false, RwLock.read]
      by_cases hx : l.writer = true
      · rw [if_pos hx]; exact Or.inr (Or.inl ⟨rfl, Or.inl (hw.1 hx)⟩)
      · rw [if_neg hx]
        by_cases hy : l.poisoned = true
        · rw [if_pos hy]; exact Or.inr (Or.inr ⟨rfl, by rw [hpo, hy]⟩)
        · rw [if_neg hy]
          refine Or.inl ⟨_, _, rfl, rfl, hheld _ _ (Or.inr rfl) ?_, by simp, hset _ rfl, ?_, fun hh => hx (hw.2 hh), by simp⟩
          · unfold LockHeld
            simp only [List.count_append]
            refine ⟨by simp [h1], by simpa using h2, fun hh => absurd hh hx⟩
          · rw [hpo]; simpa using hy
    | true =>
      simp only [if_true, RwLock.write]
      by_cases hx : l.writer = true ∨ l.readers > 0
      · rw [if_pos hx]; exact Or.inr (Or.inl ⟨rfl, hx.imp hw.1 (fun hh => ⟨by trivial, hr.1 hh⟩)⟩)
      · rw [if_neg hx]
        rw [not_or] at hx
        by_cases hy : l.poisoned = true
        · rw [if_pos hy]; exact Or.inr (Or.inr ⟨rfl, by rw [hpo, hy]⟩)
        · rw [if_neg hy]
          refine Or.inl ⟨_, _, rfl, rfl, hheld _ _ (Or.inl rfl) ?_, by simp, hset _ rfl, ?_, fun hh => hx.1 (hw.2 hh),
            fun _ hh => hx.2 (hr.2 hh)⟩
          · unfold LockHeld
            simp only [List.count_append]
            have hwf : l.writer = false := by simpa using hx.1
            refine ⟨by simp [h1], ?_, fun _ => by omega⟩
            rw [hwf] at h2
            simp [h2]
          · rw [hpo]; simpa using hy

/-- What dropping one guard does. -/
theorem release_spec {ls : List RwLock} {gs : List Guard} {g : Guard} (h : Held ls (g :: gs)) (p : Bool) :
    Held (g.release p ls) gs ∧ (g.release p ls).length = ls.length ∧
    ∀ j, poisonAt (g.release p ls) j = (poisonAt ls j).map (fun b => b || (p && decide (g = .write j))) := by
  cases g with
  | none =>
    refine ⟨?_, rfl, ?_⟩
    · intro j
      have := h j
      unfold LockHeld at *
      simp only [List.count_cons, Bool.false_eq_true, if_false, Nat.add_zero] at this
      simpa [Guard.release] using this
    · intro j; simp [Guard.release]
  | read i =>
    have hi := h i
    have hcr : ∀ j, (Guard.read i :: gs).count (.read j) = gs.count (.read j) + if i = j then 1 else 0 := by
      intro j; rw [List.count_cons]; simp
    have hcw : ∀ j, (Guard.read i :: gs).count (.write j) = gs.count (.write j) := by
      intro j; rw [List.count_cons]; simp
    cases hl : ls[i]? with
    | none =>
      rw [hl] at hi
      simp only [LockHeld, hcr, if_true] at hi
      omega
    | some l =>
      have hlt := (List.getElem?_eq_some_iff.1 hl).1
      rw [hl] at hi
      simp only [LockHeld, hcr, hcw, if_true] at hi
      have heq : (Guard.read i).release p ls = ls.set i { l with readers := l.readers - 1 } := by
        unfold Guard.release; simp only [hl]
      rw [heq]
      refine ⟨?_, by simp, ?_⟩
      · intro j
        rw [List.getElem?_set]
        by_cases hij : i = j
        · subst hij
          rw [if_pos rfl, if_pos hlt]
          refine ⟨?_, hi.2.1, ?_⟩
          · show l.readers - 1 = _; omega
          · intro hh; have := hi.2.2 hh; show l.readers - 1 = 0; omega
        · rw [if_neg hij]
          have := h j
          unfold LockHeld at *
          simpa only [hcr, hcw, if_neg hij, Nat.add_zero] using this
      · intro j
        unfold poisonAt
        rw [List.getElem?_set]
        by_cases hij : i = j
        · subst hij; rw [if_pos rfl, if_pos hlt, hl]; simp
        · rw [if_neg hij, Option.map_map]; congr 1; funext x; simp
  | write i =>
    have hi := h i
    have hcr : ∀ j, (Guard.write i :: gs).count (.read j) = gs.count (.read j) := by
      intro j; rw [List.count_cons]; simp
    have hcw : ∀ j, (Guard.write i :: gs).count (.write j) = gs.count (.write j) + if i = j then 1 else 0 := by
      intro j; rw [List.count_cons]; simp
    cases hl : ls[i]? with
    | none =>
      rw [hl] at hi
      simp only [LockHeld, hcw, if_true] at hi
      omega
    | some l =>
      have hlt := (List.getElem?_eq_some_iff.1 hl).1
      rw [hl] at hi
      simp only [LockHeld, hcr, hcw, if_true] at hi
      have heq : (Guard.write i).release p ls = ls.set i { l with writer := false, poisoned := l.poisoned || p } := by
        unfold Guard.release; simp only [hl]
      rw [heq]
      refine ⟨?_, by simp, ?_⟩
      · intro j
        rw [List.getElem?_set]
        by_cases hij : i = j
        · subst hij
          rw [if_pos rfl, if_pos hlt]
          have hwt : l.writer = true := by
            cases hx : l.writer with
            | true => rfl
            | false => rw [hx] at hi; simp at hi
          rw [hwt] at hi
          simp only [if_true] at hi
          refine ⟨hi.1, ?_, ?_⟩
          · show gs.count (.write i) = 0; omega
          · intro hh; cases hh
        · rw [if_neg hij]
          have := h j
          unfold LockHeld at *
          simpa only [hcr, hcw, if_neg hij, Nat.add_zero] using this
      · intro j
        unfold poisonAt
        rw [List.getElem?_set]
        by_cases hij : i = j
        · subst hij; rw [if_pos rfl, if_pos hlt, hl]; simp
        · rw [if_neg hij]
          have : ¬ (Guard.write i = .write j) := by intro hh; injection hh with hh; exact hij hh
          rw [Option.map_map]; congr 1; funext x; simp [this]

theorem releaseAll_spec {p : Bool} (gs : List Guard) : ∀ {ls : List RwLock} {base : List Guard}, Held ls (base ++ gs) →
    Held (releaseAll p ls gs) base ∧ (releaseAll p ls gs).length = ls.length ∧
    ∀ j, poisonAt (releaseAll p ls gs) j = (poisonAt ls j).map (fun b => b || (p && decide (Guard.write j ∈ gs))) := by
  induction gs with
  | nil => intro ls base h; exact ⟨by simpa [releaseAll] using h, rfl, by intro j; simp [releaseAll]⟩
  | cons g gs ih =>
    intro ls base h
    obtain ⟨h1, h2, h3⟩ := release_spec (h.perm List.perm_middle) p
    obtain ⟨h4, h5, h6⟩ := ih h1
    refine ⟨h4, h5.trans h2, ?_⟩
    intro j
    have : releaseAll p ls (g :: gs) = releaseAll p (g.release p ls) gs := rfl
    rw [this, h6, h3, Option.map_map]
    congr 1
    funext b
    have hmem : decide (Guard.write j ∈ g :: gs) = (decide (g = .write j) || decide (Guard.write j ∈ gs)) := by
      rw [Bool.eq_iff_iff]
      simp only [decide_eq_true_eq, List.mem_cons, Bool.or_eq_true]
      exact or_congr_left eq_comm
    rw [hmem]
    simp only [Function.comp]
    cases b <;> cases p <;> simp

/-- The guard `g` is the one for the fetch `f`. -/
def GuardFor (w : World) : Fetch → Guard → Prop
  | .ecsId, g => g = .none
  | .mut id, g => ∃ i, w.lockLookup id = some i ∧ g = .write i
  | .immut id, g => ∃ i, w.lockLookup id = some i ∧ g = .read i

/-- The same for a dynamic query: no guard for a component without lock. -/
def GuardForDyn (w : World) (f : Fetch) (g : Guard) : Prop :=
  GuardFor w f g ∨ (g = .none ∧ ∃ id, f.getId = some id ∧ w.lockLookup id = none)

/-- Why a fetch cannot get its guard while `gs` are live. -/
def Blocked (w : World) (ls : List RwLock) (gs : List Guard) (f : Fetch) (e : Fault) : Prop :=
  ∃ id, f.getId = some id ∧
    ((e = .indexOob ∧ w.lockLookup id = none) ∨
    ∃ i, w.lockLookup id = some i ∧
      ((e = .poisoned ∧ poisonAt ls i = some true) ∨
      (e = .deadlock ∧ (Guard.write i ∈ gs ∨ (f = .mut id ∧ Guard.read i ∈ gs)))))

/-- Every known lock index is in range. -/
def LooksIn (w : World) (n : Nat) : Prop := ∀ id i, w.lockLookup id = some i → i < n

theorem acquireStatic_spec {w : World} {ls : List RwLock} {gs : List Guard} (h : Held ls gs) (hl : LooksIn w ls.length) (f : Fetch) :
    (∃ g ls', f.acquireStatic w ls = .ok (g, ls') ∧ GuardFor w f g ∧ Held ls' (gs ++ [g]) ∧ ls'.length = ls.length ∧
      (∀ j, poisonAt ls' j = poisonAt ls j) ∧ (∀ i, g = .write i → Guard.write i ∉ gs ∧ Guard.read i ∉ gs) ∧
      (∀ i, g = .read i → Guard.write i ∉ gs) ∧ ∀ i, g = .write i ∨ g = .read i → poisonAt ls i = some false) ∨
    (∃ e, f.acquireStatic w ls = .error e ∧ Blocked w ls gs f e) := by
  cases f with
  | ecsId => exact Or.inl ⟨_, _, rfl, rfl, h.noneL, rfl, fun _ => rfl, by simp, by simp, by simp⟩
  | «mut» id =>
    unfold Fetch.acquireStatic
    cases hk : w.lockLookup id with
    | none => simp only [hk]; exact Or.inr ⟨_, rfl, id, rfl, Or.inl ⟨rfl, hk⟩⟩
    | some i =>
      simp only [hk]
      rcases acquireAt_spec h true (hl id i hk) with ⟨g, ls', a1, a2, a3, a4, a5, a6, a7, a8⟩ | ⟨a1, a2⟩ | ⟨a1, a2⟩
      · simp only [if_true] at a2
        subst a2
        refine Or.inl ⟨_, _, a1, ⟨i, hk, rfl⟩, a3, a4, a5, ?_, by simp, ?_⟩
        · intro j hj; injection hj with hj; subst hj; exact ⟨a7, a8 rfl⟩
        · rintro j (hj | hj)
          · injection hj with hj; subst hj; exact a6
          · cases hj
      · refine Or.inr ⟨_, a1, id, rfl, Or.inr ⟨i, hk, Or.inr ⟨rfl, a2.imp_right (fun hh => ⟨rfl, hh.2⟩)⟩⟩⟩
      · exact Or.inr ⟨_, a1, id, rfl, Or.inr ⟨i, hk, Or.inl ⟨rfl, a2⟩⟩⟩
  | immut id =>
    unfold Fetch.acquireStatic
    cases hk : w.lockLookup id with
    | none => simp only [hk]; exact Or.inr ⟨_, rfl, id, rfl, Or.inl ⟨rfl, hk⟩⟩
    | some i =>
      simp only [hk]
      rcases acquireAt_spec h false (hl id i hk) with ⟨g, ls', a1, a2, a3, a4, a5, a6, a7, a8⟩ | ⟨a1, a2⟩ | ⟨a1, a2⟩
      · simp only [Bool.false_eq_true, if_false] at a2
        subst a2
        refine Or.inl ⟨_, _, a1, ⟨i, hk, rfl⟩, a3, a4, a5, by simp, ?_, ?_⟩
        · intro j hj; injection hj with hj; subst hj; exact a7
        · rintro j (hj | hj)
          · cases hj
          · injection hj with hj; subst hj; exact a6
      · refine Or.inr ⟨_, a1, id, rfl, Or.inr ⟨i, hk, Or.inr ⟨rfl, a2.imp_right (fun hh => by cases hh.1)⟩⟩⟩
      · exact Or.inr ⟨_, a1, id, rfl, Or.inr ⟨i, hk, Or.inl ⟨rfl, a2⟩⟩⟩

theorem acquireDyn_eq (w : World) (ls : List RwLock) (f : Fetch) :
    f.acquireDyn w ls = match f.getId with
      | some id =>
        match w.lockLookup id with
        | none => .ok (.none, ls, true)
        | some _ => (match f.acquireStatic w ls with | .error e => .error e | .ok (g, ls') => .ok (g, ls', false))
      | none => .ok (.none, ls, false) := by
  cases f with
  | ecsId => rfl
  | «mut» id =>
    unfold Fetch.acquireDyn Fetch.acquireStatic Fetch.getId
    cases hk : w.lockLookup id with
    | none => simp only [hk]
    | some i => simp only [hk]; cases acquireAt ls true i <;> rfl
  | immut id =>
    unfold Fetch.acquireDyn Fetch.acquireStatic Fetch.getId
    cases hk : w.lockLookup id with
    | none => simp only [hk]
    | some i => simp only [hk]; cases acquireAt ls false i <;> rfl

theorem acquireAllStatic_spec {w : World} (fs : List Fetch) : ∀ {ls : List RwLock} {base done : List Guard},
    Held ls (base ++ done) → LooksIn w ls.length →
    (∃ new ls', acquireAllStatic w done ls fs = .ok (done ++ new, ls') ∧ Pairs (GuardFor w) fs new ∧ Held ls' (base ++ (done ++ new)) ∧
      ls'.length = ls.length ∧ ∀ j, poisonAt ls' j = poisonAt ls j) ∨
    (∃ e ls' pre f post new, acquireAllStatic w done ls fs = .error (e, ls') ∧ fs = pre ++ f :: post ∧ Pairs (GuardFor w) pre new ∧
      Blocked w ls (base ++ (done ++ new)) f e ∧ Held ls' base ∧ ls'.length = ls.length ∧
      ∀ j, poisonAt ls' j = (poisonAt ls j).map (fun b => b || decide (Guard.write j ∈ done ++ new))) := by
  induction fs with
  | nil =>
    intro ls base done h _
    exact Or.inl ⟨[], ls, by simp [acquireAllStatic], .nil, by simpa using h, rfl, fun _ => rfl⟩
  | cons f fs ih =>
    intro ls base done h hl
    unfold acquireAllStatic
    rcases acquireStatic_spec h hl f with ⟨g, ls', a1, a2, a3, a4, a5, a6, a7, a8⟩ | ⟨e, a1, a2⟩
    · rw [a1]
      simp only
      have a3' : Held ls' (base ++ (done ++ [g])) := by rw [← List.append_assoc]; exact a3
      rcases ih a3' (by rw [a4]; exact hl) with ⟨new, ls2, b1, b2, b3, b4, b5⟩ | ⟨e, ls2, pre, f', post, new, b1, b2, b3, b4, b5, b6, b7⟩
      · refine Or.inl ⟨g :: new, ls2, by rw [b1]; simp, .cons a2 b2, by simpa using b3, b4.trans a4, fun j => (b5 j).trans (a5 j)⟩
      · refine Or.inr ⟨e, ls2, f :: pre, f', post, g :: new, b1, by rw [b2]; rfl, .cons a2 b3, ?_, b5, b6.trans a4, ?_⟩
        · obtain ⟨id, c1, c2⟩ := b4
          refine ⟨id, c1, c2.imp_right ?_⟩
          rintro ⟨i, c3, c4⟩
          refine ⟨i, c3, c4.imp (fun hh => ⟨hh.1, by rw [← a5]; exact hh.2⟩) ?_⟩
          simp
        · intro j; rw [b7 j, a5 j]; simp
    · rw [a1]
      simp only
      obtain ⟨c1, c2, c3⟩ := releaseAll_spec (p := true) done h
      refine Or.inr ⟨e, _, [], f, fs, [], rfl, rfl, .nil, by simpa using a2, c1, c2, ?_⟩
      intro j; rw [c3]; simp

theorem acquireAllDyn_spec {w : World} (fs : List Fetch) : ∀ {ls : List RwLock} {base done : List Guard} (inc : Bool),
    Held ls (base ++ done) → LooksIn w ls.length →
    (∃ new ls', acquireAllDyn w done inc ls fs =
        .ok (done ++ new, inc || decide (∃ f ∈ fs, ∃ id, f.getId = some id ∧ w.lockLookup id = none), ls') ∧
      Pairs (GuardForDyn w) fs new ∧ Held ls' (base ++ (done ++ new)) ∧
      ls'.length = ls.length ∧ ∀ j, poisonAt ls' j = poisonAt ls j) ∨
    (∃ e ls' pre f post new, acquireAllDyn w done inc ls fs = .error (e, ls') ∧ fs = pre ++ f :: post ∧ Pairs (GuardForDyn w) pre new ∧
      Blocked w ls (base ++ (done ++ new)) f e ∧ e ≠ .indexOob ∧ Held ls' base ∧ ls'.length = ls.length ∧
      ∀ j, poisonAt ls' j = (poisonAt ls j).map (fun b => b || decide (Guard.write j ∈ done ++ new))) := by
  classical
  induction fs with
  | nil =>
    intro ls base done inc h _
    exact Or.inl ⟨[], ls, by simp [acquireAllDyn], .nil, by simpa using h, rfl, fun _ => rfl⟩
  | cons f fs ih =>
    intro ls base done inc h hl
    have key : (∃ g ls' i, f.acquireDyn w ls = .ok (g, ls', i) ∧ (i = true ↔ ∃ id, f.getId = some id ∧ w.lockLookup id = none) ∧
        GuardForDyn w f g ∧ Held ls' (base ++ (done ++ [g])) ∧ ls'.length = ls.length ∧ ∀ j, poisonAt ls' j = poisonAt ls j) ∨
        (∃ e, f.acquireDyn w ls = .error e ∧ Blocked w ls (base ++ done) f e ∧ e ≠ .indexOob) := by
      rw [acquireDyn_eq]
      cases hg : f.getId with
      | none =>
        have hf : f = .ecsId := by cases f <;> simp_all [Fetch.getId]
        subst hf
        exact Or.inl ⟨_, _, _, rfl, by simp, Or.inl rfl, by rw [← List.append_assoc]; exact h.noneL, rfl, fun _ => rfl⟩
      | some id =>
        cases hk : w.lockLookup id with
        | none =>
          simp only [hk]
          exact Or.inl ⟨_, _, _, rfl, by simp [hk], Or.inr ⟨rfl, id, hg, hk⟩, by rw [← List.append_assoc]; exact h.noneL, rfl, fun _ => rfl⟩
        | some i =>
          simp only [hk]
          rcases acquireStatic_spec h hl f with ⟨g, ls', a1, a2, a3, a4, a5, a6, a7, a8⟩ | ⟨e, a1, a2⟩
          · rw [a1]
            exact Or.inl ⟨_, _, _, rfl, by simp [hk], Or.inl a2, by rw [← List.append_assoc]; exact a3, a4, a5⟩
          · rw [a1]
            refine Or.inr ⟨_, rfl, a2, ?_⟩
            obtain ⟨id', c1, c2⟩ := a2
            rw [hg] at c1; injection c1 with c1; subst c1
            rintro rfl
            rcases c2 with ⟨_, c2⟩ | ⟨_, _, ⟨c3, _⟩ | ⟨c3, _⟩⟩
            · rw [hk] at c2; cases c2
            · cases c3
            · cases c3
    unfold acquireAllDyn
    rcases key with ⟨g, ls', i, a1, a2, a3, a4, a5, a6⟩ | ⟨e, a1, a2, a3⟩
    · rw [a1]
      simp only
      rcases ih (inc || i) a4 (by rw [a5]; exact hl) with ⟨new, ls2, b1, b2, b3, b4, b5⟩ | ⟨e, ls2, pre, f', post, new, b1, b2, b3, b4, b5, b6, b7, b8⟩
      · refine Or.inl ⟨g :: new, ls2, ?_, .cons a3 b2, by simpa using b3, b4.trans a5, fun j => (b5 j).trans (a6 j)⟩
        rw [b1]
        simp only [List.append_assoc, List.singleton_append, Except.ok.injEq, Prod.mk.injEq, true_and, and_true]
        have : decide (∃ f' ∈ f :: fs, ∃ id, f'.getId = some id ∧ w.lockLookup id = none) =
            (i || decide (∃ f' ∈ fs, ∃ id, f'.getId = some id ∧ w.lockLookup id = none)) := by
          rw [Bool.eq_iff_iff]
          simp only [decide_eq_true_eq, List.mem_cons, exists_eq_or_imp, Bool.or_eq_true, a2]
        rw [this, Bool.or_assoc]
      · refine Or.inr ⟨e, ls2, f :: pre, f', post, g :: new, b1, by rw [b2]; rfl, .cons a3 b3, ?_, b5, b6, b7.trans a5, ?_⟩
        · obtain ⟨id, c1, c2⟩ := b4
          refine ⟨id, c1, c2.imp_right ?_⟩
          rintro ⟨i, c3, c4⟩
          refine ⟨i, c3, c4.imp (fun hh => ⟨hh.1, by rw [← a6]; exact hh.2⟩) ?_⟩
          simp
        · intro j; rw [b8 j, a6 j]; simp
    · rw [a1]
      simp only
      obtain ⟨c1, c2, c3⟩ := releaseAll_spec (p := true) done h
      refine Or.inr ⟨e, _, [], f, fs, [], rfl, rfl, .nil, by simpa using a2, a3, c1, c2, ?_⟩
      intro j; rw [c3]; simp

end Ellecs
