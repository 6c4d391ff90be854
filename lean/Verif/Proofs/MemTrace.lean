import Verif.Proofs.TableTrace
/-!
# How much memory columns take

A column's block grows only when a value is pushed that does not fit: to four elements, or to twice its size.  Proved
by going through the code, without any invariant.
-/
namespace Ellecs
open World

/-- A capacity reached by growing: four elements, or at most twice what the column holds. -/
def FairCap (v : UVec) : Prop := v.cap ≤ 4 * v.size ∨ (0 < v.size ∧ v.cap ≤ 2 * v.len)

/-- Nothing was taken out of the column, and its block grew fairly if at all. -/
structure ColGrow (p q : EcsId × UVec) : Prop where
  info : q.2.info = p.2.info
  len : p.2.len ≤ q.2.len
  cap : q.2.cap ≤ p.2.cap ∨ FairCap q.2

/-- The block of the column grew fairly if at all. -/
structure ColEnd (p q : EcsId × UVec) : Prop where
  info : q.2.info = p.2.info
  cap : q.2.cap ≤ p.2.cap ∨ FairCap q.2

theorem ColGrow.refl (p : EcsId × UVec) : ColGrow p p := ⟨rfl, Nat.le_refl _, Or.inl (Nat.le_refl _)⟩
theorem ColGrow.fin {p q : EcsId × UVec} (h : ColGrow p q) : ColEnd p q := ⟨h.info, h.cap⟩

theorem FairCap.mono {u v : UVec} (h : FairCap u) (hi : v.info = u.info) (hl : u.len ≤ v.len) (hc : v.cap ≤ u.cap) : FairCap v := by
  unfold FairCap UVec.size at *
  rw [hi]
  rcases h with h | ⟨h0, h⟩
  · exact Or.inl (Nat.le_trans hc h)
  · exact Or.inr ⟨h0, by omega⟩

theorem ColGrow.trans {p q r : EcsId × UVec} (h : ColGrow p q) (h' : ColGrow q r) : ColGrow p r := by
  refine ⟨h'.info.trans h.info, Nat.le_trans h.len h'.len, ?_⟩
  rcases h'.cap with c' | c'
  · rcases h.cap with c | c
    · exact Or.inl (Nat.le_trans c' c)
    · exact Or.inr (c.mono h'.info h'.len c')
  · exact Or.inr c'

/-- `R` for the columns of two tables, position by position. -/
def ColsR (R : EcsId × UVec → EcsId × UVec → Prop) (st st' : List (EcsId × UVec)) : Prop :=
  st'.length = st.length ∧ ∀ (j : Nat) (p q : EcsId × UVec), st[j]? = some p → st'[j]? = some q → R p q

/-- `R` for the columns of all tables of `w`, `F` for those of new tables. -/
structure TabsR (R : EcsId × UVec → EcsId × UVec → Prop) (F : UVec → Prop) (w w' : World) : Prop where
  tab : ∀ (k : Nat) (a : Archetype), w.archetypes[k]? = some a → ∃ a', w'.archetypes[k]? = some a' ∧ ColsR R a.storages a'.storages
  new : ∀ (k : Nat) (a : Archetype), w.archetypes.length ≤ k → w'.archetypes[k]? = some a → ∀ p ∈ a.storages, F p.2

/-- Nothing was taken out of columns. -/
abbrev MemGrow := TabsR ColGrow FairCap
/-- Blocks grew fairly if at all. -/
abbrev MemEnd := TabsR ColEnd FairCap
/-- Columns stayed as they were. -/
abbrev MemNew := TabsR Eq (fun v => v.cap ≤ 4 * v.size)

variable {R R1 R2 : EcsId × UVec → EcsId × UVec → Prop}

theorem ColsR.refl (hr : ∀ p, R p p) (st : List (EcsId × UVec)) : ColsR R st st :=
  ⟨rfl, fun j p q h1 h2 => by rw [h1] at h2; injection h2 with h2; subst h2; exact hr p⟩

theorem ColsR.cons {p q : EcsId × UVec} {st st' : List (EcsId × UVec)} (h : R p q) (hs : ColsR R st st') : ColsR R (p :: st) (q :: st') := by
  refine ⟨by simp only [List.length_cons, hs.1], ?_⟩
  intro j x y hx hy
  cases j with
  | zero => simp only [List.getElem?_cons_zero] at hx hy; injection hx with hx; injection hy with hy; subst hx hy; exact h
  | succ j => simp only [List.getElem?_cons_succ] at hx hy; exact hs.2 j x y hx hy

theorem ColsR.trans (ht : ∀ p q r, R1 p q → R2 q r → R p r) {a b c : List (EcsId × UVec)} (h : ColsR R1 a b) (h' : ColsR R2 b c) : ColsR R a c := by
  refine ⟨h'.1.trans h.1, fun j p r h1 h2 => ?_⟩
  have hj := (List.getElem?_eq_some_iff.1 h1).1
  have hb : b[j]? = some (b[j]'(by rw [h.1]; exact hj)) := List.getElem?_eq_getElem _
  exact ht _ _ _ (h.2 j p _ h1 hb) (h'.2 j _ r hb h2)

theorem ColsR.set (hr : ∀ p, R p p) {st : List (EcsId × UVec)} {n : Nat} {s s' : EcsId × UVec} (hs : st[n]? = some s) (h : R s s') : ColsR R st (st.set n s') := by
  refine ⟨by rw [List.length_set], fun j p q hp hq => ?_⟩
  rw [List.getElem?_set] at hq
  by_cases hj : n = j
  · subst hj
    rw [if_pos rfl, if_pos (List.getElem?_eq_some_iff.1 hs).1] at hq
    injection hq with hq; subst hq
    rw [hs] at hp; injection hp with hp; subst hp
    exact h
  · rw [if_neg hj, hp] at hq
    injection hq with hq; subst hq; exact hr p

theorem ColsR.imp (hi : ∀ p q, R p q → R1 p q) {a b : List (EcsId × UVec)} (h : ColsR R a b) : ColsR R1 a b :=
  ⟨h.1, fun j p q h1 h2 => hi _ _ (h.2 j p q h1 h2)⟩

theorem TabsR.of_eq (hr : ∀ p, R p p) {F : UVec → Prop} {w w' : World} (h : w'.archetypes = w.archetypes) : TabsR R F w w' :=
  ⟨fun _ a hk => ⟨a, by rw [h]; exact hk, .refl hr _⟩, fun k a hk ha => by rw [h] at ha; have := (List.getElem?_eq_some_iff.1 ha).1; omega⟩

/-- Facts about calls that can be chained. -/
class Chain (T : World → World → Prop) : Prop where
  of_eq : ∀ {w w'}, w'.archetypes = w.archetypes → T w w'
  trans : ∀ {w w1 w'}, T w w1 → T w1 w' → T w w'

theorem ColGrow.fair {p q : EcsId × UVec} (h : ColGrow p q) (hp : FairCap p.2) : FairCap q.2 := by
  rcases h.cap with c | c
  · exact hp.mono h.info h.len c
  · exact c

theorem TabsR.comp {R3 : EcsId × UVec → EcsId × UVec → Prop} {F1 F2 F3 : UVec → Prop} (ht : ∀ p q r, R1 p q → R2 q r → R3 p r)
    (hf : ∀ p q, R2 p q → F1 p.2 → F3 q.2) (hg : ∀ v, F2 v → F3 v) {w w1 w' : World} (h : TabsR R1 F1 w w1) (h' : TabsR R2 F2 w1 w') : TabsR R3 F3 w w' := by
  constructor
  · intro k a hk
    obtain ⟨b, h1, h2⟩ := h.tab k a hk
    obtain ⟨c, h3, h4⟩ := h'.tab k b h1
    exact ⟨c, h3, h2.trans ht h4⟩
  · intro k a hk ha p hp
    by_cases hlt : k < w1.archetypes.length
    · have h1 : w1.archetypes[k]? = some w1.archetypes[k] := List.getElem?_eq_getElem hlt
      obtain ⟨a', h2, h3⟩ := h'.tab k _ h1
      rw [ha] at h2; injection h2 with h2; subst h2
      obtain ⟨j, hj⟩ := List.mem_iff_getElem?.1 hp
      have hjl := (List.getElem?_eq_some_iff.1 hj).1
      rw [h3.1] at hjl
      have hq : (w1.archetypes[k]).storages[j]? = some (w1.archetypes[k]).storages[j] := List.getElem?_eq_getElem hjl
      exact hf _ _ (h3.2 j _ p hq hj) (h.new k _ hk h1 _ (List.getElem_mem hjl))
    · exact hg _ (h'.new k a (by omega) ha p hp)

instance : Chain MemGrow where
  of_eq := TabsR.of_eq ColGrow.refl
  trans := TabsR.comp (R1 := ColGrow) (R2 := ColGrow) (R3 := ColGrow) (F1 := FairCap) (fun _ _ _ h h' => h.trans h') (fun _ _ h h' => h.fair h') (fun _ h => h)

instance : Chain MemNew where
  of_eq := TabsR.of_eq (fun _ => rfl)
  trans := TabsR.comp (R1 := Eq) (R2 := Eq) (R3 := Eq) (F1 := fun v => v.cap ≤ 4 * v.size) (fun _ _ _ h h' => h.trans h') (fun _ _ h hp => h ▸ hp) (fun _ h => h)

theorem TabsR.grow {w w' : World} (h : MemNew w w') : MemGrow w w' :=
  ⟨fun k a hk => by obtain ⟨b, h1, h2⟩ := h.tab k a hk; exact ⟨b, h1, h2.imp fun _ _ e => by rw [e]; exact .refl _⟩, fun k a hk ha p hp => Or.inl (h.new k a hk ha p hp)⟩

theorem TabsR.fin {w w' : World} (h : MemGrow w w') : MemEnd w w' :=
  ⟨fun k a hk => by obtain ⟨b, h1, h2⟩ := h.tab k a hk; exact ⟨b, h1, h2.imp fun _ _ => ColGrow.fin⟩, h.new⟩

theorem TabsR.trans_fin {w w1 w' : World} (h : MemNew w w1) (h' : MemEnd w1 w') : MemEnd w w' := by
  refine TabsR.comp (fun _ _ _ e h => e ▸ h) (fun p q hpq hp => ?_) (fun _ h => h) h h'
  rcases hpq.cap with c | c
  · left; have : q.2.size = p.2.size := by unfold UVec.size; rw [hpq.info]
    omega
  · exact c

theorem TabsR.of_set (hr : ∀ p, R p p) {F : UVec → Prop} {w w' : World} {k : Nat} {a a' : Archetype} (ha : w.archetypes[k]? = some a)
    (hw : w'.archetypes = w.archetypes.set k a') (h : ColsR R a.storages a'.storages) : TabsR R F w w' := by
  refine ⟨fun j b hb => ?_, fun j b hj hb => by rw [hw] at hb; have := (List.getElem?_eq_some_iff.1 hb).1; rw [List.length_set] at this; omega⟩
  rw [hw, List.getElem?_set]
  by_cases hjk : k = j
  · subst hjk
    have hlt := (List.getElem?_eq_some_iff.1 ha).1
    rw [if_pos rfl, if_pos hlt]
    rw [ha] at hb; injection hb with hb; subst hb
    exact ⟨a', rfl, h⟩
  · rw [if_neg hjk]; exact ⟨b, hb, .refl hr _⟩

/-! ## Columns -/

theorem pushRaw_mem {v v' : UVec} {src : Bytes} (h : v.pushRaw src = .ok v') (id : EcsId) : ColGrow (id, v) (id, v') := by
  unfold UVec.pushRaw at h
  split at h
  · injection h with h; subst h; exact ⟨rfl, Nat.le_succ _, Or.inl (Nat.le_refl _)⟩
  rename_i hs0
  simp only at h
  split at h
  · cases h
  rename_i v1 hr
  have h1 : v1.info = v.info ∧ v1.len = v.len ∧ (v1.cap = v.cap ∨ v1.cap ≤ 4 * v.size ∨ v1.cap ≤ 2 * (v.len + v.size)) := by
    split at hr
    · rename_i hc
      have hl : v1.len = v.len := by
        unfold UVec.realloc at hr
        simp only at hr
        repeat' split at hr
        all_goals first | (injection hr with hr; subst hr; rfl) | cases hr
      obtain ⟨r1, r2, r3⟩ := realloc_stays hr
      refine ⟨r1, hl, Or.inr ?_⟩
      by_cases h0 : v.cap = 0
      · rw [if_pos h0, if_pos h0] at r3; left; omega
      · rw [if_neg h0, if_neg h0] at r3; right; omega
    · injection hr with hr; subst hr; exact ⟨rfl, rfl, Or.inl rfl⟩
  obtain ⟨i1, l1, c1⟩ := h1
  have hsz : v1.size = v.size := by unfold UVec.size; rw [i1]
  split at h
  · cases h
  split at h
  · cases h
  injection h with h; subst h
  refine ⟨i1, by simp only; omega, ?_⟩
  rcases c1 with c1 | c1 | c1
  · left; simp only; omega
  · right; left; simp only [UVec.size] at *; omega
  · right; right; simp only [UVec.size] at *; omega

/-- The block stays. -/
def CapSame (p q : EcsId × UVec) : Prop := q.2.info = p.2.info ∧ q.2.cap = p.2.cap

theorem CapSame.refl (p : EcsId × UVec) : CapSame p p := ⟨rfl, rfl⟩
theorem CapSame.trans {p q r : EcsId × UVec} (h : CapSame p q) (h' : CapSame q r) : CapSame p r := ⟨h'.1.trans h.1, h'.2.trans h.2⟩
theorem CapSame.fin {p q : EcsId × UVec} (h : CapSame p q) : ColEnd p q := ⟨h.1, Or.inl (Nat.le_of_eq h.2)⟩

theorem pop_mem {v v' : UVec} {b : Bool} {evs : List DropEv} (h : v.pop = .ok (b, v', evs)) (id : EcsId) : CapSame (id, v) (id, v') := by
  unfold UVec.pop at h
  simp only at h
  split at h
  · split at h
    · cases h
    · injection h with h; injection h with _ h; injection h with h; subst h; exact ⟨rfl, rfl⟩
  · split at h
    · split at h
      · cases h
      · injection h with h; injection h with _ h; injection h with h; subst h; exact ⟨rfl, rfl⟩
    · injection h with h; injection h with _ h; injection h with h; subst h; exact .refl _

theorem swapRemove_mem {v v' : UVec} {i : Nat} {evs : List DropEv} (h : v.swapRemove i = .ok (v', evs)) (id : EcsId) : CapSame (id, v) (id, v') := by
  unfold UVec.swapRemove at h
  simp only at h
  split at h
  · cases h
  split at h
  · cases h
  split at h
  · split at h
    · split at h
      · cases h
      · rename_i hp
        injection h with h; injection h with h; subst h; exact pop_mem hp id
    · cases h
  · split at h
    · cases h
    split at h
    · split at h
      · cases h
      · rename_i hp
        injection h with h; injection h with h; subst h
        exact CapSame.trans (q := (id, { v with mem := UVec.swapRanges v.mem (i * v.size) (v.len - v.size) v.size })) ⟨rfl, rfl⟩ (pop_mem hp id)
    · cases h

theorem swapMove_mem {v o v' o' : UVec} {i : Nat} (h : v.swapMove o i = .ok (v', o')) (c d : EcsId) :
    CapSame (c, v) (c, v') ∧ ColGrow (d, o) (d, o') := by
  unfold UVec.swapMove at h
  simp only at h
  split at h
  · cases h
  split at h
  · cases h
  split at h
  · cases h
  split at h
  · injection h with h; injection h with h1 h2; subst h1 h2
    exact ⟨⟨rfl, rfl⟩, ⟨rfl, Nat.le_succ _, Or.inl (Nat.le_refl _)⟩⟩
  split at h
  · split at h
    · cases h
    split at h
    · cases h
    rename_i hp
    injection h with h; injection h with h1 h2; subst h1 h2
    exact ⟨⟨rfl, rfl⟩, pushRaw_mem hp d⟩
  · split at h
    · cases h
    split at h
    · split at h
      · cases h
      split at h
      · cases h
      rename_i hp
      injection h with h; injection h with h1 h2; subst h1 h2
      exact ⟨⟨rfl, rfl⟩, pushRaw_mem hp d⟩
    · cases h

/-! ## Lists of columns -/

theorem swapRemoveAll_mem {row : Nat} {st st' : List (EcsId × UVec)} {evs : List DropEv} (h : swapRemoveAll row st = .ok (st', evs)) : ColsR CapSame st st' := by
  induction st generalizing st' evs with
  | nil => unfold swapRemoveAll at h; injection h with h; injection h with h; subst h; exact .refl CapSame.refl _
  | cons p st ih =>
    obtain ⟨id, v⟩ := p
    unfold swapRemoveAll at h
    split at h
    · cases h
    rename_i h1
    split at h
    · cases h
    rename_i h2
    injection h with h; injection h with h; subst h
    exact .cons (swapRemove_mem h1 id) (ih h2)

theorem moveAdd_mem {c : EcsId} {row : Nat} : ∀ (tar : List (EcsId × UVec)) {n : Nat} {sk : Option Nat} {cur cur' tar' : List (EcsId × UVec)} {sk' : Option Nat},
    moveAdd c row n sk cur tar = .ok (cur', tar', sk') → ColsR CapSame cur cur' ∧ ColsR ColGrow tar tar' := by
  intro tar
  induction tar with
  | nil =>
    intro n sk cur cur' tar' sk' h
    cases cur with
    | nil => unfold moveAdd at h; injection h with h; injection h with h1 h; injection h with h2 h; subst h1 h2; exact ⟨.refl CapSame.refl _, .refl ColGrow.refl _⟩
    | cons x xs => unfold moveAdd at h; injection h with h; injection h with h1 h; injection h with h2 h; subst h1 h2; exact ⟨.refl CapSame.refl _, .refl ColGrow.refl _⟩
  | cons t ts ih =>
    intro n sk cur cur' tar' sk' h
    cases cur with
    | nil => unfold moveAdd at h; injection h with h; injection h with h1 h; injection h with h2 h; subst h1 h2; exact ⟨.refl CapSame.refl _, .refl ColGrow.refl _⟩
    | cons x xs =>
      unfold moveAdd at h
      split at h
      · split at h
        · cases h
        split at h
        · cases h
        rename_i hm
        injection h with h; injection h with h1 h; injection h with h2 h; subst h1 h2
        obtain ⟨i1, i2⟩ := ih hm
        exact ⟨i1, .cons (ColGrow.refl _) i2⟩
      · split at h
        · cases h
        rename_i hs
        split at h
        · cases h
        rename_i hm
        injection h with h; injection h with h1 h; injection h with h2 h; subst h1 h2
        obtain ⟨i1, i2⟩ := ih hm
        obtain ⟨j1, j2⟩ := swapMove_mem hs x.1 t.1
        exact ⟨.cons j1 i1, .cons j2 i2⟩

theorem moveRemove_mem {c : EcsId} {row : Nat} : ∀ (cur : List (EcsId × UVec)) {n : Nat} {sk : Option Nat} {tar cur' tar' : List (EcsId × UVec)} {sk' : Option Nat},
    moveRemove c row n sk cur tar = .ok (cur', tar', sk') → ColsR CapSame cur cur' ∧ ColsR ColGrow tar tar' := by
  intro cur
  induction cur with
  | nil =>
    intro n sk tar cur' tar' sk' h
    unfold moveRemove at h; injection h with h; injection h with h1 h; injection h with h2 h; subst h1 h2; exact ⟨.refl CapSame.refl _, .refl ColGrow.refl _⟩
  | cons x xs ih =>
    intro n sk tar cur' tar' sk' h
    unfold moveRemove at h
    split at h
    · split at h
      · cases h
      split at h
      · cases h
      rename_i hm
      injection h with h; injection h with h1 h; injection h with h2 h; subst h1 h2
      obtain ⟨i1, i2⟩ := ih hm
      exact ⟨.cons (CapSame.refl _) i1, i2⟩
    · split at h
      · injection h with h; injection h with h1 h; injection h with h2 h; subst h1 h2; exact ⟨.refl CapSame.refl _, .refl ColGrow.refl _⟩
      · split at h
        · cases h
        rename_i hs
        split at h
        · cases h
        rename_i hm
        injection h with h; injection h with h1 h; injection h with h2 h; subst h1 h2
        obtain ⟨i1, i2⟩ := ih hm
        obtain ⟨j1, j2⟩ := swapMove_mem hs _ _
        exact ⟨.cons j1 i1, .cons j2 i2⟩

/-- `T` relates the worlds before and after `x`, whether it panics or not. -/
def Walk (T : World → World → Prop) {α : Type} (x : M α) (w : World) : Prop := Tri x w (fun _ w' => T w w') (fun _ w' => T w w')

section
variable {T : World → World → Prop} [Chain T]

theorem Walk.pure {α : Type} (a : α) (w : World) : Walk T (pure a) w := Chain.of_eq (T := T) (w := w) rfl
theorem Walk.throw {α : Type} (f : Fault) (w : World) : Walk T (α := α) (throw f) w := Chain.of_eq (T := T) (w := w) rfl
theorem Walk.get (w : World) : Walk T get w := Chain.of_eq (T := T) (w := w) rfl

theorem Walk.liftE {α : Type} (x : Except Fault α) (w : World) : Walk T (liftE x) w := by
  unfold Walk; rw [tri_liftE]; cases x <;> exact Chain.of_eq (T := T) rfl

theorem Walk.bind {α β : Type} {x : M α} {f : α → M β} {w : World} (hx : Walk T x w) (hf : ∀ a w', x w = .ok a w' → Walk T (f a) w') : Walk T (x >>= f) w := by
  unfold Walk
  rw [tri_bind]
  refine hx.with_eq.imp ?_ ?_
  · rintro a w' ⟨he, h⟩
    exact (hf a w' he).imp (fun _ _ h' => Chain.trans h h') (fun _ _ h' => Chain.trans h h')
  · exact fun _ _ h => h.2

theorem Walk.bind' {α β : Type} {x : M α} {f : α → M β} {w : World} (hx : Walk T x w) (hf : ∀ a w', Walk T (f a) w') : Walk T (x >>= f) w :=
  hx.bind (fun a w' _ => hf a w')

theorem Walk.step {g : World → Except Fault World} {w : World} (h : ∀ w', g w = .ok w' → T w w') : Walk T (step g) w := by
  unfold Walk; rw [tri_step]
  cases hg : g w with
  | ok w' => exact h w' hg
  | error f => exact Chain.of_eq (T := T) rfl

omit [Chain T] in
theorem Walk.modify {g : World → World} {w : World} (h : T w (g w)) : Walk T (modify g) w := h
omit [Chain T] in
theorem Walk.set {w w' : World} (h : T w w') : Walk T (set w') w := h

omit [Chain T] in
theorem Walk.ite {α : Type} {c : Prop} [Decidable c] {x y : M α} {w : World} (hx : Walk T x w) (hy : Walk T y w) : Walk T (if c then x else y) w := by
  by_cases h : c
  · rw [if_pos h]; exact hx
  · rw [if_neg h]; exact hy
end

theorem ensureLock_mem (w : World) (id : EcsId) : MemNew w (ensureLock w id) := by
  unfold ensureLock; split <;> exact Chain.of_eq rfl

theorem ensureLocks_mem (ids : List EcsId) : ∀ w : World, MemNew w (ids.foldl ensureLock w) := by
  induction ids with
  | nil => exact fun w => Chain.of_eq rfl
  | cons id ids ih => exact fun w => Chain.trans (ensureLock_mem w id) (ih _)

theorem pushArchetype_mem (hr : ∀ p, R p p) {F : UVec → Prop} {w w' : World} {a : Archetype} (h : pushArchetype w a = .ok w') (hc : ∀ p ∈ a.storages, F p.2) : TabsR R F w w' := by
  unfold pushArchetype at h
  split at h
  · cases h
  · split at h
    · cases h
    · injection h with h; subst h
      refine ⟨fun k b hb => ?_, fun k b hk hb => ?_⟩
      · exact ⟨b, by simp only; rw [List.getElem?_append_left (List.getElem?_eq_some_iff.1 hb).1]; exact hb, .refl hr _⟩
      · have hlt := (List.getElem?_eq_some_iff.1 hb).1
        simp only [List.length_append, List.length_singleton] at hlt
        have hkl : k = w.archetypes.length := by omega
        subst hkl
        simp only [List.getElem?_concat_length] at hb
        injection hb with hb; subst hb
        exact hc

theorem insertCache_mem {w w' : World} {k t : Nat} {id : EcsId} (h : insertCache w k id t = .ok w') : MemNew w w' := by
  unfold insertCache at h
  split at h
  · cases h
  · rename_i ha
    split at h
    · cases h
    · injection h with h; subst h; exact .of_set (fun _ => rfl) ha rfl (.refl (fun _ => rfl) _)

theorem tryFindNext_mem {w w' : World} {k : Nat} {id : EcsId} {r : Option Nat} (h : tryFindNext w k id = .ok (r, w')) : MemNew w w' := by
  unfold tryFindNext at h
  split at h
  · cases h
  · rename_i ha
    split at h
    · cases h
    · injection h with h; injection h with _ h; subst h; exact .of_set (fun _ => rfl) ha rfl (.refl (fun _ => rfl) _)

theorem setEntityMeta_mem {w w' : World} {e : EcsId} {m : EntityMeta} (h : setEntityMeta w e m = .ok w') : MemGrow w w' := by
  unfold setEntityMeta at h
  split at h
  · cases h
  · injection h with h; subst h; exact Chain.of_eq rfl
  · split at h <;> (injection h with h; subst h; exact Chain.of_eq rfl)

theorem finishMove_mem {w w' : World} {cur tar : Nat} {a b a' b' : Archetype} {e : EcsId} {row : Nat} (hne : cur ≠ tar)
    (ha : w.archetypes[cur]? = some a) (hb : w.archetypes[tar]? = some b)
    (h : finishMove w cur tar a' b' e row = .ok w') (sa : ColsR CapSame a.storages a'.storages) (sb : ColsR ColGrow b.storages b'.storages) : MemEnd w w' := by
  have key : ∀ (u : World) (l l' : List EcsId), u.archetypes = (w.archetypes.set cur { a' with entities := l }).set tar { b' with entities := l' } → MemEnd w u := by
    intro u l l' hu
    refine ⟨fun j x hx => ?_, fun j x hj hx => by rw [hu] at hx; have := (List.getElem?_eq_some_iff.1 hx).1; simp only [List.length_set] at this; omega⟩
    rw [hu, List.getElem?_set]
    by_cases h1 : tar = j
    · subst h1
      have hlt := (List.getElem?_eq_some_iff.1 hb).1
      rw [if_pos rfl, List.length_set, if_pos hlt]
      rw [hb] at hx; injection hx with hx; subst hx
      exact ⟨_, rfl, sb.imp fun _ _ => ColGrow.fin⟩
    · rw [if_neg h1, List.getElem?_set]
      by_cases h2 : cur = j
      · subst h2
        have hlt := (List.getElem?_eq_some_iff.1 ha).1
        rw [if_pos rfl, if_pos hlt]
        rw [ha] at hx; injection hx with hx; subst hx
        exact ⟨_, rfl, sa.imp fun _ _ => CapSame.fin⟩
      · rw [if_neg h2]; exact ⟨x, hx, .refl (fun _ => (ColGrow.refl _).fin) _⟩
  unfold finishMove at h
  simp only at h
  split at h
  · cases h
  · split at h
    · split at h
      · injection h with h; subst h; exact key _ _ _ rfl
      · split at h
        · cases h
        · injection h with h; subst h; exact key _ _ _ rfl
    · cases h

theorem moveAddRow_mem {w w' : World} {cur tar : Nat} {e c : EcsId} {row : Nat} {src : Bytes} (h : moveAddRow cur tar e row c src w = .ok w') :
    MemEnd w w' := by
  unfold moveAddRow at h
  split at h
  · cases h
  rename_i hi
  obtain ⟨hne, ha, hb⟩ := indexTwice_some hi
  split at h
  · cases h
  rename_i hm
  obtain ⟨m1, m2⟩ := moveAdd_mem _ hm
  split at h
  · cases h
  split at h
  · cases h
  rename_i hs
  split at h
  · cases h
  rename_i hp
  have m3 := ColsR.trans (R := ColGrow) (R2 := ColGrow) (fun _ _ _ h h' => ColGrow.trans h h') m2 (ColsR.set ColGrow.refl hs (pushRaw_mem hp _))
  exact finishMove_mem hne ha hb h m1 m3

theorem moveRemoveRow_mem {w w' : World} {cur tar : Nat} {e c : EcsId} {row : Nat} (h : moveRemoveRow cur tar e row c w = .ok w') :
    MemEnd w w' := by
  unfold moveRemoveRow at h
  split at h
  · cases h
  rename_i hi
  obtain ⟨hne, ha, hb⟩ := indexTwice_some hi
  split at h
  · cases h
  rename_i hm
  obtain ⟨m1, m2⟩ := moveRemove_mem _ hm
  simp only at h
  split at h
  · cases h
  split at h
  · cases h
  rename_i hs
  split at h
  · cases h
  rename_i hp
  split at h
  · cases h
  rename_i hf
  injection h with h; subst h
  have m3 := ColsR.trans (R := CapSame) (R2 := CapSame) (fun _ _ _ h h' => CapSame.trans h h') m1 (ColsR.set CapSame.refl hs (swapRemove_mem hp _))
  have := finishMove_mem hne ha hb hf m3 m2
  exact ⟨this.tab, this.new⟩

theorem adespawn_mem {a a' : Archetype} {e : EcsId} {row : Nat} {ms ms' : List (Option EntityMeta)} {evs : List DropEv}
    (h : a.despawn e row ms = .ok (a', ms', evs)) : ColsR CapSame a.storages a'.storages := by
  unfold Archetype.despawn at h
  simp only at h
  split at h
  · cases h
  split at h
  · cases h
  split at h
  · cases h
  rename_i hs
  have := swapRemoveAll_mem hs
  split at h
  · split at h
    · injection h with h; injection h with h; subst h; exact this
    · split at h
      · cases h
      · injection h with h; injection h with h; subst h; exact this
  · cases h

/-! ## Operations -/

theorem fromArchetype_fair (a : Archetype) : ∀ p ∈ a.fromArchetype.storages, p.2.cap ≤ 4 * p.2.size := by
  intro p hp
  obtain ⟨q, _, rfl⟩ := List.mem_map.1 hp
  exact Nat.zero_le _

theorem fromWith_fair {a n : Archetype} {i : TypeInfo} {c : EcsId} (h : a.fromArchetypeWith i c = .ok n) : ∀ p ∈ n.storages, p.2.cap ≤ 4 * p.2.size := by
  unfold Archetype.fromArchetypeWith at h
  simp only at h
  split at h
  · cases h
  split at h
  · injection h with h; subst h
    intro p hp
    rcases List.mem_append.1 ((mem_stableSort _ _).1 hp) with hp | hp
    · exact fromArchetype_fair a p hp
    · rw [List.mem_singleton] at hp; subst hp; exact Nat.zero_le _
  · cases h

theorem fromWithout_fair {a n : Archetype} {c : EcsId} (h : a.fromArchetypeWithout c = .ok n) : ∀ p ∈ n.storages, p.2.cap ≤ 4 * p.2.size := by
  unfold Archetype.fromArchetypeWithout at h
  simp only at h
  split at h
  · cases h
  split at h
  · split at h
    · injection h with h; subst h
      intro p hp
      exact fromArchetype_fair a p (List.mem_of_mem_eraseIdx ((mem_stableSort _ _).1 hp))
    · cases h
  · cases h

theorem createPlus_mem (cur : Nat) (c : EcsId) (w : World) : Walk MemNew (createPlus cur c) w := by
  unfold createPlus
  refine (Walk.modify (ensureLock_mem w c)).bind' fun _ w => (Walk.get w).bind' fun v w => (Walk.liftE _ w).bind' fun _ w => (Walk.liftE _ w).bind' fun _ w =>
    (Walk.liftE _ w).bind' fun _ w => (Walk.liftE _ w).bind fun n w1 hn => (Walk.step fun _ h => pushArchetype_mem (fun _ => rfl) h (fromWith_fair (liftE_ok hn).1)).bind' fun _ w => (Walk.get w).bind' fun _ w =>
    (Walk.step fun _ h => insertCache_mem h).bind' fun _ w => Walk.pure _ w

theorem createMinus_mem (cur : Nat) (c : EcsId) (w : World) : Walk MemNew (createMinus cur c) w := by
  unfold createMinus
  refine (Walk.get w).bind' fun v w => (Walk.liftE _ w).bind' fun _ w => (Walk.liftE _ w).bind fun n w1 hn =>
    (Walk.step fun _ h => pushArchetype_mem (fun _ => rfl) h (fromWithout_fair (liftE_ok hn).1)).bind' fun _ w => (Walk.get w).bind' fun _ w =>
    (Walk.step fun _ h => insertCache_mem h).bind' fun _ w => Walk.pure _ w

theorem resolveAdd_mem (cur : Nat) (c : EcsId) (w : World) : Walk MemNew (resolveAdd cur c) w := by
  unfold resolveAdd
  refine (Walk.get w).bind fun v w1 h1 => ?_
  injection h1 with h1 h1'; subst h1 h1'
  refine (Walk.liftE _ _).bind fun a w2 h2 => ?_
  obtain ⟨_, rfl⟩ := liftE_ok h2
  refine Walk.ite (Walk.throw _ _) ?_
  refine (Walk.liftE _ _).bind fun x w3 h3 => ?_
  obtain ⟨h3, rfl⟩ := liftE_ok h3
  obtain ⟨r, w4⟩ := x
  refine (Walk.set (tryFindNext_mem h3)).bind' fun _ w => ?_
  cases r with
  | some k => exact Walk.pure _ _
  | none =>
    refine (Walk.liftE _ _).bind' fun found w => ?_
    cases found with
    | some k => exact (Walk.step fun _ h => insertCache_mem h).bind' fun _ w => Walk.pure _ w
    | none => exact createPlus_mem _ _ _

theorem resolveRemove_mem (cur : Nat) (c : EcsId) (w : World) : Walk MemNew (resolveRemove cur c) w := by
  unfold resolveRemove
  refine (Walk.get w).bind fun v w1 h1 => ?_
  injection h1 with h1 h1'; subst h1 h1'
  refine (Walk.liftE _ _).bind fun a w2 h2 => ?_
  obtain ⟨_, rfl⟩ := liftE_ok h2
  refine Walk.ite (Walk.throw _ _) ?_
  refine (Walk.liftE _ _).bind fun x w3 h3 => ?_
  obtain ⟨h3, rfl⟩ := liftE_ok h3
  obtain ⟨r, w4⟩ := x
  refine (Walk.set (tryFindNext_mem h3)).bind' fun _ w => ?_
  cases r with
  | some k => exact Walk.pure _ _
  | none =>
    refine (Walk.liftE _ _).bind' fun found w => ?_
    cases found with
    | some k => exact (Walk.step fun _ h => insertCache_mem h).bind' fun _ w => Walk.pure _ w
    | none => exact createMinus_mem _ _ _

theorem Walk.end {α : Type} {x : M α} {w : World} (h : Walk MemNew x w) : Walk MemEnd x w := h.imp (fun _ _ h => h.grow.fin) (fun _ _ h => h.grow.fin)

theorem Walk.bindEnd {α β : Type} {x : M α} {f : α → M β} {w : World} (hx : Walk MemNew x w) (hf : ∀ a w', Walk MemEnd (f a) w') : Walk MemEnd (x >>= f) w := by
  unfold Walk
  rw [tri_bind]
  refine hx.imp ?_ (fun _ _ h => h.grow.fin)
  intro a w' h
  exact (hf a w').imp (fun _ _ h' => h.trans_fin h') (fun _ _ h' => h.trans_fin h')

theorem Walk.stepEnd {g : World → Except Fault World} {w : World} (h : ∀ w', g w = .ok w' → MemEnd w w') : Walk MemEnd (World.step g) w := by
  unfold Walk; rw [tri_step]
  cases hg : g w with
  | ok w' => exact h w' hg
  | error f => exact TabsR.fin (Chain.of_eq rfl)

theorem Walk.iteEnd {T : World → World → Prop} {α : Type} {c : Prop} [Decidable c] {x y : M α} {w : World} (hx : Walk T x w) (hy : Walk T y w) : Walk T (if c then x else y) w := by
  by_cases h : c
  · rw [if_pos h]; exact hx
  · rw [if_neg h]; exact hy

theorem addDyn_mem (e c : EcsId) (src : Bytes) (w : World) : Walk MemEnd (addComponentDynamicWithData e c src) w := by
  unfold addComponentDynamicWithData
  refine (Walk.get w).bindEnd fun v w => (Walk.liftE _ w).bindEnd fun _ w => Walk.iteEnd (Walk.pure _ w).end <| (Walk.liftE _ w).bindEnd fun _ w =>
    Walk.iteEnd (Walk.pure _ w).end <| (Walk.liftE _ w).bindEnd fun _ w => (Walk.liftE _ w).bindEnd fun _ w => (resolveAdd_mem _ _ w).bindEnd fun _ w =>
    Walk.stepEnd fun _ h => moveAddRow_mem h

theorem removeDyn_mem (e c : EcsId) (w : World) : Walk MemEnd (removeComponentDynamic e c) w := by
  unfold removeComponentDynamic
  refine (Walk.get w).bindEnd fun v w => (Walk.liftE _ w).bindEnd fun _ w => Walk.iteEnd (Walk.pure _ w).end <| (Walk.liftE _ w).bindEnd fun _ w =>
    Walk.iteEnd (Walk.pure _ w).end <| (Walk.liftE _ w).bindEnd fun _ w => (Walk.liftE _ w).bindEnd fun _ w => (resolveRemove_mem _ _ w).bindEnd fun _ w =>
    Walk.stepEnd fun _ h => moveRemoveRow_mem h

theorem addZst_mem (e c : EcsId) (w : World) : Walk MemEnd (addComponentDynamic e c) w := by
  unfold addComponentDynamic
  refine (Walk.get w).bindEnd fun v w => (Walk.liftE _ w).bindEnd fun _ w => Walk.iteEnd (Walk.throw _ w).end <| (Walk.liftE _ w).bindEnd fun _ w =>
    Walk.iteEnd (Walk.throw _ w).end <| (Walk.liftE _ w).bindEnd fun _ w => (Walk.liftE _ w).bindEnd fun _ w => Walk.iteEnd (Walk.throw _ w).end <| addDyn_mem _ _ _ w

theorem despawn_mem (e : EcsId) (w : World) : Walk MemEnd (despawn e) w := by
  unfold despawn
  refine (Walk.get w).bindEnd fun v w => (Walk.liftE _ w).bindEnd fun _ w => Walk.iteEnd (Walk.pure _ w).end <| Walk.iteEnd (Walk.throw _ w).end <|
    (Walk.liftE _ w).bindEnd fun _ w => (Walk.liftE _ w).bindEnd fun _ w => ?_
  unfold Walk
  rw [tri_bind]
  refine (Walk.stepEnd (fun w' h => ?_) : Walk MemEnd _ w).imp (fun _ w1 h => ?_) (fun _ _ h => h)
  · split at h
    · cases h
    · rename_i ha
      split at h
      · cases h
      · rename_i hd
        injection h with h; subst h
        exact TabsR.of_set (fun _ => (ColGrow.refl _).fin) ha rfl ((adespawn_mem hd).imp fun _ _ => CapSame.fin)
  · rw [tri_bind, tri_step]
    cases w1.entities.despawn e with
    | error f => exact h
    | ok p => exact ⟨h.tab, h.new⟩

theorem bdrop_mem (b : Builder) (w : World) : Walk MemGrow b.drop w := by
  unfold Walk Tri Builder.drop
  repeat' split
  all_goals simp_all
  all_goals (try (rename_i h; repeat' split at h))
  all_goals (try cases h)
  all_goals (try obtain ⟨rfl, rfl⟩ := h)
  all_goals (try subst_vars)
  all_goals exact Chain.of_eq rfl

theorem bnew_mem (e : EcsId) (m : ComponentMeta) (w : World) : Walk MemGrow (Builder.new e m) w := by
  unfold Walk Tri Builder.new
  cases h : w.reuse with
  | none => exact Chain.of_eq rfl
  | some x => exact Chain.of_eq rfl

theorem bcap_mem (e : EcsId) (m : ComponentMeta) (n : Nat) (w : World) : Walk MemGrow (Builder.withCapacity e m n) w := by
  unfold Walk Tri Builder.withCapacity
  cases h : w.reuse with
  | none =>
    simp only
    by_cases h0 : n = 0
    · simp only [if_pos h0]; exact Chain.of_eq rfl
    · simp only [if_neg h0]
      by_cases h1 : layoutOk n 0 = true
      · simp only [if_pos h1]; exact Chain.of_eq rfl
      · simp only [if_neg h1]; exact Chain.of_eq rfl
  | some x => exact Chain.of_eq rfl

theorem orDrop_mem {α : Type} {b : Builder} {x : M α} {w : World} (h : Walk MemGrow x w) : Walk MemGrow (b.orDrop x) w := by
  unfold Walk Tri Builder.orDrop at *
  cases hx : x w with
  | ok a w' => rw [hx] at h; exact h
  | error f w' =>
    rw [hx] at h
    have hb := bdrop_mem b w'
    unfold Walk Tri at hb
    cases hd : b.drop w' with
    | ok u w2 => rw [hd] at hb; simp only [hd]; exact Chain.trans (T := MemGrow) h hb
    | error f2 w2 => rw [hd] at hb; simp only [hd]; exact Chain.trans (T := MemGrow) h hb

theorem pushComps_mem (b : Builder) (k : Nat) (ids : List EcsId) : ∀ (off : Nat) (w : World), Walk MemGrow (b.pushComps k off ids) w := by
  induction ids with
  | nil => exact fun _ w => Walk.pure _ w
  | cons id ids ih =>
    intro off w
    unfold Builder.pushComps
    refine (Walk.get w).bind' fun v w => (Walk.liftE _ w).bind' fun _ w => (Walk.liftE _ w).bind' fun _ w => (Walk.step fun w' h => ?_).bind' fun _ w =>
      (Walk.get w).bind' fun v w => (Walk.liftE _ w).bind' fun _ w => ih _ w
    split at h
    · cases h
    rename_i ha
    split at h
    · cases h
    split at h
    · cases h
    rename_i hs
    split at h
    · cases h
    rename_i hp
    injection h with h; subst h
    exact .of_set ColGrow.refl ha rfl (.set ColGrow.refl hs (pushRaw_mem hp _))

theorem failDropping_mem {α : Type} (f : Fault) (st : List (EcsId × UVec)) (w : World) : Walk MemGrow (α := α) (failDropping f st) w := by
  unfold Walk Tri failDropping
  cases dropStorages st with
  | ok evs => exact Chain.of_eq rfl
  | error f => exact Chain.of_eq rfl

theorem createArchetype_mem (b : Builder) (w : World) : Walk MemGrow b.createArchetype w := by
  unfold Builder.createArchetype
  refine (Walk.get w).bind' fun v w => ?_
  split
  · exact failDropping_mem _ _ _
  · simp only
    split
    · exact failDropping_mem _ _ _
    · exact Walk.ite (Walk.pure _ _) (failDropping_mem _ _ _)

theorem createStorages_fair (b : Builder) (w : World) (ids : List EcsId) : ∀ {off : Nat} {acc st : List (EcsId × UVec)},
    b.createStorages w off ids acc = .ok st → (∀ p ∈ acc, FairCap p.2) → ∀ p ∈ st, FairCap p.2 := by
  induction ids with
  | nil => intro off acc st h ha; unfold Builder.createStorages at h; injection h with h; subst h; exact ha
  | cons id ids ih =>
    intro off acc st h ha
    unfold Builder.createStorages at h
    split at h
    · cases h
    · cases h
    · split at h
      · cases h
      · rename_i hp
        refine ih h ?_
        intro p hp'
        rcases List.mem_append.1 hp' with hp' | hp'
        · exact ha p hp'
        · rw [List.mem_singleton] at hp'; subst hp'
          exact (pushRaw_mem hp id).fair (Or.inl (Nat.zero_le _))

theorem createArchetype_fair (b : Builder) (w : World) :
    Tri b.createArchetype w (fun r _ => ∀ p ∈ r.2.storages, FairCap p.2) (fun _ _ => True) := by
  unfold Builder.createArchetype
  rw [tri_bind, tri_get]
  cases hst : b.createStorages w 0 b.compIds [] with
  | error r => exact failDropping_tri _ _ _ _
  | ok st =>
    simp only
    cases Builder.checkedLookup (stableSort EcsId.lt b.compIds).zipIdx (fun _ => none) with
    | error f => exact failDropping_tri _ _ _ _
    | ok l =>
      simp only
      by_cases hg : idsAgree (stableSort EcsId.lt b.compIds) (stableSort storageLt st) = true
      · rw [if_pos hg, tri_pure]
        intro p hp
        exact createStorages_fair b w b.compIds hst (by simp) p ((mem_stableSort _ _).1 hp)
      · rw [if_neg hg]; exact failDropping_tri _ _ _ _

theorem build_mem (b : Builder) (w : World) : Walk MemGrow b.build w := by
  unfold Builder.build
  refine (Walk.get w).bind' fun v w => (Walk.liftE _ w).bind' fun found w => ?_
  cases found with
  | some k =>
    refine (Walk.step fun w' h => ?_).bind' fun _ w => (pushComps_mem _ _ _ _ w).bind' fun _ w => (Walk.get w).bind' fun v w => (Walk.liftE _ w).bind' fun _ w =>
      (Walk.step fun w' h => setEntityMeta_mem h).bind' fun _ w => Walk.pure _ w
    split at h
    · cases h
    · rename_i ha
      injection h with h; subst h; exact .of_set ColGrow.refl ha rfl (.refl ColGrow.refl _)
  | none =>
    exact (Walk.modify (ensureLocks_mem _ w).grow).bind' fun _ w => (createArchetype_mem _ w).bind fun _ w hx =>
      (Walk.step fun w' h => pushArchetype_mem ColGrow.refl h ((createArchetype_fair _ _).ok hx)).bind' fun _ w => (Walk.get w).bind' fun _ w =>
      (Walk.step fun w' h => setEntityMeta_mem h).bind' fun _ w => Walk.pure _ w

theorem spawnId_mem (w : World) : Walk MemGrow spawnId w := by
  unfold Walk Tri spawnId
  cases h : w.entities.spawn with
  | mk r s => cases r <;> exact Chain.of_eq rfl

theorem getOrCreate_mem (t : Ty) (w : World) : Walk MemGrow (getOrCreate t) w := by
  unfold getOrCreate
  refine (Walk.get w).bind' fun v w => ?_
  cases v.typeMap t with
  | some id => exact Walk.pure _ w
  | none =>
    refine (spawnId_mem w).bind' fun _ w => (bnew_mem _ _ w).bind' fun b w => (orDrop_mem (build_mem b w)).bind' fun _ w => (bdrop_mem _ w).bind' fun _ w =>
      (Walk.step fun w' h => ?_).bind' fun _ w => (Walk.modify (Chain.of_eq rfl)).bind' fun _ w => Walk.pure _ w
    split at h
    · cases h
    · cases h
    · injection h with h; subst h; exact Chain.of_eq rfl

/-- The cached builder has no component ids. -/
def NoIds (w : World) : Prop := ∀ ids d c, w.reuse = some (ids, d, c) → ids = []

theorem setEntityMeta_archs {w w' : World} {e : EcsId} {m : EntityMeta} (h : setEntityMeta w e m = .ok w') : w'.archetypes = w.archetypes := by
  unfold setEntityMeta at h
  split at h
  · cases h
  · injection h with h; subst h; rfl
  · split at h <;> (injection h with h; subst h; rfl)

theorem createArchetype_new (b : Builder) (hb : b.compIds = []) (w : World) :
    Tri b.createArchetype w (fun r w' => w' = w ∧ r.2.storages = []) (fun _ w' => MemNew w w') := by
  unfold Builder.createArchetype
  rw [hb, tri_bind, tri_get]
  exact ⟨rfl, rfl⟩

theorem build_new (b : Builder) (hb : b.compIds = []) (w : World) : Walk MemNew b.build w := by
  unfold Builder.build
  refine (Walk.get w).bind' fun v w => (Walk.liftE _ w).bind' fun found w => ?_
  cases found with
  | some k =>
    rw [hb]
    refine (Walk.step fun w' h => ?_).bind' fun _ w => (Walk.pure _ w).bind' fun _ w => (Walk.get w).bind' fun v w => (Walk.liftE _ w).bind' fun _ w =>
      (Walk.step fun w' h => ?_).bind' fun _ w => Walk.pure _ w
    · split at h
      · cases h
      · rename_i ha
        injection h with h; subst h; exact .of_set (fun _ => rfl) ha rfl (.refl (fun _ => rfl) _)
    · exact Chain.of_eq (setEntityMeta_archs h)
  | none =>
    refine (Walk.modify (ensureLocks_mem _ w)).bind' fun _ w => Walk.bind ((createArchetype_new _ hb w).imp (fun _ _ h => by rw [h.1]; exact Chain.of_eq rfl) (fun _ _ h => h)) fun r w1 hx =>
      (Walk.step fun w' h => pushArchetype_mem (fun _ => rfl) h ?_).bind' fun _ w => (Walk.get w).bind' fun _ w =>
      (Walk.step fun w' h => Chain.of_eq (setEntityMeta_archs h)).bind' fun _ w => Walk.pure _ w
    have := ((createArchetype_new _ hb w).ok hx).2
    rw [this]
    intro p hp
    cases hp

theorem getOrCreate_new (t : Ty) {w : World} (hr : NoIds w) : Walk MemNew (getOrCreate t) w := by
  unfold getOrCreate
  refine (Walk.get w).bind fun v w1 h1 => ?_
  injection h1 with h1 h1'; subst h1 h1'
  cases w.typeMap t with
  | some id => exact Walk.pure _ w
  | none =>
    have hs : Tri spawnId w (fun _ w' => w'.archetypes = w.archetypes ∧ w'.reuse = w.reuse) (fun _ w' => w'.archetypes = w.archetypes ∧ w'.reuse = w.reuse) := by
      unfold Tri spawnId
      cases h : w.entities.spawn with
      | mk r s => cases r <;> exact ⟨rfl, rfl⟩
    refine Walk.bind (T := MemNew) (hs.imp (fun _ _ h => Chain.of_eq h.1) (fun _ _ h => Chain.of_eq h.1)) fun e w2 h2 => ?_
    have hr2 : NoIds w2 := by intro ids d c hh; rw [(hs.ok h2).2] at hh; exact hr _ _ _ hh
    have hn : Tri (Builder.new e ComponentMeta.unit) w2 (fun b w' => w'.archetypes = w2.archetypes ∧ b.compIds = []) (fun _ w' => w'.archetypes = w2.archetypes) := by
      unfold Tri Builder.new
      cases h : w2.reuse with
      | none => exact ⟨rfl, rfl⟩
      | some x => exact ⟨rfl, hr2 _ _ _ h⟩
    refine Walk.bind (T := MemNew) (hn.imp (fun _ _ h => Chain.of_eq h.1) (fun _ _ h => Chain.of_eq h)) fun b w3 h3 => ?_
    have hd : ∀ (b : Builder) (w : World), Tri b.drop w (fun _ w' => w'.archetypes = w.archetypes) (fun _ w' => w'.archetypes = w.archetypes) := by
      intro b w
      unfold Tri Builder.drop
      split
      · rename_i h
        split at h
        · split at h
          · injection h with _ h; subst h; rfl
          · split at h
            · injection h with _ h; subst h; rfl
            · cases h
        · injection h with _ h; subst h; rfl
      · rename_i h
        split at h
        · split at h
          · cases h
          · split at h
            · cases h
            · injection h with _ h; subst h; rfl
        · cases h
    have hb : Walk MemNew (b.orDrop b.build) w3 := by
      have h0 := build_new b (hn.ok h3).2 w3
      unfold Walk Tri Builder.orDrop at *
      cases hx : b.build w3 with
      | ok a w' => rw [hx] at h0; exact h0
      | error f w' =>
        rw [hx] at h0
        have h1 := hd b w'
        unfold Tri at h1
        cases hdd : b.drop w' with
        | ok u w2 => rw [hdd] at h1; simp only [hdd]; exact Chain.trans (T := MemNew) h0 (Chain.of_eq h1)
        | error f2 w2 => rw [hdd] at h1; simp only [hdd]; exact Chain.trans (T := MemNew) h0 (Chain.of_eq h1)
    refine hb.bind' fun b w => Walk.bind' (T := MemNew) ((hd b w).imp (fun _ _ h => Chain.of_eq h) (fun _ _ h => Chain.of_eq h)) fun _ w =>
      (Walk.step fun w' h => ?_).bind' fun _ w => (Walk.modify (Chain.of_eq rfl)).bind' fun _ w => Walk.pure _ w
    split at h
    · cases h
    · cases h
    · injection h with h; subst h; exact Chain.of_eq rfl

theorem act_mem (b : Builder) (a : BAct) (w : World) : Walk MemGrow (b.act a) w := by
  unfold Builder.act
  refine orDrop_mem ?_
  cases a with
  | «with» t v => exact (getOrCreate_mem t w).bind' fun _ w => (Walk.get w).bind' fun _ w => Walk.liftE _ w
  | withDynamic id => exact (Walk.get w).bind' fun _ w => Walk.liftE _ w
  | withDynamicWithData id v => exact (Walk.get w).bind' fun _ w => Walk.liftE _ w
  | build => exact build_mem b w

theorem acts_mem (as : List BAct) : ∀ (b : Builder) (w : World), Walk MemGrow (b.acts as) w := by
  induction as with
  | nil => exact fun b w => Walk.pure b w
  | cons a as ih => exact fun b w => (act_mem b a w).bind' fun b w => ih b w

theorem spawnWith_mem (kind : SpawnKind) (as : List BAct) (w : World) : Walk MemGrow (spawnWith kind as) w := by
  unfold spawnWith
  refine (spawnId_mem w).bind' fun e w => Walk.bind' ?_ fun b w => (acts_mem as b w).bind' fun b w => (bdrop_mem b w).bind' fun _ w => Walk.pure _ w
  cases kind with
  | plain => exact bnew_mem _ _ w
  | capacity n => exact bcap_mem _ _ _ w
  | withMeta m => exact bnew_mem _ _ w

theorem addComponent_mem (e : EcsId) (t : Ty) (v : Bytes) {w : World} (hr : NoIds w) : Walk MemEnd (addComponent e t v) w := by
  unfold addComponent
  refine Walk.bindEnd ?_ fun _ w => addDyn_mem _ _ _ w
  have : Walk MemNew (do
      let w ← get
      let alive ← liftE (w.isAlive e)
      if !alive then throw .notAlive
      getOrCreate t) w := by
    refine (Walk.get w).bind fun v w1 h1 => ?_
    injection h1 with h1 h1'; subst h1 h1'
    refine (Walk.liftE _ _).bind fun _ w2 h2 => ?_
    obtain ⟨_, rfl⟩ := liftE_ok h2
    exact Walk.ite (Walk.throw _ _) (getOrCreate_new t hr)
  unfold Walk Tri orDropValue at *
  revert this
  cases (do
      let w ← get
      let alive ← liftE (w.isAlive e)
      if !alive then throw .notAlive
      getOrCreate t : M EcsId) w with
  | ok a w' => exact fun h => h
  | error f w' => exact fun h => Chain.trans h (Chain.of_eq rfl)

theorem removeComponent_mem (e : EcsId) (t : Ty) {w : World} (hr : NoIds w) : Walk MemEnd (removeComponent e t) w := by
  unfold removeComponent
  have hg : ∀ (x y : World), (get : M World) x = .ok y x → y = x := fun x y h => by injection h with h; exact h.symm
  unfold Walk
  rw [tri_bind, tri_get]
  show Walk MemEnd _ w
  unfold Walk
  rw [tri_bind, tri_liftE]
  cases w.isAlive e with
  | error f => exact TabsR.fin (Chain.of_eq rfl)
  | ok b =>
    exact Walk.iteEnd (Walk.throw _ _).end ((getOrCreate_new t hr).bindEnd fun _ w => removeDyn_mem _ _ w)

theorem writePtr_mem {w w' : World} {p : Ptr} {bs : Bytes} (h : w.writePtr p bs = .ok w') : MemGrow w w' := by
  unfold writePtr at h
  split at h
  · split at h
    · cases h
    rename_i ha
    split at h
    · cases h
    rename_i hs
    split at h
    · injection h with h; subst h; exact Chain.of_eq rfl
    simp only at h
    split at h
    · injection h with h; subst h
      exact .of_set ColGrow.refl ha rfl (.set ColGrow.refl hs ⟨rfl, Nat.le_refl _, Or.inl (Nat.le_refl _)⟩)
    · cases h
  · cases h

theorem exec_mem (c : Call) {w : World} (hr : NoIds w) : Walk MemEnd c.exec w := by
  cases c with
  | spawn kind acts => exact ((spawnWith_mem kind acts w).bind' fun _ w => Walk.pure _ w : Walk MemGrow _ w).imp (fun _ _ h => h.fin) (fun _ _ h => h.fin)
  | addComponent e t v => exact addComponent_mem e t v hr
  | removeComponent e t => exact removeComponent_mem e t hr
  | addDynamic e c => exact addZst_mem e c w
  | addDynamicWithData e c src => exact addDyn_mem e c src w
  | removeDynamic e c => exact removeDyn_mem e c w
  | despawn e => 
    show Walk MemEnd (despawn e >>= fun _ => pure ()) w
    unfold Walk
    rw [tri_bind]
    exact (despawn_mem e w).imp (fun _ _ h => h) (fun _ _ h => h)
  | register t => exact ((getOrCreate_mem t w).bind' fun _ w => Walk.pure _ w : Walk MemGrow _ w).imp (fun _ _ h => h.fin) (fun _ _ h => h.fin)
  | write e c bs =>
    refine Tri.imp (Q := fun _ w' => MemGrow w w') (E := fun _ w' => MemGrow w w') ?_ (fun _ _ h => h.fin) (fun _ _ h => h.fin)
    unfold Call.exec
    refine (Walk.get w).bind' fun v w => (Walk.liftE _ w).bind' fun p w => ?_
    cases p with
    | none => exact Walk.pure _ w
    | some p => exact Walk.step fun _ h => writePtr_mem h
  | query ps b =>
    refine Tri.imp (Q := fun _ w' => MemGrow w w') (E := fun _ w' => MemGrow w w') ?_ (fun _ _ h => h.fin) (fun _ _ h => h.fin)
    refine Walk.bind' (T := MemGrow) ?_ fun q w => ?_
    · unfold Walk Tri World.query
      cases allFetches w ps with
      | none => exact Chain.of_eq (T := MemGrow) rfl
      | some fs =>
        simp only
        cases acquireAllStatic w [] w.locks fs <;> exact Chain.of_eq (T := MemGrow) rfl
    · exact Chain.of_eq (T := MemGrow) rfl
  | queryDynamic fs b =>
    refine Tri.imp (Q := fun _ w' => MemGrow w w') (E := fun _ w' => MemGrow w w') ?_ (fun _ _ h => h.fin) (fun _ _ h => h.fin)
    refine Walk.bind' (T := MemGrow) ?_ fun q w => ?_
    · unfold Walk Tri World.queryDynamic
      cases acquireAllDyn w [] false w.locks fs <;> exact Chain.of_eq (T := MemGrow) rfl
    · exact Chain.of_eq (T := MemGrow) rfl

end Ellecs
