import Verif.Proofs.LockTrace
import Verif.Spec.Tables
/-!
# What calls do to the tables

Proved by going through the code, without any invariant.
-/
namespace Ellecs
open World

theorem ColumnStays.refl (p : EcsId × UVec) : ColumnStays p p := ⟨rfl, rfl, Nat.le_refl _, Or.inl rfl, fun _ => rfl⟩

theorem ColumnStays.trans {p q r : EcsId × UVec} (h : ColumnStays p q) (h' : ColumnStays q r) : ColumnStays p r := by
  have hsz : q.2.size = p.2.size := congrArg (fun i : TypeInfo => i.layout.size) h.info
  refine ⟨h'.id.trans h.id, h'.info.trans h.info, Nat.le_trans h.cap h'.cap, ?_, fun e => ?_⟩
  · rcases h.grow with g | ⟨n, g⟩
    · rw [← g, ← hsz]; exact h'.grow
    · rcases h'.grow with g' | ⟨m, g'⟩
      · right; exact ⟨n, g'.trans g⟩
      · right
        by_cases hp : p.2.cap = 0
        · rw [if_pos hp] at g ⊢
          by_cases hq : q.2.cap = 0
          · rw [if_pos hq, hsz] at g'; exact ⟨m, g'⟩
          · rw [if_neg hq, g] at g'; exact ⟨n + m, by rw [g', Nat.pow_add, Nat.mul_assoc]⟩
        · rw [if_neg hp] at g ⊢
          have hq : q.2.cap ≠ 0 := by have := h.cap; omega
          rw [if_neg hq, g] at g'
          exact ⟨n + m, by rw [g', Nat.pow_add, Nat.mul_assoc]⟩
  have := h.cap; have := h'.cap
  rw [h'.block (by omega), h.block (by omega)]

theorem TableStays.refl (a : Archetype) : TableStays a a :=
  ⟨rfl, rfl, rfl, fun j p q h1 h2 => by rw [h1] at h2; injection h2 with h2; subst h2; exact .refl p⟩

theorem TableStays.trans {a b c : Archetype} (h : TableStays a b) (h' : TableStays b c) : TableStays a c := by
  refine ⟨h'.ids.trans h.ids, h'.look.trans h.look, h'.len.trans h.len, fun j p r h1 h2 => ?_⟩
  have hj := (List.getElem?_eq_some_iff.1 h1).1
  have hj' : j < b.storages.length := by rw [h.len]; exact hj
  have hb : b.storages[j]? = some b.storages[j] := List.getElem?_eq_getElem hj'
  exact (h.col j p _ h1 hb).trans (h'.col j _ r hb h2)

theorem ColumnStays.capOk {p q : EcsId × UVec} (h : ColumnStays p q) (hp : CapOk p.2) : CapOk q.2 := by
  have hsz : q.2.size = p.2.size := congrArg (fun i : TypeInfo => i.layout.size) h.info
  unfold CapOk at *
  rw [hsz]
  rcases h.grow with g | ⟨n, g⟩
  · rw [g]; exact hp
  · right
    rcases hp with hp | ⟨m, hp⟩
    · rw [if_pos hp] at g; exact ⟨n, g⟩
    · by_cases h0 : p.2.cap = 0
      · rw [if_pos h0] at g; exact ⟨n, g⟩
      · rw [if_neg h0] at g; exact ⟨m + n, by rw [g, hp, Nat.pow_add, Nat.mul_assoc]⟩

theorem TableStays.capOk {a a' : Archetype} (h : TableStays a a') (ha : ∀ p ∈ a.storages, CapOk p.2) : ∀ p ∈ a'.storages, CapOk p.2 := by
  intro q hq
  obtain ⟨j, hj⟩ := List.mem_iff_getElem?.1 hq
  have hlt := (List.getElem?_eq_some_iff.1 hj).1
  rw [h.len] at hlt
  have hp : a.storages[j]? = some a.storages[j] := List.getElem?_eq_getElem hlt
  exact (h.col j _ q hp hj).capOk (ha _ (List.getElem_mem hlt))

theorem TablesStay.refl (w : World) : TablesStay w w :=
  ⟨fun _ a h => ⟨a, h, .refl a⟩, fun k a hk ha => by have := (List.getElem?_eq_some_iff.1 ha).1; omega⟩

theorem TablesStay.of_eq {w w' : World} (h : w'.archetypes = w.archetypes) : TablesStay w w' :=
  ⟨fun _ a hk => ⟨a, by rw [h]; exact hk, .refl a⟩, fun k a hk ha => by rw [h] at ha; have := (List.getElem?_eq_some_iff.1 ha).1; omega⟩

theorem TablesStay.trans {w w1 w' : World} (h : TablesStay w w1) (h' : TablesStay w1 w') : TablesStay w w' := by
  constructor
  · intro k a hk
    obtain ⟨b, h1, h2⟩ := h.tab k a hk
    obtain ⟨c, h3, h4⟩ := h'.tab k b h1
    exact ⟨c, h3, h2.trans h4⟩
  · intro k a hk ha p hp
    by_cases hlt : k < w1.archetypes.length
    · have h1 : w1.archetypes[k]? = some w1.archetypes[k] := List.getElem?_eq_getElem hlt
      obtain ⟨a', h2, h3⟩ := h'.tab k _ h1
      rw [ha] at h2; injection h2 with h2; subst h2
      exact h3.capOk (h.new k _ hk h1) p hp
    · exact h'.new k a (by omega) ha p hp

theorem TablesStay.of_set {w w' : World} {k : Nat} {a a' : Archetype} (ha : w.archetypes[k]? = some a)
    (hw : w'.archetypes = w.archetypes.set k a') (h : TableStays a a') : TablesStay w w' := by
  refine ⟨fun j b hb => ?_, fun j b hj hb => by rw [hw] at hb; have := (List.getElem?_eq_some_iff.1 hb).1; rw [List.length_set] at this; omega⟩
  rw [hw, List.getElem?_set]
  by_cases hjk : k = j
  · subst hjk
    have hlt := (List.getElem?_eq_some_iff.1 ha).1
    rw [if_pos rfl, if_pos hlt]
    rw [ha] at hb; injection hb with hb; subst hb
    exact ⟨a', rfl, h⟩
  · rw [if_neg hjk]; exact ⟨b, hb, .refl b⟩

/-- A table that differs in other fields only. -/
theorem TableStays.of_eq {a a' : Archetype} (h1 : a'.compIds = a.compIds) (h2 : a'.compLookup = a.compLookup) (h3 : a'.storages = a.storages) : TableStays a a' :=
  ⟨h1, h2, by rw [h3], fun j p q hp hq => by rw [h3, hp] at hq; injection hq with hq; subst hq; exact .refl p⟩

/-- One column changes. -/
theorem TableStays.of_set {a a' : Archetype} {n : Nat} {s s' : EcsId × UVec} (hs : a.storages[n]? = some s)
    (h1 : a'.compIds = a.compIds) (h2 : a'.compLookup = a.compLookup) (h3 : a'.storages = a.storages.set n s') (h : ColumnStays s s') : TableStays a a' := by
  refine ⟨h1, h2, by rw [h3, List.length_set], fun j p q hp hq => ?_⟩
  rw [h3, List.getElem?_set] at hq
  by_cases hj : n = j
  · subst hj
    rw [if_pos rfl, if_pos (List.getElem?_eq_some_iff.1 hs).1] at hq
    injection hq with hq; subst hq
    rw [hs] at hp; injection hp with hp; subst hp
    exact h
  · rw [if_neg hj, hp] at hq
    injection hq with hq; subst hq; exact .refl p

/-! ## Columns -/

theorem realloc_stays {v v' : UVec} (h : v.realloc = .ok v') : v'.info = v.info ∧ v.cap < v'.cap ∧
    v'.cap = (if v.cap = 0 then 4 * v.size else v.cap) * 2 ^ (if v.cap = 0 then 0 else 1) := by
  unfold UVec.realloc at h
  simp only at h
  split at h
  · cases h
  rename_i h0
  split at h
  · rename_i h1
    split at h
    · cases h
    split at h
    · injection h with h; subst h; exact ⟨rfl, by simp only [h1]; omega, by simp only [if_pos h1, Nat.pow_zero]; omega⟩
    · cases h
  · rename_i h1
    split at h
    · cases h
    split at h
    · split at h
      · split at h
        · injection h with h; subst h; exact ⟨rfl, by simp only; omega, by simp only [if_neg h1, Nat.pow_one]⟩
        · cases h
      · cases h
    · cases h

theorem pushRaw_stays {v v' : UVec} {src : Bytes} (h : v.pushRaw src = .ok v') (id : EcsId) : ColumnStays (id, v) (id, v') := by
  unfold UVec.pushRaw at h
  split at h
  · injection h with h; subst h; exact ⟨rfl, rfl, Nat.le_refl _, Or.inl rfl, fun _ => rfl⟩
  simp only at h
  split at h
  · cases h
  rename_i v1 hr
  have h1 : ColumnStays (id, v) (id, v1) := by
    split at hr
    · obtain ⟨r1, r2, r3⟩ := realloc_stays hr
      exact ⟨rfl, r1, Nat.le_of_lt r2, Or.inr ⟨_, r3⟩, fun e => absurd e (Nat.ne_of_gt r2)⟩
    · injection hr with hr; subst hr; exact .refl _
  split at h
  · cases h
  split at h
  · cases h
  injection h with h; subst h
  exact h1.trans ⟨rfl, rfl, Nat.le_refl _, Or.inl rfl, fun _ => rfl⟩

theorem pop_stays {v v' : UVec} {b : Bool} {evs : List DropEv} (h : v.pop = .ok (b, v', evs)) (id : EcsId) : ColumnStays (id, v) (id, v') := by
  unfold UVec.pop at h
  simp only at h
  split at h
  · split at h
    · cases h
    · injection h with h; injection h with _ h; injection h with h; subst h; exact ⟨rfl, rfl, Nat.le_refl _, Or.inl rfl, fun _ => rfl⟩
  · split at h
    · split at h
      · cases h
      · injection h with h; injection h with _ h; injection h with h; subst h; exact ⟨rfl, rfl, Nat.le_refl _, Or.inl rfl, fun _ => rfl⟩
    · injection h with h; injection h with _ h; injection h with h; subst h; exact .refl _

theorem swapRemove_stays {v v' : UVec} {i : Nat} {evs : List DropEv} (h : v.swapRemove i = .ok (v', evs)) (id : EcsId) : ColumnStays (id, v) (id, v') := by
  unfold UVec.swapRemove at h
  simp only at h
  split at h
  · cases h
  split at h
  · cases h
  split at h
  · split at h
    · split at h
      · cases h
      · rename_i hp
        injection h with h; injection h with h; subst h; exact pop_stays hp id
    · cases h
  · split at h
    · cases h
    split at h
    · split at h
      · cases h
      · rename_i hp
        injection h with h; injection h with h; subst h
        exact ColumnStays.trans (q := (id, { v with mem := UVec.swapRanges v.mem (i * v.size) (v.len - v.size) v.size })) ⟨rfl, rfl, Nat.le_refl _, Or.inl rfl, fun _ => rfl⟩ (pop_stays hp id)
    · cases h

theorem swapMove_stays {v o v' o' : UVec} {i : Nat} (h : v.swapMove o i = .ok (v', o')) (c d : EcsId) :
    ColumnStays (c, v) (c, v') ∧ ColumnStays (d, o) (d, o') := by
  unfold UVec.swapMove at h
  simp only at h
  split at h
  · cases h
  split at h
  · cases h
  split at h
  · cases h
  split at h
  · injection h with h; injection h with h1 h2; subst h1 h2
    exact ⟨⟨rfl, rfl, Nat.le_refl _, Or.inl rfl, fun _ => rfl⟩, ⟨rfl, rfl, Nat.le_refl _, Or.inl rfl, fun _ => rfl⟩⟩
  split at h
  · split at h
    · cases h
    split at h
    · cases h
    rename_i hp
    injection h with h; injection h with h1 h2; subst h1 h2
    exact ⟨⟨rfl, rfl, Nat.le_refl _, Or.inl rfl, fun _ => rfl⟩, pushRaw_stays hp d⟩
  · split at h
    · cases h
    split at h
    · split at h
      · cases h
      split at h
      · cases h
      rename_i hp
      injection h with h; injection h with h1 h2; subst h1 h2
      exact ⟨⟨rfl, rfl, Nat.le_refl _, Or.inl rfl, fun _ => rfl⟩, pushRaw_stays hp d⟩
    · cases h

/-! ## Lists of columns -/

/-- The columns at corresponding positions. -/
def ColsStay (st st' : List (EcsId × UVec)) : Prop :=
  st'.length = st.length ∧ ∀ (j : Nat) (p q : EcsId × UVec), st[j]? = some p → st'[j]? = some q → ColumnStays p q

theorem ColsStay.refl (st : List (EcsId × UVec)) : ColsStay st st :=
  ⟨rfl, fun j p q h1 h2 => by rw [h1] at h2; injection h2 with h2; subst h2; exact .refl p⟩

theorem ColsStay.cons {p q : EcsId × UVec} {st st' : List (EcsId × UVec)} (h : ColumnStays p q) (hs : ColsStay st st') : ColsStay (p :: st) (q :: st') := by
  refine ⟨by simp only [List.length_cons, hs.1], ?_⟩
  intro j x y hx hy
  cases j with
  | zero => simp only [List.getElem?_cons_zero] at hx hy; injection hx with hx; injection hy with hy; subst hx hy; exact h
  | succ j => simp only [List.getElem?_cons_succ] at hx hy; exact hs.2 j x y hx hy

theorem ColsStay.trans {a b c : List (EcsId × UVec)} (h : ColsStay a b) (h' : ColsStay b c) : ColsStay a c := by
  refine ⟨h'.1.trans h.1, fun j p r h1 h2 => ?_⟩
  have hj := (List.getElem?_eq_some_iff.1 h1).1
  have hb : b[j]? = some (b[j]'(by rw [h.1]; exact hj)) := List.getElem?_eq_getElem _
  exact (h.2 j p _ h1 hb).trans (h'.2 j _ r hb h2)

theorem ColsStay.set {st : List (EcsId × UVec)} {n : Nat} {s s' : EcsId × UVec} (hs : st[n]? = some s) (h : ColumnStays s s') : ColsStay st (st.set n s') := by
  refine ⟨by rw [List.length_set], fun j p q hp hq => ?_⟩
  rw [List.getElem?_set] at hq
  by_cases hj : n = j
  · subst hj
    rw [if_pos rfl, if_pos (List.getElem?_eq_some_iff.1 hs).1] at hq
    injection hq with hq; subst hq
    rw [hs] at hp; injection hp with hp; subst hp
    exact h
  · rw [if_neg hj, hp] at hq
    injection hq with hq; subst hq; exact .refl p

theorem swapRemoveAll_stays {row : Nat} {st st' : List (EcsId × UVec)} {evs : List DropEv} (h : swapRemoveAll row st = .ok (st', evs)) : ColsStay st st' := by
  induction st generalizing st' evs with
  | nil => unfold swapRemoveAll at h; injection h with h; injection h with h; subst h; exact .refl _
  | cons p st ih =>
    obtain ⟨id, v⟩ := p
    unfold swapRemoveAll at h
    split at h
    · cases h
    rename_i h1
    split at h
    · cases h
    rename_i h2
    injection h with h; injection h with h; subst h
    exact .cons (swapRemove_stays h1 id) (ih h2)

theorem moveAdd_stays {c : EcsId} {row : Nat} : ∀ (tar : List (EcsId × UVec)) {n : Nat} {sk : Option Nat} {cur cur' tar' : List (EcsId × UVec)} {sk' : Option Nat},
    moveAdd c row n sk cur tar = .ok (cur', tar', sk') → ColsStay cur cur' ∧ ColsStay tar tar' := by
  intro tar
  induction tar with
  | nil =>
    intro n sk cur cur' tar' sk' h
    cases cur with
    | nil => unfold moveAdd at h; injection h with h; injection h with h1 h; injection h with h2 h; subst h1 h2; exact ⟨.refl _, .refl _⟩
    | cons x xs => unfold moveAdd at h; injection h with h; injection h with h1 h; injection h with h2 h; subst h1 h2; exact ⟨.refl _, .refl _⟩
  | cons t ts ih =>
    intro n sk cur cur' tar' sk' h
    cases cur with
    | nil => unfold moveAdd at h; injection h with h; injection h with h1 h; injection h with h2 h; subst h1 h2; exact ⟨.refl _, .refl _⟩
    | cons x xs =>
      unfold moveAdd at h
      split at h
      · split at h
        · cases h
        split at h
        · cases h
        rename_i hm
        injection h with h; injection h with h1 h; injection h with h2 h; subst h1 h2
        obtain ⟨i1, i2⟩ := ih hm
        exact ⟨i1, .cons (.refl _) i2⟩
      · split at h
        · cases h
        rename_i hs
        split at h
        · cases h
        rename_i hm
        injection h with h; injection h with h1 h; injection h with h2 h; subst h1 h2
        obtain ⟨i1, i2⟩ := ih hm
        obtain ⟨j1, j2⟩ := swapMove_stays hs x.1 t.1
        exact ⟨.cons j1 i1, .cons j2 i2⟩

theorem moveRemove_stays {c : EcsId} {row : Nat} : ∀ (cur : List (EcsId × UVec)) {n : Nat} {sk : Option Nat} {tar cur' tar' : List (EcsId × UVec)} {sk' : Option Nat},
    moveRemove c row n sk cur tar = .ok (cur', tar', sk') → ColsStay cur cur' ∧ ColsStay tar tar' := by
  intro cur
  induction cur with
  | nil =>
    intro n sk tar cur' tar' sk' h
    unfold moveRemove at h; injection h with h; injection h with h1 h; injection h with h2 h; subst h1 h2; exact ⟨.refl _, .refl _⟩
  | cons x xs ih =>
    intro n sk tar cur' tar' sk' h
    unfold moveRemove at h
    split at h
    · split at h
      · cases h
      split at h
      · cases h
      rename_i hm
      injection h with h; injection h with h1 h; injection h with h2 h; subst h1 h2
      obtain ⟨i1, i2⟩ := ih hm
      exact ⟨.cons (.refl _) i1, i2⟩
    · split at h
      · injection h with h; injection h with h1 h; injection h with h2 h; subst h1 h2; exact ⟨.refl _, .refl _⟩
      · split at h
        · cases h
        rename_i hs
        split at h
        · cases h
        rename_i hm
        injection h with h; injection h with h1 h; injection h with h2 h; subst h1 h2
        obtain ⟨i1, i2⟩ := ih hm
        obtain ⟨j1, j2⟩ := swapMove_stays hs _ _
        exact ⟨.cons j1 i1, .cons j2 i2⟩

/-- `x` keeps the tables, whether it panics or not. -/
def StaysM {α : Type} (x : M α) (w : World) : Prop := Tri x w (fun _ w' => TablesStay w w') (fun _ w' => TablesStay w w')

theorem StaysM.pure {α : Type} (a : α) (w : World) : StaysM (pure a) w := TablesStay.refl w
theorem StaysM.throw {α : Type} (f : Fault) (w : World) : StaysM (α := α) (throw f) w := TablesStay.refl w

theorem StaysM.get (w : World) : StaysM get w := TablesStay.refl w

theorem StaysM.liftE {α : Type} (x : Except Fault α) (w : World) : StaysM (liftE x) w := by
  unfold StaysM; rw [tri_liftE]; cases x <;> exact .refl w

theorem StaysM.bind {α β : Type} {x : M α} {f : α → M β} {w : World} (hx : StaysM x w) (hf : ∀ a w', x w = .ok a w' → StaysM (f a) w') : StaysM (x >>= f) w := by
  unfold StaysM
  rw [tri_bind]
  refine hx.with_eq.imp ?_ ?_
  · rintro a w' ⟨he, h⟩
    exact (hf a w' he).imp (fun _ _ h' => h.trans h') (fun _ _ h' => h.trans h')
  · exact fun _ _ h => h.2

/-- Like `bind` when the result does not matter. -/
theorem StaysM.bind' {α β : Type} {x : M α} {f : α → M β} {w : World} (hx : StaysM x w) (hf : ∀ a w', StaysM (f a) w') : StaysM (x >>= f) w :=
  hx.bind (fun a w' _ => hf a w')

theorem StaysM.step {g : World → Except Fault World} {w : World} (h : ∀ w', g w = .ok w' → TablesStay w w') : StaysM (step g) w := by
  unfold StaysM; rw [tri_step]
  cases hg : g w with
  | ok w' => exact h w' hg
  | error f => exact .refl w

theorem StaysM.modify {g : World → World} {w : World} (h : TablesStay w (g w)) : StaysM (modify g) w := h

theorem StaysM.set {w w' : World} (h : TablesStay w w') : StaysM (set w') w := h

theorem StaysM.ite {α : Type} {c : Prop} [Decidable c] {x y : M α} {w : World} (hx : StaysM x w) (hy : StaysM y w) : StaysM (if c then x else y) w := by
  by_cases h : c
  · rw [if_pos h]; exact hx
  · rw [if_neg h]; exact hy

/-! ## Pure parts -/

theorem ensureLock_tables (w : World) (id : EcsId) : TablesStay w (ensureLock w id) := by
  unfold ensureLock; split <;> exact .of_eq rfl

theorem ensureLocks_tables (ids : List EcsId) : ∀ w : World, TablesStay w (ids.foldl ensureLock w) := by
  induction ids with
  | nil => exact fun w => .refl w
  | cons id ids ih => exact fun w => (ensureLock_tables w id).trans (ih _)

theorem pushArchetype_tables {w w' : World} {a : Archetype} (h : pushArchetype w a = .ok w') (hc : ∀ p ∈ a.storages, CapOk p.2) : TablesStay w w' := by
  unfold pushArchetype at h
  split at h
  · cases h
  · split at h
    · cases h
    · injection h with h; subst h
      refine ⟨fun k b hb => ?_, fun k b hk hb => ?_⟩
      · exact ⟨b, by simp only; rw [List.getElem?_append_left (List.getElem?_eq_some_iff.1 hb).1]; exact hb, .refl b⟩
      · have hlt := (List.getElem?_eq_some_iff.1 hb).1
        simp only [List.length_append, List.length_singleton] at hlt
        have hkl : k = w.archetypes.length := by omega
        subst hkl
        simp only [List.getElem?_concat_length] at hb
        injection hb with hb; subst hb
        exact hc

theorem insertCache_tables {w w' : World} {k t : Nat} {id : EcsId} (h : insertCache w k id t = .ok w') : TablesStay w w' := by
  unfold insertCache at h
  split at h
  · cases h
  · rename_i ha
    split at h
    · cases h
    · injection h with h; subst h; exact .of_set ha rfl (.of_eq rfl rfl rfl)

theorem tryFindNext_tables {w w' : World} {k : Nat} {id : EcsId} {r : Option Nat} (h : tryFindNext w k id = .ok (r, w')) : TablesStay w w' := by
  unfold tryFindNext at h
  split at h
  · cases h
  · rename_i ha
    split at h
    · cases h
    · injection h with h; injection h with _ h; subst h; exact .of_set ha rfl (.of_eq rfl rfl rfl)

theorem setEntityMeta_tables {w w' : World} {e : EcsId} {m : EntityMeta} (h : setEntityMeta w e m = .ok w') : TablesStay w w' := by
  unfold setEntityMeta at h
  split at h
  · cases h
  · injection h with h; subst h; exact .refl _
  · split at h <;> (injection h with h; subst h; exact .of_eq rfl)

theorem finishMove_tables {w w' : World} {cur tar : Nat} {a b a' b' : Archetype} {e : EcsId} {row : Nat} (hne : cur ≠ tar)
    (ha : w.archetypes[cur]? = some a) (hb : w.archetypes[tar]? = some b)
    (h : finishMove w cur tar a' b' e row = .ok w') (sa : TableStays a a') (sb : TableStays b b') : TablesStay w w' := by
  have key : ∀ (u : World) (l l' : List EcsId), u.archetypes = (w.archetypes.set cur { a' with entities := l }).set tar { b' with entities := l' } → TablesStay w u := by
    intro u l l' hu
    have h1 : TablesStay w { w with archetypes := w.archetypes.set cur { a' with entities := l } } :=
      .of_set ha rfl (sa.trans (.of_eq rfl rfl rfl))
    refine h1.trans (.of_set (a := b) (a' := { b' with entities := l' }) ?_ hu (sb.trans (.of_eq rfl rfl rfl)))
    simp only
    rw [List.getElem?_set_ne hne]; exact hb
  unfold finishMove at h
  simp only at h
  split at h
  · cases h
  · split at h
    · split at h
      · injection h with h; subst h; exact key _ _ _ rfl
      · split at h
        · cases h
        · injection h with h; subst h; exact key _ _ _ rfl
    · cases h

theorem indexTwice_some {α : Type} {i j : Nat} {l : List α} {a b : α} (h : indexTwice i j l = .ok (a, b)) :
    i ≠ j ∧ l[i]? = some a ∧ l[j]? = some b := by
  unfold indexTwice at h
  split at h
  · rename_i hij
    split at h
    · split at h
      · rename_i h1 h2
        injection h with h; injection h with e1 e2; subst e1 e2
        rw [List.getElem?_take, if_pos hij] at h1
        rw [List.getElem?_drop] at h2
        exact ⟨by omega, h1, h2⟩
      · cases h
    · cases h
  · split at h
    · rename_i hij
      split at h
      · split at h
        · rename_i h1 h2
          injection h with h; injection h with e1 e2; subst e1 e2
          rw [List.getElem?_take, if_pos hij] at h2
          rw [List.getElem?_drop] at h1
          exact ⟨by omega, h1, h2⟩
        · cases h
      · cases h
    · cases h

theorem moveAddRow_tables {w w' : World} {cur tar : Nat} {e c : EcsId} {row : Nat} {src : Bytes} (h : moveAddRow cur tar e row c src w = .ok w') :
    TablesStay w w' := by
  unfold moveAddRow at h
  split at h
  · cases h
  rename_i hi
  obtain ⟨hne, ha, hb⟩ := indexTwice_some hi
  split at h
  · cases h
  rename_i hm
  obtain ⟨m1, m2⟩ := moveAdd_stays _ hm
  split at h
  · cases h
  split at h
  · cases h
  rename_i hs
  split at h
  · cases h
  rename_i hp
  have m3 := m2.trans (.set hs (pushRaw_stays hp _))
  exact finishMove_tables hne ha hb h ⟨rfl, rfl, m1.1, m1.2⟩ ⟨rfl, rfl, m3.1, m3.2⟩

theorem moveRemoveRow_tables {w w' : World} {cur tar : Nat} {e c : EcsId} {row : Nat} (h : moveRemoveRow cur tar e row c w = .ok w') :
    TablesStay w w' := by
  unfold moveRemoveRow at h
  split at h
  · cases h
  rename_i hi
  obtain ⟨hne, ha, hb⟩ := indexTwice_some hi
  split at h
  · cases h
  rename_i hm
  obtain ⟨m1, m2⟩ := moveRemove_stays _ hm
  simp only at h
  split at h
  · cases h
  split at h
  · cases h
  rename_i hs
  split at h
  · cases h
  rename_i hp
  split at h
  · cases h
  rename_i hf
  injection h with h; subst h
  have m3 := m1.trans (.set hs (swapRemove_stays hp _))
  exact (finishMove_tables hne ha hb hf ⟨rfl, rfl, m3.1, m3.2⟩ ⟨rfl, rfl, m2.1, m2.2⟩).trans (.of_eq rfl)

theorem adespawn_stays {a a' : Archetype} {e : EcsId} {row : Nat} {ms ms' : List (Option EntityMeta)} {evs : List DropEv}
    (h : a.despawn e row ms = .ok (a', ms', evs)) : TableStays a a' := by
  unfold Archetype.despawn at h
  simp only at h
  split at h
  · cases h
  split at h
  · cases h
  split at h
  · cases h
  rename_i hs
  have := swapRemoveAll_stays hs
  split at h
  · split at h
    · injection h with h; injection h with h; subst h; exact ⟨rfl, rfl, this.1, this.2⟩
    · split at h
      · cases h
      · injection h with h; injection h with h; subst h; exact ⟨rfl, rfl, this.1, this.2⟩
  · cases h

/-! ## Operations -/

theorem fromArchetype_caps (a : Archetype) : ∀ p ∈ a.fromArchetype.storages, CapOk p.2 := by
  intro p hp
  obtain ⟨q, _, rfl⟩ := List.mem_map.1 hp
  exact Or.inl rfl

theorem fromWith_caps {a n : Archetype} {i : TypeInfo} {c : EcsId} (h : a.fromArchetypeWith i c = .ok n) : ∀ p ∈ n.storages, CapOk p.2 := by
  unfold Archetype.fromArchetypeWith at h
  simp only at h
  split at h
  · cases h
  split at h
  · injection h with h; subst h
    intro p hp
    rcases List.mem_append.1 ((mem_stableSort _ _).1 hp) with hp | hp
    · exact fromArchetype_caps a p hp
    · rw [List.mem_singleton] at hp; subst hp; exact Or.inl rfl
  · cases h

theorem fromWithout_caps {a n : Archetype} {c : EcsId} (h : a.fromArchetypeWithout c = .ok n) : ∀ p ∈ n.storages, CapOk p.2 := by
  unfold Archetype.fromArchetypeWithout at h
  simp only at h
  split at h
  · cases h
  split at h
  · split at h
    · injection h with h; subst h
      intro p hp
      exact fromArchetype_caps a p (List.mem_of_mem_eraseIdx ((mem_stableSort _ _).1 hp))
    · cases h
  · cases h

theorem createPlus_tables (cur : Nat) (c : EcsId) (w : World) : StaysM (createPlus cur c) w := by
  unfold createPlus
  refine (StaysM.modify (ensureLock_tables w c)).bind' fun _ w => (StaysM.get w).bind' fun v w => (StaysM.liftE _ w).bind' fun _ w => (StaysM.liftE _ w).bind' fun _ w =>
    (StaysM.liftE _ w).bind' fun _ w => (StaysM.liftE _ w).bind fun n w1 hn => (StaysM.step fun _ h => pushArchetype_tables h (fromWith_caps (liftE_ok hn).1)).bind' fun _ w => (StaysM.get w).bind' fun _ w =>
    (StaysM.step fun _ h => insertCache_tables h).bind' fun _ w => StaysM.pure _ w

theorem createMinus_tables (cur : Nat) (c : EcsId) (w : World) : StaysM (createMinus cur c) w := by
  unfold createMinus
  refine (StaysM.get w).bind' fun v w => (StaysM.liftE _ w).bind' fun _ w => (StaysM.liftE _ w).bind fun n w1 hn =>
    (StaysM.step fun _ h => pushArchetype_tables h (fromWithout_caps (liftE_ok hn).1)).bind' fun _ w => (StaysM.get w).bind' fun _ w =>
    (StaysM.step fun _ h => insertCache_tables h).bind' fun _ w => StaysM.pure _ w

theorem resolveAdd_tables (cur : Nat) (c : EcsId) (w : World) : StaysM (resolveAdd cur c) w := by
  unfold resolveAdd
  refine (StaysM.get w).bind fun v w1 h1 => ?_
  injection h1 with h1 h1'; subst h1 h1'
  refine (StaysM.liftE _ _).bind fun a w2 h2 => ?_
  obtain ⟨_, rfl⟩ := liftE_ok h2
  refine StaysM.ite (StaysM.throw _ _) ?_
  refine (StaysM.liftE _ _).bind fun x w3 h3 => ?_
  obtain ⟨h3, rfl⟩ := liftE_ok h3
  obtain ⟨r, w4⟩ := x
  refine (StaysM.set (tryFindNext_tables h3)).bind' fun _ w => ?_
  cases r with
  | some k => exact StaysM.pure _ _
  | none =>
    refine (StaysM.liftE _ _).bind' fun found w => ?_
    cases found with
    | some k => exact (StaysM.step fun _ h => insertCache_tables h).bind' fun _ w => StaysM.pure _ w
    | none => exact createPlus_tables _ _ _

theorem resolveRemove_tables (cur : Nat) (c : EcsId) (w : World) : StaysM (resolveRemove cur c) w := by
  unfold resolveRemove
  refine (StaysM.get w).bind fun v w1 h1 => ?_
  injection h1 with h1 h1'; subst h1 h1'
  refine (StaysM.liftE _ _).bind fun a w2 h2 => ?_
  obtain ⟨_, rfl⟩ := liftE_ok h2
  refine StaysM.ite (StaysM.throw _ _) ?_
  refine (StaysM.liftE _ _).bind fun x w3 h3 => ?_
  obtain ⟨h3, rfl⟩ := liftE_ok h3
  obtain ⟨r, w4⟩ := x
  refine (StaysM.set (tryFindNext_tables h3)).bind' fun _ w => ?_
  cases r with
  | some k => exact StaysM.pure _ _
  | none =>
    refine (StaysM.liftE _ _).bind' fun found w => ?_
    cases found with
    | some k => exact (StaysM.step fun _ h => insertCache_tables h).bind' fun _ w => StaysM.pure _ w
    | none => exact createMinus_tables _ _ _

theorem addDyn_tables (e c : EcsId) (src : Bytes) (w : World) : StaysM (addComponentDynamicWithData e c src) w := by
  unfold addComponentDynamicWithData
  refine (StaysM.get w).bind' fun v w => (StaysM.liftE _ w).bind' fun _ w => StaysM.ite (StaysM.pure _ w) <| (StaysM.liftE _ w).bind' fun _ w =>
    StaysM.ite (StaysM.pure _ w) <| (StaysM.liftE _ w).bind' fun _ w => (StaysM.liftE _ w).bind' fun _ w => (resolveAdd_tables _ _ w).bind' fun _ w =>
    StaysM.step fun _ h => moveAddRow_tables h

theorem removeDyn_tables (e c : EcsId) (w : World) : StaysM (removeComponentDynamic e c) w := by
  unfold removeComponentDynamic
  refine (StaysM.get w).bind' fun v w => (StaysM.liftE _ w).bind' fun _ w => StaysM.ite (StaysM.pure _ w) <| (StaysM.liftE _ w).bind' fun _ w =>
    StaysM.ite (StaysM.pure _ w) <| (StaysM.liftE _ w).bind' fun _ w => (StaysM.liftE _ w).bind' fun _ w => (resolveRemove_tables _ _ w).bind' fun _ w =>
    StaysM.step fun _ h => moveRemoveRow_tables h

theorem addZst_tables (e c : EcsId) (w : World) : StaysM (addComponentDynamic e c) w := by
  unfold addComponentDynamic
  refine (StaysM.get w).bind' fun v w => (StaysM.liftE _ w).bind' fun _ w => StaysM.ite (StaysM.throw _ w) <| (StaysM.liftE _ w).bind' fun _ w =>
    StaysM.ite (StaysM.throw _ w) <| (StaysM.liftE _ w).bind' fun _ w => (StaysM.liftE _ w).bind' fun _ w => StaysM.ite (StaysM.throw _ w) <| addDyn_tables _ _ _ w

theorem despawn_tables (e : EcsId) (w : World) : StaysM (despawn e) w := by
  unfold despawn
  refine (StaysM.get w).bind' fun v w => (StaysM.liftE _ w).bind' fun _ w => StaysM.ite (StaysM.pure _ w) <| StaysM.ite (StaysM.throw _ w) <|
    (StaysM.liftE _ w).bind' fun _ w => (StaysM.liftE _ w).bind' fun _ w => (StaysM.step fun w' h => ?_).bind' fun _ w => (StaysM.step fun w' h => ?_).bind' fun _ w => StaysM.pure _ w
  · split at h
    · cases h
    · rename_i ha
      split at h
      · cases h
      · rename_i hd
        injection h with h; subst h; exact .of_set ha rfl (adespawn_stays hd)
  · split at h
    · cases h
    · injection h with h; subst h; exact .of_eq rfl

theorem bdrop_tables (b : Builder) (w : World) : StaysM b.drop w := by
  unfold StaysM Tri Builder.drop
  repeat' split
  all_goals simp_all
  all_goals (try (rename_i h; repeat' split at h))
  all_goals (try cases h)
  all_goals (try obtain ⟨rfl, rfl⟩ := h)
  all_goals (try subst_vars)
  all_goals exact .of_eq rfl

theorem bnew_tables (e : EcsId) (m : ComponentMeta) (w : World) : StaysM (Builder.new e m) w := by
  unfold StaysM Tri Builder.new
  cases h : w.reuse with
  | none => exact .refl w
  | some x => exact .of_eq rfl

theorem bcap_tables (e : EcsId) (m : ComponentMeta) (n : Nat) (w : World) : StaysM (Builder.withCapacity e m n) w := by
  unfold StaysM Tri Builder.withCapacity
  cases h : w.reuse with
  | none =>
    simp only
    by_cases h0 : n = 0
    · simp only [if_pos h0]; exact .refl w
    · simp only [if_neg h0]
      by_cases h1 : layoutOk n 0 = true
      · simp only [if_pos h1]; exact .refl w
      · simp only [if_neg h1]; exact .refl w
  | some x => exact .of_eq rfl

theorem orDrop_tables {α : Type} {b : Builder} {x : M α} {w : World} (h : StaysM x w) : StaysM (b.orDrop x) w := by
  unfold StaysM Tri Builder.orDrop at *
  cases hx : x w with
  | ok a w' => rw [hx] at h; exact h
  | error f w' =>
    rw [hx] at h
    have hb := bdrop_tables b w'
    unfold StaysM Tri at hb
    cases hd : b.drop w' with
    | ok u w2 => rw [hd] at hb; simp only [hd]; exact TablesStay.trans h hb
    | error f2 w2 => rw [hd] at hb; simp only [hd]; exact TablesStay.trans h hb

theorem pushComps_tables (b : Builder) (k : Nat) (ids : List EcsId) : ∀ (off : Nat) (w : World), StaysM (b.pushComps k off ids) w := by
  induction ids with
  | nil => exact fun _ w => StaysM.pure _ w
  | cons id ids ih =>
    intro off w
    unfold Builder.pushComps
    refine (StaysM.get w).bind' fun v w => (StaysM.liftE _ w).bind' fun _ w => (StaysM.liftE _ w).bind' fun _ w => (StaysM.step fun w' h => ?_).bind' fun _ w =>
      (StaysM.get w).bind' fun v w => (StaysM.liftE _ w).bind' fun _ w => ih _ w
    split at h
    · cases h
    rename_i ha
    split at h
    · cases h
    split at h
    · cases h
    rename_i hs
    split at h
    · cases h
    rename_i hp
    injection h with h; subst h
    exact .of_set ha rfl (.of_set hs rfl rfl rfl (pushRaw_stays hp _))

theorem failDropping_tables {α : Type} (f : Fault) (st : List (EcsId × UVec)) (w : World) : StaysM (α := α) (failDropping f st) w := by
  unfold StaysM Tri failDropping
  cases dropStorages st with
  | ok evs => exact .of_eq rfl
  | error f => exact .refl w

theorem createArchetype_tables (b : Builder) (w : World) : StaysM b.createArchetype w := by
  unfold Builder.createArchetype
  refine (StaysM.get w).bind' fun v w => ?_
  split
  · exact failDropping_tables _ _ _
  · simp only
    split
    · exact failDropping_tables _ _ _
    · exact StaysM.ite (StaysM.pure _ _) (failDropping_tables _ _ _)

theorem createStorages_caps (b : Builder) (w : World) (ids : List EcsId) : ∀ {off : Nat} {acc st : List (EcsId × UVec)},
    b.createStorages w off ids acc = .ok st → (∀ p ∈ acc, CapOk p.2) → ∀ p ∈ st, CapOk p.2 := by
  induction ids with
  | nil => intro off acc st h ha; unfold Builder.createStorages at h; injection h with h; subst h; exact ha
  | cons id ids ih =>
    intro off acc st h ha
    unfold Builder.createStorages at h
    split at h
    · cases h
    · cases h
    · split at h
      · cases h
      · rename_i hp
        refine ih h ?_
        intro p hp'
        rcases List.mem_append.1 hp' with hp' | hp'
        · exact ha p hp'
        · rw [List.mem_singleton] at hp'; subst hp'
          exact (pushRaw_stays hp id).capOk (Or.inl rfl)

theorem failDropping_tri {α : Type} (f : Fault) (st : List (EcsId × UVec)) (w : World) (Q : α → World → Prop) :
    Tri (failDropping f st) w Q (fun _ _ => True) := by
  unfold Tri failDropping
  cases dropStorages st <;> trivial

theorem createArchetype_caps (b : Builder) (w : World) :
    Tri b.createArchetype w (fun r _ => ∀ p ∈ r.2.storages, CapOk p.2) (fun _ _ => True) := by
  unfold Builder.createArchetype
  rw [tri_bind, tri_get]
  cases hst : b.createStorages w 0 b.compIds [] with
  | error r => exact failDropping_tri _ _ _ _
  | ok st =>
    simp only
    cases Builder.checkedLookup (stableSort EcsId.lt b.compIds).zipIdx (fun _ => none) with
    | error f => exact failDropping_tri _ _ _ _
    | ok l =>
      simp only
      by_cases hg : idsAgree (stableSort EcsId.lt b.compIds) (stableSort storageLt st) = true
      · rw [if_pos hg, tri_pure]
        intro p hp
        exact createStorages_caps b w b.compIds hst (by simp) p ((mem_stableSort _ _).1 hp)
      · rw [if_neg hg]; exact failDropping_tri _ _ _ _

theorem build_tables (b : Builder) (w : World) : StaysM b.build w := by
  unfold Builder.build
  refine (StaysM.get w).bind' fun v w => (StaysM.liftE _ w).bind' fun found w => ?_
  cases found with
  | some k =>
    refine (StaysM.step fun w' h => ?_).bind' fun _ w => (pushComps_tables _ _ _ _ w).bind' fun _ w => (StaysM.get w).bind' fun v w => (StaysM.liftE _ w).bind' fun _ w =>
      (StaysM.step fun w' h => setEntityMeta_tables h).bind' fun _ w => StaysM.pure _ w
    split at h
    · cases h
    · rename_i ha
      injection h with h; subst h; exact .of_set ha rfl (.of_eq rfl rfl rfl)
  | none =>
    exact (StaysM.modify (ensureLocks_tables _ w)).bind' fun _ w => (createArchetype_tables _ w).bind fun _ w hx =>
      (StaysM.step fun w' h => pushArchetype_tables h ((createArchetype_caps _ _).ok hx)).bind' fun _ w => (StaysM.get w).bind' fun _ w =>
      (StaysM.step fun w' h => setEntityMeta_tables h).bind' fun _ w => StaysM.pure _ w

theorem spawnId_tables (w : World) : StaysM spawnId w := by
  unfold StaysM Tri spawnId
  cases h : w.entities.spawn with
  | mk r s => cases r <;> exact .of_eq rfl

theorem getOrCreate_tables (t : Ty) (w : World) : StaysM (getOrCreate t) w := by
  unfold getOrCreate
  refine (StaysM.get w).bind' fun v w => ?_
  cases v.typeMap t with
  | some id => exact StaysM.pure _ w
  | none =>
    refine (spawnId_tables w).bind' fun _ w => (bnew_tables _ _ w).bind' fun b w => (orDrop_tables (build_tables b w)).bind' fun _ w => (bdrop_tables _ w).bind' fun _ w =>
      (StaysM.step fun w' h => ?_).bind' fun _ w => (StaysM.modify (.of_eq rfl)).bind' fun _ w => StaysM.pure _ w
    split at h
    · cases h
    · cases h
    · injection h with h; subst h; exact .of_eq rfl

theorem act_tables (b : Builder) (a : BAct) (w : World) : StaysM (b.act a) w := by
  unfold Builder.act
  refine orDrop_tables ?_
  cases a with
  | «with» t v => exact (getOrCreate_tables t w).bind' fun _ w => (StaysM.get w).bind' fun _ w => StaysM.liftE _ w
  | withDynamic id => exact (StaysM.get w).bind' fun _ w => StaysM.liftE _ w
  | withDynamicWithData id v => exact (StaysM.get w).bind' fun _ w => StaysM.liftE _ w
  | build => exact build_tables b w

theorem acts_tables (as : List BAct) : ∀ (b : Builder) (w : World), StaysM (b.acts as) w := by
  induction as with
  | nil => exact fun b w => StaysM.pure b w
  | cons a as ih => exact fun b w => (act_tables b a w).bind' fun b w => ih b w

theorem spawnWith_tables (kind : SpawnKind) (as : List BAct) (w : World) : StaysM (spawnWith kind as) w := by
  unfold spawnWith
  refine (spawnId_tables w).bind' fun e w => StaysM.bind' ?_ fun b w => (acts_tables as b w).bind' fun b w => (bdrop_tables b w).bind' fun _ w => StaysM.pure _ w
  cases kind with
  | plain => exact bnew_tables _ _ w
  | capacity n => exact bcap_tables _ _ _ w
  | withMeta m => exact bnew_tables _ _ w

theorem addComponent_tables (e : EcsId) (t : Ty) (v : Bytes) (w : World) : StaysM (addComponent e t v) w := by
  unfold addComponent
  refine StaysM.bind' ?_ fun _ w => addDyn_tables _ _ _ w
  have : StaysM (do
      let w ← get
      let alive ← liftE (w.isAlive e)
      if !alive then throw .notAlive
      getOrCreate t) w :=
    (StaysM.get w).bind' fun v w => (StaysM.liftE _ w).bind' fun _ w => StaysM.ite (StaysM.throw _ w) (getOrCreate_tables t w)
  unfold StaysM Tri orDropValue at *
  revert this
  cases (do
      let w ← get
      let alive ← liftE (w.isAlive e)
      if !alive then throw .notAlive
      getOrCreate t : M EcsId) w with
  | ok a w' => exact fun h => h
  | error f w' => exact fun h => h.trans (.of_eq rfl)

theorem removeComponent_tables (e : EcsId) (t : Ty) (w : World) : StaysM (removeComponent e t) w := by
  unfold removeComponent
  exact (StaysM.get w).bind' fun v w => (StaysM.liftE _ w).bind' fun _ w => StaysM.ite (StaysM.throw _ w) <| (getOrCreate_tables t w).bind' fun _ w => removeDyn_tables _ _ w

theorem writePtr_tables {w w' : World} {p : Ptr} {bs : Bytes} (h : w.writePtr p bs = .ok w') : TablesStay w w' := by
  unfold writePtr at h
  split at h
  · split at h
    · cases h
    rename_i ha
    split at h
    · cases h
    rename_i hs
    split at h
    · injection h with h; subst h; exact .refl w
    simp only at h
    split at h
    · injection h with h; subst h
      exact .of_set ha rfl (.of_set hs rfl rfl rfl ⟨rfl, rfl, Nat.le_refl _, Or.inl rfl, fun _ => rfl⟩)
    · cases h
  · cases h

theorem exec_tables (c : Call) (w : World) : StaysM c.exec w := by
  cases c with
  | spawn kind acts => exact (spawnWith_tables kind acts w).bind' fun _ w => StaysM.pure _ w
  | addComponent e t v => exact addComponent_tables e t v w
  | removeComponent e t => exact removeComponent_tables e t w
  | addDynamic e c => exact addZst_tables e c w
  | addDynamicWithData e c src => exact addDyn_tables e c src w
  | removeDynamic e c => exact removeDyn_tables e c w
  | despawn e => exact (despawn_tables e w).bind' fun _ w => StaysM.pure _ w
  | register t => exact (getOrCreate_tables t w).bind' fun _ w => StaysM.pure _ w
  | write e c bs =>
    unfold Call.exec
    refine (StaysM.get w).bind' fun v w => (StaysM.liftE _ w).bind' fun p w => ?_
    cases p with
    | none => exact StaysM.pure _ w
    | some p => exact StaysM.step fun _ h => writePtr_tables h
  | query ps b =>
    refine StaysM.bind' ?_ fun q w => ?_
    · unfold StaysM Tri World.query
      cases allFetches w ps with
      | none => exact .refl w
      | some fs =>
        simp only
        cases acquireAllStatic w [] w.locks fs <;> exact .of_eq rfl
    · exact .of_eq rfl
  | queryDynamic fs b =>
    refine StaysM.bind' ?_ fun q w => ?_
    · unfold StaysM Tri World.queryDynamic
      cases acquireAllDyn w [] false w.locks fs <;> exact .of_eq rfl
    · exact .of_eq rfl

end Ellecs
