import Verif.Proofs.Effect
import Verif.Spec.Query
/-! # Lemmas about queries -/
namespace Ellecs

/-! ## Iterators -/

theorem Pairs.map_left {α β γ : Type} {R : β → γ → Prop} {f : α → β} {as : List α} {cs : List γ} (h : Pairs (fun a c => R (f a) c) as cs) :
    Pairs R (as.map f) cs := by
  induction h with
  | nil => exact .nil
  | cons h _ ih => exact .cons h ih

theorem Pairs.map_right {α β : Type} {R : α → β → Prop} {f : α → β} {as : List α} (h : ∀ a ∈ as, R a (f a)) : Pairs R as (as.map f) := by
  induction as with
  | nil => exact .nil
  | cons a as ih => exact .cons (h a List.mem_cons_self) (ih (fun b hb => h b (List.mem_cons_of_mem _ hb)))

theorem Pairs.imp {α β : Type} {R S : α → β → Prop} {as : List α} {bs : List β} (h : Pairs R as bs) (hi : ∀ a b, a ∈ as → R a b → S a b) : Pairs S as bs := by
  induction h with
  | nil => exact .nil
  | cons h _ ih => exact .cons (hi _ _ List.mem_cons_self h) (ih (fun a b ha => hi a b (List.mem_cons_of_mem _ ha)))

theorem produces_of {σ α : Type} {next : σ → Except Fault (Option α × σ)} (P : σ → List α → Prop)
    (hnil : ∀ s, P s [] → ∃ s', next s = .ok (none, s') ∧ P s' [])
    (hcons : ∀ s x xs, P s (x :: xs) → ∃ s', next s = .ok (some x, s') ∧ P s' xs) {s : σ} {xs : List α} (h : P s xs) : Produces next s xs := by
  intro n
  induction n generalizing s xs with
  | zero => simp [callN]
  | succ n ih =>
    cases xs with
    | nil =>
      obtain ⟨s', h1, h2⟩ := hnil s h
      have := ih h2
      unfold callN
      rw [h1]
      simp only [this]
      simp [List.replicate_succ]
    | cons x xs =>
      obtain ⟨s', h1, h2⟩ := hcons s x xs h
      have := ih h2
      unfold callN
      rw [h1]
      simp only [this]
      simp [Nat.succ_sub_succ]

namespace BitsetIter

theorem refill_empty (its : List WordIter) : (refill its).2 = [] ↔ its = [] := by
  cases its with
  | nil => simp [refill]
  | cons it its =>
    cases hw : it.words with
    | nil => simp [refill, hw]
    | cons x xs => simp [refill, hw]

theorem body_empty (s : BitsetIter) : (body s).2.iters = [] ↔ s.iters = [] := by
  unfold body
  simp only
  split
  · exact Iff.rfl
  · split
    · simp only
      cases s.iters <;> simp
    · exact Iff.rfl

theorem loop_empty (fuel : Nat) (s : BitsetIter) : (loop fuel s).2.iters = [] ↔ s.iters = [] := by
  induction fuel generalizing s with
  | zero => exact Iff.rfl
  | succ fuel ih =>
    unfold loop
    split
    · have hr := refill_empty s.iters
      revert hr
      generalize refill s.iters = r
      rcases r with ⟨_ | x, its⟩
      · exact fun h => h
      · intro hr
        simp only
        have hb := body_empty { s with iters := its, bitsRemaining := 64, currentBits := x }
        revert hb
        generalize body { s with iters := its, bitsRemaining := 64, currentBits := x } = B
        rcases B with ⟨_ | y, s'⟩
        · intro hb; exact (ih s').trans (hb.trans hr)
        · intro hb; exact hb.trans hr
    · have hb := body_empty s
      revert hb
      generalize body s = B
      rcases B with ⟨_ | y, s'⟩
      · intro hb; exact (ih s').trans hb
      · intro hb; exact hb

/-- The states of an archetype iterator. -/
structure Good (s : BitsetIter) : Prop where
  inv : Inv s
  empty : s.iters = [] → pend s = []

theorem good_new (its : List WordIter) (bl : Nat) : Good (new its bl) :=
  ⟨inv_new its bl, fun h => by
    have : its = [] := h
    subst this; exact pend_new_nil bl⟩

theorem length_wordsFrom (p : Nat) (ws : List Word) : (wordsFrom p ws).length ≤ 64 * ws.length := by
  induction ws generalizing p with
  | nil => simp [wordsFrom]
  | cons x ws ih =>
    have := ih (p + 64)
    have h2 : (bitsFrom p 64 x).length ≤ 64 := by
      unfold bitsFrom
      rw [List.length_map]
      have := List.length_filter_le (fun i => x.getLsbD i) (List.range 64)
      simpa using this
    simp only [wordsFrom, List.length_append, List.length_cons]
    omega

theorem length_foldl_zipAnd (its : List WordIter) (acc : List Word) : (its.foldl zipAnd acc).length ≤ acc.length := by
  induction its generalizing acc with
  | nil => exact Nat.le_refl _
  | cons it its ih =>
    rw [List.foldl_cons]
    refine Nat.le_trans (ih _) ?_
    unfold zipAnd
    rw [List.length_zipWith]
    omega

theorem Good.fuel {s : BitsetIter} (h : Good s) : (pend s).length < World.yieldFuel s := by
  unfold World.yieldFuel
  cases hi : s.iters with
  | nil => rw [h.empty hi]; simp
  | cons it its =>
    simp only
    have h1 : (bitsFrom s.index s.bitsRemaining s.currentBits).length ≤ 64 := by
      unfold bitsFrom
      rw [List.length_map]
      have := List.length_filter_le (fun i => s.currentBits.getLsbD i) (List.range s.bitsRemaining)
      have := h.inv.rem
      simp only [List.length_range] at *
      omega
    have h2 := length_wordsFrom (s.index + s.bitsRemaining) (ands s.iters)
    have h3 : (ands s.iters).length ≤ it.words.length := by
      rw [hi]
      refine Nat.le_trans (length_foldl_zipAnd _ _) ?_
      simp
    unfold pend
    refine Nat.lt_of_le_of_lt (List.length_filter_le _ _) ?_
    rw [List.length_append]
    omega

/-- One call of `next`. -/
theorem Good.step {s : BitsetIter} (h : Good s) :
    (pend s = [] ∧ ∃ s', next s = (none, s') ∧ Good s' ∧ pend s' = []) ∨
    (∃ k ks s', pend s = k :: ks ∧ next s = (some k, s') ∧ Good s' ∧ pend s' = ks) := by
  obtain ⟨h1, h2, h3⟩ := next_spec s h.inv
  have he : (next s).2.iters = [] → pend (next s).2 = [] := by
    intro hh
    rw [h2, h.empty ((loop_empty _ _).1 hh)]
    rfl
  cases hp : pend s with
  | nil =>
    rw [hp] at h1 h2
    exact Or.inl ⟨rfl, _, Prod.ext h1 rfl, ⟨h3, he⟩, h2⟩
  | cons k ks =>
    rw [hp] at h1 h2
    exact Or.inr ⟨k, ks, _, rfl, Prod.ext h1 rfl, ⟨h3, he⟩, h2⟩

end BitsetIter

namespace World

theorem fetch_of_getId {f : Fetch} {c : EcsId} : f.getId = some c ↔ f.Of c := by
  cases f <;> simp [Fetch.getId, Fetch.Of]

/-! ## Which tables a query visits -/

/-- The table has everything that is asked for. -/
def Suits (fs : List Fetch) (a : Archetype) : Prop := ∀ f ∈ fs, ∀ c, f.Of c → c ∈ a.compIds

/-- Every component that is asked for is in use. -/
def Asked (w : World) (fs : List Fetch) : Prop := ∀ f ∈ fs, ∀ c, f.Of c → w.Used c

theorem used_bitvec {w : World} (h : Inv w) {c : EcsId} (hu : w.Used c) : ∃ bv, w.bitset[c.uindex]? = some bv := by
  obtain ⟨a, ha, hc⟩ := hu
  obtain ⟨k, hk⟩ := List.mem_iff_getElem?.1 ha
  have : bitAt w.bitset c.uindex k = true := (h.bits.bit _ _).2 ⟨a.compIds, by simp [hk], c, hc, rfl⟩
  unfold bitAt at this
  cases hb : w.bitset[c.uindex]? with
  | none => rw [hb] at this; cases this
  | some bv => exact ⟨bv, rfl⟩

/-- The bit of a component in use says whether the table has it. -/
theorem bit_used {w : World} (h : Inv w) {c : EcsId} (hu : w.Used c) (k : Nat) :
    bitAt w.bitset c.uindex k = true ↔ ∃ a, w.archetypes[k]? = some a ∧ c ∈ a.compIds := by
  rw [h.bits.bit]
  constructor
  · rintro ⟨l, hl, x, hx, hxu⟩
    rw [List.getElem?_map] at hl
    cases hk : w.archetypes[k]? with
    | none => rw [hk] at hl; cases hl
    | some a =>
      rw [hk] at hl
      simp only [Option.map_some, Option.some.injEq] at hl
      subst hl
      obtain ⟨a', ha', hc'⟩ := hu
      have h1 := (h.live_comp (List.mem_of_getElem? hk) hx).1
      have h2 := (h.live_comp ha' hc').1
      rw [Entities.Live.uniq h1 h2 hxu] at hx
      exact ⟨a, rfl, hx⟩
  · rintro ⟨a, ha, hc⟩
    exact ⟨a.compIds, by simp [ha], c, hc, rfl⟩

theorem queryIters_spec {w : World} (h : Inv w) (hlen : w.archetypes.length < 2 ^ 32) (fs : List Fetch) (ha : Asked w fs) :
    ∀ bl, ∃ its m, queryIters w fs bl = .ok (its, m) ∧ (its = [] ↔ fs = []) ∧ m ≤ bl ∧
      ∀ k, k < w.archetypes.length → ((k < m ∧ ∀ it ∈ its, ∃ wd, it.words[k / 64]? = some wd ∧ (it.map wd).getLsbD (k % 64) = true) ↔
        k < bl ∧ ∀ f ∈ fs, ∀ c, f.Of c → ∃ a, w.archetypes[k]? = some a ∧ c ∈ a.compIds) := by
  induction fs with
  | nil =>
    intro bl
    exact ⟨[], bl, rfl, by simp, Nat.le_refl _, by simp⟩
  | cons f fs ih =>
    intro bl
    have ha' : Asked w fs := fun g hg => ha g (List.mem_cons_of_mem _ hg)
    unfold queryIters
    cases hf : f.getId with
    | none =>
      obtain ⟨its, m, h1, h2, hm, h3⟩ := ih ha' bl
      refine ⟨⟨w.entBits.data, fun x => x⟩ :: its, m, by simp only [h1], by simp, hm, ?_⟩
      intro k hk
      have hb : ∃ wd, w.entBits.data[k / 64]? = some wd ∧ wd.getLsbD (k % 64) = true := by
        have := (h.bits.ebBit k).2 (by simpa using hk)
        unfold Bitvec.rawBit at this
        split at this
        · rename_i wd hwd; exact ⟨wd, hwd, this⟩
        · cases this
      have hno : ∀ c, f.Of c → ∃ a, w.archetypes[k]? = some a ∧ c ∈ a.compIds := by
        intro c hc
        rw [fetch_of_getId.2 hc] at hf; cases hf
      simp only [List.forall_mem_cons]
      have := h3 k hk
      constructor
      · rintro ⟨q1, _, q2⟩
        obtain ⟨r1, r2⟩ := this.1 ⟨q1, q2⟩
        exact ⟨r1, hno, r2⟩
      · rintro ⟨q1, _, q2⟩
        obtain ⟨r1, r2⟩ := this.2 ⟨q1, q2⟩
        exact ⟨r1, hb, r2⟩
    | some id =>
      have hid := fetch_of_getId.1 hf
      have hu := ha f List.mem_cons_self id hid
      obtain ⟨bv, hbv⟩ := used_bitvec h hu
      have hlen' : bv.len ≤ w.archetypes.length := by
        have := h.bits.len bv (List.mem_of_getElem? hbv)
        simpa using this
      have hinv := h.bits.inv bv (List.mem_of_getElem? hbv)
      obtain ⟨its, m, h1, h2, hm, h3⟩ := ih ha' (min bl (bv.len % 2 ^ 32))
      refine ⟨⟨bv.data, fun x => x⟩ :: its, m, by simp only [Bitsets.getBitvec, hbv, h1], by simp, by omega, ?_⟩
      intro k hk
      have hbit : (∃ wd, bv.data[k / 64]? = some wd ∧ wd.getLsbD (k % 64) = true) ↔ ∃ a, w.archetypes[k]? = some a ∧ id ∈ a.compIds := by
        rw [← bit_used h hu]
        unfold bitAt
        rw [hbv]
        unfold Bitvec.rawBit
        simp only
        cases bv.data[k / 64]? with
        | none => simp
        | some wd => simp
      have hlt : (∃ a, w.archetypes[k]? = some a ∧ id ∈ a.compIds) → k < bv.len := by
        intro hh
        rw [← bit_used h hu] at hh
        unfold bitAt at hh
        rw [hbv] at hh
        by_cases hkl : k < bv.len
        · exact hkl
        · simp only [hinv.clean k (by omega)] at hh; cases hh
      have hmod : bv.len % 2 ^ 32 = bv.len := Nat.mod_eq_of_lt (by omega)
      have hone : (∀ c, f.Of c → ∃ a, w.archetypes[k]? = some a ∧ c ∈ a.compIds) ↔ ∃ a, w.archetypes[k]? = some a ∧ id ∈ a.compIds := by
        constructor
        · intro hh; exact hh id hid
        · intro hh c hc
          rw [fetch_of_getId.2 hc] at hf; injection hf with hf; subst hf; exact hh
      simp only [List.forall_mem_cons]
      have := h3 k hk
      rw [hmod] at this
      rw [hone, hbit]
      constructor
      · rintro ⟨q1, q2, q3⟩
        obtain ⟨r1, r2⟩ := this.1 ⟨q1, q3⟩
        exact ⟨by omega, q2, r2⟩
      · rintro ⟨q1, q2, q3⟩
        have hkl := hlt q2
        obtain ⟨r1, r2⟩ := this.2 ⟨by omega, q3⟩
        exact ⟨r1, q2, r2⟩

/-! ## Columns -/

theorem column {a : Archetype} (hs : Shape a) {c : EcsId} (hc : c ∈ a.compIds) :
    ∃ j v, a.compLookup c = some j ∧ a.storages[j]? = some (c, v) := by
  have h1 := (looksUp_mem hs.look c).2 hc
  obtain ⟨j, hj⟩ := Option.isSome_iff_exists.1 h1
  have h2 := (hs.look c j).1 hj
  rw [← hs.ids, List.getElem?_map] at h2
  cases hst : a.storages[j]? with
  | none => rw [hst] at h2; cases h2
  | some p =>
    rw [hst] at h2
    simp only [Option.map_some, Option.some.injEq] at h2
    exact ⟨j, p.2, hj, by rw [← h2, hst]⟩

/-- The place of row `r` in the column of a fetch, and its size. -/
def cell (k : Nat) (a : Archetype) (r : Nat) : Fetch → Ptr × Nat
  | .ecsId => (⟨.entities k, 8 * r⟩, 8)
  | .mut c | .immut c =>
    match a.compLookup c with
    | none => (⟨.null, 0⟩, 0)
    | some j =>
      match a.storages[j]? with
      | none => (⟨.null, 0⟩, 0)
      | some s => (⟨.storage k j, r * s.2.size⟩, s.2.size)

theorem cell_of {a : Archetype} {c : EcsId} {j : Nat} {v : UVec} (h1 : a.compLookup c = some j) (h2 : a.storages[j]? = some (c, v))
    {f : Fetch} (hf : f.Of c) (k r : Nat) : cell k a r f = (⟨.storage k j, r * v.size⟩, v.size) := by
  rcases hf with rfl | rfl <;> simp only [cell, h1, h2]

theorem fetch_cases (f : Fetch) : f = .ecsId ∨ ∃ c, f.Of c := by
  cases f with
  | ecsId => exact Or.inl rfl
  | «mut» c => exact Or.inr ⟨c, Or.inl rfl⟩
  | immut c => exact Or.inr ⟨c, Or.inr rfl⟩

theorem createPtr_cell {a : Archetype} (hs : Shape a) {f : Fetch} (hf : ∀ c, f.Of c → c ∈ a.compIds) (k : Nat) :
    f.createPtr k a = .ok (cell k a 0 f) := by
  rcases fetch_cases f with rfl | ⟨c, hc⟩
  · rfl
  · obtain ⟨j, v, h1, h2⟩ := column hs (hf c hc)
    rw [cell_of h1 h2 hc]
    rcases hc with rfl | rfl <;> simp only [Fetch.createPtr, h1, h2, Nat.zero_mul]

theorem dynPtrs_cell {a : Archetype} (hs : Shape a) {fs : List Fetch} (hf : Suits fs a) (k : Nat) : dynPtrs k a fs = .ok (fs.map (cell k a 0)) := by
  induction fs with
  | nil => rfl
  | cons f fs ih =>
    unfold dynPtrs
    rw [createPtr_cell hs (hf f List.mem_cons_self), ih (fun g hg => hf g (List.mem_cons_of_mem _ hg))]
    rfl

/-- What the iterators of queries need: the columns have at least as many rows as there are entities. -/
structure Wide (w : World) : Prop where
  shape : ∀ a ∈ w.archetypes, Shape a
  col : ∀ a ∈ w.archetypes, ∀ p ∈ a.storages, UVec.Inv p.2 ∧ a.entities.length ≤ p.2.count ∧
    infoFn w.entities w.metas p.1 = some p.2.info
  type : TypeOk w.typeMap w.entities w.metas

theorem Inv.wide {w : World} (h : Inv w) : Wide w :=
  ⟨h.shape, fun a ha p hp => ⟨(h.col a ha p hp).1, Nat.le_of_eq (h.col a ha p hp).2.1.symm, (h.col a ha p hp).2.2⟩, h.type⟩

instance {w : World} : Coe (Inv w) (Wide w) := ⟨Inv.wide⟩

theorem ptrAdd_cell {w : World} (h : Wide w) {k : Nat} {a : Archetype} (ha : w.archetypes[k]? = some a) {f : Fetch}
    (hf : ∀ c, f.Of c → c ∈ a.compIds) {r n : Nat} (hr : r + n ≤ a.entities.length) :
    w.ptrAdd (cell k a r f).1 (n * (cell k a r f).2) = .ok (cell k a (r + n) f).1 := by
  have hm := List.mem_of_getElem? ha
  have hs := h.shape a hm
  rcases fetch_cases f with rfl | ⟨c, hc⟩
  · rw [show cell k a r .ecsId = (⟨.entities k, 8 * r⟩, 8) from rfl, show cell k a (r + n) .ecsId = (⟨.entities k, 8 * (r + n)⟩, 8) from rfl]
    unfold ptrAdd
    simp only [blockLen, ha]
    by_cases hz : n * 8 = 0
    · rw [if_pos hz]
      have : n = 0 := by omega
      subst this; rfl
    · rw [if_neg hz, if_pos (by omega)]
      congr 2; omega
  · obtain ⟨j, v, h1, h2⟩ := column hs (hf c hc)
    obtain ⟨q1, q2, q3⟩ := h.col a hm _ (List.mem_of_getElem? h2)
    rw [cell_of h1 h2 hc, cell_of h1 h2 hc]
    unfold ptrAdd
    simp only [blockLen, ha, h2]
    by_cases hz : n * v.size = 0
    · rw [if_pos hz, Nat.add_mul, hz, Nat.add_zero]
    · have hvs : v.size ≠ 0 := by intro hh; rw [hh] at hz; simp at hz
      rw [if_neg hz]
      have hb : r * v.size + n * v.size ≤ v.mem.length := by
        have e1 := UVec.len_eq q1 hvs
        have e2 := q1.le hvs
        have e3 := q1.mem
        rw [← Nat.add_mul, e3]
        refine Nat.le_trans ?_ e2
        rw [e1]
        exact Nat.mul_le_mul_right _ (Nat.le_trans hr q2)
      rw [if_pos hb, Nat.add_mul]

theorem cell_stride {a : Archetype} (hs : Shape a) {f : Fetch} (hf : ∀ c, f.Of c → c ∈ a.compIds) (k r r' : Nat) :
    (cell k a r f).2 = (cell k a r' f).2 := by
  rcases fetch_cases f with rfl | ⟨c, hc⟩
  · rfl
  · obtain ⟨j, v, h1, h2⟩ := column hs (hf c hc)
    rw [cell_of h1 h2 hc, cell_of h1 h2 hc]

theorem advancePtrs_cell {w : World} (h : Wide w) {k : Nat} {a : Archetype} (ha : w.archetypes[k]? = some a) {fs : List Fetch} (hf : Suits fs a)
    {r : Nat} (hr : r < a.entities.length) : advancePtrs w (fs.map (cell k a r)) = .ok (fs.map (cell k a (r + 1))) := by
  have hs := h.shape a (List.mem_of_getElem? ha)
  induction fs with
  | nil => rfl
  | cons f fs ih =>
    have hff := hf f List.mem_cons_self
    have h1 := ptrAdd_cell h ha hff (r := r) (n := 1) (by omega)
    rw [Nat.one_mul] at h1
    have ih := ih (fun g hg => hf g (List.mem_cons_of_mem _ hg))
    rw [List.map_cons, List.map_cons]
    rw [show cell k a r f = ((cell k a r f).1, (cell k a r f).2) from rfl]
    unfold advancePtrs
    simp only [h1, ih]
    rw [cell_stride hs hff k r (r + 1)]

/-- What is found at a row for each fetch. -/
def rowPtrs (k : Nat) (a : Archetype) (fs : List Fetch) (r : Nat) : List Ptr := fs.map (fun f => (cell k a r f).1)

/-- The pointers for all rows of a table. -/
def tableRows (w : World) (fs : List Fetch) (k : Nat) : List (List Ptr) :=
  match w.archetypes[k]? with
  | none => []
  | some a => (List.range a.entities.length).map (rowPtrs k a fs)

/-- Table `k` exists and has everything that is asked for. -/
def TableOk (w : World) (fs : List Fetch) (k : Nat) : Prop := ∃ a, w.archetypes[k]? = some a ∧ Suits fs a

theorem archNext_spec {w : World} {fs : List Fetch} {it : BitsetIter} (hg : it.Good) (hk : ∀ k ∈ it.pend, TableOk w fs k) :
    (it.pend = [] ∧ ∃ it', archNext w it = .ok (none, it') ∧ it'.Good ∧ it'.pend = []) ∨
    (∃ k ks a it', it.pend = k :: ks ∧ w.archetypes[k]? = some a ∧ Suits fs a ∧ archNext w it = .ok (some (k, a), it') ∧ it'.Good ∧ it'.pend = ks) := by
  unfold archNext
  rcases hg.step with ⟨h1, it', h2, h3, h4⟩ | ⟨k, ks, it', h1, h2, h3, h4⟩
  · rw [h2]; exact Or.inl ⟨h1, it', rfl, h3, h4⟩
  · rw [h2]
    obtain ⟨a, ha, hsu⟩ := hk k (by rw [h1]; exact List.mem_cons_self)
    simp only [ha]
    exact Or.inr ⟨k, ks, a, it', h1, ha, hsu, rfl, h3, h4⟩

/-- The iterator is inside a table (or at its end), and these rows of it are still to come. -/
def Inside (w : World) (fs : List Fetch) (remaining : Nat) (ptrs : List (Ptr × Nat)) (xs : List (List Ptr)) : Prop :=
  (remaining = 0 ∧ xs = []) ∨ ∃ k a r, w.archetypes[k]? = some a ∧ Suits fs a ∧ r + remaining = a.entities.length ∧
    ptrs = fs.map (cell k a r) ∧ xs = ((List.range a.entities.length).map (rowPtrs k a fs)).drop r

/-- Exactly `xs` is still to come from a dynamic query. -/
structure DynState (w : World) (fs : List Fetch) (s : DynIter) (xs : List (List Ptr)) : Prop where
  fetches : s.fetches = fs
  good : s.archs.Good
  tables : ∀ k ∈ s.archs.pend, TableOk w fs k
  rest : ∃ ys, Inside w fs s.remaining s.ptrs ys ∧ xs = ys ++ s.archs.pend.flatMap (tableRows w fs)

theorem dynLoop_spec {w : World} (h : Inv w) {fs : List Fetch} : ∀ (fuel : Nat) (s : DynIter) (xs : List (List Ptr)), DynState w fs s xs →
    s.archs.pend.length < fuel → ∃ s', s.loop w fuel = .ok (xs.head?, s') ∧ DynState w fs s' xs.tail := by
  intro fuel
  induction fuel with
  | zero => intro s xs _ hf; omega
  | succ fuel ih =>
    intro s xs hst hf
    obtain ⟨h1, h2, h3, ys, h4, h5⟩ := hst
    unfold DynIter.loop
    by_cases hrem : s.remaining = 0
    · rw [if_neg (by simp [hrem])]
      have hys : ys = [] := by
        rcases h4 with ⟨_, h4⟩ | ⟨k, a, r, _, _, q3, _, q5⟩
        · exact h4
        · rw [q5, List.drop_eq_nil_of_le]; simp; omega
      subst hys
      rw [List.nil_append] at h5
      rcases archNext_spec h2 h3 with ⟨a1, it', a2, a3, a4⟩ | ⟨k, ks, a, it', a1, a2, a3, a4, a5, a6⟩
      · rw [a1] at h5
        simp only [List.flatMap_nil] at h5
        subst h5
        rw [a2]
        exact ⟨_, rfl, h1, a3, by simp [a4], [], Or.inl ⟨hrem, rfl⟩, by simp [a4]⟩
      · rw [a4]
        simp only [h1, dynPtrs_cell (h.shape a (List.mem_of_getElem? a2)) a3]
        have := ih { s with archs := it', remaining := a.entities.length, ptrs := fs.map (cell k a 0) } xs
          ⟨h1, a5, fun k' hk' => h3 k' (by rw [a1]; rw [a6] at hk'; exact List.mem_cons_of_mem _ hk'),
            (List.range a.entities.length).map (rowPtrs k a fs), Or.inr ⟨k, a, 0, a2, a3, by simp, rfl, by simp⟩, by
              rw [h5, a1, a6, List.flatMap_cons]
              congr 1
              unfold tableRows
              rw [a2]⟩ (by
                show it'.pend.length < fuel
                rw [a6]; rw [a1] at hf; simp only [List.length_cons] at hf; omega)
        obtain ⟨s', b1, b2⟩ := this
        refine ⟨s', ?_, b2⟩
        rw [← b1]
        rw [← h1]
    · rw [if_pos hrem]
      rcases h4 with ⟨h4, _⟩ | ⟨k, a, r, q1, q2, q3, q4, q5⟩
      · exact absurd h4 hrem
      · have hr : r < a.entities.length := by omega
        rw [q4, advancePtrs_cell h q1 q2 hr]
        have hlen : r < ((List.range a.entities.length).map (rowPtrs k a fs)).length := by simpa using hr
        rw [List.drop_eq_getElem_cons hlen] at q5
        simp only [List.getElem_map, List.getElem_range] at q5
        refine ⟨{ s with remaining := s.remaining - 1, ptrs := fs.map (cell k a (r + 1)) }, ?_, h1, h2, h3, _,
          Or.inr ⟨k, a, r + 1, q1, q2, ?_, rfl, rfl⟩, ?_⟩
        · rw [h5, q5]
          simp only [List.cons_append, List.head?_cons]
          unfold rowPtrs
          rw [List.map_map]
          rfl
        · show r + 1 + (s.remaining - 1) = _; omega
        · rw [h5, q5]; rfl

theorem dynIter_produces {w : World} (h : Inv w) {fs : List Fetch} {s : DynIter} {xs : List (List Ptr)} (hs : DynState w fs s xs) :
    Produces (fun s => DynIter.next w s) s xs := by
  refine produces_of (DynState w fs) ?_ ?_ hs
  · intro s hs
    obtain ⟨s', h1, h2⟩ := dynLoop_spec h _ s _ hs (Nat.lt_succ_of_lt hs.good.fuel)
    exact ⟨s', h1, h2⟩
  · intro s x xs hs
    obtain ⟨s', h1, h2⟩ := dynLoop_spec h _ s _ hs (Nat.lt_succ_of_lt hs.good.fuel)
    exact ⟨s', h1, h2⟩

/-- Exactly the columns of the tables `ks` are still to come. -/
def columnsOf (w : World) (fs : List Fetch) (k : Nat) : List (Ptr × Nat) :=
  match w.archetypes[k]? with
  | none => []
  | some a => (rowPtrs k a fs 0).map (fun p => (p, a.entities.length))

theorem columnIter_produces {w : World} (h : Inv w) {fs : List Fetch} {it : BitsetIter} (hg : it.Good) (hk : ∀ k ∈ it.pend, TableOk w fs k) :
    Produces (fun s => ColumnIter.next w s) ⟨fs, it⟩ (it.pend.map (columnsOf w fs)) := by
  refine produces_of (fun s xs => s.fetches = fs ∧ s.archs.Good ∧ (∀ k ∈ s.archs.pend, TableOk w fs k) ∧ xs = s.archs.pend.map (columnsOf w fs)) ?_ ?_
    ⟨rfl, hg, hk, rfl⟩
  · rintro s ⟨h1, h2, h3, h4⟩
    unfold ColumnIter.next
    rcases archNext_spec h2 h3 with ⟨a1, it', a2, a3, a4⟩ | ⟨k, ks, a, it', a1, a2, a3, a4, a5, a6⟩
    · rw [a2]; exact ⟨_, rfl, h1, a3, by simp [a4], by simp [a4]⟩
    · rw [a1] at h4; cases h4
  · rintro s x xs ⟨h1, h2, h3, h4⟩
    unfold ColumnIter.next
    rcases archNext_spec h2 h3 with ⟨a1, it', a2, a3, a4⟩ | ⟨k, ks, a, it', a1, a2, a3, a4, a5, a6⟩
    · rw [a1] at h4; cases h4
    · rw [a1, List.map_cons] at h4
      injection h4 with h4 h5
      rw [a4]
      simp only [h1, dynPtrs_cell (h.shape a (List.mem_of_getElem? a2)) a3]
      refine ⟨⟨fs, it'⟩, ?_, rfl, a5, ?_, ?_⟩
      · rw [h4]
        unfold columnsOf
        rw [a2]
        unfold rowPtrs
        simp only [List.map_map]
        rfl
      · show ∀ k ∈ it'.pend, _
        intro k' hk'; exact h3 k' (by rw [a1]; rw [a6] at hk'; exact List.mem_cons_of_mem _ hk')
      · show xs = it'.pend.map _
        rw [a6, h5]

/-! ## Static queries -/

theorem fetchType_bound {w : World} {p : Param} {f : Fetch} : p.fetchType w = some f ↔ Bound w p f := by
  cases p with
  | ids => simp [Param.fetchType, Bound, eq_comm]
  | «mut» t =>
    unfold Param.fetchType Bound
    cases ht : w.typeMap t <;> simp [ht, eq_comm]
  | ref t =>
    unfold Param.fetchType Bound
    cases ht : w.typeMap t <;> simp [ht, eq_comm]

theorem allFetches_bound {w : World} {ps : List Param} {fs : List Fetch} : allFetches w ps = some fs ↔ Pairs (Bound w) ps fs := by
  induction ps generalizing fs with
  | nil =>
    unfold allFetches
    constructor
    · intro hh; injection hh with hh; subst hh; exact .nil
    · intro hh; cases hh; rfl
  | cons p ps ih =>
    unfold allFetches
    cases hp : p.fetchType w with
    | none =>
      simp only [reduceCtorEq, false_iff]
      intro hh
      cases hh with
      | cons h1 _ => rw [fetchType_bound.2 h1] at hp; cases hp
    | some f =>
      cases ha : allFetches w ps with
      | none =>
        simp only [reduceCtorEq, false_iff]
        intro hh
        cases hh with
        | cons _ h2 => rw [ih.2 h2] at ha; cases ha
      | some fs' =>
        simp only [Option.some.injEq]
        constructor
        · rintro rfl; exact .cons (fetchType_bound.1 hp) (ih.1 ha)
        · intro hh
          cases hh with
          | cons h1 h2 =>
            rw [fetchType_bound.2 h1] at hp; injection hp with hp
            rw [ih.2 h2] at ha; injection ha with ha
            rw [hp, ha]

theorem allFetches_none {w : World} {ps : List Param} : allFetches w ps = none ↔ ∃ p ∈ ps, ∃ t, p.Of t ∧ w.typeMap t = none := by
  induction ps with
  | nil => simp [allFetches]
  | cons p ps ih =>
    unfold allFetches
    have hp : p.fetchType w = none ↔ ∃ t, p.Of t ∧ w.typeMap t = none := by
      cases p with
      | ids => simp [Param.fetchType, Param.Of]
      | «mut» t => unfold Param.fetchType Param.Of; cases ht : w.typeMap t <;> simp [ht]
      | ref t => unfold Param.fetchType Param.Of; cases ht : w.typeMap t <;> simp [ht]
    rw [show (∃ q ∈ p :: ps, ∃ t, q.Of t ∧ w.typeMap t = none) ↔ (∃ t, p.Of t ∧ w.typeMap t = none) ∨ ∃ q ∈ ps, ∃ t, q.Of t ∧ w.typeMap t = none by simp]
    cases h1 : p.fetchType w with
    | none => simp only [true_iff]; exact Or.inl (hp.1 h1)
    | some f =>
      have : ¬ ∃ t, p.Of t ∧ w.typeMap t = none := by rw [← hp, h1]; simp
      simp only
      rw [or_iff_right this, ← ih]
      cases allFetches w ps <;> simp

theorem bound_of {w : World} {p : Param} {f : Fetch} (hb : Bound w p f) : (p = .ids ∧ f = .ecsId) ∨
    ∃ t c, p.Of t ∧ f.Of c ∧ w.typeMap t = some c := by
  cases p with
  | ids => exact Or.inl ⟨rfl, hb⟩
  | «mut» t => obtain ⟨c, h1, h2⟩ := hb; exact Or.inr ⟨t, c, Or.inl rfl, Or.inl h2, h1⟩
  | ref t => obtain ⟨c, h1, h2⟩ := hb; exact Or.inr ⟨t, c, Or.inr rfl, Or.inr h2, h1⟩

/-- The column of a type. -/
theorem typed_info {w : World} (h : Wide w) {t : Ty} {c : EcsId} (ht : w.typeMap t = some c) {a : Archetype} (ha : a ∈ w.archetypes) {j : Nat} {v : UVec}
    (hj : a.storages[j]? = some (c, v)) : v.info = ⟨t.layout, some (.generic t)⟩ := by
  obtain ⟨q1, q2, q3⟩ := h.col a ha _ (List.mem_of_getElem? hj)
  obtain ⟨hl, m, hm, hi⟩ := infoFn_some.1 q3
  rw [h.type.comp t c ht hl] at hm
  injection hm with hm
  subst hm
  exact hi.symm

theorem createPtrs_cell {w : World} (h : Wide w) {k : Nat} {a : Archetype} (ha : w.archetypes[k]? = some a) {ps : List Param} {fs : List Fetch}
    (hb : Pairs (Bound w) ps fs) :
    (Suits fs a ∧ createPtrs k a ps fs = .ok (some (rowPtrs k a fs 0))) ∨ (¬ Suits fs a ∧ createPtrs k a ps fs = .ok none) := by
  have hs := h.shape a (List.mem_of_getElem? ha)
  induction hb with
  | nil => exact Or.inl ⟨by simp [Suits], rfl⟩
  | @cons p f ps fs hpf _ ih =>
    unfold createPtrs
    have hone : ((∀ c, f.Of c → c ∈ a.compIds) ∧ p.createPtr k a f = .ok (some (cell k a 0 f).1)) ∨
        ((¬ ∀ c, f.Of c → c ∈ a.compIds) ∧ p.createPtr k a f = .ok none) := by
      rcases bound_of hpf with ⟨rfl, rfl⟩ | ⟨t, c, hp, hf, ht⟩
      · refine Or.inl ⟨?_, rfl⟩
        rintro c (hc | hc) <;> cases hc
      · have hid := fetch_of_getId.2 hf
        have huniq : ∀ c', f.Of c' → c' = c := by
          intro c' hc'
          have := fetch_of_getId.2 hc'
          rw [hid] at this; injection this with this; exact this.symm
        by_cases hc : c ∈ a.compIds
        · refine Or.inl ⟨fun c' hc' => by rw [huniq c' hc']; exact hc, ?_⟩
          obtain ⟨j, v, h1, h2⟩ := column hs hc
          rw [cell_of h1 h2 hf]
          have hj := (List.getElem?_eq_some_iff.1 h2).1
          rcases hp with rfl | rfl <;> simp only [Param.createPtr, hid, h1, if_pos hj, Nat.zero_mul]
        · refine Or.inr ⟨fun hh => hc (hh c hf), ?_⟩
          have : a.compLookup c = none := by
            cases hl : a.compLookup c with
            | none => rfl
            | some j => exact absurd ((looksUp_mem hs.look c).1 (by rw [hl]; rfl)) hc
          rcases hp with rfl | rfl <;> simp only [Param.createPtr, hid, this]
    rcases hone with ⟨o1, o2⟩ | ⟨o1, o2⟩
    · rcases ih with ⟨i1, i2⟩ | ⟨i1, i2⟩
      · refine Or.inl ⟨?_, by rw [o2, i2]; rfl⟩
        intro g hg
        rcases List.mem_cons.1 hg with rfl | hg
        · exact o1
        · exact i1 g hg
      · exact Or.inr ⟨fun hh => i1 (fun g hg => hh g (List.mem_cons_of_mem _ hg)), by rw [o2, i2]⟩
    · exact Or.inr ⟨fun hh => o1 (hh f List.mem_cons_self), by rw [o2]⟩

theorem param_size {w : World} (h : Wide w) {k : Nat} {a : Archetype} (ha : w.archetypes[k]? = some a) {p : Param} {f : Fetch} (hb : Bound w p f)
    (hf : ∀ c, f.Of c → c ∈ a.compIds) (r : Nat) : p.size = (cell k a r f).2 := by
  have hm := List.mem_of_getElem? ha
  rcases bound_of hb with ⟨rfl, rfl⟩ | ⟨t, c, hp, hfc, ht⟩
  · rfl
  · obtain ⟨j, v, h1, h2⟩ := column (h.shape a hm) (hf c hfc)
    rw [cell_of h1 h2 hfc]
    have := typed_info h ht hm h2
    unfold UVec.size
    rw [this]
    rcases hp with rfl | rfl <;> rfl

theorem offsetPtrs_cell {w : World} (h : Wide w) {k : Nat} {a : Archetype} (ha : w.archetypes[k]? = some a) {ps : List Param} {fs : List Fetch}
    (hb : Pairs (Bound w) ps fs) (hf : Suits fs a) {r n : Nat} (hr : r + n ≤ a.entities.length) :
    offsetPtrs w n ps (rowPtrs k a fs r) = .ok (rowPtrs k a fs (r + n)) := by
  induction hb with
  | nil => rfl
  | @cons p f ps fs hpf _ ih =>
    have hff := hf f List.mem_cons_self
    have h1 := ptrAdd_cell h ha hff hr
    rw [← param_size h ha hpf hff] at h1
    have ih := ih (fun g hg => hf g (List.mem_cons_of_mem _ hg))
    unfold rowPtrs at *
    rw [List.map_cons, List.map_cons]
    unfold offsetPtrs
    simp only [h1, ih]

/-- What the parameter makes of the pointer of entity `e`. -/
def itemOf (e : EcsId) : Param → Ptr → Item
  | .ids, _ => .id e
  | .mut t, p => .mut t p
  | .ref t, p => .ref t p

theorem castPtrs_cell {w : World} (h : Wide w) {k : Nat} {a : Archetype} (ha : w.archetypes[k]? = some a) {ps : List Param} {fs : List Fetch}
    (hb : Pairs (Bound w) ps fs) (hf : Suits fs a) {r : Nat} {e : EcsId} (hr : a.entities[r]? = some e) :
    castPtrs w ps (rowPtrs k a fs r) = .ok (List.zipWith (itemOf e) ps (rowPtrs k a fs r)) := by
  have hm := List.mem_of_getElem? ha
  have hlt := (List.getElem?_eq_some_iff.1 hr).1
  induction hb with
  | nil => rfl
  | @cons p f ps fs hpf _ ih =>
    have hff := hf f List.mem_cons_self
    have ih := ih (fun g hg => hf g (List.mem_cons_of_mem _ hg))
    have hone : p.castPtr w (cell k a r f).1 = .ok (itemOf e p (cell k a r f).1) := by
      rcases bound_of hpf with ⟨rfl, rfl⟩ | ⟨t, c, hp, hfc, ht⟩
      · rw [show cell k a r .ecsId = (⟨.entities k, 8 * r⟩, 8) from rfl]
        unfold Param.castPtr
        simp only [ha]
        rw [if_pos (by omega), show 8 * r / 8 = r by omega]
        simp only [hr, itemOf]
      · obtain ⟨j, v, h1, h2⟩ := column (h.shape a hm) (hff c hfc)
        obtain ⟨q1, q2, q3⟩ := h.col a hm _ (List.mem_of_getElem? h2)
        have hi := typed_info h ht hm h2
        have hcount : r < v.count := Nat.lt_of_lt_of_le hlt q2
        have hsz : v.size = t.size := by unfold UVec.size; rw [hi]
        rw [cell_of h1 h2 hfc]
        have hck : w.checkRef t ⟨.storage k j, r * v.size⟩ = .ok () := by
          unfold checkRef
          simp only [ha, h2, hi, ne_eq, not_true_eq_false, if_false, hsz]
          by_cases hz : t.size = 0
          · rw [if_pos hz, if_pos]
            rw [← UVec.count_zst (by rw [hsz]; exact hz)]; omega
          · rw [if_neg hz, if_pos]
            refine ⟨Nat.mul_mod_left _ _, ?_⟩
            rw [UVec.len_eq q1 (by rw [hsz]; exact hz), hsz]
            exact mul_add_le hcount
        rcases hp with rfl | rfl <;> simp only [Param.castPtr, hck, itemOf]
    unfold rowPtrs at *
    rw [List.map_cons]
    unfold castPtrs
    simp only [hone, ih, List.zipWith_cons_cons]

/-- The items for row `r` of a table. -/
def rowItems (k : Nat) (a : Archetype) (ps : List Param) (fs : List Fetch) (r : Nat) : List Item :=
  match a.entities[r]? with
  | none => []
  | some e => List.zipWith (itemOf e) ps (rowPtrs k a fs r)

def tableItems (w : World) (ps : List Param) (fs : List Fetch) (k : Nat) : List (List Item) :=
  match w.archetypes[k]? with
  | none => []
  | some a => (List.range a.entities.length).map (rowItems k a ps fs)

def InsideS (w : World) (ps : List Param) (fs : List Fetch) (remaining : Nat) (ptrs : List Ptr) (xs : List (List Item)) : Prop :=
  (remaining = 0 ∧ xs = []) ∨ ∃ k a r, w.archetypes[k]? = some a ∧ Suits fs a ∧ r + remaining = a.entities.length ∧
    ptrs = rowPtrs k a fs r ∧ xs = ((List.range a.entities.length).map (rowItems k a ps fs)).drop r

/-- Exactly `xs` is still to come from a static query. -/
structure StaticState (w : World) (ps : List Param) (fs : List Fetch) (s : StaticIter) (xs : List (List Item)) : Prop where
  params : s.params = ps
  fetches : s.fetches = some fs
  good : s.archs.Good
  tables : ∀ k ∈ s.archs.pend, TableOk w fs k
  rest : ∃ ys, InsideS w ps fs s.remaining s.ptrs ys ∧ xs = ys ++ s.archs.pend.flatMap (tableItems w ps fs)

theorem staticLoop_spec {w : World} (h : Inv w) {ps : List Param} {fs : List Fetch} (hb : Pairs (Bound w) ps fs) : ∀ (fuel : Nat) (s : StaticIter)
    (xs : List (List Item)), StaticState w ps fs s xs → s.archs.pend.length < fuel →
    ∃ s', s.loop w fuel = .ok (xs.head?, s') ∧ StaticState w ps fs s' xs.tail := by
  intro fuel
  induction fuel with
  | zero => intro s xs _ hf; omega
  | succ fuel ih =>
    intro s xs hst hf
    obtain ⟨h0, h1, h2, h3, ys, h4, h5⟩ := hst
    unfold StaticIter.loop
    by_cases hrem : s.remaining = 0
    · rw [if_neg (by simp [hrem])]
      have hys : ys = [] := by
        rcases h4 with ⟨_, h4⟩ | ⟨k, a, r, _, _, q3, _, q5⟩
        · exact h4
        · rw [q5, List.drop_eq_nil_of_le]; simp; omega
      subst hys
      rw [List.nil_append] at h5
      rcases archNext_spec h2 h3 with ⟨a1, it', a2, a3, a4⟩ | ⟨k, ks, a, it', a1, a2, a3, a4, a5, a6⟩
      · rw [a1] at h5
        simp only [List.flatMap_nil] at h5
        subst h5
        rw [a2]
        exact ⟨_, rfl, h0, h1, a3, by simp [a4], [], Or.inl ⟨hrem, rfl⟩, by simp [a4]⟩
      · rw [a4]
        have hcp : createPtrs k a ps fs = .ok (some (rowPtrs k a fs 0)) := by
          rcases createPtrs_cell h a2 hb with ⟨_, hh⟩ | ⟨hh, _⟩
          · exact hh
          · exact absurd a3 hh
        simp only [h0, h1, hcp]
        have := ih { s with archs := it', remaining := a.entities.length, ptrs := rowPtrs k a fs 0 } xs
          ⟨h0, h1, a5, fun k' hk' => h3 k' (by rw [a1]; rw [a6] at hk'; exact List.mem_cons_of_mem _ hk'),
            (List.range a.entities.length).map (rowItems k a ps fs), Or.inr ⟨k, a, 0, a2, a3, by simp, rfl, by simp⟩, by
              rw [h5, a1, a6, List.flatMap_cons]
              congr 1
              unfold tableItems
              rw [a2]⟩ (by
                show it'.pend.length < fuel
                rw [a6]; rw [a1] at hf; simp only [List.length_cons] at hf; omega)
        obtain ⟨s', b1, b2⟩ := this
        refine ⟨s', ?_, b2⟩
        rw [← b1, ← h1, ← h0]
    · rw [if_pos hrem]
      rcases h4 with ⟨h4, _⟩ | ⟨k, a, r, q1, q2, q3, q4, q5⟩
      · exact absurd h4 hrem
      · have hr : r < a.entities.length := by omega
        have hre : a.entities[r]? = some (a.entities[r]) := List.getElem?_eq_getElem hr
        rw [h0, q4, offsetPtrs_cell h q1 hb q2 (n := 1) (by omega), castPtrs_cell h q1 hb q2 hre]
        have hlen : r < ((List.range a.entities.length).map (rowItems k a ps fs)).length := by simpa using hr
        rw [List.drop_eq_getElem_cons hlen] at q5
        simp only [List.getElem_map, List.getElem_range] at q5
        refine ⟨{ s with remaining := s.remaining - 1, ptrs := rowPtrs k a fs (r + 1) }, ?_, h0, h1, h2, h3, _,
          Or.inr ⟨k, a, r + 1, q1, q2, ?_, rfl, rfl⟩, ?_⟩
        · rw [h5, q5]
          simp only [List.cons_append, List.head?_cons]
          have : rowItems k a ps fs r = List.zipWith (itemOf a.entities[r]) ps (rowPtrs k a fs r) := by
            unfold rowItems; rw [hre]
          rw [this, ← h0]
        · show r + 1 + (s.remaining - 1) = _; omega
        · rw [h5, q5]; rfl

theorem staticIter_produces {w : World} (h : Inv w) {ps : List Param} {fs : List Fetch} (hb : Pairs (Bound w) ps fs) {s : StaticIter}
    {xs : List (List Item)} (hs : StaticState w ps fs s xs) : Produces (fun s => StaticIter.next w s) s xs := by
  refine produces_of (StaticState w ps fs) ?_ ?_ hs
  · intro s hs
    obtain ⟨s', h1, h2⟩ := staticLoop_spec h hb _ s _ hs (Nat.lt_succ_of_lt hs.good.fuel)
    exact ⟨s', h1, h2⟩
  · intro s x xs hs
    obtain ⟨s', h1, h2⟩ := staticLoop_spec h hb _ s _ hs (Nat.lt_succ_of_lt hs.good.fuel)
    exact ⟨s', h1, h2⟩

/-! ## From tables to entities -/

/-- The tables a query visits, once all components asked for are known to be in use. -/
theorem tables_spec {w : World} (h : Inv w) (hlen : w.archetypes.length < 2 ^ 32) {fs : List Fetch} (hne : fs ≠ []) (ha : Asked w fs) :
    ∃ its m, queryIters w fs (w.entBits.len % 2 ^ 32) = .ok (its, m) ∧ ∀ k, k ∈ (BitsetIter.new its m).pend ↔ TableOk w fs k := by
  have hel : w.entBits.len = w.archetypes.length := by rw [h.bits.ebLen, List.length_map]
  obtain ⟨its, m, h1, h2, h3, h4⟩ := queryIters_spec h hlen fs ha (w.entBits.len % 2 ^ 32)
  refine ⟨its, m, h1, ?_⟩
  intro k
  rw [BitsetIter.mem_pend_new]
  rw [Nat.mod_eq_of_lt (by omega), hel] at h3 h4
  constructor
  · rintro ⟨q1, q2, q3⟩
    have hk : k < w.archetypes.length := by omega
    obtain ⟨_, q4⟩ := (h4 k hk).1 ⟨q1, q3⟩
    refine ⟨w.archetypes[k], List.getElem?_eq_getElem hk, ?_⟩
    intro f hf c hc
    obtain ⟨a, ha1, ha2⟩ := q4 f hf c hc
    rw [List.getElem?_eq_getElem hk] at ha1
    injection ha1 with ha1
    rw [ha1]; exact ha2
  · rintro ⟨a, ha1, ha2⟩
    have hk := (List.getElem?_eq_some_iff.1 ha1).1
    obtain ⟨q1, q2⟩ := (h4 k hk).2 ⟨hk, fun f hf c hc => ⟨a, ha1, ha2 f hf c hc⟩⟩
    exact ⟨q1, fun hh => hne (h2.1 hh), q2⟩

theorem pend_zero (its : List WordIter) : (BitsetIter.new its 0).pend = [] := by
  rw [List.eq_nil_iff_forall_not_mem]
  intro k hk
  rw [BitsetIter.mem_pend_new] at hk
  omega

theorem mem_ents {w : World} {k : Nat} {e : EcsId} : e ∈ entitiesOf w k ↔ ∃ (a : Archetype) (r : Nat), w.archetypes[k]? = some a ∧ a.entities[r]? = some e := by
  unfold entitiesOf
  cases hk : w.archetypes[k]? with
  | none => simp
  | some a =>
    simp only [Option.some.injEq]
    rw [List.mem_iff_getElem?]
    constructor
    · rintro ⟨r, hr⟩; exact ⟨a, r, rfl, hr⟩
    · rintro ⟨a', r, rfl, hr⟩; exact ⟨r, hr⟩

theorem nodup_iff_getElem? {α : Type} {l : List α} : l.Nodup ↔ ∀ (i j : Nat) (x : α), l[i]? = some x → l[j]? = some x → i = j := by
  constructor
  · intro hn i j x hi hj
    exact (List.getElem?_inj (List.getElem?_eq_some_iff.1 hi).1 hn).1 (hi.trans hj.symm)
  · intro hh
    rw [List.nodup_iff_pairwise_ne, List.pairwise_iff_getElem]
    intro i j hi hj hij heq
    have := hh i j l[i] (List.getElem?_eq_getElem hi) (by rw [List.getElem?_eq_getElem hj, heq])
    omega

theorem ents_nodup {w : World} (h : Inv w) {ks : List Nat} (hk : ks.Pairwise (· < ·)) : (ks.flatMap (entitiesOf w)).Nodup := by
  rw [List.nodup_iff_pairwise_ne, List.pairwise_flatMap]
  constructor
  · intro k _
    rw [← List.nodup_iff_pairwise_ne, nodup_iff_getElem?]
    intro i j e hi hj
    unfold entitiesOf at hi hj
    cases hk : w.archetypes[k]? with
    | none => rw [hk] at hi; simp at hi
    | some a =>
      rw [hk] at hi hj
      exact (h.row_inj (by rw [rowOf_eq hk]; exact hi) (by rw [rowOf_eq hk]; exact hj)).2
  · refine hk.imp ?_
    intro k k' hlt e he e' he' heq
    subst heq
    obtain ⟨a, r, h1, h2⟩ := mem_ents.1 he
    obtain ⟨a', r', h1', h2'⟩ := mem_ents.1 he'
    have := (h.row_inj (by rw [rowOf_eq h1]; exact h2) (by rw [rowOf_eq h1']; exact h2')).1
    omega

theorem mem_visited {w : World} (h : Inv w) {fs : List Fetch} {ks : List Nat} (hk : ∀ k, k ∈ ks ↔ TableOk w fs k) (e : EcsId) :
    e ∈ ks.flatMap (entitiesOf w) ↔ HasAll w fs e := by
  rw [List.mem_flatMap]
  constructor
  · rintro ⟨k, hk1, he⟩
    obtain ⟨a, r, h1, h2⟩ := mem_ents.1 he
    obtain ⟨a', h1', hs⟩ := (hk k).1 hk1
    rw [h1] at h1'; injection h1' with h1'; subst h1'
    exact ⟨⟨k, r, a, h1, h2⟩, fun f hf c hc => (hasComp_at h h1 h2 c).2 (hs f hf c hc)⟩
  · rintro ⟨⟨k, r, a, h1, h2⟩, h3⟩
    exact ⟨k, (hk k).2 ⟨a, h1, fun f hf c hc => (hasComp_at h h1 h2 c).1 (h3 f hf c hc)⟩, mem_ents.2 ⟨a, r, h1, h2⟩⟩

theorem Pairs.append' {α β : Type} {R : α → β → Prop} {as as' : List α} {bs bs' : List β} (h : Pairs R as bs) (h' : Pairs R as' bs') :
    Pairs R (as ++ as') (bs ++ bs') := by
  induction h with
  | nil => exact h'
  | cons h1 _ ih => exact .cons h1 ih

theorem Pairs.flatMap' {α β γ : Type} {R : α → β → Prop} {f : γ → List α} {g : γ → List β} {ks : List γ} (h : ∀ k ∈ ks, Pairs R (f k) (g k)) :
    Pairs R (ks.flatMap f) (ks.flatMap g) := by
  induction ks with
  | nil => exact .nil
  | cons k ks ih =>
    rw [List.flatMap_cons, List.flatMap_cons]
    exact Pairs.append' (h k List.mem_cons_self) (ih (fun k' hk' => h k' (List.mem_cons_of_mem _ hk')))

theorem pairs_range {α β : Type} {R : α → β → Prop} {as : List α} {g : Nat → β} (h : ∀ (r : Nat) (x : α), as[r]? = some x → R x (g r)) :
    Pairs R as ((List.range as.length).map g) := by
  induction as generalizing g with
  | nil => exact .nil
  | cons a as ih =>
    rw [List.length_cons, List.range_succ_eq_map, List.map_cons, List.map_map]
    exact .cons (h 0 a rfl) (ih (fun r x hr => h (r + 1) x (by simpa using hr)))

theorem fetchAt_cell {w : World} (h : Wide w) {k r : Nat} {a : Archetype} {e : EcsId} (ha : w.archetypes[k]? = some a) (hr : a.entities[r]? = some e)
    {f : Fetch} (hf : ∀ c, f.Of c → c ∈ a.compIds) : FetchAt w e f (cell k a r f).1 := by
  rcases fetch_cases f with rfl | ⟨c, hc⟩
  · exact ⟨k, r, a, ha, hr, rfl⟩
  · obtain ⟨j, v, h1, h2⟩ := column (h.shape a (List.mem_of_getElem? ha)) (hf c hc)
    rw [cell_of h1 h2 hc]
    have : w.PointsAt ⟨.storage k j, r * v.size⟩ e c := ⟨k, j, r, a, v, ha, hr, h2, rfl⟩
    rcases hc with rfl | rfl <;> exact this

theorem rows_fetch {w : World} (h : Wide w) {k r : Nat} {a : Archetype} {e : EcsId} (ha : w.archetypes[k]? = some a) (hr : a.entities[r]? = some e)
    {fs : List Fetch} (hf : Suits fs a) : Pairs (FetchAt w e) fs (rowPtrs k a fs r) :=
  Pairs.map_right (fun f hff => fetchAt_cell h ha hr (hf f hff))

/-- The dynamic rows belong to the entities. -/
theorem dyn_rows {w : World} (h : Inv w) {fs : List Fetch} {ks : List Nat} (hk : ∀ k ∈ ks, TableOk w fs k) :
    Pairs (fun e row => Pairs (FetchAt w e) fs row) (ks.flatMap (entitiesOf w)) (ks.flatMap (tableRows w fs)) := by
  refine Pairs.flatMap' ?_
  intro k hk1
  obtain ⟨a, ha, hs⟩ := hk k hk1
  unfold entitiesOf tableRows
  rw [ha]
  exact pairs_range (fun r e hr => rows_fetch h ha hr hs)

theorem zip_denotes {w : World} {e : EcsId} {ps : List Param} {fs : List Fetch} {xs : List Ptr} (hb : Pairs (Bound w) ps fs) (hx : Pairs (FetchAt w e) fs xs) :
    Pairs (Denotes w e) ps (List.zipWith (itemOf e) ps xs) := by
  induction hb generalizing xs with
  | nil => cases hx; exact .nil
  | @cons p f ps fs hpf _ ih =>
    cases hx with
    | @cons _ x _ xs h1 h2 =>
      rw [List.zipWith_cons_cons]
      refine .cons ?_ (ih h2)
      cases p with
      | ids => exact rfl
      | «mut» t =>
        obtain ⟨c, q1, q2⟩ := hpf
        subst q2
        exact ⟨x, c, rfl, q1, h1⟩
      | ref t =>
        obtain ⟨c, q1, q2⟩ := hpf
        subst q2
        exact ⟨x, c, rfl, q1, h1⟩

theorem static_rows {w : World} (h : Inv w) {ps : List Param} {fs : List Fetch} (hb : Pairs (Bound w) ps fs) {ks : List Nat} (hk : ∀ k ∈ ks, TableOk w fs k) :
    Pairs (fun e row => Pairs (Denotes w e) ps row) (ks.flatMap (entitiesOf w)) (ks.flatMap (tableItems w ps fs)) := by
  refine Pairs.flatMap' ?_
  intro k hk1
  obtain ⟨a, ha, hs⟩ := hk k hk1
  unfold entitiesOf tableItems
  rw [ha]
  refine pairs_range (fun r e hr => ?_)
  unfold rowItems
  rw [hr]
  exact zip_denotes hb (rows_fetch h ha hr hs)

theorem hasAll_types {w : World} {ps : List Param} {fs : List Fetch} (hb : Pairs (Bound w) ps fs) (e : EcsId) : HasAll w fs e ↔ HasTypes w ps e := by
  unfold HasAll HasTypes
  refine and_congr_right (fun _ => ?_)
  induction hb with
  | nil => simp
  | @cons p f ps fs hpf _ ih =>
    rw [List.forall_mem_cons, List.forall_mem_cons, ih]
    refine and_congr_left (fun _ => ?_)
    cases p with
    | ids =>
      have : f = .ecsId := hpf
      subst this
      simp [Fetch.Of, Param.Of]
    | «mut» t =>
      obtain ⟨c, q1, q2⟩ := hpf
      subst q2
      simp [Fetch.Of, Param.Of, HasT, HasComp, q1]
    | ref t =>
      obtain ⟨c, q1, q2⟩ := hpf
      subst q2
      simp [Fetch.Of, Param.Of, HasT, HasComp, q1]

theorem Produces.uniq' {σ α : Type} {next : σ → Except Fault (Option α × σ)} {s : σ} {xs ys : List α} (hx : Produces next s xs) (hy : Produces next s ys) :
    xs = ys := by
  have key : ∀ (n : Nat) (xs ys : List α), n ≥ xs.length → n ≥ ys.length →
      (xs.map some).take n ++ List.replicate (n - xs.length) none = (ys.map some).take n ++ List.replicate (n - ys.length) none → xs = ys := by
    intro n
    induction n with
    | zero =>
      intro xs ys h1 h2 _
      rw [List.eq_nil_of_length_eq_zero (by omega : xs.length = 0), List.eq_nil_of_length_eq_zero (by omega : ys.length = 0)]
    | succ n ih =>
      intro xs ys h1 h2 h3
      cases xs with
      | nil =>
        cases ys with
        | nil => rfl
        | cons y ys => simp [List.replicate_succ] at h3
      | cons x xs =>
        cases ys with
        | nil => simp [List.replicate_succ] at h3
        | cons y ys =>
          simp only [List.map_cons, List.take_succ_cons, List.length_cons, Nat.succ_sub_succ, List.cons_append] at h3
          injection h3 with h3 h4
          injection h3 with h3
          rw [h3, ih xs ys (by simpa using h1) (by simpa using h2) (by simpa using h4)]
  have h1 := hx (max xs.length ys.length)
  rw [hy (max xs.length ys.length)] at h1
  injection h1 with h1
  exact key _ _ _ (Nat.le_max_left _ _) (Nat.le_max_right _ _) h1.symm

/-! ## Creating queries -/

theorem acquireAt_length {ls : List RwLock} {wr : Bool} {i : Nat} {g : Guard} {ls' : List RwLock} (h : acquireAt ls wr i = .ok (g, ls')) :
    ls'.length = ls.length := by
  unfold acquireAt at h
  split at h
  · cases h
  · split at h
    · cases h
    · injection h with h; injection h with _ h; rw [← h, List.length_set]

theorem acquireStatic_length {w : World} {ls ls' : List RwLock} {f : Fetch} {g : Guard} (h : f.acquireStatic w ls = .ok (g, ls')) :
    ls'.length = ls.length ∧ ∀ c, f.Of c → w.lockLookup c ≠ none := by
  cases f with
  | ecsId => injection h with h; injection h with _ h; exact ⟨by rw [h], by rintro c (hc | hc) <;> cases hc⟩
  | «mut» id =>
    unfold Fetch.acquireStatic at h
    cases hk : w.lockLookup id with
    | none => simp only [hk] at h; cases h
    | some i =>
      simp only [hk] at h
      refine ⟨acquireAt_length h, ?_⟩
      rintro c (hc | hc) <;> cases hc
      rw [hk]; simp
  | immut id =>
    unfold Fetch.acquireStatic at h
    cases hk : w.lockLookup id with
    | none => simp only [hk] at h; cases h
    | some i =>
      simp only [hk] at h
      refine ⟨acquireAt_length h, ?_⟩
      rintro c (hc | hc) <;> cases hc
      rw [hk]; simp

theorem acquireAllStatic_ok {w : World} (fs : List Fetch) : ∀ {done : List Guard} {ls : List RwLock} {gs : List Guard} {ls' : List RwLock},
    acquireAllStatic w done ls fs = .ok (gs, ls') → ls'.length = ls.length ∧ ∀ f ∈ fs, ∀ c, f.Of c → w.lockLookup c ≠ none := by
  induction fs with
  | nil =>
    intro done ls gs ls' h
    injection h with h; injection h with _ h
    exact ⟨by rw [h], by simp⟩
  | cons f fs ih =>
    intro done ls gs ls' h
    unfold acquireAllStatic at h
    cases hf : f.acquireStatic w ls with
    | error e => rw [hf] at h; cases h
    | ok x =>
      obtain ⟨g, ls1⟩ := x
      rw [hf] at h
      obtain ⟨h1, h2⟩ := acquireStatic_length hf
      obtain ⟨h3, h4⟩ := ih h
      refine ⟨h3.trans h1, ?_⟩
      rw [List.forall_mem_cons]
      exact ⟨h2, h4⟩

theorem acquireAllDyn_ok {w : World} (fs : List Fetch) : ∀ {done : List Guard} {inc : Bool} {ls : List RwLock} {gs : List Guard} {inc' : Bool}
    {ls' : List RwLock}, acquireAllDyn w done inc ls fs = .ok (gs, inc', ls') →
    ls'.length = ls.length ∧ (inc' = true ↔ inc = true ∨ ∃ f ∈ fs, ∃ c, f.Of c ∧ w.lockLookup c = none) := by
  induction fs with
  | nil =>
    intro done inc ls gs inc' ls' h
    injection h with h; injection h with _ h; injection h with h1 h2
    exact ⟨by rw [h2], by rw [h1]; simp⟩
  | cons f fs ih =>
    intro done inc ls gs inc' ls' h
    unfold acquireAllDyn at h
    have hd := acquireDyn_eq w ls f
    have hone : ∀ g ls1 i, f.acquireDyn w ls = .ok (g, ls1, i) → ls1.length = ls.length ∧ (i = true ↔ ∃ c, f.Of c ∧ w.lockLookup c = none) := by
      intro g ls1 i hh
      rw [hd] at hh
      cases hid : f.getId with
      | none =>
        rw [hid] at hh
        injection hh with hh; injection hh with _ hh; injection hh with h1 h2
        refine ⟨by rw [h1], ?_⟩
        rw [← h2]
        simp only [Bool.false_eq_true, false_iff, not_exists]
        intro c ⟨hc, _⟩
        rw [fetch_of_getId.2 hc] at hid; cases hid
      | some id =>
        rw [hid] at hh
        simp only at hh
        have huniq : ∀ c, f.Of c → c = id := by
          intro c hc
          have := fetch_of_getId.2 hc
          rw [hid] at this; injection this with this; exact this.symm
        cases hl : w.lockLookup id with
        | none =>
          rw [hl] at hh
          injection hh with hh; injection hh with _ hh; injection hh with h1 h2
          refine ⟨by rw [h1], ?_⟩
          rw [← h2]
          simp only [true_iff]
          exact ⟨id, fetch_of_getId.1 hid, hl⟩
        | some n =>
          rw [hl] at hh
          simp only at hh
          cases hs : f.acquireStatic w ls with
          | error e => rw [hs] at hh; cases hh
          | ok x =>
            obtain ⟨g', ls2⟩ := x
            rw [hs] at hh
            injection hh with hh; injection hh with _ hh; injection hh with h1 h2
            refine ⟨by rw [← h1]; exact (acquireStatic_length hs).1, ?_⟩
            rw [← h2]
            simp only [Bool.false_eq_true, false_iff, not_exists]
            intro c ⟨hc, hn⟩
            rw [huniq c hc, hl] at hn; cases hn
    cases hf : f.acquireDyn w ls with
    | error e => rw [hf] at h; cases h
    | ok x =>
      obtain ⟨g, ls1, i⟩ := x
      rw [hf] at h
      obtain ⟨h1, h2⟩ := hone g ls1 i hf
      obtain ⟨h3, h4⟩ := ih h
      refine ⟨h3.trans h1, ?_⟩
      rw [h4, Bool.or_eq_true, h2]
      simp only [List.mem_cons, exists_eq_or_imp]
      rw [or_assoc]

theorem query_ok {ps : List Param} {v v' : World} {q : StaticQuery} (h : query ps v = .ok q v') :
    q.params = ps ∧ (∃ ls, ls.length = v.locks.length ∧ v' = { v with locks := ls }) ∧ q.fetches = allFetches v ps ∧
    ∀ fs, q.fetches = some fs → ∀ f ∈ fs, ∀ c, f.Of c → v.lockLookup c ≠ none := by
  unfold query at h
  cases ha : allFetches v ps with
  | none =>
    rw [ha] at h
    injection h with h1 h2
    subst h1 h2
    exact ⟨rfl, ⟨v.locks, rfl, rfl⟩, rfl, by simp⟩
  | some fs =>
    rw [ha] at h
    simp only at h
    cases hb : acquireAllStatic v [] v.locks fs with
    | error x => rw [hb] at h; cases h
    | ok x =>
      obtain ⟨gs, ls⟩ := x
      rw [hb] at h
      injection h with h1 h2
      subst h1 h2
      obtain ⟨h3, h4⟩ := acquireAllStatic_ok fs hb
      refine ⟨rfl, ⟨ls, h3, rfl⟩, rfl, ?_⟩
      intro fs' hfs'
      injection hfs' with hfs'; subst hfs'
      exact h4

theorem queryDynamic_ok {fs : List Fetch} {v v' : World} {q : DynQuery} (h : queryDynamic fs v = .ok q v') :
    q.fetches = fs ∧ (∃ ls, ls.length = v.locks.length ∧ v' = { v with locks := ls }) ∧
    (q.incomplete = true ↔ ∃ f ∈ fs, ∃ c, f.Of c ∧ v.lockLookup c = none) := by
  unfold queryDynamic at h
  cases hb : acquireAllDyn v [] false v.locks fs with
  | error x => rw [hb] at h; cases h
  | ok x =>
    obtain ⟨gs, inc, ls⟩ := x
    rw [hb] at h
    injection h with h1 h2
    subst h1 h2
    obtain ⟨h3, h4⟩ := acquireAllDyn_ok fs hb
    exact ⟨rfl, ⟨ls, h3, rfl⟩, by simpa using h4⟩

/-! ## Iterating -/

/-- The components asked for are used by some table, unless they are unknown to the locks. -/
def LocksUsed (w : World) (fs : List Fetch) : Prop := ∀ f ∈ fs, ∀ c, f.Of c → w.lockLookup c ≠ none → w.Used c

theorem SameButLocks.trans' {w v v' : World} (h : SameButLocks w v) (h' : ∃ ls, ls.length = v.locks.length ∧ v' = { v with locks := ls }) :
    SameButLocks w v' := by
  obtain ⟨ls, h1, rfl⟩ := h
  obtain ⟨ls', h2, rfl⟩ := h'
  exact ⟨ls', h2.trans h1, rfl⟩

theorem SameButLocks.inv {w v : World} (h : SameButLocks w v) (hi : Inv w) : Inv v := by
  obtain ⟨ls, h1, rfl⟩ := h
  exact hi.withLocks h1

theorem dynamic_main {w v v' : World} (h : Inv w) (hv : SameButLocks w v) (hlen : w.archetypes.length < 2 ^ 32) {fs : List Fetch} (hne : fs ≠ [])
    (hu : LocksUsed w fs) {q : DynQuery} (hq : queryDynamic fs v = .ok q v') :
    SameButLocks w v' ∧ ∃ ks : List Nat, ks.Pairwise (· < ·) ∧ (∀ k, k ∈ ks ↔ TableOk w fs k) ∧
      (∃ it, q.iter v' = .ok it ∧ Produces (fun s => DynIter.next v' s) it (ks.flatMap (tableRows w fs))) ∧
      ∃ it, q.columnIter v' = .ok it ∧ Produces (fun s => ColumnIter.next v' s) it (ks.map (columnsOf w fs)) := by
  obtain ⟨h1, h2, h3⟩ := queryDynamic_ok hq
  have hv' := hv.trans' h2
  refine ⟨hv', ?_⟩
  have hi' := hv'.inv h
  have key : ∃ bi, q.archIter v' = .ok bi ∧ bi.Good ∧ bi.pend.Pairwise (· < ·) ∧ ∀ k, k ∈ bi.pend ↔ TableOk w fs k := by
    obtain ⟨ls0, hl0, rfl⟩ := hv
    obtain ⟨ls, hl, rfl⟩ := hv'
    unfold DynQuery.archIter
    by_cases hinc : q.incomplete = true
    · rw [if_pos hinc]
      refine ⟨_, rfl, BitsetIter.good_new _ _, BitsetIter.pend_new_sorted _ _, ?_⟩
      rw [pend_zero]
      obtain ⟨f, hf, c, hc, hlk⟩ := h3.1 hinc
      intro k
      simp only [List.not_mem_nil, false_iff]
      rintro ⟨a, ha, hs⟩
      exact h.lock.used a (List.mem_of_getElem? ha) c (hs f hf c hc) hlk
    · rw [if_neg hinc, h1]
      have hask : Asked w fs := by
        intro f hf c hc
        refine hu f hf c hc ?_
        intro hlk
        exact hinc (h3.2 ⟨f, hf, c, hc, hlk⟩)
      obtain ⟨its, m, t1, t2⟩ := tables_spec hi' hlen hne hask
      rw [t1]
      exact ⟨_, rfl, BitsetIter.good_new _ _, BitsetIter.pend_new_sorted _ _, t2⟩
  obtain ⟨bi, b1, b2, b3, b4⟩ := key
  refine ⟨bi.pend, b3, b4, ⟨⟨fs, bi, 0, fs.map (fun _ => (⟨.null, 0⟩, 0))⟩, ?_, ?_⟩, ⟨fs, bi⟩, ?_, ?_⟩
  · unfold DynQuery.iter; rw [b1, h1]
  · obtain ⟨ls, hl, rfl⟩ := hv'
    exact dynIter_produces hi' ⟨rfl, b2, fun k hk => (b4 k).1 hk, [], Or.inl ⟨rfl, rfl⟩, rfl⟩
  · unfold DynQuery.columnIter; rw [b1, h1]
  · obtain ⟨ls, hl, rfl⟩ := hv'
    exact columnIter_produces hi' b2 (fun k hk => (b4 k).1 hk)

theorem bound_mem {w : World} {ps : List Param} {fs : List Fetch} (hb : Pairs (Bound w) ps fs) {f : Fetch} (hf : f ∈ fs) {c : EcsId} (hc : f.Of c) :
    ∃ p ∈ ps, ∃ t, p.Of t ∧ w.typeMap t = some c := by
  induction hb with
  | nil => cases hf
  | @cons p g ps fs hpg _ ih =>
    rcases List.mem_cons.1 hf with rfl | hf
    · rcases bound_of hpg with ⟨_, rfl⟩ | ⟨t, c', h1, h2, h3⟩
      · rcases hc with hc | hc <;> cases hc
      · have e1 := fetch_of_getId.2 hc
        rw [fetch_of_getId.2 h2] at e1
        injection e1 with e1; subst e1
        exact ⟨p, List.mem_cons_self, t, h1, h3⟩
    · obtain ⟨p', h1, h2⟩ := ih hf
      exact ⟨p', List.mem_cons_of_mem _ h1, h2⟩

theorem bound_nil {w : World} {ps : List Param} {fs : List Fetch} (hb : Pairs (Bound w) ps fs) : ps = [] ↔ fs = [] := by
  cases hb <;> simp

/-- A static query with a type that has no component entity yields nothing. -/
theorem static_none {w : World} {s : StaticIter} (h1 : s.remaining = 0) (h2 : s.archs.Good) (h3 : s.archs.pend = []) :
    Produces (fun s => StaticIter.next w s) s [] := by
  refine produces_of (fun s xs => s.remaining = 0 ∧ s.archs.Good ∧ s.archs.pend = [] ∧ xs = []) ?_ ?_ ⟨h1, h2, h3, rfl⟩
  · rintro s ⟨q1, q2, q3, _⟩
    show ∃ s', StaticIter.loop w (World.yieldFuel s.archs + 1) s = _ ∧ _
    unfold StaticIter.loop
    rw [if_neg (by simp [q1])]
    rcases archNext_spec (w := w) (fs := []) q2 (by rw [q3]; simp) with ⟨a1, it', a2, a3, a4⟩ | ⟨k, ks, a, it', a1, _⟩
    · rw [a2]; exact ⟨_, rfl, q1, a3, a4, rfl⟩
    · rw [q3] at a1; cases a1
  · rintro s x xs ⟨_, _, _, q4⟩; cases q4

theorem static_main {w v v' : World} (h : Inv w) (hv : SameButLocks w v) (hlen : w.archetypes.length < 2 ^ 32) {ps : List Param} (hne : ps ≠ [])
    (hu : ∀ p ∈ ps, ∀ t c, p.Of t → w.typeMap t = some c → w.lockLookup c ≠ none → w.Used c) {q : StaticQuery} (hq : query ps v = .ok q v') :
    SameButLocks w v' ∧
    ((∃ (fs : List Fetch) (ks : List Nat), Pairs (Bound w) ps fs ∧ ks.Pairwise (· < ·) ∧ (∀ k, k ∈ ks ↔ TableOk w fs k) ∧
      ∃ it, q.iter v' = .ok it ∧ Produces (fun s => StaticIter.next v' s) it (ks.flatMap (tableItems w ps fs))) ∨
    ((∃ p ∈ ps, ∃ t, p.Of t ∧ w.typeMap t = none) ∧ ∃ it, q.iter v' = .ok it ∧ Produces (fun s => StaticIter.next v' s) it [])) := by
  obtain ⟨h1, h2, h3, h4⟩ := query_ok hq
  have hv' := hv.trans' h2
  refine ⟨hv', ?_⟩
  have hi' := hv'.inv h
  have htm : v.typeMap = w.typeMap := by obtain ⟨ls, _, rfl⟩ := hv; rfl
  have hlk : v.lockLookup = w.lockLookup := by obtain ⟨ls, _, rfl⟩ := hv; rfl
  unfold StaticQuery.iter
  cases hf : q.fetches with
  | none =>
    right
    refine ⟨?_, _, rfl, static_none rfl (BitsetIter.good_new _ _) (pend_zero _)⟩
    rw [h3] at hf
    rw [← htm]
    exact allFetches_none.1 hf
  | some fs =>
    left
    rw [h3] at hf
    have hb0 := allFetches_bound.1 hf
    have hb : Pairs (Bound w) ps fs := by obtain ⟨ls, _, rfl⟩ := hv; exact hb0
    have hb' : Pairs (Bound v') ps fs := by obtain ⟨ls, _, rfl⟩ := hv'; exact hb
    have hask : Asked w fs := by
      intro f hf' c hc
      obtain ⟨p, p1, t, p2, p3⟩ := bound_mem hb hf' hc
      refine hu p p1 t c p2 p3 ?_
      rw [← hlk]
      exact h4 fs (h3.trans hf) f hf' c hc
    have hne' : fs ≠ [] := fun hh => hne ((bound_nil hb).2 hh)
    obtain ⟨ls, hl, rfl⟩ := hv'
    obtain ⟨its, m, t1, t2⟩ := tables_spec hi' hlen hne' hask
    simp only [t1]
    refine ⟨fs, _, hb, BitsetIter.pend_new_sorted _ _, t2, _, rfl, ?_⟩
    exact staticIter_produces hi' hb' ⟨h1, rfl, BitsetIter.good_new _ _, fun k hk => (t2 k).1 hk, [], Or.inl ⟨rfl, rfl⟩, rfl⟩

theorem locksUsed_of {w : World} (hw : Reachable w) {fs : List Fetch} (hb : Calm w ∨ ∀ f ∈ fs, ∀ c, f.Of c → w.Row c) : LocksUsed w fs := by
  intro f hf c hc hl
  rcases hb with hb | hb
  · exact hb.tight c hl
  · rcases hw.tidy c hl with hh | ⟨_, hh, _⟩
    · exact hh
    · exact absurd (hb f hf c hc) hh

theorem typesUsed {w : World} (hw : Reachable w) {t : Ty} {c : EcsId} (ht : w.typeMap t = some c) (hl : w.lockLookup c ≠ none) : w.Used c := by
  rcases hw.tidy c hl with hh | ⟨_, _, hh⟩
  · exact hh
  · exact absurd ht (hh t)

/-! ## Disjointness -/

theorem points_size {w : World} (h : Inv w) {p : Ptr} {e c : EcsId} {m : ComponentMeta} (hp : w.PointsAt p e c) (hm : w.InfoIs c m) :
    ∃ (k j r : Nat) (a : Archetype) (v : UVec), w.archetypes[k]? = some a ∧ a.entities[r]? = some e ∧ a.storages[j]? = some (c, v) ∧
      p = ⟨.storage k j, r * m.layout.size⟩ := by
  obtain ⟨k, j, r, a, v, h1, h2, h3, h4, _, _, _, q3, _⟩ := hp.cell h
  refine ⟨k, j, r, a, v, h1, h2, h3, ?_⟩
  have hc := ((infoIs_iff h).1 hm).2
  have : v.size = m.layout.size := by
    obtain ⟨_, m', hc', hi⟩ := infoFn_some.1 q3
    rw [hc] at hc'; injection hc' with hc'; subst hc'
    unfold UVec.size; rw [← hi]; rfl
  rw [h4, this]

theorem apart_rows {col : Col} {r r' n : Nat} (hr : r ≠ r') : Apart ⟨col, r * n⟩ n ⟨col, r' * n⟩ n := by
  rintro _ b ⟨h1, h2, h3, h4⟩
  simp only at *
  rcases Nat.lt_or_gt_of_ne hr with hh | hh
  · have := Nat.mul_le_mul_right n hh
    rw [Nat.succ_mul] at this
    omega
  · have := Nat.mul_le_mul_right n hh
    rw [Nat.succ_mul] at this
    omega

theorem fetch_apart {w : World} (h : Inv w) {e e' : EcsId} {f f' : Fetch} {p p' : Ptr} (hp : FetchAt w e f p) (hp' : FetchAt w e' f' p')
    (hne : e ≠ e' ∨ f.getId ≠ f'.getId) {n n' : Nat} (hn : FetchSize w f n) (hn' : FetchSize w f' n') : Apart p n p' n' := by
  have base : ∀ {f : Fetch} {e : EcsId} {p : Ptr} {n : Nat}, FetchAt w e f p → FetchSize w f n →
      (f = .ecsId ∧ n = 8 ∧ ∃ (k r : Nat) (a : Archetype), w.archetypes[k]? = some a ∧ a.entities[r]? = some e ∧ p = ⟨.entities k, r * 8⟩) ∨
      (∃ c, f.Of c ∧ ∃ (k j r : Nat) (a : Archetype) (v : UVec), w.archetypes[k]? = some a ∧ a.entities[r]? = some e ∧ a.storages[j]? = some (c, v) ∧
        p = ⟨.storage k j, r * n⟩ ∧ ∃ m, w.InfoIs c m ∧ n = m.layout.size) := by
    intro f e p n h1 h2
    cases f with
    | ecsId =>
      obtain ⟨k, r, a, q1, q2, q3⟩ := h1
      exact Or.inl ⟨rfl, h2, k, r, a, q1, q2, by rw [q3, Nat.mul_comm]⟩
    | «mut» c =>
      obtain ⟨m, m1, rfl⟩ := h2
      obtain ⟨k, j, r, a, v, q1, q2, q3, q4⟩ := points_size h h1 m1
      exact Or.inr ⟨c, Or.inl rfl, k, j, r, a, v, q1, q2, q3, q4, m, m1, rfl⟩
    | immut c =>
      obtain ⟨m, m1, rfl⟩ := h2
      obtain ⟨k, j, r, a, v, q1, q2, q3, q4⟩ := points_size h h1 m1
      exact Or.inr ⟨c, Or.inr rfl, k, j, r, a, v, q1, q2, q3, q4, m, m1, rfl⟩
  rcases base hp hn with ⟨rfl, rfl, k, r, a, q1, q2, rfl⟩ | ⟨c, hc, k, j, r, a, v, q1, q2, q3, rfl, m, hm, rfl⟩ <;>
    rcases base hp' hn' with ⟨rfl, rfl, k', r', a', q1', q2', rfl⟩ | ⟨c', hc', k', j', r', a', v', q1', q2', q3', rfl, m', hm', rfl⟩
  · intro hcol
    have hk : k = k' := by injection hcol
    subst hk
    rw [q1] at q1'; injection q1' with q1'; subst q1'
    refine apart_rows ?_ rfl
    rintro rfl
    rw [q2] at q2'; injection q2' with q2'
    exact hne.elim (fun hh => hh q2') (fun hh => hh rfl)
  · intro hcol; cases hcol
  · intro hcol; cases hcol
  · intro hcol
    have hk : k = k' := by injection hcol
    have hj : j = j' := by injection hcol
    subst hk; subst hj
    rw [q1] at q1'; injection q1' with q1'; subst q1'
    rw [q3] at q3'; injection q3' with q3'; injection q3' with q3' q4'; subst q3'
    have hmm : m = m' := by
      have e1 := ((infoIs_iff h).1 hm).2
      rw [((infoIs_iff h).1 hm').2] at e1
      injection e1 with e1; exact e1.symm
    subst hmm
    refine apart_rows ?_ rfl
    rintro rfl
    rw [q2] at q2'; injection q2' with q2'
    refine hne.elim (fun hh => hh q2') (fun hh => hh ?_)
    rw [fetch_of_getId.2 hc, fetch_of_getId.2 hc']

theorem denotes_points {w : World} {e : EcsId} {k : Param} {i : Item} (hd : Denotes w e k i) {t : Ty} {p : Ptr} (hi : i = .mut t p ∨ i = .ref t p) :
    ∃ c, w.typeMap t = some c ∧ w.PointsAt p e c := by
  cases k with
  | ids =>
    have : i = .id e := hd
    subst this
    rcases hi with hi | hi <;> cases hi
  | «mut» t' =>
    obtain ⟨p', c, rfl, h1, h2⟩ := hd
    rcases hi with hi | hi
    · injection hi with a b; subst a b; exact ⟨c, h1, h2⟩
    · cases hi
  | ref t' =>
    obtain ⟨p', c, rfl, h1, h2⟩ := hd
    rcases hi with hi | hi
    · cases hi
    · injection hi with a b; subst a b; exact ⟨c, h1, h2⟩

theorem type_info {w : World} (h : Inv w) {t : Ty} {c e : EcsId} {p : Ptr} (ht : w.typeMap t = some c) (hp : w.PointsAt p e c) :
    w.InfoIs c (ComponentMeta.fromGeneric t) := by
  obtain ⟨m, hm⟩ := hp.info h
  obtain ⟨h1, h2⟩ := (infoIs_iff h).1 hm
  exact (infoIs_iff h).2 ⟨h1, h.type.comp t c ht (h.row_live h1)⟩

/-! ## `StaticQuery::get` -/

theorem get_spec {w v v' : World} (h : Inv w) (hv : SameButLocks w v) {ps : List Param} {q : StaticQuery} (hq : query ps v = .ok q v') (e : EcsId) :
    (q.get v' e = .error .noGeneration ∧ w.entities.generations.length ≤ e.uindex) ∨
    (∃ r, q.get v' e = .ok r ∧ (r.isSome = true ↔ HasTypes w ps e) ∧ ∀ items, r = some items → Pairs (Denotes w e) ps items) := by
  obtain ⟨h1, h2, h3, h4⟩ := query_ok hq
  have hv' := hv.trans' h2
  have hi' := hv'.inv h
  have hal : allFetches v ps = allFetches v' ps := by
    obtain ⟨ls, hls, rfl⟩ := h2
    cases hx : allFetches v ps with
    | some fs => exact (allFetches_bound (w := { v with locks := ls }) |>.2 ((allFetches_bound (w := v)).1 hx)).symm
    | none => exact (allFetches_none (w := { v with locks := ls }) |>.2 ((allFetches_none (w := v)).1 hx)).symm
  have hty : HasTypes w ps e ↔ HasTypes v' ps e := by obtain ⟨ls, _, rfl⟩ := hv'; exact Iff.rfl
  have hden : ∀ items, Pairs (Denotes v' e) ps items → Pairs (Denotes w e) ps items := by
    obtain ⟨ls, _, rfl⟩ := hv'; exact fun _ hh => hh
  have hgen : w.entities = v'.entities := by obtain ⟨ls, _, rfl⟩ := hv'; rfl
  rw [hty, hgen]
  clear hty hgen hq h h2 h4 hv
  have hnone : ¬ v'.Row e → ((none : Option (List Item)).isSome = true ↔ HasTypes v' ps e) ∧
      ∀ items, (none : Option (List Item)) = some items → Pairs (Denotes w e) ps items := by
    intro hr
    exact ⟨by simp only [Option.isSome_none, Bool.false_eq_true, false_iff]; exact fun hh => hr hh.1, by simp⟩
  unfold StaticQuery.get
  rcases v'.entities.isAlive_cases e with ⟨i1, i2⟩ | ⟨i1, i2, _⟩ | ⟨i1, i2⟩
  · have : v'.isAlive e = .error .noGeneration := i1
    rw [this]; exact Or.inl ⟨rfl, i2⟩
  · have : v'.isAlive e = .ok false := i1
    rw [this]; exact Or.inr ⟨none, rfl, hnone (fun hr => i2 (hi'.row_live hr))⟩
  · have : v'.isAlive e = .ok true := i1
    rw [this]
    right
    rcases getEntityMeta_spec hi' e with ⟨g1, g2⟩ | ⟨g1, g2⟩ | ⟨g1, g2, g3, g4⟩ | ⟨im, cm, g1, g2, g3, g4, g5⟩
    · have := i2.lt; omega
    · exact absurd i2 g2
    · rw [g1]; exact ⟨none, rfl, hnone g4⟩
    · rw [g1]
      obtain ⟨a, a1, a2⟩ := rowOf_some g5
      have hlt := (List.getElem?_eq_some_iff.1 a2).1
      have hrow : v'.Row e := (row_iff e).2 ⟨_, _, g5⟩
      simp only [a1, if_pos hlt]
      rw [h3, hal, h1]
      cases hf : allFetches v' ps with
      | none =>
        refine ⟨none, rfl, ?_, by simp⟩
        simp only [Option.isSome_none, Bool.false_eq_true, false_iff]
        rintro ⟨_, hh⟩
        obtain ⟨p, p1, t, p2, p3⟩ := allFetches_none.1 hf
        obtain ⟨bs, c, hc, _⟩ := hh p p1 t p2
        rw [p3] at hc; cases hc
      | some fs =>
        have hb := allFetches_bound.1 hf
        have hall : Suits fs a ↔ HasTypes v' ps e := by
          rw [← hasAll_types hb]
          unfold Suits HasAll
          simp only [hasComp_at hi' a1 a2]
          exact ⟨fun hh => ⟨hrow, hh⟩, fun hh => hh.2⟩
        rcases createPtrs_cell hi' a1 hb with ⟨hs, hcp⟩ | ⟨hs, hcp⟩
        · have ho := offsetPtrs_cell hi' a1 hb hs (r := 0) (n := im.index) (by omega)
          rw [Nat.zero_add] at ho
          simp only [hcp, ho, castPtrs_cell hi' a1 hb hs a2]
          refine ⟨_, rfl, ?_, ?_⟩
          · simp only [Option.isSome_some, true_iff]; exact hall.1 hs
          · intro items hit
            injection hit with hit; subst hit
            exact hden _ (zip_denotes hb (rows_fetch hi' a1 a2 hs))
        · simp only [hcp]
          refine ⟨none, rfl, ?_, by simp⟩
          simp only [Option.isSome_none, Bool.false_eq_true, false_iff]
          exact fun hh => hs (hall.2 hh)

end World
end Ellecs
