import Verif.Spec.VecOwner
import Verif.Proofs.Unwind
/-! # The values in a family of `UntypedVec`s -/
namespace Ellecs
namespace VecSpec
open UVec

/-- The values of one vec. -/
def held (o : Option UVec) : List Item :=
  match o with
  | some v => v.elems.map (v.info, ·)
  | none => []

theorem stored_eq (vs : List (Option UVec)) : stored vs = vs.flatMap held := rfl

theorem stored_split : ∀ (vs : List (Option UVec)) (i : Nat) {a}, vs[i]? = some a →
    ∃ r, (stored vs).Perm (held a ++ r) ∧ ∀ b, (stored (vs.set i b)).Perm (held b ++ r)
  | [], i, a, h => by simp at h
  | c :: vs, 0, a, h => by
    simp only [List.getElem?_cons_zero, Option.some.injEq] at h
    subst h
    exact ⟨stored vs, by simp [stored_eq], fun b => by simp [stored_eq]⟩
  | c :: vs, i + 1, a, h => by
    simp only [List.getElem?_cons_succ] at h
    obtain ⟨r, h1, h2⟩ := stored_split vs i h
    have swap : ∀ x y : List Item, (held c ++ (x ++ y)).Perm (x ++ (held c ++ y)) := fun x y => by
      rw [← List.append_assoc, ← List.append_assoc]
      exact List.perm_append_comm.append_right y
    refine ⟨held c ++ r, ?_, fun b => ?_⟩
    · rw [stored_eq, List.flatMap_cons, ← stored_eq]
      exact (h1.append_left _).trans (swap _ _)
    · rw [List.set_cons_succ, stored_eq, List.flatMap_cons, ← stored_eq]
      exact ((h2 b).append_left _).trans (swap _ _)

/-- The vecs are in order, and of the types. -/
def Good (T : TypeInfo → Prop) (vs : List (Option UVec)) : Prop :=
  ∀ v, some v ∈ vs → Inv v ∧ T v.info

theorem Good.at {T vs v} {i : Nat} (h : Good T vs) (hv : vs[i]? = some (some v)) : Inv v ∧ T v.info :=
  h v (List.mem_of_getElem? hv)

theorem Good.set {T vs b} {i : Nat} (h : Good T vs) (hb : ∀ v, b = some v → Inv v ∧ T v.info) : Good T (vs.set i b) := by
  intro v hv
  rcases List.mem_or_eq_of_mem_set hv with h' | h'
  · exact h v h'
  · exact hb v h'.symm

theorem Good.add {T vs v} (h : Good T vs) (hv : Inv v ∧ T v.info) : Good T (vs ++ [some v]) := by
  intro w hw
  rcases List.mem_append.1 hw with h' | h'
  · exact h w h'
  · simp only [List.mem_singleton, Option.some.injEq] at h'
    subst h'; exact hv

theorem stored_add (vs : List (Option UVec)) (v : UVec) (h : v.elems = []) : stored (vs ++ [some v]) = stored vs := by
  simp [stored_eq, held, h]

/-- What `pop` does to the values. -/
theorem pop_items {v v' : UVec} {b evs} (hi : Inv v) (he : v.pop = .ok (b, v', evs)) :
    Inv v' ∧ v'.info = v.info ∧
    ((∃ x, v.elems = v'.elems ++ [x] ∧ evs = dropEvs v.info [x]) ∨
     (v'.elems = v.elems ∧ evs = []) ∨
     (v.size = 0 ∧ v'.elems = v.elems ∧ evs = dropEvs v.info [[]])) := by
  cases hl : v.elems.getLast? with
  | some x =>
    rw [pop_spec hi hl] at he
    cases he
    refine ⟨popped_inv hi, rfl, .inl ⟨x, ?_, rfl⟩⟩
    rw [popped_elems hi]
    obtain ⟨init, hx⟩ := List.getLast?_eq_some_iff.1 hl
    rw [hx, List.dropLast_concat]
  | none =>
    rw [List.getLast?_eq_none_iff] at hl
    by_cases hz : v.size = 0
    · have hc : v.len = 0 := by rw [← count_zst hz, ← length_elems, hl]; rfl
      unfold UVec.pop at he
      rw [if_neg (by omega), if_pos (by omega)] at he
      have hv : ({ v with len := v.len - v.size } : UVec) = v := by rw [hz, Nat.sub_zero]
      simp only [hv] at he
      rw [callDrop_eq (by rw [hc, hz]; omega)] at he
      simp only at he
      cases he
      refine ⟨hi, rfl, .inr (.inr ⟨hz, rfl, ?_⟩)⟩
      rw [hz]; simp [readAt]
    · rw [pop_empty hi hz hl] at he
      cases he
      exact ⟨hi, rfl, .inr (.inl ⟨rfl, rfl⟩)⟩

theorem dropEvs_flat (info : TypeInfo) (l : List Bytes) : dropEvs info l = l.flatMap fun x => dropEvs info [x] := by
  unfold dropEvs
  cases info.dropFn with
  | none => simp
  | some f => simp only; induction l with
    | nil => rfl
    | cons a l ih => simp [ih]

theorem cut_take (pan : Panics) (l : List DropEv) : cut pan l = l.take (cut pan l).length := by
  obtain ⟨post, h⟩ := cut_prefix pan l
  conv => rhs; arg 2; rw [h]
  rw [List.take_left]

/-- What a `drop` that unwinds does to the values: those behind the one whose drop call panicked have been dropped. -/
theorem unwind_items {pan : Panics} {v : UVec} {evs blk} (hi : Inv v) (he : v.dropU pan = .ok (evs, blk, true)) :
    v.elems = v.elems.take (v.count - evs.length) ++ v.elems.drop (v.count - evs.length) ∧
    evs = dropEvs v.info (v.elems.drop (v.count - evs.length)).reverse := by
  refine ⟨(List.take_append_drop _ _).symm, ?_⟩
  rw [dropU_spec hi] at he
  simp only [Except.ok.injEq, Prod.mk.injEq] at he
  obtain ⟨h1, _, h2⟩ := he
  unfold nz at h1 h2
  by_cases hz : v.size = 0
  · rw [if_pos hz] at h2; cases h2
  rw [if_neg hz] at h1 h2
  have h3 := cut_take pan (dropEvs v.info v.elems.reverse)
  rw [h1] at h3
  rw [← length_elems, ← List.take_reverse]
  unfold dropEvs at h2 h3 ⊢
  cases hf : v.info.dropFn with
  | none => rw [hf] at h2; cases h2
  | some f =>
    rw [hf] at h3
    simp only at h3 ⊢
    rw [List.map_take]
    exact h3

theorem Owner.good {T vs hs ts us ds} (h : Owner T vs hs ts us ds) : Good T vs := by
  induction h with
  | start => intro v hv; simp at hv
  | new info ht _ ih => exact ih.add ⟨inv_newFromRaw _, ht⟩
  | newFrom i _ hv ih => exact ih.add ⟨inv_newFromRaw _, (ih.at hv).2⟩
  | @push vs hs ts us ds v v' i x _ hv hx he ih =>
    obtain ⟨i1, i2⟩ := ih.at hv
    rcases pushRaw_spec i1 x (by omega) with ⟨f, e, _⟩ | ⟨v'', e, j1, j2, _⟩
    · rw [he] at e; cases e
    · rw [he] at e; cases e
      exact ih.set fun w hw => by cases hw; exact ⟨j1, j2 ▸ i2⟩
  | pop i _ hv he ih =>
    obtain ⟨i1, i2⟩ := ih.at hv
    obtain ⟨j1, j2, _⟩ := pop_items i1 he
    exact ih.set fun w hw => by cases hw; exact ⟨j1, j2 ▸ i2⟩
  | @swapRemove vs hs ts us ds v v' evs i k _ hv he ih =>
    obtain ⟨i1, i2⟩ := ih.at hv
    by_cases hc : k < v.count
    · obtain ⟨v'', e, j1, j2, _⟩ := swapRemove_spec i1 hc
      rw [he] at e; cases e
      exact ih.set fun w hw => by cases hw; exact ⟨j1, j2 ▸ i2⟩
    · rw [swapRemove_oob (by omega)] at he; cases he
  | @move vs hs ts us ds v v' o o' i j k _ hij hv ho hk he ih =>
    obtain ⟨i1, i2⟩ := ih.at hv
    obtain ⟨o1, o2⟩ := ih.at ho
    have hlay : v.info.layout = o.info.layout := by
      by_cases h : v.info.layout = o.info.layout
      · exact h
      · unfold swapMove at he; rw [if_pos h] at he; cases he
    rcases swapMove_spec i1 o1 hlay hk with ⟨f, e, _⟩ | ⟨v'', o'', e, j1, j2, j3, j4, j5, j6, _⟩
    · rw [he] at e; cases e
    · rw [he] at e; cases e
      exact (ih.set fun w hw => by cases hw; exact ⟨j1, j2 ▸ i2⟩).set fun w hw => by cases hw; exact ⟨j5, j6 ▸ o2⟩
  | @replace vs hs ts us ds v i k off x _ hv hr hx ih =>
    obtain ⟨i1, i2⟩ := ih.at hv
    rw [getRaw_eq i1] at hr
    by_cases hk : k < v.count
    · rw [if_pos hk] at hr; cases hr
      exact ih.set fun w hw => by cases hw; exact ⟨(write_spec i1 hk x hx).1, i2⟩
    · rw [if_neg hk] at hr; cases hr
  | @realloc vs hs ts us ds v v' i _ hv he ih =>
    obtain ⟨i1, i2⟩ := ih.at hv
    by_cases hz : v.size = 0
    · unfold UVec.realloc at he; rw [if_pos hz] at he; cases he
    · rcases realloc_spec i1 hz with ⟨f, e, _⟩ | ⟨v'', e, j1, j2, _⟩
      · rw [he] at e; cases e
      · rw [he] at e; cases e
        exact ih.set fun w hw => by cases hw; exact ⟨j1, j2 ▸ i2⟩
  | drop i _ hv he ih => exact ih.set fun w hw => by cases hw
  | unwind i pan _ hv he ih => exact ih.set fun w hw => by cases hw

theorem elems_realloc {v v' : UVec} (hi : Inv v) (he : v.realloc = .ok v') : v'.elems = v.elems ∧ v'.info = v.info := by
  by_cases hz : v.size = 0
  · unfold UVec.realloc at he; rw [if_pos hz] at he; cases he
  · rcases realloc_spec hi hz with ⟨f, e, _⟩ | ⟨v₁, e, j1, j2, j3, ⟨x, j4⟩, _⟩
    · rw [he] at e; cases e
    · rw [he] at e; cases e
      have hs : v'.size = v.size := by unfold UVec.size; rw [j2]
      have hc : v'.count = v.count := by unfold count; rw [hs, j3]
      refine ⟨List.ext_getElem? fun j => ?_, j2⟩
      rw [getElem?_elems, getElem?_elems, hc]
      by_cases h : j < v.count
      · rw [if_pos h, if_pos h]
        have hb := elem_bound hi h
        unfold elem readAt
        rw [hs, j4, List.drop_append_of_le_length (by omega), List.take_append_of_le_length (by simp; omega)]
      · rw [if_neg h, if_neg h]

/-- The books balance: whatever is counted of a value (`f`) and of a drop call (`g`), as long as a drop call of a
value counts as the value, and a value counts the same in two vecs with the same layout. -/
theorem Owner.books {α : Type} [DecidableEq α] {T : TypeInfo → Prop} (f : Item → List α) (g : DropEv → List α)
    (hg : ∀ a x, T a → (dropEvs a [x]).flatMap g = f (a, x))
    (hf : ∀ a b x, T a → T b → a.layout = b.layout → f (a, x) = f (b, x))
    {vs hs ts us ds} (h : Owner T vs hs ts us ds) :
    ∃ ghosts leaks : List Item, (∀ x ∈ ghosts ++ leaks, T x.1 ∧ x.Void) ∧
      (ds.flatMap g ++ (stored vs ++ ts ++ us ++ leaks).flatMap f).Perm ((hs ++ ghosts).flatMap f) := by
  induction h with
  | start => exact ⟨[], [], by simp, by simp [stored]⟩
  | new info ht _ ih =>
    rw [stored_add _ _ (elems_newFromRaw _)]; exact ih
  | newFrom i _ hv ih =>
    rw [stored_add _ _ (show (newFromUntypedVec _).elems = [] from elems_newFromRaw _)]; exact ih
  | @push vs hs ts us ds v v' i x ho hv hx he ih =>
    obtain ⟨gs, ls, h1, h2⟩ := ih
    obtain ⟨i1, i2⟩ := ho.good.at hv
    rcases pushRaw_spec i1 x (by omega) with ⟨f', e, _⟩ | ⟨v₁, e, j1, j2, j3, _⟩
    · rw [he] at e; cases e
    · rw [he] at e; cases e
      refine ⟨gs, ls, h1, ?_⟩
      obtain ⟨r, r1, r2⟩ := stored_split vs i hv
      rw [List.take_of_length_le (by omega)] at j3
      have hh : held (some v') = held (some v) ++ [(v.info, x)] := by simp [held, j3, j2]
      have r2 := (r2 (some v')).flatMap_right f
      have r1 := r1.flatMap_right f
      rw [hh] at r2
      simp only [List.flatMap_append, List.perm_iff_count, List.count_append] at h2 r1 r2 ⊢
      intro a
      have := h2 a; have := r1 a; have := r2 a; omega
  | @pop vs hs ts us ds v v' b evs i ho hv he ih =>
    obtain ⟨gs, ls, h1, h2⟩ := ih
    obtain ⟨i1, i2⟩ := ho.good.at hv
    obtain ⟨j1, j2, j3⟩ := pop_items i1 he
    obtain ⟨r, r1, r2⟩ := stored_split vs i hv
    have r2 := (r2 (some v')).flatMap_right f
    have r1 := r1.flatMap_right f
    rcases j3 with ⟨x, hx, rfl⟩ | ⟨hx, rfl⟩ | ⟨hz, hx, rfl⟩
    · refine ⟨gs, ls, h1, ?_⟩
      have hh : held (some v) = held (some v') ++ [(v.info, x)] := by simp [held, hx, j2]
      rw [hh] at r1
      have hg' := hg v.info x i2
      simp only [List.flatMap_append, List.flatMap_singleton, List.perm_iff_count, List.count_append, hg'] at h2 r1 r2 ⊢
      intro a
      have := h2 a; have := r1 a; have := r2 a; omega
    · refine ⟨gs, ls, h1, ?_⟩
      have hh : held (some v) = held (some v') := by simp [held, hx, j2]
      rw [hh] at r1
      simp only [List.flatMap_append, List.perm_iff_count, List.count_append, List.append_nil] at h2 r1 r2 ⊢
      intro a
      have := h2 a; have := r1 a; have := r2 a; omega
    · refine ⟨gs ++ [(v.info, [])], ls, ?_, ?_⟩
      · intro y hy
        simp only [List.mem_append, List.mem_singleton] at hy
        rcases hy with (h' | rfl) | h'
        · exact h1 y (List.mem_append_left _ h')
        · exact ⟨i2, hz⟩
        · exact h1 y (List.mem_append_right _ h')
      have hh : held (some v) = held (some v') := by simp [held, hx, j2]
      rw [hh] at r1
      have hg' := hg v.info [] i2
      simp only [List.flatMap_append, List.flatMap_singleton, List.perm_iff_count, List.count_append, hg'] at h2 r1 r2 ⊢
      intro a
      have := h2 a; have := r1 a; have := r2 a; omega
  | @swapRemove vs hs ts us ds v v' evs i k ho hv he ih =>
    obtain ⟨gs, ls, h1, h2⟩ := ih
    obtain ⟨i1, i2⟩ := ho.good.at hv
    by_cases hc : k < v.count
    · obtain ⟨v₁, e, j1, j2, j3, _⟩ := swapRemove_spec i1 hc
      rw [he] at e; cases e
      refine ⟨gs, ls, h1, ?_⟩
      obtain ⟨r, r1, r2⟩ := stored_split vs i hv
      have hp : v.elems.Perm (v'.elems ++ [v.elem k]) := by
        rw [j3]; exact perm_swapRemove (by rw [getElem?_elems, if_pos hc])
      have hh : (held (some v)).Perm (held (some v') ++ [(v.info, v.elem k)]) := by
        have := hp.map (v.info, ·)
        simpa [held, j2] using this
      have r2 := (r2 (some v')).flatMap_right f
      have r1 := (r1.trans (hh.append_right r)).flatMap_right f
      have hg' := hg v.info (v.elem k) i2
      simp only [List.flatMap_append, List.flatMap_singleton, List.perm_iff_count, List.count_append, hg'] at h2 r1 r2 ⊢
      intro a
      have := h2 a; have := r1 a; have := r2 a; omega
    · rw [swapRemove_oob (by omega)] at he; cases he
  | @move vs hs ts us ds v v' o o' i j k ho hij hv hw hk he ih =>
    obtain ⟨gs, ls, h1, h2⟩ := ih
    obtain ⟨i1, i2⟩ := ho.good.at hv
    obtain ⟨o1, o2⟩ := ho.good.at hw
    have hlay : v.info.layout = o.info.layout := by
      by_cases h : v.info.layout = o.info.layout
      · exact h
      · unfold swapMove at he; rw [if_pos h] at he; cases he
    rcases swapMove_spec i1 o1 hlay hk with ⟨f', e, _⟩ | ⟨v₁, o₁, e, j1, j2, j3, j4, j5, j6, j7, _⟩
    · rw [he] at e; cases e
    · rw [he] at e; cases e
      refine ⟨gs, ls, h1, ?_⟩
      obtain ⟨r, r1, r2⟩ := stored_split vs i hv
      have hw' : (vs.set i (some v'))[j]? = some (some o) := by rw [List.getElem?_set_ne hij]; exact hw
      obtain ⟨s, s1, s2⟩ := stored_split _ j hw'
      have hp : v.elems.Perm (v'.elems ++ [v.elem k]) := by
        rw [j3]; exact perm_swapRemove (by rw [getElem?_elems, if_pos hk])
      have hh : (held (some v)).Perm (held (some v') ++ [(v.info, v.elem k)]) := by
        have := hp.map (v.info, ·)
        simpa [held, j2] using this
      have hh' : held (some o') = held (some o) ++ [(o.info, v.elem k)] := by simp [held, j7, j6]
      have r2 := (r2 (some v')).flatMap_right f
      have r1 := (r1.trans (hh.append_right r)).flatMap_right f
      have s2 := (s2 (some o')).flatMap_right f
      have s1 := s1.flatMap_right f
      rw [hh'] at s2
      have hf' := hf _ _ (v.elem k) i2 o2 hlay
      simp only [List.flatMap_append, List.flatMap_singleton, List.perm_iff_count, List.count_append, hf'] at h2 r1 r2 s1 s2 ⊢
      intro a
      have := h2 a; have := r1 a; have := r2 a; have := s1 a; have := s2 a; omega
  | @replace vs hs ts us ds v i k off x ho hv hr hx ih =>
    obtain ⟨gs, ls, h1, h2⟩ := ih
    obtain ⟨i1, i2⟩ := ho.good.at hv
    rw [getRaw_eq i1] at hr
    by_cases hk : k < v.count
    · rw [if_pos hk] at hr; cases hr
      refine ⟨gs, ls, h1, ?_⟩
      obtain ⟨r, r1, r2⟩ := stored_split vs i hv
      have hp : (v.elems.set k x ++ [v.elem k]).Perm (v.elems ++ [x]) := by
        have hl : k < v.elems.length := by rw [length_elems]; exact hk
        have he : v.elems[k] = v.elem k := by
          have := getElem?_elems v k
          rw [if_pos hk, List.getElem?_eq_getElem hl] at this
          exact Option.some.inj this
        rw [List.perm_iff_count]
        intro a
        have hd := List.count_set (l := v.elems) (i := k) (a := x) (b := a) hl
        have hc : (if v.elems[k] == a then 1 else 0) ≤ v.elems.count a := by
          split
          · rename_i hq
            have := List.count_pos_iff.2 (show a ∈ v.elems from (beq_iff_eq.1 hq) ▸ List.getElem_mem hl)
            omega
          · omega
        rw [he] at hd hc
        simp only [List.count_append, List.count_singleton, hd]
        omega
      have hh : (held (some { v with mem := writeAt v.mem (k * v.size) x }) ++ [(v.info, v.elem k)]).Perm
          (held (some v) ++ [(v.info, x)]) := by
        have := hp.map (v.info, ·)
        rw [← (write_spec i1 hk x hx).2] at this
        simpa [held] using this
      have r2 := (r2 (some { v with mem := writeAt v.mem (k * v.size) x })).flatMap_right f
      have r1 := r1.flatMap_right f
      have hh := hh.flatMap_right f
      simp only [List.flatMap_append, List.perm_iff_count, List.count_append] at h2 r1 r2 hh ⊢
      intro a
      have := h2 a; have := r1 a; have := r2 a; have := hh a; omega
    · rw [if_neg hk] at hr; cases hr
  | @realloc vs hs ts us ds v v' i ho hv he ih =>
    obtain ⟨gs, ls, h1, h2⟩ := ih
    obtain ⟨i1, i2⟩ := ho.good.at hv
    obtain ⟨j1, j2⟩ := elems_realloc i1 he
    obtain ⟨r, r1, r2⟩ := stored_split vs i hv
    refine ⟨gs, ls, h1, ?_⟩
    have hh : held (some v') = held (some v) := by simp [held, j1, j2]
    have r2 := (r2 (some v')).flatMap_right f
    have r1 := r1.flatMap_right f
    rw [hh] at r2
    simp only [List.flatMap_append, List.perm_iff_count, List.count_append] at h2 r1 r2 ⊢
    intro a
    have := h2 a; have := r1 a; have := r2 a; omega
  | @drop vs hs ts us ds v evs blk i ho hv he ih =>
    obtain ⟨gs, ls, h1, h2⟩ := ih
    obtain ⟨i1, i2⟩ := ho.good.at hv
    obtain ⟨r, r1, r2⟩ := stored_split vs i hv
    have r2 := (r2 none).flatMap_right f
    have r1 := r1.flatMap_right f
    by_cases hz : v.size = 0
    · rw [drop_zst i1 hz] at he
      cases he
      refine ⟨gs, ls ++ held (some v), ?_, ?_⟩
      · intro y hy
        simp only [List.mem_append] at hy
        rcases hy with h' | h' | h'
        · exact h1 y (List.mem_append_left _ h')
        · exact h1 y (List.mem_append_right _ h')
        · simp only [held, List.mem_map] at h'
          obtain ⟨b, _, rfl⟩ := h'
          exact ⟨i2, hz⟩
      have hn : held none = [] := rfl
      rw [hn] at r2
      simp only [List.flatMap_append, List.perm_iff_count, List.count_append, List.flatMap_nil, List.count_nil] at h2 r1 r2 ⊢
      intro a
      have := h2 a; have := r1 a; have := r2 a; omega
    · rw [drop_spec i1 hz] at he
      cases he
      refine ⟨gs, ls, h1, ?_⟩
      have hn : held none = [] := rfl
      rw [hn] at r2
      have hd : ((dropEvs v.info v.elems.reverse).flatMap g).Perm ((held (some v)).flatMap f) := by
        rw [dropEvs_flat, List.flatMap_assoc]
        have : (held (some v)).flatMap f = v.elems.flatMap fun x => (dropEvs v.info [x]).flatMap g := by
          simp only [held, List.flatMap_map]
          congr 1
          funext x
          exact (hg _ x i2).symm
        rw [this]
        exact (List.reverse_perm _).flatMap_right _
      simp only [List.flatMap_append, List.perm_iff_count, List.count_append, List.flatMap_nil, List.count_nil] at h2 r1 r2 hd ⊢
      intro a
      have := h2 a; have := r1 a; have := r2 a; have := hd a; omega
  | @unwind vs hs ts us ds v evs blk i pan ho hv he ih =>
    obtain ⟨gs, ls, h1, h2⟩ := ih
    obtain ⟨i1, i2⟩ := ho.good.at hv
    obtain ⟨r, r1, r2⟩ := stored_split vs i hv
    have r2 := (r2 none).flatMap_right f
    have r1 := r1.flatMap_right f
    obtain ⟨j1, j2⟩ := unwind_items i1 he
    refine ⟨gs, ls, h1, ?_⟩
    have hn : held none = [] := rfl
    rw [hn] at r2
    generalize hu : v.elems.take (v.count - evs.length) = un at *
    generalize hb : v.elems.drop (v.count - evs.length) = bk at *
    have hh : held (some v) = un.map (v.info, ·) ++ bk.map (v.info, ·) := by
      rw [← List.map_append, ← j1]; rfl
    rw [hh] at r1
    have hd : (evs.flatMap g).Perm ((bk.map (v.info, ·)).flatMap f) := by
      rw [j2, dropEvs_flat, List.flatMap_assoc]
      have : (bk.map (v.info, ·)).flatMap f = bk.flatMap fun x => (dropEvs v.info [x]).flatMap g := by
        rw [List.flatMap_map]
        congr 1
        funext x
        exact (hg _ x i2).symm
      rw [this]
      exact (List.reverse_perm _).flatMap_right _
    simp only [List.flatMap_append, List.perm_iff_count, List.count_append, List.flatMap_nil, List.count_nil] at h2 r1 r2 hd ⊢
    intro a
    have := h2 a; have := r1 a; have := r2 a; have := hd a; omega

theorem functions_of {T : TypeInfo → Prop} {v : UVec} {x : Bytes} (ht : T v.info) (hx : x.length = v.size) {ev : DropEv}
    (h : ev ∈ dropEvs v.info [x]) : ∃ a, T a ∧ a.dropFn = some ev.fn ∧ ev.bytes.length = a.layout.size := by
  unfold dropEvs at h
  cases hf : v.info.dropFn with
  | none => rw [hf] at h; cases h
  | some f =>
    rw [hf] at h
    simp only [List.map_cons, List.map_nil, List.mem_singleton] at h
    subst h
    exact ⟨v.info, ht, hf, hx⟩

theorem length_of_mem_elems {v : UVec} (hi : Inv v) {x : Bytes} (h : x ∈ v.elems) : x.length = v.size := by
  obtain ⟨k, hk⟩ := List.getElem?_of_mem h
  rw [getElem?_elems] at hk
  by_cases hc : k < v.count
  · rw [if_pos hc] at hk; cases hk
    have := elem_bound hi hc
    unfold elem readAt
    simp; omega
  · rw [if_neg hc] at hk; cases hk

theorem Owner.functions {T vs hs ts us ds} (h : Owner T vs hs ts us ds) :
    ∀ ev ∈ ds, ∃ a, T a ∧ a.dropFn = some ev.fn ∧ ev.bytes.length = a.layout.size := by
  induction h with
  | start => intro ev h; cases h
  | new _ _ _ ih => exact ih
  | newFrom _ _ _ ih => exact ih
  | push _ _ _ _ _ _ ih => exact ih
  | @pop vs hs ts us ds v v' b evs i ho hv he ih =>
    obtain ⟨i1, i2⟩ := ho.good.at hv
    intro ev hev
    rcases List.mem_append.1 hev with h' | h'
    · exact ih ev h'
    · obtain ⟨_, _, j3⟩ := pop_items i1 he
      rcases j3 with ⟨x, hx, rfl⟩ | ⟨hx, rfl⟩ | ⟨hz, hx, rfl⟩
      · exact functions_of i2 (length_of_mem_elems i1 (by rw [hx]; simp)) h'
      · cases h'
      · exact functions_of i2 (by rw [hz]; rfl) h'
  | @swapRemove vs hs ts us ds v v' evs i k ho hv he ih =>
    obtain ⟨i1, i2⟩ := ho.good.at hv
    intro ev hev
    rcases List.mem_append.1 hev with h' | h'
    · exact ih ev h'
    · by_cases hc : k < v.count
      · obtain ⟨v₁, e, _⟩ := swapRemove_spec i1 hc
        rw [he] at e; cases e
        refine functions_of i2 (length_of_mem_elems i1 ?_) h'
        exact List.mem_of_getElem? (i := k) (by rw [getElem?_elems, if_pos hc])
      · rw [swapRemove_oob (by omega)] at he; cases he
  | move _ _ _ _ _ _ _ _ _ ih => exact ih
  | replace _ _ _ _ _ _ _ _ ih => exact ih
  | realloc _ _ _ _ ih => exact ih
  | @drop vs hs ts us ds v evs blk i ho hv he ih =>
    obtain ⟨i1, i2⟩ := ho.good.at hv
    intro ev hev
    rcases List.mem_append.1 hev with h' | h'
    · exact ih ev h'
    · by_cases hz : v.size = 0
      · rw [drop_zst i1 hz] at he; cases he; cases h'
      · rw [drop_spec i1 hz] at he
        cases he
        rw [dropEvs_flat] at h'
        obtain ⟨x, hx, h'⟩ := List.mem_flatMap.1 h'
        exact functions_of i2 (length_of_mem_elems i1 (List.mem_reverse.1 hx)) h'
  | @unwind vs hs ts us ds v evs blk i pan ho hv he ih =>
    obtain ⟨i1, i2⟩ := ho.good.at hv
    intro ev hev
    rcases List.mem_append.1 hev with h' | h'
    · exact ih ev h'
    · rw [(unwind_items i1 he).2, dropEvs_flat] at h'
      obtain ⟨x, hx, h'⟩ := List.mem_flatMap.1 h'
      exact functions_of i2 (length_of_mem_elems i1 (List.mem_of_mem_drop (List.mem_reverse.1 hx))) h'

end VecSpec
end Ellecs
