import Verif.Spec.World
import Verif.Proofs.UntypedVec
import Verif.Proofs.Sort
import Verif.Model.Builder
/-! # The columns of a table -/
namespace Ellecs

/-- The values in the column of `c`. -/
def elemsOf : List (EcsId × UVec) → EcsId → Option (List Bytes)
  | [], _ => none
  | p :: ps, c => if p.1 = c then some p.2.elems else elemsOf ps c

/-- The ids of the columns. -/
abbrev stIds (st : List (EcsId × UVec)) : List EcsId := st.map Prod.fst

/-- Every column is a well formed vec of the right type with the expected number of elements. -/
def StOk (info : EcsId → Option TypeInfo) (cnt : EcsId → Nat) (st : List (EcsId × UVec)) : Prop :=
  ∀ p ∈ st, UVec.Inv p.2 ∧ p.2.count = cnt p.1 ∧ info p.1 = some p.2.info

/-- The drop calls that destroy row `r`. -/
def rowEvs (st : List (EcsId × UVec)) (r : Nat) : List DropEv :=
  st.flatMap (fun p => UVec.dropEvs p.2.info [p.2.elem r])

/-- No push on any of the columns can exceed the limits. -/
def StRoomy (st : List (EcsId × UVec)) : Prop := ∀ p ∈ st, UVec.Roomy p.2

theorem elemsOf_eq_none {st : List (EcsId × UVec)} {c : EcsId} : elemsOf st c = none ↔ c ∉ stIds st := by
  induction st with
  | nil => simp [elemsOf]
  | cons p ps ih =>
    unfold elemsOf
    split
    · rename_i h; subst h; simp
    · rename_i h
      have h' : ¬ c = p.1 := fun hh => h hh.symm
      rw [ih]; simp only [stIds, List.map_cons, List.mem_cons, h', false_or]

theorem elemsOf_mem {st : List (EcsId × UVec)} {c : EcsId} {l : List Bytes} (h : elemsOf st c = some l) :
    ∃ v, (c, v) ∈ st ∧ v.elems = l := by
  induction st with
  | nil => cases h
  | cons p ps ih =>
    unfold elemsOf at h
    split at h
    · rename_i hh; subst hh
      injection h with h
      exact ⟨p.2, List.mem_cons_self, h⟩
    · obtain ⟨v, hv, hl⟩ := ih h
      exact ⟨v, List.mem_cons_of_mem _ hv, hl⟩

theorem elemsOf_of_mem {st : List (EcsId × UVec)} (hn : (stIds st).Nodup) {c : EcsId} {v : UVec}
    (h : (c, v) ∈ st) : elemsOf st c = some v.elems := by
  induction st with
  | nil => cases h
  | cons p ps ih =>
    have hn' := List.nodup_cons.1 hn
    unfold elemsOf
    rcases List.mem_cons.1 h with e | e
    · subst e; simp
    · have : p.1 ≠ c := by
        intro hh; apply hn'.1; rw [hh]; exact List.mem_map_of_mem (f := Prod.fst) e
      rw [if_neg this]
      exact ih hn'.2 e

theorem elemsOf_getElem? {st : List (EcsId × UVec)} (hn : (stIds st).Nodup) {n : Nat} {p : EcsId × UVec}
    (h : st[n]? = some p) : elemsOf st p.1 = some p.2.elems :=
  elemsOf_of_mem hn (List.mem_of_getElem? h)

theorem mem_set_of_nodup {st : List (EcsId × UVec)} {n : Nat} {p q : EcsId × UVec} (h : p ∈ st.set n q) :
    p = q ∨ p ∈ st := (List.mem_or_eq_of_mem_set h).symm

theorem stIds_set {st : List (EcsId × UVec)} {n : Nat} {p : EcsId × UVec} (h : st[n]? = some p) (v : UVec) :
    stIds (st.set n (p.1, v)) = stIds st := by
  unfold stIds
  apply List.ext_getElem?
  intro i
  simp only [List.getElem?_map, List.getElem?_set]
  by_cases hi : n = i
  · subst hi
    have := (List.getElem?_eq_some_iff.1 h).1
    rw [if_pos rfl, if_pos this, h]; rfl
  · rw [if_neg hi]

theorem elemsOf_set {st : List (EcsId × UVec)} (hn : (stIds st).Nodup) {n : Nat} {p : EcsId × UVec}
    (h : st[n]? = some p) (v : UVec) (c : EcsId) :
    elemsOf (st.set n (p.1, v)) c = if c = p.1 then some v.elems else elemsOf st c := by
  induction st generalizing n with
  | nil => cases h
  | cons q qs ih =>
    have hn' := List.nodup_cons.1 hn
    cases n with
    | zero =>
      simp only [List.getElem?_cons_zero, Option.some.injEq] at h
      subst h
      simp only [List.set_cons_zero, elemsOf]
      by_cases hc : q.1 = c
      · subst hc; simp
      · have hc' : ¬ c = q.1 := fun hh => hc hh.symm
        simp [hc, hc']
    | succ n =>
      simp only [List.getElem?_cons_succ] at h
      simp only [List.set_cons_succ, elemsOf]
      rw [ih hn'.2 h]
      by_cases hc : q.1 = c
      · have : ¬ c = p.1 := by
          intro hh; apply hn'.1
          rw [hc, hh]; exact List.mem_map_of_mem (f := Prod.fst) (List.mem_of_getElem? h)
        simp [hc, this]
      · simp [hc]

theorem stOk_set {info : EcsId → Option TypeInfo} {cnt cnt' : EcsId → Nat} {st : List (EcsId × UVec)}
    (hn : (stIds st).Nodup) (ho : StOk info cnt st) {n : Nat} {p : EcsId × UVec} (h : st[n]? = some p) {v : UVec}
    (hv : UVec.Inv v) (hi : v.info = p.2.info) (hc : v.count = cnt' p.1) (hcnt : ∀ c, c ≠ p.1 → cnt' c = cnt c) :
    StOk info cnt' (st.set n (p.1, v)) := by
  intro q hq
  obtain ⟨i, hi'⟩ := List.mem_iff_getElem?.1 hq
  rw [List.getElem?_set] at hi'
  split at hi'
  · rename_i hni
    split at hi'
    · injection hi' with hi'; subst hi'
      exact ⟨hv, hc, by rw [hi]; exact (ho p (List.mem_of_getElem? h)).2.2⟩
    · cases hi'
  · rename_i hni
    have hm := List.mem_of_getElem? hi'
    obtain ⟨h1, h2, h3⟩ := ho q hm
    refine ⟨h1, ?_, h3⟩
    rw [hcnt, h2]
    intro hh
    apply hni
    have e1 : (stIds st)[n]? = some p.1 := by simp [stIds, h]
    have e2 : (stIds st)[i]? = some p.1 := by simp [stIds, hi', hh]
    exact getElem?_inj_nodup hn e1 e2

theorem StOk.cons {info : EcsId → Option TypeInfo} {cnt : EcsId → Nat} {p : EcsId × UVec} {st : List (EcsId × UVec)} :
    StOk info cnt (p :: st) ↔
      (UVec.Inv p.2 ∧ p.2.count = cnt p.1 ∧ info p.1 = some p.2.info) ∧ StOk info cnt st := by
  simp [StOk]

theorem StOk.congr {info info' : EcsId → Option TypeInfo} {cnt cnt' : EcsId → Nat} {st : List (EcsId × UVec)}
    (h : StOk info cnt st) (h1 : ∀ c ∈ stIds st, info' c = info c) (h2 : ∀ c ∈ stIds st, cnt' c = cnt c) :
    StOk info' cnt' st := by
  intro p hp
  obtain ⟨a, b, c⟩ := h p hp
  have hm : p.1 ∈ stIds st := List.mem_map_of_mem (f := Prod.fst) hp
  exact ⟨a, by rw [h2 _ hm, b], by rw [h1 _ hm, c]⟩

theorem perm_swapRemove {α : Type} {l : List α} {i : Nat} {x : α} (h : l[i]? = some x) :
    l.Perm (swapRemove l i ++ [x]) := by
  obtain ⟨hlt, hx⟩ := List.getElem?_eq_some_iff.1 h
  rcases List.eq_nil_or_concat l with rfl | ⟨init, y, rfl⟩
  · simp at hlt
  · have hg : (init ++ [y]).getLast? = some y := by simp
    unfold swapRemove
    simp only [List.concat_eq_append, hg]
    by_cases hi : i = init.length
    · subst hi
      rw [List.set_append_right _ _ (Nat.le_refl _)]
      simp at hx
      subst hx
      simp
    · have hi' : i < init.length := by simp at hlt; omega
      rw [List.set_append_left _ _ hi']
      rw [List.dropLast_concat]
      have hx' : init[i]? = some x := by
        rw [List.concat_eq_append, List.getElem?_append_left hi'] at h; exact h
      have e : init = init.take i ++ x :: init.drop (i + 1) := by
        conv => lhs; rw [← List.take_append_drop i init]
        congr 1
        rw [List.drop_eq_getElem_cons hi']
        congr 1
        exact (List.getElem?_eq_some_iff.1 hx').2
      rw [List.set_eq_take_append_cons_drop, if_pos hi']
      conv => lhs; rw [e]
      rw [List.append_assoc, List.append_assoc]
      refine List.Perm.append_left _ ?_
      simp only [List.cons_append]
      refine (List.perm_append_comm (l₁ := [x]) (l₂ := init.drop (i + 1) ++ [y])).trans ?_
      rw [← List.cons_append]
      refine List.Perm.append_right _ ?_
      exact List.perm_append_comm (l₁ := init.drop (i + 1)) (l₂ := [y])

theorem dropEvs_perm {info : TypeInfo} {l l' : List Bytes} (h : l.Perm l') :
    (UVec.dropEvs info l).Perm (UVec.dropEvs info l') := by
  unfold UVec.dropEvs
  split
  · exact List.Perm.refl _
  · exact h.map _

theorem elems_row {v : UVec} {r : Nat} (h : r < v.count) : v.elems[r]? = some (v.elem r) := by
  rw [UVec.getElem?_elems, if_pos h]

theorem swapRemoveAll_spec {info : EcsId → Option TypeInfo} {n row : Nat} {st : List (EcsId × UVec)}
    (h : StOk info (fun _ => n) st) (hr : row < n) :
    ∃ st', swapRemoveAll row st = .ok (st', rowEvs st row) ∧ stIds st' = stIds st ∧
      StOk info (fun _ => n - 1) st' ∧ (∀ c, elemsOf st' c = (elemsOf st c).map (fun l => swapRemove l row)) ∧
      (stEvs st).Perm (stEvs st' ++ rowEvs st row) := by
  induction st with
  | nil => exact ⟨[], rfl, rfl, by simp [StOk], fun _ => rfl, List.Perm.refl _⟩
  | cons p ps ih =>
    obtain ⟨⟨h1, h2, h3⟩, h'⟩ := StOk.cons.1 h
    obtain ⟨st', e1, e2, e3, e4, e5⟩ := ih h'
    have hc : row < p.2.count := by rw [h2]; exact hr
    obtain ⟨v', f1, f2, f3, f4, _⟩ := UVec.swapRemove_spec h1 hc
    have hcnt : v'.count = n - 1 := by
      rw [← UVec.length_elems, f4, length_swapRemove, UVec.length_elems, h2]
    obtain ⟨id, v⟩ := p
    refine ⟨(id, v') :: st', ?_, ?_, ?_, ?_, ?_⟩
    · unfold swapRemoveAll; simp only [f1, e1]; rfl
    · simp [stIds] at e2 ⊢; exact e2
    · exact StOk.cons.2 ⟨⟨f2, hcnt, by rw [f3]; exact h3⟩, e3⟩
    · intro c
      simp only [elemsOf]
      split
      · simp [f4]
      · exact e4 c
    · simp only [stEvs, rowEvs, List.flatMap_cons]
      have hp := dropEvs_perm (info := v.info) (perm_swapRemove (elems_row hc))
      rw [UVec.dropEvs_append, ← f4] at hp
      rw [f3]
      refine (hp.append e5).trans ?_
      simp only [List.append_assoc]
      refine List.Perm.append_left _ ?_
      rw [← List.append_assoc, ← List.append_assoc]
      exact List.Perm.append_right _ List.perm_append_comm

/-- The value in row `row` of the other table is appended. -/
def appRow (l lc : Option (List Bytes)) (row : Nat) : Option (List Bytes) :=
  l.bind (fun l => lc.bind (fun lc => (lc[row]?).map (fun x => l ++ [x])))

theorem appRow_none_left (lc : Option (List Bytes)) (row : Nat) : appRow none lc row = none := rfl

theorem mem_of_filter_eq {l m : List EcsId} {c x : EcsId} (h : m = l.filter (fun i => i ≠ c)) (hx : x ∈ m) :
    x ∈ l ∧ x ≠ c := by
  rw [h] at hx; simpa using List.mem_filter.1 hx

theorem moveAdd_spec {info : EcsId → Option TypeInfo} {nc nt row : Nat} {compId : EcsId}
    {cur tar : List (EcsId × UVec)} (n : Nat) (sk : Option Nat)
    (hn : (stIds tar).Nodup) (hids : stIds cur = (stIds tar).filter (fun i => i ≠ compId))
    (hc : StOk info (fun _ => nc) cur) (ht : StOk info (fun _ => nt) tar) (hr : row < nc)
    (hsk : compId ∈ stIds tar → sk = none) :
    (∃ f, World.moveAdd compId row n sk cur tar = .error f ∧ Limit f ∧ ¬ StRoomy tar) ∨
    (∃ cur' tar' sk', World.moveAdd compId row n sk cur tar = .ok (cur', tar', sk') ∧
      stIds cur' = stIds cur ∧ stIds tar' = stIds tar ∧
      StOk info (fun _ => nc - 1) cur' ∧ StOk info (fun c => if c = compId then nt else nt + 1) tar' ∧
      (∀ c, elemsOf cur' c = (elemsOf cur c).map (fun l => swapRemove l row)) ∧
      (∀ c, elemsOf tar' c = if c = compId then elemsOf tar c else appRow (elemsOf tar c) (elemsOf cur c) row) ∧
      (stEvs cur' ++ stEvs tar').Perm (stEvs cur ++ stEvs tar) ∧
      (∀ i, sk' = some i → sk = some i ∨ ∃ j, i = n + j ∧ (stIds tar)[j]? = some compId) ∧
      (sk' = none → compId ∈ stIds tar → (stIds tar).getLast? = some compId) ∧
      (StRoomy tar → ∀ p ∈ tar', p.1 = compId → UVec.Roomy p.2)) := by
  induction tar generalizing cur n sk with
  | nil =>
    right
    have hcur : cur = [] := by
      cases cur with
      | nil => rfl
      | cons _ _ => simp [stIds] at hids
    subst hcur
    refine ⟨[], [], sk, rfl, rfl, rfl, by simp [StOk], by simp [StOk], fun _ => rfl, ?_, List.Perm.refl _, ?_, ?_, ?_⟩
    · intro c; simp [elemsOf, appRow]
    · intro i h; exact Or.inl h
    · intro _ h; simp [stIds] at h
    · intro _ p hp; cases hp
  | cons t ts ih =>
    have hn' := List.nodup_cons.1 hn
    obtain ⟨⟨t1, t2, t3⟩, ht'⟩ := StOk.cons.1 ht
    by_cases htc : t.1 = compId
    · -- this is the skipped storage
      have hnot : compId ∉ stIds ts := by rw [← htc]; exact hn'.1
      have hids' : stIds cur = (stIds ts).filter (fun i => i ≠ compId) := by
        rw [hids]; simp [stIds, htc]
      have hskn : sk = none := hsk (by simp [stIds, htc])
      subst hskn
      cases hcur : cur with
      | nil =>
        right
        have hts : ts = [] := by
          cases ts with
          | nil => rfl
          | cons u us =>
            have hu : u.1 ≠ compId := fun hh => hnot (by simp [stIds, hh])
            rw [hcur] at hids'
            simp [stIds, hu] at hids'
        subst hts
        refine ⟨[], [t], none, rfl, rfl, rfl, by simp [StOk], ?_, fun _ => rfl, ?_, List.Perm.refl _, ?_, ?_, ?_⟩
        · intro p hp
          simp at hp; subst hp
          exact ⟨t1, by simp only [if_pos htc]; exact t2, t3⟩
        · intro c
          by_cases hcc : c = compId
          · simp [hcc]
          · have : ¬ t.1 = c := by rw [htc]; exact fun hh => hcc hh.symm
            simp [hcc, elemsOf, this, appRow]
        · intro i h; cases h
        · intro _ _; simp [stIds, htc]
        · intro hroom p hp _; exact hroom p hp
      | cons c cs =>
        rw [hcur] at hids' hc
        have hstep : World.moveAdd compId row n none (c :: cs) (t :: ts) =
            match World.moveAdd compId row (n + 1) (some n) (c :: cs) ts with
            | .error f => .error f
            | .ok (cur', tar', sk') => .ok (cur', t :: tar', sk') := by
          conv => lhs; unfold World.moveAdd
          rw [if_pos htc]; rfl
        rw [hstep]
        rcases ih (n + 1) (some n) hn'.2 hids' hc ht' (fun hh => absurd hh hnot) with
          ⟨f, e1, e2, e3⟩ | ⟨cur', tar', sk', e1, e2, e3, e4, e5, e6, e7, e8, e9, e10, e11⟩
        · left
          refine ⟨f, by rw [e1], e2, fun hh => e3 (fun p hp => hh p (List.mem_cons_of_mem _ hp))⟩
        · right
          refine ⟨cur', t :: tar', sk', by rw [e1], e2, by simp [stIds] at e3 ⊢; exact e3, e4, ?_, e6, ?_, ?_, ?_, ?_, ?_⟩
          · exact StOk.cons.2 ⟨⟨t1, by simp only [if_pos htc]; exact t2, t3⟩, e5⟩
          · intro x
            simp only [elemsOf]
            have hx := e7 x
            by_cases hxc : x = compId
            · subst hxc; simp [htc]
            · have : ¬ t.1 = x := by rw [htc]; exact fun hh => hxc hh.symm
              simp only [this, if_false, if_neg hxc] at hx ⊢
              exact hx
          · rw [List.perm_iff_count] at e8 ⊢
            intro z
            have h2 := e8 z
            have h3 : stEvs (t :: tar') = UVec.dropEvs t.2.info t.2.elems ++ stEvs tar' := rfl
            have h4 : stEvs (t :: ts) = UVec.dropEvs t.2.info t.2.elems ++ stEvs ts := rfl
            rw [h3, h4]
            simp only [List.count_append] at *
            omega
          · intro i hi
            rcases e9 i hi with hh | ⟨j, hj, hh⟩
            · right; injection hh with hh; exact ⟨0, by omega, by simp [stIds, htc]⟩
            · exact absurd (List.mem_of_getElem? hh) hnot
          · intro hh
            exfalso
            -- `skipped_idx` was set
            have key : ∀ (cur tar : List (EcsId × UVec)) (n k : Nat) cur' tar' sk',
                World.moveAdd compId row n (some k) cur tar = .ok (cur', tar', sk') → sk' = some k := by
              intro cur tar
              induction tar generalizing cur with
              | nil =>
                intro n k cur' tar' sk' h
                cases cur with
                | nil => simp [World.moveAdd] at h; exact h.2.2.symm
                | cons _ _ => simp [World.moveAdd] at h; exact h.2.2.symm
              | cons u us ihu =>
                intro n k cur' tar' sk' h
                cases cur with
                | nil => simp [World.moveAdd] at h; exact h.2.2.symm
                | cons d ds =>
                  unfold World.moveAdd at h
                  split at h
                  · simp at h
                  · split at h
                    · cases h
                    · split at h
                      · cases h
                      · rename_i hx
                        cases h
                        exact ihu _ _ _ _ _ _ hx
            have := key _ _ _ _ _ _ _ e1
            rw [this] at hh; cases hh
          · intro hroom p hp hpc
            rcases List.mem_cons.1 hp with e | e
            · subst e; exact hroom _ List.mem_cons_self
            · have : p.1 ∈ stIds tar' := List.mem_map_of_mem (f := Prod.fst) e
              rw [e3, hpc] at this
              exact absurd this hnot
    · -- a pair of storages
      cases hcur : cur with
      | nil => rw [hcur] at hids; simp [stIds, htc] at hids
      | cons c cs =>
        rw [hcur] at hids hc
        have hids2 : c.1 = t.1 ∧ stIds cs = (stIds ts).filter (fun i => i ≠ compId) := by
          simp only [stIds, List.map_cons, List.filter_cons] at hids
          rw [if_pos (by simpa using htc)] at hids
          injection hids with h1 h2
          exact ⟨h1, h2⟩
        obtain ⟨hct, hids'⟩ := hids2
        obtain ⟨⟨c1, c2, c3⟩, hc'⟩ := StOk.cons.1 hc
        have hinfo : c.2.info = t.2.info := by
          rw [hct, t3] at c3; injection c3 with c3; exact c3.symm
        have hrow : row < c.2.count := by rw [c2]; exact hr
        have hstep : World.moveAdd compId row n sk (c :: cs) (t :: ts) =
            match c.2.swapMove t.2 row with
            | .error f => .error f
            | .ok (cv, tv) =>
              match World.moveAdd compId row (n + 1) sk cs ts with
              | .error f => .error f
              | .ok (cur', tar', sk') => .ok ((c.1, cv) :: cur', (t.1, tv) :: tar', sk') := by
          conv => lhs; unfold World.moveAdd
          rw [if_neg htc]; rfl
        rw [hstep]
        rcases UVec.swapMove_spec c1 t1 (by rw [hinfo]) hrow with ⟨f, m1, m2, m3⟩ | ⟨cv, tv, m1, m2, m3, m4, m5, m6, m7, m8, m9⟩
        · left
          exact ⟨f, by rw [m1], m2, fun hh => m3 (hh _ List.mem_cons_self)⟩
        · have hsk' : compId ∈ stIds ts → sk = none := fun hh => hsk (List.mem_cons_of_mem _ hh)
          rcases ih (n + 1) sk hn'.2 hids' hc' ht' hsk' with
            ⟨f, e1, e2, e3⟩ | ⟨cur', tar', sk', e1, e2, e3, e4, e5, e6, e7, e8, e9, e10, e11⟩
          · left
            refine ⟨f, by rw [m1, e1], e2, fun hh => e3 (fun p hp => hh p (List.mem_cons_of_mem _ hp))⟩
          · right
            have hcc : cv.count = nc - 1 := by
              rw [← UVec.length_elems, m4, length_swapRemove, UVec.length_elems, c2]
            have htt : tv.count = nt + 1 := by
              rw [← UVec.length_elems, m8, List.length_append, UVec.length_elems, t2]; rfl
            refine ⟨(c.1, cv) :: cur', (t.1, tv) :: tar', sk', by rw [m1, e1], ?_, ?_, ?_, ?_, ?_, ?_, ?_, ?_, ?_, ?_⟩
            · simp [stIds] at e2 ⊢; exact e2
            · simp [stIds] at e3 ⊢; exact e3
            · exact StOk.cons.2 ⟨⟨m2, hcc, by rw [m3]; exact c3⟩, e4⟩
            · exact StOk.cons.2 ⟨⟨m6, by simp only [if_neg htc]; exact htt, by rw [m7]; exact t3⟩, e5⟩
            · intro x
              simp only [elemsOf]
              split
              · simp [m4]
              · exact e6 x
            · intro x
              simp only [elemsOf]
              have hx := e7 x
              by_cases hxt : t.1 = x
              · have hxc : ¬ x = compId := by rw [← hxt]; exact htc
                have hxc' : c.1 = x := by rw [hct]; exact hxt
                simp only [if_pos hxt, if_neg hxc, if_pos hxc', appRow, Option.bind_some, elems_row hrow, m8,
                  Option.map_some]
              · have hxc' : ¬ c.1 = x := by rw [hct]; exact hxt
                simp only [if_neg hxt, if_neg hxc']
                exact hx
            · simp only [stEvs, List.flatMap_cons]
              have hp := dropEvs_perm (info := c.2.info) (perm_swapRemove (elems_row hrow))
              rw [UVec.dropEvs_append, ← m4] at hp
              rw [m3, m7, m8, UVec.dropEvs_append, ← hinfo]
              -- A ++ S ++ ((T ++ x) ++ R) ~ A' ++ S' ++ (T ++ R')
              have q : (UVec.dropEvs c.2.info cv.elems ++ UVec.dropEvs c.2.info [c.2.elem row]).Perm
                  (UVec.dropEvs c.2.info c.2.elems) := hp.symm
              simp only [stEvs] at e8
              generalize UVec.dropEvs c.2.info cv.elems = A at *
              generalize UVec.dropEvs c.2.info [c.2.elem row] = X at *
              generalize UVec.dropEvs c.2.info c.2.elems = B at *
              generalize UVec.dropEvs c.2.info t.2.elems = T at *
              generalize List.flatMap (fun p => UVec.dropEvs p.2.info p.2.elems) cur' = S at *
              generalize List.flatMap (fun p => UVec.dropEvs p.2.info p.2.elems) tar' = R at *
              generalize List.flatMap (fun p => UVec.dropEvs p.2.info p.2.elems) cs = S' at *
              generalize List.flatMap (fun p => UVec.dropEvs p.2.info p.2.elems) ts = R' at *
              rw [List.perm_iff_count] at *
              intro z
              have h1 := q z; have h2 := e8 z
              simp only [List.count_append] at *
              omega
            · intro i hi
              rcases e9 i hi with hh | ⟨j, hj, hh⟩
              · exact Or.inl hh
              · right; exact ⟨j + 1, by omega, by simpa [stIds] using hh⟩
            · intro hh hm
              have hm' : compId ∈ stIds ts := by
                rcases List.mem_cons.1 hm with e | e
                · exact absurd e.symm htc
                · exact e
              have := e10 hh hm'
              simp only [stIds, List.map_cons]
              rw [List.getLast?_cons]
              simp only [stIds] at this
              rw [this]; rfl
            · intro hroom p hp hpc
              rcases List.mem_cons.1 hp with e | e
              · subst e; exact absurd hpc htc
              · exact e11 (fun q hq => hroom q (List.mem_cons_of_mem _ hq)) p e hpc

theorem moveRemove_spec {info : EcsId → Option TypeInfo} {nc nt row : Nat} {compId : EcsId}
    {cur tar : List (EcsId × UVec)} (n : Nat) (sk : Option Nat)
    (hn : (stIds cur).Nodup) (hids : stIds tar = (stIds cur).filter (fun i => i ≠ compId))
    (hc : StOk info (fun _ => nc) cur) (ht : StOk info (fun _ => nt) tar) (hr : row < nc)
    (hsk : compId ∈ stIds cur → sk = none) :
    (∃ f, World.moveRemove compId row n sk cur tar = .error f ∧ Limit f ∧ ¬ StRoomy tar) ∨
    (∃ cur' tar' sk', World.moveRemove compId row n sk cur tar = .ok (cur', tar', sk') ∧
      stIds cur' = stIds cur ∧ stIds tar' = stIds tar ∧
      StOk info (fun c => if c = compId then nc else nc - 1) cur' ∧ StOk info (fun _ => nt + 1) tar' ∧
      (∀ c, elemsOf cur' c = if c = compId then elemsOf cur c else (elemsOf cur c).map (fun l => swapRemove l row)) ∧
      (∀ c, elemsOf tar' c = appRow (elemsOf tar c) (elemsOf cur c) row) ∧
      (stEvs cur' ++ stEvs tar').Perm (stEvs cur ++ stEvs tar) ∧
      (if compId ∈ stIds cur then ∃ j, sk' = some (n + j) ∧ (stIds cur)[j]? = some compId else sk' = sk)) := by
  induction cur generalizing tar n sk with
  | nil =>
    right
    have htar : tar = [] := by
      cases tar with
      | nil => rfl
      | cons _ _ => simp [stIds] at hids
    subst htar
    refine ⟨[], [], sk, rfl, rfl, rfl, by simp [StOk], by simp [StOk], ?_, ?_, List.Perm.refl _, ?_⟩
    · intro c; simp [elemsOf]
    · intro c; simp [elemsOf, appRow]
    · simp [stIds]
  | cons c cs ih =>
    have hn' := List.nodup_cons.1 hn
    obtain ⟨⟨c1, c2, c3⟩, hc'⟩ := StOk.cons.1 hc
    by_cases hcc : c.1 = compId
    · have hnot : compId ∉ stIds cs := by rw [← hcc]; exact hn'.1
      have hids' : stIds tar = (stIds cs).filter (fun i => i ≠ compId) := by
        rw [hids]; simp [stIds, hcc]
      have hskn : sk = none := hsk (by simp [stIds, hcc])
      subst hskn
      have hstep : World.moveRemove compId row n none (c :: cs) tar =
          match World.moveRemove compId row (n + 1) (some n) cs tar with
          | .error f => .error f
          | .ok (cur', tar', sk') => .ok (c :: cur', tar', sk') := by
        conv => lhs; unfold World.moveRemove
        rw [if_pos hcc]; rfl
      rw [hstep]
      rcases ih (n + 1) (some n) hn'.2 hids' hc' ht (fun hh => absurd hh hnot) with
        ⟨f, e1, e2, e3⟩ | ⟨cur', tar', sk', e1, e2, e3, e4, e5, e6, e7, e8, e9⟩
      · left; exact ⟨f, by rw [e1], e2, e3⟩
      · right
        refine ⟨c :: cur', tar', sk', by rw [e1], by simp [stIds] at e2 ⊢; exact e2, e3, ?_, e5, ?_, ?_, ?_, ?_⟩
        · exact StOk.cons.2 ⟨⟨c1, by simp only [if_pos hcc]; exact c2, c3⟩, e4⟩
        · intro x
          simp only [elemsOf]
          have hx := e6 x
          by_cases hxc : x = compId
          · subst hxc; simp [hcc]
          · have : ¬ c.1 = x := by rw [hcc]; exact fun hh => hxc hh.symm
            simp only [this, if_false, if_neg hxc] at hx ⊢
            exact hx
        · intro x
          have hx := e7 x
          by_cases hxc : x = compId
          · subst hxc
            have : elemsOf tar x = none := by
              rw [elemsOf_eq_none, hids']; simp
            rw [hx, this]; rfl
          · have : ¬ c.1 = x := by rw [hcc]; exact fun hh => hxc hh.symm
            simp only [elemsOf, this, if_false]
            exact hx
        · rw [List.perm_iff_count] at e8 ⊢
          intro z
          have h2 := e8 z
          have h3 : stEvs (c :: cur') = UVec.dropEvs c.2.info c.2.elems ++ stEvs cur' := rfl
          have h4 : stEvs (c :: cs) = UVec.dropEvs c.2.info c.2.elems ++ stEvs cs := rfl
          rw [h3, h4]
          simp only [List.count_append] at *
          omega
        · rw [if_neg hnot] at e9
          rw [if_pos (by simp [stIds, hcc])]
          exact ⟨0, by rw [e9]; rfl, by simp [stIds, hcc]⟩
    · cases htar : tar with
      | nil => rw [htar] at hids; simp [stIds, hcc] at hids
      | cons t ts =>
        rw [htar] at hids ht
        have hids2 : t.1 = c.1 ∧ stIds ts = (stIds cs).filter (fun i => i ≠ compId) := by
          simp only [stIds, List.map_cons, List.filter_cons] at hids
          rw [if_pos (by simpa using hcc)] at hids
          injection hids with h1 h2
          exact ⟨h1, h2⟩
        obtain ⟨hct, hids'⟩ := hids2
        obtain ⟨⟨t1, t2, t3⟩, ht'⟩ := StOk.cons.1 ht
        have hinfo : c.2.info = t.2.info := by
          rw [hct, c3] at t3; injection t3 with t3
        have hrow : row < c.2.count := by rw [c2]; exact hr
        have hstep : World.moveRemove compId row n sk (c :: cs) (t :: ts) =
            match c.2.swapMove t.2 row with
            | .error f => .error f
            | .ok (cv, tv) =>
              match World.moveRemove compId row (n + 1) sk cs ts with
              | .error f => .error f
              | .ok (cur', tar', sk') => .ok ((c.1, cv) :: cur', (t.1, tv) :: tar', sk') := by
          conv => lhs; unfold World.moveRemove
          rw [if_neg hcc]; rfl
        rw [hstep]
        rcases UVec.swapMove_spec c1 t1 (by rw [hinfo]) hrow with ⟨f, m1, m2, m3⟩ | ⟨cv, tv, m1, m2, m3, m4, m5, m6, m7, m8, m9⟩
        · left
          exact ⟨f, by rw [m1], m2, fun hh => m3 (hh _ List.mem_cons_self)⟩
        · have hsk' : compId ∈ stIds cs → sk = none := fun hh => hsk (List.mem_cons_of_mem _ hh)
          rcases ih (n + 1) sk hn'.2 hids' hc' ht' hsk' with
            ⟨f, e1, e2, e3⟩ | ⟨cur', tar', sk', e1, e2, e3, e4, e5, e6, e7, e8, e9⟩
          · left
            refine ⟨f, by rw [m1, e1], e2, fun hh => e3 (fun p hp => hh p (List.mem_cons_of_mem _ hp))⟩
          · right
            have hcc' : cv.count = nc - 1 := by
              rw [← UVec.length_elems, m4, length_swapRemove, UVec.length_elems, c2]
            have htt : tv.count = nt + 1 := by
              rw [← UVec.length_elems, m8, List.length_append, UVec.length_elems, t2]; rfl
            refine ⟨(c.1, cv) :: cur', (t.1, tv) :: tar', sk', by rw [m1, e1], ?_, ?_, ?_, ?_, ?_, ?_, ?_, ?_⟩
            · simp [stIds] at e2 ⊢; exact e2
            · simp [stIds] at e3 ⊢; exact e3
            · exact StOk.cons.2 ⟨⟨m2, by simp only [if_neg hcc]; exact hcc', by rw [m3]; exact c3⟩, e4⟩
            · exact StOk.cons.2 ⟨⟨m6, htt, by rw [m7]; exact t3⟩, e5⟩
            · intro x
              simp only [elemsOf]
              have hx := e6 x
              by_cases hxc : c.1 = x
              · have hxc' : ¬ x = compId := by rw [← hxc]; exact hcc
                simp [hxc, hxc', m4]
              · simp only [if_neg hxc]; exact hx
            · intro x
              simp only [elemsOf]
              have hx := e7 x
              by_cases hxt : t.1 = x
              · have hxc' : c.1 = x := by rw [← hct]; exact hxt
                simp only [if_pos hxt, if_pos hxc', appRow, Option.bind_some, elems_row hrow, m8,
                  Option.map_some]
              · have hxc' : ¬ c.1 = x := by rw [← hct]; exact hxt
                simp only [if_neg hxt, if_neg hxc']
                exact hx
            · have hp := dropEvs_perm (info := c.2.info) (perm_swapRemove (elems_row hrow))
              rw [UVec.dropEvs_append, ← m4] at hp
              have h3 : stEvs ((c.1, cv) :: cur') = UVec.dropEvs c.2.info cv.elems ++ stEvs cur' := by
                rw [← m3]; rfl
              have h4 : stEvs (c :: cs) = UVec.dropEvs c.2.info c.2.elems ++ stEvs cs := rfl
              have h5 : stEvs ((t.1, tv) :: tar') = UVec.dropEvs c.2.info t.2.elems ++
                  UVec.dropEvs c.2.info [c.2.elem row] ++ stEvs tar' := by
                rw [← UVec.dropEvs_append, ← m8, hinfo, ← m7]; rfl
              have h6 : stEvs (t :: ts) = UVec.dropEvs c.2.info t.2.elems ++ stEvs ts := by rw [hinfo]; rfl
              rw [h3, h4, h5, h6]
              rw [List.perm_iff_count] at *
              intro z
              have h1 := hp z; have h2 := e8 z
              simp only [List.count_append] at *
              omega
            · by_cases hm : compId ∈ stIds cs
              · rw [if_pos hm] at e9
                rw [if_pos (show compId ∈ stIds (c :: cs) from List.mem_cons_of_mem _ hm)]
                obtain ⟨j, h1, h2⟩ := e9
                exact ⟨j + 1, by rw [h1]; congr 1; omega, by simpa [stIds] using h2⟩
              · rw [if_neg hm] at e9
                rw [if_neg (c := compId ∈ stIds (c :: cs)), e9]
                intro hh
                rcases List.mem_cons.1 hh with e | e
                · exact hcc e.symm
                · exact hm e

end Ellecs
