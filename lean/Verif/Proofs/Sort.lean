import Verif.Props.Entities
import Verif.Model.Builder
/-! # Lemmas about sorting, lookups and sorted id lists -/
namespace Ellecs

/-- Strictly increasing ids. -/
def SortedIds (l : List EcsId) : Prop := l.Pairwise (fun a b => EcsId.lt a b = true)

theorem lt_irrefl (a : EcsId) : ¬ EcsId.lt a a = true := (Alloc.C05_total_order a a a).1
theorem lt_trans {a b c : EcsId} (h : EcsId.lt a b = true) (h' : EcsId.lt b c = true) : EcsId.lt a c = true :=
  (Alloc.C05_total_order a b c).2.1 h h'
theorem lt_total (a b : EcsId) : EcsId.lt a b = true ∨ a = b ∨ EcsId.lt b a = true :=
  (Alloc.C05_total_order a b a).2.2

theorem SortedIds.nodup {l : List EcsId} (h : SortedIds l) : l.Nodup :=
  h.imp (fun {a b} hab he => by subst he; exact lt_irrefl a hab)

theorem SortedIds.ext {l l' : List EcsId} (h : SortedIds l) (h' : SortedIds l') (hm : ∀ x, x ∈ l ↔ x ∈ l') :
    l = l' := by
  induction l generalizing l' with
  | nil =>
    cases l' with
    | nil => rfl
    | cons y ys => exact absurd ((hm y).2 List.mem_cons_self) (by simp)
  | cons x xs ih =>
    cases l' with
    | nil => exact absurd ((hm x).1 List.mem_cons_self) (by simp)
    | cons y ys =>
      have hx := List.pairwise_cons.1 h
      have hy := List.pairwise_cons.1 h'
      have hxy : x = y := by
        rcases List.mem_cons.1 ((hm x).1 List.mem_cons_self) with e | e
        · exact e
        · rcases List.mem_cons.1 ((hm y).2 List.mem_cons_self) with e' | e'
          · exact e'.symm
          · exact absurd (lt_trans (hx.1 _ e') (hy.1 _ e)) (lt_irrefl x)
      subst hxy
      congr 1
      apply ih hx.2 hy.2
      intro z
      constructor
      · intro hz
        rcases List.mem_cons.1 ((hm z).1 (List.mem_cons_of_mem _ hz)) with e | e
        · subst e; exact absurd (hx.1 _ hz) (lt_irrefl z)
        · exact e
      · intro hz
        rcases List.mem_cons.1 ((hm z).2 (List.mem_cons_of_mem _ hz)) with e | e
        · subst e; exact absurd (hy.1 _ hz) (lt_irrefl z)
        · exact e

section
variable {α : Type} {lt : α → α → Bool}

theorem mem_sortedInsert (x y : α) (l : List α) : y ∈ sortedInsert lt x l ↔ y = x ∨ y ∈ l := by
  induction l with
  | nil => simp [sortedInsert]
  | cons z zs ih =>
    unfold sortedInsert
    split
    · simp
    · simp only [List.mem_cons, ih]
      constructor
      · rintro (h | h | h) <;> simp [h]
      · rintro (h | h | h) <;> simp [h]

theorem perm_sortedInsert (x : α) (l : List α) : (sortedInsert lt x l).Perm (x :: l) := by
  induction l with
  | nil => exact List.Perm.refl _
  | cons z zs ih =>
    unfold sortedInsert
    split
    · exact List.Perm.refl _
    · exact (ih.cons z).trans (List.Perm.swap x z zs)

theorem perm_foldl_sortedInsert (l acc : List α) :
    (l.foldl (fun acc x => sortedInsert lt x acc) acc).Perm (acc ++ l) := by
  induction l generalizing acc with
  | nil => simp
  | cons x xs ih =>
    refine (ih _).trans ?_
    refine ((perm_sortedInsert x acc).append_right xs).trans ?_
    exact (List.perm_middle (l₁ := acc) (a := x) (l₂ := xs)).symm

theorem perm_stableSort (l : List α) : (stableSort lt l).Perm l := by
  have := perm_foldl_sortedInsert (lt := lt) l []
  rw [List.nil_append] at this; exact this

theorem mem_stableSort (l : List α) (y : α) : y ∈ stableSort lt l ↔ y ∈ l := (perm_stableSort l).mem_iff

theorem length_stableSort (l : List α) : (stableSort lt l).length = l.length := (perm_stableSort l).length_eq

end

theorem sorted_sortedInsert {x : EcsId} {l : List EcsId} (h : SortedIds l) (hx : x ∉ l) :
    SortedIds (sortedInsert EcsId.lt x l) := by
  induction l with
  | nil => simp [sortedInsert, SortedIds]
  | cons z zs ih =>
    have hz := List.pairwise_cons.1 h
    unfold sortedInsert
    split
    · rename_i hlt
      refine List.pairwise_cons.2 ⟨?_, h⟩
      intro y hy
      rcases List.mem_cons.1 hy with e | e
      · subst e; exact hlt
      · exact lt_trans hlt (hz.1 _ e)
    · rename_i hlt
      refine List.pairwise_cons.2 ⟨?_, ih hz.2 (fun hh => hx (List.mem_cons_of_mem _ hh))⟩
      intro y hy
      rcases (mem_sortedInsert x y zs).1 hy with e | e
      · subst e
        rcases lt_total y z with h1 | h1 | h1
        · exact absurd h1 hlt
        · subst h1; exact absurd List.mem_cons_self hx
        · exact h1
      · exact hz.1 _ e

theorem sorted_stableSort {l : List EcsId} (h : l.Nodup) : SortedIds (stableSort EcsId.lt l) := by
  have key : ∀ (l acc : List EcsId), SortedIds acc → (acc ++ l).Nodup →
      SortedIds (l.foldl (fun acc x => sortedInsert EcsId.lt x acc) acc) := by
    intro l
    induction l with
    | nil => intro acc h _; exact h
    | cons x xs ih =>
      intro acc ha hn
      have hx : x ∉ acc := by
        intro hm
        exact (List.nodup_append.1 hn).2.2 x hm x List.mem_cons_self rfl
      apply ih _ (sorted_sortedInsert ha hx)
      have p : (sortedInsert EcsId.lt x acc ++ xs).Perm (acc ++ x :: xs) :=
        ((perm_sortedInsert x acc).append_right xs).trans (List.perm_middle (l₁ := acc) (a := x) (l₂ := xs)).symm
      exact p.nodup_iff.2 hn
  exact key l [] List.Pairwise.nil (by simpa using h)

theorem stableSort_sorted {l : List EcsId} (h : SortedIds l) : stableSort EcsId.lt l = l :=
  (sorted_stableSort h.nodup).ext h (fun x => mem_stableSort l x)

theorem map_fst_sortedInsert (x : EcsId × UVec) (l : List (EcsId × UVec)) :
    (sortedInsert storageLt x l).map Prod.fst = sortedInsert EcsId.lt x.1 (l.map Prod.fst) := by
  induction l with
  | nil => rfl
  | cons z zs ih =>
    simp only [sortedInsert, List.map_cons]
    by_cases h : EcsId.lt x.1 z.1 = true
    · rw [if_pos h, if_pos (show storageLt x z = true from h)]; rfl
    · rw [if_neg h, if_neg (show ¬ storageLt x z = true from h), List.map_cons, ih]

theorem map_fst_stableSort (l : List (EcsId × UVec)) :
    (stableSort storageLt l).map Prod.fst = stableSort EcsId.lt (l.map Prod.fst) := by
  have key : ∀ (l acc : List (EcsId × UVec)),
      (l.foldl (fun acc x => sortedInsert storageLt x acc) acc).map Prod.fst =
      (l.map Prod.fst).foldl (fun acc x => sortedInsert EcsId.lt x acc) (acc.map Prod.fst) := by
    intro l
    induction l with
    | nil => intro acc; rfl
    | cons x xs ih =>
      intro acc
      simp only [List.foldl_cons, List.map_cons]
      rw [ih, map_fst_sortedInsert]
  exact key l []

theorem idsAgree_self {ids : List EcsId} {st : List (EcsId × UVec)} (h : st.map Prod.fst = ids) :
    idsAgree ids st = true := by
  unfold idsAgree
  rw [h, List.all_eq_true]
  intro p hp
  rw [List.mem_iff_getElem?] at hp
  obtain ⟨n, hn⟩ := hp
  simp only [List.getElem?_zip_eq_some] at hn
  obtain ⟨h1, h2⟩ := hn
  rw [h1] at h2
  simpa using h2

/-- The lookup of a list without duplicates. -/
def LooksUp (m : EcsId → Option Nat) (ids : List EcsId) : Prop := ∀ id n, m id = some n ↔ ids[n]? = some id

theorem getElem?_inj_nodup {α : Type} {l : List α} (h : l.Nodup) {i j : Nat} {x : α} (hi : l[i]? = some x)
    (hj : l[j]? = some x) : i = j := by
  obtain ⟨h1, h2⟩ := List.getElem?_eq_some_iff.1 hi
  obtain ⟨h3, h4⟩ := List.getElem?_eq_some_iff.1 hj
  exact (List.getElem_inj h).1 (h2.trans h4.symm)

theorem looksUp_lookupOf {ids : List EcsId} (h : ids.Nodup) : LooksUp (lookupOf ids) ids := by
  have key : ∀ (l : List EcsId) (s : Nat) (m : EcsId → Option Nat), l.Nodup → ∀ id,
      (l.zipIdx s).foldl (fun m p => mapInsert m p.1 p.2) m id =
        if id ∈ l then (l.idxOf? id).map (s + ·) else m id := by
    intro l
    induction l with
    | nil => intro s m _ id; simp
    | cons x xs ih =>
      intro s m hn id
      have hn' := List.nodup_cons.1 hn
      simp only [List.zipIdx_cons, List.foldl_cons]
      rw [ih (s + 1) _ hn'.2]
      by_cases hx : id = x
      · subst hx
        simp [hn'.1, mapInsert, List.idxOf?_cons]
      · have hx' : ¬ x = id := fun hh => hx hh.symm
        simp only [List.mem_cons, hx, false_or, mapInsert, if_false, List.idxOf?_cons, beq_iff_eq, hx']
        split
        · rw [Option.map_map]
          congr 1
          funext n; simp; omega
        · rfl
  intro id n
  unfold lookupOf
  rw [key ids 0 _ h]
  constructor
  · intro hh
    split at hh
    · obtain ⟨k, hk, rfl⟩ := Option.map_eq_some_iff.1 hh
      rw [Nat.zero_add]
      have := List.findIdx?_eq_some_iff_getElem.1 hk
      obtain ⟨hlt, he, _⟩ := this
      rw [List.getElem?_eq_some_iff]
      exact ⟨hlt, by simpa using he⟩
    · cases hh
  · intro hh
    have hm : id ∈ ids := List.mem_of_getElem? hh
    rw [if_pos hm]
    cases hk : ids.idxOf? id with
    | none => rw [List.idxOf?_eq_none_iff] at hk; exact absurd hm hk
    | some k =>
      have := List.findIdx?_eq_some_iff_getElem.1 hk
      obtain ⟨hlt, he, _⟩ := this
      have hk' : ids[k]? = some id := List.getElem?_eq_some_iff.2 ⟨hlt, by simpa using he⟩
      rw [getElem?_inj_nodup h hk' hh]
      simp

theorem looksUp_mem {m : EcsId → Option Nat} {ids : List EcsId} (h : LooksUp m ids) (id : EcsId) :
    (m id).isSome = true ↔ id ∈ ids := by
  rw [Option.isSome_iff_exists, List.mem_iff_getElem?]
  exact exists_congr (fun n => h id n)

theorem checkedLookup_nodup {ids : List EcsId} (h : ids.Nodup) :
    Builder.checkedLookup ids.zipIdx (fun _ => none) = .ok (lookupOf ids) := by
  have key : ∀ (l : List EcsId) (s : Nat) (m : EcsId → Option Nat), l.Nodup → (∀ id ∈ l, m id = none) →
      Builder.checkedLookup (l.zipIdx s) m = .ok ((l.zipIdx s).foldl (fun m p => mapInsert m p.1 p.2) m) := by
    intro l
    induction l with
    | nil => intro s m _ _; rfl
    | cons x xs ih =>
      intro s m hn hm
      have hn' := List.nodup_cons.1 hn
      simp only [List.zipIdx_cons, List.foldl_cons, Builder.checkedLookup, hm x List.mem_cons_self]
      apply ih _ _ hn'.2
      intro id hid
      have : id ≠ x := fun hh => hn'.1 (hh ▸ hid)
      simp [mapInsert, this, hm id (List.mem_cons_of_mem _ hid)]
  exact key ids 0 _ h (fun _ _ => rfl)

/-- A duplicate in a list of ids is always found. -/
theorem checkedLookup_dup {ids : List EcsId} (h : ¬ ids.Nodup) :
    Builder.checkedLookup ids.zipIdx (fun _ => none) = .error .duplicateComponent := by
  have key : ∀ (l : List EcsId) (s : Nat) (m : EcsId → Option Nat),
      (¬ l.Nodup ∨ ∃ id ∈ l, m id ≠ none) →
      Builder.checkedLookup (l.zipIdx s) m = .error .duplicateComponent := by
    intro l
    induction l with
    | nil => intro s m h; simp at h
    | cons x xs ih =>
      intro s m h
      simp only [List.zipIdx_cons, Builder.checkedLookup]
      cases hx : m x with
      | some _ => rfl
      | none =>
        simp only
        apply ih
        rcases h with h | ⟨id, hid, hm⟩
        · rw [List.nodup_cons] at h
          by_cases hxx : x ∈ xs
          · right; exact ⟨x, hxx, by simp [mapInsert]⟩
          · left; intro hh; exact h ⟨hxx, hh⟩
        · right
          rcases List.mem_cons.1 hid with e | e
          · subst e; exact absurd hx hm
          · refine ⟨id, e, ?_⟩
            unfold mapInsert
            split
            · simp
            · exact hm
  exact key ids 0 _ (Or.inl h)

end Ellecs
