import Verif.Proofs.Query
/-! # Queries do not depend on values nor on the state of the locks -/
namespace Ellecs
namespace World

theorem blank_arch (w : World) (k : Nat) : w.blank.archetypes[k]? = (w.archetypes[k]?).map Archetype.blank := List.getElem?_map ..

theorem blank_storage (a : Archetype) (j : Nat) :
    (Archetype.blank a).storages[j]? = (a.storages[j]?).map (fun p => (p.1, { p.2 with mem := List.replicate p.2.mem.length none })) := List.getElem?_map ..

theorem ptrAdd_blank (w : World) (p : Ptr) (n : Nat) : w.blank.ptrAdd p n = w.ptrAdd p n := by
  have : w.blank.blockLen p.col = w.blockLen p.col := by
    cases p.col with
    | null => rfl
    | entities k =>
      unfold blockLen
      simp only [blank_arch]
      cases w.archetypes[k]? <;> rfl
    | storage k j =>
      unfold blockLen
      simp only [blank_arch]
      cases w.archetypes[k]? with
      | none => rfl
      | some a =>
        simp only [Option.map_some, blank_storage]
        cases a.storages[j]? with
        | none => rfl
        | some s => simp
  unfold ptrAdd
  rw [this]

theorem checkRef_blank (w : World) (t : Ty) (p : Ptr) : w.blank.checkRef t p = w.checkRef t p := by
  unfold checkRef
  cases p.col with
  | null => rfl
  | entities k => rfl
  | storage k j =>
    simp only [blank_arch]
    cases w.archetypes[k]? with
    | none => rfl
    | some a =>
      simp only [Option.map_some, blank_storage]
      cases a.storages[j]? with
      | none => rfl
      | some s => rfl

theorem castPtr_blank (w : World) (p : Ptr) (x : Param) : x.castPtr w.blank p = x.castPtr w p := by
  cases x with
  | ids =>
    unfold Param.castPtr
    cases p.col with
    | entities k =>
      simp only [blank_arch]
      cases w.archetypes[k]? <;> rfl
    | _ => rfl
  | «mut» t => unfold Param.castPtr; simp only [checkRef_blank]
  | ref t => unfold Param.castPtr; simp only [checkRef_blank]

theorem castPtrs_blank (w : World) (ps : List Param) (xs : List Ptr) : castPtrs w.blank ps xs = castPtrs w ps xs := by
  induction ps generalizing xs with
  | nil => cases xs <;> rfl
  | cons p ps ih =>
    cases xs with
    | nil => rfl
    | cons x xs => unfold castPtrs; simp only [castPtr_blank, ih]

theorem offsetPtrs_blank (w : World) (n : Nat) (ps : List Param) (xs : List Ptr) : offsetPtrs w.blank n ps xs = offsetPtrs w n ps xs := by
  induction ps generalizing xs with
  | nil => cases xs <;> rfl
  | cons p ps ih =>
    cases xs with
    | nil => rfl
    | cons x xs => unfold offsetPtrs; simp only [ptrAdd_blank, ih]

theorem advancePtrs_blank (w : World) (xs : List (Ptr × Nat)) : advancePtrs w.blank xs = advancePtrs w xs := by
  induction xs with
  | nil => rfl
  | cons x xs ih => obtain ⟨x, n⟩ := x; unfold advancePtrs; simp only [ptrAdd_blank, ih]

theorem createPtrs_blank (k : Nat) (a : Archetype) (ps : List Param) (fs : List Fetch) : createPtrs k (Archetype.blank a) ps fs = createPtrs k a ps fs := by
  have one : ∀ p f, Param.createPtr k (Archetype.blank a) p f = Param.createPtr k a p f := by
    intro p f
    cases p with
    | ids => rfl
    | _ => simp [Param.createPtr, Archetype.blank]
  induction ps generalizing fs with
  | nil => cases fs <;> rfl
  | cons p ps ih =>
    cases fs with
    | nil => rfl
    | cons f fs => unfold createPtrs; simp only [one, ih]

theorem dynPtrs_blank (k : Nat) (a : Archetype) (fs : List Fetch) : dynPtrs k (Archetype.blank a) fs = dynPtrs k a fs := by
  have one : ∀ f : Fetch, f.createPtr k (Archetype.blank a) = f.createPtr k a := by
    intro f
    have hl : (Archetype.blank a).compLookup = a.compLookup := rfl
    cases f with
    | ecsId => rfl
    | _ c =>
      unfold Fetch.createPtr
      simp only [hl]
      cases a.compLookup c with
      | none => rfl
      | some j =>
        simp only [blank_storage]
        cases a.storages[j]? <;> rfl
  induction fs with
  | nil => rfl
  | cons f fs ih => unfold dynPtrs; simp only [one, ih]

theorem archNext_blank (w : World) (it : BitsetIter) :
    archNext w.blank it = (archNext w it).map (fun x => (x.1.map (fun y => (y.1, Archetype.blank y.2)), x.2)) := by
  unfold archNext
  rcases it.next with ⟨_ | k, it'⟩
  · rfl
  · simp only [blank_arch]
    cases w.archetypes[k]? <;> rfl

theorem queryIters_blank (w : World) (fs : List Fetch) (n : Nat) : queryIters w.blank fs n = queryIters w fs n := by
  induction fs generalizing n with
  | nil => rfl
  | cons f fs ih =>
    unfold queryIters
    simp only [ih]
    rfl

theorem staticLoop_blank (w : World) (fuel : Nat) (s : StaticIter) : StaticIter.loop w.blank fuel s = StaticIter.loop w fuel s := by
  induction fuel generalizing s with
  | zero => rfl
  | succ n ih =>
    unfold StaticIter.loop
    simp only [offsetPtrs_blank, castPtrs_blank, archNext_blank, ih]
    split
    · rfl
    · rcases archNext w s.archs with f | ⟨_ | ⟨k, a⟩, it⟩
      · rfl
      · rfl
      · simp only [Except.map, Option.map_some, createPtrs_blank]
        rfl

theorem dynLoop_blank (w : World) (fuel : Nat) (s : DynIter) : DynIter.loop w.blank fuel s = DynIter.loop w fuel s := by
  induction fuel generalizing s with
  | zero => rfl
  | succ n ih =>
    unfold DynIter.loop
    simp only [advancePtrs_blank, archNext_blank, ih]
    split
    · rfl
    · rcases archNext w s.archs with f | ⟨_ | ⟨k, a⟩, it⟩
      · rfl
      · rfl
      · simp only [Except.map, Option.map_some, dynPtrs_blank]
        rfl

theorem columnNext_blank (w : World) (s : ColumnIter) : ColumnIter.next w.blank s = ColumnIter.next w s := by
  unfold ColumnIter.next
  simp only [archNext_blank]
  rcases archNext w s.archs with f | ⟨_ | ⟨k, a⟩, it⟩
  · rfl
  · rfl
  · simp only [Except.map, Option.map_some, dynPtrs_blank]
    rfl

theorem staticIter_blank (w : World) (q : StaticQuery) : q.iter w.blank = q.iter w := by
  unfold StaticQuery.iter
  simp only [queryIters_blank]
  rfl

theorem archIter_blank (w : World) (q : DynQuery) : q.archIter w.blank = q.archIter w := by
  unfold DynQuery.archIter
  simp only [queryIters_blank]
  rfl

theorem get_blank (w : World) (q : StaticQuery) (e : EcsId) : q.get w.blank e = q.get w e := by
  unfold StaticQuery.get
  have h1 : w.blank.isAlive e = w.isAlive e := rfl
  have h2 : w.blank.getEntityMeta e = w.getEntityMeta e := rfl
  simp only [h1, h2, offsetPtrs_blank, castPtrs_blank, blank_arch]
  rcases w.isAlive e with f | (_ | _)
  · rfl
  · rfl
  · rcases w.getEntityMeta e with f | (_ | m)
    · rfl
    · rfl
    · cases ha : w.archetypes[m.inst.archetype]? with
      | none => simp only [ha]; rfl
      | some a =>
        simp only [ha, Option.map_some, createPtrs_blank]
        rfl

theorem blank_locks (w : World) (ls : List RwLock) : SameShape w { w with locks := ls } := rfl

theorem blank_write {w w' : World} {p : Ptr} {bs : Bytes} (h : w.writePtr p bs = .ok w') : SameShape w w' := by
  unfold writePtr at h
  split at h
  · rename_i k j hcol
    split at h
    · cases h
    · rename_i a ha
      split at h
      · cases h
      · rename_i s hs
        split at h
        · cases h; rfl
        · split at h
          · rename_i hlen
            injection h with h; subst h
            unfold SameShape blank
            simp only [World.mk.injEq, and_true]
            rw [List.map_set]
            symm
            apply List.ext_getElem?
            intro i
            rw [List.getElem?_set]
            split
            · rename_i hii; subst hii
              rw [if_pos (by simpa using (List.getElem?_eq_some_iff.1 ha).1), List.getElem?_map, ha]
              simp only [Option.map_some, Option.some.injEq]
              unfold Archetype.blank
              simp only [Archetype.mk.injEq, true_and, and_true]
              rw [List.map_set]
              apply List.ext_getElem?
              intro i
              rw [List.getElem?_set]
              split
              · rename_i hii; subst hii
                rw [if_pos (by simpa using (List.getElem?_eq_some_iff.1 hs).1), List.getElem?_map, hs]
                simp only [Option.map_some, Option.some.injEq, Prod.mk.injEq, true_and]
                rw [length_writeAt _ _ _ hlen.2]
              · rfl
            · rfl
          · cases h
  · cases h

end World
end Ellecs
