import Verif.Props.Session
import Verif.Spec.DynClients
/-!
# Lemmas for C70
-/
namespace Ellecs.WorldSpec
open World

/-- Fresh entities. -/
structure FreshIds (l : Ledger) (es : List EcsId) (n : Nat) : Prop where
  len : es.length = n
  nodup : es.Nodup
  new : ∀ e ∈ es, l.Fresh e

theorem FreshIds.cons {l l' : Ledger} {e : EcsId} {en : Entry} {es : List EcsId} {n : Nat} (he : l.Fresh e) (hb : l'.book = l.book ++ [(e, en)]) (hd : l'.dead = l.dead)
    (h : FreshIds l' es n) : FreshIds l (e :: es) (n + 1) := by
  have hm : ∀ x ∈ es, l.Fresh x ∧ x ≠ e := by
    intro x hx
    obtain ⟨h1, h2⟩ := h.new x hx
    unfold Ledger.Live at h1
    rw [hb] at h1
    simp only [List.map_append, List.map_cons, List.map_nil, List.mem_append, List.mem_singleton, not_or] at h1
    exact ⟨⟨h1.1, by rw [← hd]; exact h2⟩, h1.2⟩
  refine ⟨by simp [h.len], List.nodup_cons.2 ⟨fun hc => (hm e hc).2 rfl, h.nodup⟩, ?_⟩
  intro x hx
  rcases List.mem_cons.1 hx with rfl | hx
  · exact he
  · exact (hm x hx).1

theorem addShape_mem {ids : List EcsId} {S : List (List EcsId)} (h : ids ∈ S) : Ledger.addShape ids S = S := by
  unfold Ledger.addShape
  rw [if_pos]
  exact List.any_eq_true.2 ⟨ids, h, shape_test.2 fun _ => Iff.rfl⟩

theorem addShape_nodup {ids : List EcsId} {S : List (List EcsId)} (h : S.Nodup) : (Ledger.addShape ids S).Nodup := by
  by_cases hm : ids ∈ S
  · rw [addShape_mem hm]; exact h
  · unfold Ledger.addShape
    split
    · exact h
    · exact List.nodup_cons.2 ⟨hm, h⟩

theorem spawnMetas_wp {s : Nat} (ms : List ComponentMeta) : ∀ {l : Ledger} {Q : List EcsId → Ledger → Prop}, (∀ m ∈ ms, m.layout.size ≤ s) →
    l.slots + ms.length ≤ 2 ^ 32 → [] ∈ l.shapes →
    (∀ es, FreshIds l es ms.length → Q es { l with book := l.book ++ es.zip (ms.map (⟨·, []⟩)), slots := l.slots + ms.length }) → (Session.spawnMetas ms).wp s l Q := by
  induction ms with
  | nil =>
    intro l Q _ _ _ h
    have := h [] ⟨rfl, by simp, by simp⟩
    show Q [] l
    simpa using this
  | cons m ms ih =>
    intro l Q hm hn hS h
    rw [List.length_cons] at hn
    refine ⟨by show (0 : Nat) < _; decide, ?_, ?_, by omega, fun e he => ⟨by simp, ?_⟩⟩
    · intro m' h'; cases h'; exact hm m List.mem_cons_self
    · intro n h'; cases h'
    refine (C69_bind _ _).2 (ih (fun m' h' => hm m' (List.mem_cons_of_mem _ h')) (by show l.slots + 1 + ms.length ≤ _; omega) (addShape_sub hS) ?_)
    intro es hes
    have := h (e :: es) (FreshIds.cons (l' := Ledger.build e m [] { l with slots := l.slots + 1 }) (en := ⟨m, []⟩) he rfl rfl hes)
    show Q (e :: es) ⟨_, _, Ledger.addShape [] l.shapes, _, _⟩
    rw [addShape_mem hS]
    simpa [List.append_assoc, Nat.add_assoc, Nat.add_comm 1, Ledger.build, AWorld.metaOf] using this

theorem chain_dyn {s : Nat} {e : EcsId} (r : Cells) : ∀ {r0 : Cells} {l : Ledger} {P : Cells → Ledger → Prop},
    (∀ x ∈ r, ∃ en, l.book.lookup x.1 = some en ∧ x.2.length = en.info.layout.size) → P (r0 ++ r) l → Give.chain s e (r.map fun x => .dyn x.1 x.2) r0 l P := by
  induction r with
  | nil => intro r0 l P _ h; show P r0 l; simpa using h
  | cons x r ih =>
    intro r0 l P hr h
    exact ⟨hr x List.mem_cons_self, ih (fun y hy => hr y (List.mem_cons_of_mem _ hy)) (by simpa using h)⟩

theorem spawnRows_wp {s : Nat} (rs : List Cells) : ∀ {l : Ledger} {Q : List EcsId → Ledger → Prop},
    (∀ r ∈ rs, (r.map Prod.fst).Nodup ∧ r.length < 2 ^ 32 ∧ ∀ x ∈ r, ∃ en, l.book.lookup x.1 = some en ∧ x.2.length = en.info.layout.size) →
    l.slots + rs.length ≤ 2 ^ 32 →
    (∀ es, FreshIds l es rs.length → Q es { l with
      book := l.book ++ es.zip (rs.map (⟨ComponentMeta.unit, ·⟩))
      shapes := rs.foldl (fun S r => Ledger.addShape (r.map Prod.fst) S) l.shapes
      slots := l.slots + rs.length }) → (Session.spawnRows rs).wp s l Q := by
  induction rs with
  | nil =>
    intro l Q _ _ h
    have := h [] ⟨rfl, by simp, by simp⟩
    show Q [] l
    simpa using this
  | cons r rs ih =>
    intro l Q hr hn h
    rw [List.length_cons] at hn
    obtain ⟨h1, h2, h3⟩ := hr r List.mem_cons_self
    refine ⟨by rw [List.length_map]; exact h2, ?_, ?_, by omega, fun e he => chain_dyn r h3 ⟨by simpa using h1, ?_⟩⟩
    · intro m' h'; cases h'
    · intro n h'; cases h'
    refine (C69_bind _ _).2 (ih (fun r' h' => ?_) (by show l.slots + 1 + rs.length ≤ _; omega) ?_)
    · obtain ⟨g1, g2, g3⟩ := hr r' (List.mem_cons_of_mem _ h')
      refine ⟨g1, g2, fun x hx => ?_⟩
      obtain ⟨en, q1, q2⟩ := g3 x hx
      refine ⟨en, ?_, q2⟩
      show (l.book ++ _).lookup x.1 = some en
      rw [lookup_append', q1]; rfl
    intro es hes
    have := h (e :: es) (FreshIds.cons (l' := Ledger.build e ComponentMeta.unit r { l with slots := l.slots + 1 }) (en := ⟨ComponentMeta.unit, r⟩) he rfl rfl hes)
    show Q (e :: es) _
    simpa [List.append_assoc, Nat.add_assoc, Nat.add_comm 1, Ledger.build, AWorld.metaOf] using this

/-! ### positions and ids -/

theorem idAt_inj {ids : List EcsId} (hn : ids.Nodup) {i j : Nat} (hi : i < ids.length) (hj : j < ids.length) (h : IdxRow.idAt ids i = IdxRow.idAt ids j) : i = j := by
  unfold IdxRow.idAt at h
  rw [List.getD_eq_getElem?_getD, List.getD_eq_getElem?_getD, List.getElem?_eq_getElem hi, List.getElem?_eq_getElem hj] at h
  exact (List.getElem_inj hn).1 h

theorem idAt_mem {ids : List EcsId} {i : Nat} (hi : i < ids.length) : IdxRow.idAt ids i ∈ ids := by
  unfold IdxRow.idAt
  rw [List.getD_eq_getElem?_getD, List.getElem?_eq_getElem hi]
  exact List.getElem_mem hi

theorem idAt_cons {ids : List EcsId} {e : EcsId} {i : Nat} : IdxRow.idAt (e :: ids) (i + 1) = IdxRow.idAt ids i := by
  unfold IdxRow.idAt
  simp

/-- All positions are in range. -/
abbrev InRange (k : Nat) (r : IdxRow) : Prop := ∀ x ∈ r, x.1 < k

theorem cells_lookup {ids : List EcsId} (hn : ids.Nodup) {r : IdxRow} (hr : InRange ids.length r) {i : Nat} (hi : i < ids.length) :
    (r.cells ids).lookup (IdxRow.idAt ids i) = r.lookup i := by
  induction r with
  | nil => rfl
  | cons x r ih =>
    obtain ⟨j, v⟩ := x
    show List.lookup (IdxRow.idAt ids i) ((IdxRow.idAt ids j, v) :: IdxRow.cells ids r) = _
    rw [List.lookup_cons, List.lookup_cons]
    have hj := hr (j, v) List.mem_cons_self
    by_cases h : i = j
    · subst h; simp
    · have h1 : (IdxRow.idAt ids i == IdxRow.idAt ids j) = false := by simpa using fun q => h (idAt_inj hn hi hj q)
      have h2 : (i == j) = false := by simpa using h
      rw [h1, h2]
      exact ih (fun y hy => hr y (List.mem_cons_of_mem _ hy))

theorem see_cells {ids : List EcsId} (hn : ids.Nodup) {r : IdxRow} (hr : InRange ids.length r) {qs : List (Bool × Nat)} (hq : ∀ q ∈ qs, q.2 < ids.length) (e : EcsId) :
    Cells.see e (r.cells ids) (qs.map (idxFetch ids)) = r.see qs := by
  induction qs with
  | nil => rfl
  | cons q qs ih =>
    obtain ⟨b, i⟩ := q
    have hi := hq (b, i) List.mem_cons_self
    have := ih (fun y hy => hq y (List.mem_cons_of_mem _ hy))
    unfold Cells.see IdxRow.see at this ⊢
    rw [List.map_cons, List.mapM_cons, List.mapM_cons, this, ← cells_lookup hn hr hi]
    cases b <;> rfl

theorem put_cells {ids : List EcsId} (hn : ids.Nodup) {r : IdxRow} (hr : InRange ids.length r) {i : Nat} (hi : i < ids.length) (v : Bytes) :
    Cells.put (r.cells ids) (IdxRow.idAt ids i) v = (r.put i v).cells ids := by
  unfold Cells.put IdxRow.put IdxRow.cells
  rw [List.map_map, List.map_map]
  apply List.map_congr_left
  intro x hx
  show (IdxRow.idAt ids x.1, if IdxRow.idAt ids x.1 = IdxRow.idAt ids i then v else x.2) = (IdxRow.idAt ids x.1, if x.1 = i then v else x.2)
  by_cases h : x.1 = i
  · rw [if_pos h, if_pos (by rw [h])]
  · rw [if_neg h, if_neg (fun q => h (idAt_inj hn (hr x hx) hi q))]

theorem put_keys {r : IdxRow} {i : Nat} {v : Bytes} : (r.put i v).map Prod.fst = r.map Prod.fst := by
  unfold IdxRow.put
  rw [List.map_map]
  rfl

theorem inRange_keys {k : Nat} {r r' : IdxRow} (h : r'.map Prod.fst = r.map Prod.fst) (hr : InRange k r) : InRange k r' := by
  intro x hx
  have : x.1 ∈ r'.map Prod.fst := List.mem_map_of_mem hx
  rw [h] at this
  obtain ⟨y, h1, h2⟩ := List.mem_map.1 this
  rw [← h2]; exact hr y h1

theorem store_cells {ids : List EcsId} (hn : ids.Nodup) (qs : List (Bool × Nat)) : ∀ {r : IdxRow} (_ : InRange ids.length r) (_ : ∀ q ∈ qs, q.2 < ids.length)
    (out : List (Option Bytes)), Cells.store (r.cells ids) (qs.map (idxFetch ids)) out = (r.store qs out).cells ids := by
  induction qs with
  | nil => intro r _ _ out; cases out <;> rfl
  | cons q qs ih =>
    intro r hr hq out
    obtain ⟨b, i⟩ := q
    have hi := hq (b, i) List.mem_cons_self
    have hq' : ∀ q ∈ qs, q.2 < ids.length := fun y hy => hq y (List.mem_cons_of_mem _ hy)
    cases out with
    | nil => cases b <;> rfl
    | cons o out =>
      cases b with
      | false => exact ih hr hq' out
      | true =>
        cases o with
        | none => exact ih hr hq' out
        | some v =>
          show Cells.store (Cells.put (r.cells ids) (IdxRow.idAt ids i) v) _ out = ((r.put i v).store qs out).cells ids
          rw [put_cells hn hr hi]
          exact ih (inRange_keys put_keys hr) hq' out

theorem store_idx_keys (qs : List (Bool × Nat)) : ∀ {r : IdxRow} (out : List (Option Bytes)), (r.store qs out).map Prod.fst = r.map Prod.fst := by
  induction qs with
  | nil => intro r out; cases out <;> rfl
  | cons q qs ih =>
    intro r out
    obtain ⟨b, i⟩ := q
    cases out with
    | nil => cases b <;> rfl
    | cons o out =>
      cases b with
      | false => exact ih out
      | true =>
        cases o with
        | none => exact ih out
        | some v => exact (ih (r := r.put i v) out).trans put_keys

theorem run_idx_keys {qs : List (Bool × Nat)} {f : List AWorld.Seen → List (Option Bytes)} {r : IdxRow} : (r.run qs f).map Prod.fst = r.map Prod.fst := by
  unfold IdxRow.run
  split
  · rfl
  · exact store_idx_keys qs _

theorem run_cells {ids : List EcsId} (hn : ids.Nodup) {r : IdxRow} (hr : InRange ids.length r) {qs : List (Bool × Nat)} (hq : ∀ q ∈ qs, q.2 < ids.length)
    (f : List AWorld.Seen → List (Option Bytes)) (e : EcsId) : Cells.run (qs.map (idxFetch ids)) f e (r.cells ids) = (r.run qs f).cells ids := by
  unfold Cells.run IdxRow.run
  rw [see_cells hn hr hq]
  cases r.see qs with
  | none => rfl
  | some ss => exact store_cells hn qs hr hq _

/-- An entity without components is not changed. -/
theorem run_empty {fs : List Fetch} {f : List AWorld.Seen → List (Option Bytes)} {e : EcsId} : Cells.run fs f e [] = [] := by
  have : (Cells.run fs f e []).map Prod.fst = [] := Cells.run_keys fs f e []
  exact List.map_eq_nil_iff.1 this

theorem mapCells_append {g : EcsId → Cells → Cells} {b b' : Book} : Book.mapCells g (b ++ b') = Book.mapCells g b ++ Book.mapCells g b' := List.map_append

theorem run_zip {α : Type} {fs : List Fetch} {f : List AWorld.Seen → List (Option Bytes)} {h : α → Entry} {g : α → α} : ∀ {es : List EcsId} {xs : List α},
    (∀ x ∈ xs, ∀ e, (⟨(h x).info, Cells.run fs f e (h x).cells⟩ : Entry) = h (g x)) → Book.run fs f (es.zip (xs.map h)) = es.zip ((xs.map g).map h) := by
  intro es
  induction es with
  | nil => intro xs _; rfl
  | cons e es ih =>
    intro xs hg
    rcases xs with _ | ⟨x, xs⟩
    · rfl
    · show (e, (⟨(h x).info, Cells.run fs f e (h x).cells⟩ : Entry)) :: Book.run fs f (es.zip (xs.map h)) = (e, h (g x)) :: es.zip ((xs.map g).map h)
      rw [hg x List.mem_cons_self, ih fun r' h' => hg r' (List.mem_cons_of_mem _ h')]

/-! ### combinations -/

theorem fold_shapes {D : List (List EcsId)} (rs : List Cells) : ∀ {S : List (List EcsId)}, (∀ r ∈ rs, r.map Prod.fst ∈ D) → S.Nodup → (∀ x ∈ S, x ∈ D) →
    (rs.foldl (fun S r => Ledger.addShape (r.map Prod.fst) S) S).length ≤ D.length := by
  induction rs with
  | nil => exact fun _ h1 h2 => h1.length_le_of_subset h2
  | cons r rs ih =>
    intro S hr h1 h2
    refine ih (fun r' h' => hr r' (List.mem_cons_of_mem _ h')) (addShape_nodup h1) ?_
    intro x hx
    rcases (addShape_eq _ _).2.2 x hx with h | rfl
    · exact h2 x h
    · exact hr r List.mem_cons_self

theorem zip_lookup_at {ids : List EcsId} (hn : ids.Nodup) {xs : List Entry} : ∀ {i : Nat} {x : Entry}, xs[i]? = some x → ids.length = xs.length →
    (ids.zip xs).lookup (IdxRow.idAt ids i) = some x := by
  induction ids generalizing xs with
  | nil =>
    intro i x h hl
    cases xs with
    | nil => simp at h
    | cons _ _ => cases hl
  | cons e ids ih =>
    intro i x h hl
    rcases xs with _ | ⟨y, xs⟩
    · cases hl
    rw [List.zip_cons_cons]
    obtain ⟨hn1, hn2⟩ := List.nodup_cons.1 hn
    cases i with
    | zero =>
      simp at h
      subst h
      exact look_hit
    | succ i =>
      rw [List.getElem?_cons_succ] at h
      rw [idAt_cons]
      have hi : i < ids.length := by
        have := (List.getElem?_eq_some_iff.1 h).1
        simp at hl
        omega
      rw [look_skip (fun q => hn1 (by rw [← q]; exact idAt_mem hi))]
      exact ih hn2 h (by simpa using hl)

end Ellecs.WorldSpec
