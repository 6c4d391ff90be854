import Verif.Spec.Session
import Verif.Proofs.Script
/-!
# The rules for ledgers
-/
namespace Ellecs
open World

/-! ### loops over columns -/

def tableBody (f : List AWorld.Seen → List (Option Bytes)) : List (List (List AWorld.Seen)) → List (Nat × Nat × Bytes) :=
  fun | sss :: _ => Client.tableStores f 0 sss | [] => []

theorem tableStores_ofRows (f : List AWorld.Seen → List (Option Bytes)) (sss : List (List AWorld.Seen)) : ∀ i,
    Client.tableStores f i sss = (ColBody.ofRows (fun (_ : Unit) ss => ((), f ss)) i () sss).2 := by
  induction sss with
  | nil => exact fun _ => rfl
  | cons ss sss ih => intro i; unfold Client.tableStores ColBody.ofRows; rw [ih]

theorem sweepLines_log {fs : List Fetch} {row : EcsId → Option (List AWorld.Seen)} (f : List AWorld.Seen → List (Option Bytes))
    (ess : List (List EcsId)) : ∀ (a : AWorld) (h : List (List (List AWorld.Seen))), AWorld.sweepLines fs row (ColBody.log (tableBody f)) ess a h =
      ((AWorld.sweepLines fs row (ColBody.ofRows (fun (_ : Unit) ss => ((), f ss)) 0) ess a ()).1, (ess.filterMap (·.mapM row)).reverse ++ h) := by
  induction ess with
  | nil => intro a h; rfl
  | cons es ess ih =>
    intro a h
    unfold AWorld.sweepLines
    rw [List.filterMap_cons]
    cases es.mapM row with
    | none => exact ih a h
    | some sss =>
      simp only [ColBody.log, tableBody, List.reverse_cons, List.append_assoc, List.singleton_append]
      rw [tableStores_ofRows]
      exact ih _ _

theorem mem_rowStores {i : Nat} {i' j' : Nat} {bs : Bytes} (out : List (Option Bytes)) : ∀ j, (i', j', bs) ∈ rowStores i j out → j ≤ j' ∧ out[j' - j]? = some (some bs) := by
  induction out with
  | nil => intro j h; cases h
  | cons o out ih =>
    intro j h
    have step : (i', j', bs) ∈ rowStores i (j + 1) out → j ≤ j' ∧ (o :: out)[j' - j]? = some (some bs) := by
      intro h
      obtain ⟨h1, h2⟩ := ih (j + 1) h
      refine ⟨by omega, ?_⟩
      rw [show j' - j = j' - (j + 1) + 1 by omega]
      exact h2
    cases o with
    | none => exact step h
    | some b =>
      rcases List.mem_cons.1 h with h | h
      · cases h
        refine ⟨Nat.le_refl _, ?_⟩
        rw [Nat.sub_self]; rfl
      · exact step h

theorem mem_tableStores (f : List AWorld.Seen → List (Option Bytes)) {i' j' : Nat} {bs : Bytes} (sss : List (List AWorld.Seen)) : ∀ {i},
    (i', j', bs) ∈ Client.tableStores f i sss → ∃ ss, (f ss)[j']? = some (some bs) := by
  induction sss with
  | nil => intro i h; cases h
  | cons ss sss ih =>
    intro i h
    rcases List.mem_append.1 h with h | h
    · exact ⟨ss, (mem_rowStores _ 0 h).2⟩
    · exact ih h

theorem flatten_rows {row : EcsId → Option (List AWorld.Seen)} (ess : List (List EcsId)) : (∀ es ∈ ess, ∀ e ∈ es, (row e).isSome = true) →
    (ess.filterMap (·.mapM row)).flatten = ess.flatten.filterMap row := by
  induction ess with
  | nil => exact fun _ => rfl
  | cons es ess ih =>
    intro h
    have hs : ∀ es : List EcsId, (∀ e ∈ es, (row e).isSome = true) → es.mapM row = some (es.filterMap row) := by
      intro es
      induction es with
      | nil => exact fun _ => rfl
      | cons e es ih =>
        intro h
        obtain ⟨ss, h2⟩ := Option.isSome_iff_exists.1 (h e List.mem_cons_self)
        rw [List.mapM_cons, ih (fun e he => h e (List.mem_cons_of_mem _ he)), h2, List.filterMap_cons, h2]; rfl
    rw [List.filterMap_cons, hs es (h es List.mem_cons_self), List.flatten_cons, List.flatten_cons, List.filterMap_append,
      ih (fun es he => h es (List.mem_cons_of_mem _ he))]

/-! ### cells and books -/

namespace Cells

theorem put_keys (r : Cells) (c : EcsId) (v : Bytes) : (r.put c v).map Prod.fst = r.map Prod.fst := by
  unfold Cells.put
  rw [List.map_map]
  rfl

theorem put_lookup (r : Cells) (c : EcsId) (v : Bytes) (c' : EcsId) : (r.put c v).lookup c' = if c' = c then (r.lookup c).map (fun _ => v) else r.lookup c' := by
  unfold Cells.put
  rw [lookup_map (fun k b => if k = c then v else b)]
  by_cases h : c' = c
  · subst h; simp
  · simp only [if_neg h]; cases r.lookup c' <;> rfl

theorem drop_lookup (r : Cells) (c c' : EcsId) : (r.drop c).lookup c' = if c' = c then none else r.lookup c' := lookup_filter r c c'

theorem store_keys (fs : List Fetch) : ∀ (r : Cells) (out : List (Option Bytes)), (r.store fs out).map Prod.fst = r.map Prod.fst := by
  induction fs with
  | nil => intro r out; cases out <;> rfl
  | cons p fs ih =>
    intro r out
    cases out with
    | nil => cases p <;> rfl
    | cons o out =>
      cases p with
      | ecsId => exact ih r out
      | immut c => exact ih r out
      | «mut» c =>
        cases o with
        | none => exact ih r out
        | some v => exact (ih (r.put c v) out).trans (r.put_keys c v)

theorem run_keys (fs : List Fetch) (f : List AWorld.Seen → List (Option Bytes)) (e : EcsId) (r : Cells) : (r.run fs f e).map Prod.fst = r.map Prod.fst := by
  unfold Cells.run
  split
  · rfl
  · exact store_keys fs r _

theorem see_some {e : EcsId} {r : Cells} {fs : List Fetch} {ss : List AWorld.Seen} (h : r.see e fs = some ss) : ∀ c, .mut c ∈ fs → r.lookup c ≠ none := by
  intro c hc hn
  have : r.see e fs = none := by
    unfold Cells.see
    exact mapM_none hc (by show (r.lookup c).map _ = none; rw [hn]; rfl)
  rw [this] at h; cases h

end Cells

namespace Book

theorem mapCells_keys (g : EcsId → Cells → Cells) (b : Book) : (b.mapCells g).map Prod.fst = b.map Prod.fst := by
  unfold mapCells
  rw [List.map_map]
  rfl

theorem mapCells_lookup (g : EcsId → Cells → Cells) (b : Book) (x : EcsId) : (b.mapCells g).lookup x = (b.lookup x).map fun en => ⟨en.info, g x en.cells⟩ :=
  lookup_map (fun k (en : Entry) => (⟨en.info, g k en.cells⟩ : Entry)) b x

theorem remove_lookup (b : Book) (e x : EcsId) : (b.remove e).lookup x = if x = e then none else b.lookup x := lookup_filter b e x

theorem update_same {b : Book} {e : EcsId} {g : Cells → Cells} (h : ∀ x ∈ b, x.1 = e → g x.2.cells = x.2.cells) : b.update e g = b := by
  unfold Book.update mapCells
  conv => rhs; rw [← List.map_id b]
  apply List.map_congr_left
  intro x hx
  show (x.1, (⟨x.2.info, if x.1 = e then g x.2.cells else x.2.cells⟩ : Entry)) = x
  split
  · rename_i he
    rw [h x hx he]
  · rfl

theorem mem_mapCells {g : EcsId → Cells → Cells} {b : Book} {x : EcsId × Entry} (h : x ∈ b.mapCells g) :
    ∃ y ∈ b, y.1 = x.1 ∧ x.2.info = y.2.info ∧ x.2.cells = g y.1 y.2.cells := by
  obtain ⟨y, h1, rfl⟩ := List.mem_map.1 h
  exact ⟨y, h1, rfl, rfl, rfl⟩

end Book

/-! ### combinations of components -/

/-- The two lists have the same elements. -/
def SameIds (x y : List EcsId) : Prop := ∀ c, c ∈ x ↔ c ∈ y

theorem shape_test {x ids : List EcsId} : (x.all ids.contains && ids.all x.contains) = true ↔ SameIds x ids := by
  rw [Bool.and_eq_true, List.all_eq_true, List.all_eq_true]
  constructor
  · rintro ⟨h1, h2⟩ c
    exact ⟨fun h => List.contains_iff_mem.1 (h1 c h), fun h => List.contains_iff_mem.1 (h2 c h)⟩
  · intro h
    exact ⟨fun c hc => List.contains_iff_mem.2 ((h c).1 hc), fun c hc => List.contains_iff_mem.2 ((h c).2 hc)⟩

theorem addShape_eq (ids : List EcsId) (S : List (List EcsId)) : (∃ T, Ledger.addShape ids S = T ++ S) ∧ (∃ x ∈ Ledger.addShape ids S, SameIds x ids) ∧
    ∀ x ∈ Ledger.addShape ids S, x ∈ S ∨ x = ids := by
  unfold Ledger.addShape
  split
  · rename_i h
    obtain ⟨x, h1, h2⟩ := List.any_eq_true.1 h
    exact ⟨⟨[], rfl⟩, ⟨x, h1, shape_test.1 h2⟩, fun x hx => .inl hx⟩
  · exact ⟨⟨[ids], rfl⟩, ⟨ids, List.mem_cons_self, fun _ => Iff.rfl⟩, fun x hx => (List.mem_cons.1 hx).symm.imp id id⟩

theorem addShape_sub {ids : List EcsId} {S : List (List EcsId)} {x : List EcsId} (h : x ∈ S) : x ∈ Ledger.addShape ids S := by
  obtain ⟨T, hT⟩ := (addShape_eq ids S).1
  rw [hT]; exact List.mem_append_right _ h

theorem addShape_use {ids : List EcsId} {S : List (List EcsId)} {c : EcsId} : (∃ x ∈ Ledger.addShape ids S, c ∈ x) ↔ (∃ x ∈ S, c ∈ x) ∨ c ∈ ids := by
  constructor
  · rintro ⟨x, h1, h2⟩
    rcases (addShape_eq ids S).2.2 x h1 with h | rfl
    · exact .inl ⟨x, h, h2⟩
    · exact .inr h2
  · rintro (⟨x, h1, h2⟩ | h)
    · exact ⟨x, addShape_sub h1, h2⟩
    · obtain ⟨x, h1, h2⟩ := (addShape_eq ids S).2.1
      exact ⟨x, h1, (h2 c).2 h⟩

/-! ### ledgers -/

/-- The ledger is right about the maps.  `p`: an entity that is not built yet. -/
structure LedgerAt (s : Nat) (p : Option EcsId) (k : Nat) (l : Ledger) (a : AWorld) : Prop where
  slots : l.slots = k + l.types.length
  tidy : Tidy p (l.types.map Prod.fst) k l.dead.length a
  keys : (l.book.map Prod.fst).Nodup
  info : ∀ e, a.info e = (l.book.lookup e).map Entry.info
  cell : ∀ e c, a.cell e c = (l.book.lookup e).bind (·.cells.lookup c)
  types : ∀ t, a.types t = l.types.lookup t
  used : ∀ c, a.used c = true ↔ l.InUse c
  shape : ∀ x ∈ l.book, ∃ ids ∈ l.shapes, SameIds ids (x.2.cells.map Prod.fst)
  empty : [] ∈ l.shapes
  gone : ∀ e ∈ l.dead, Gone a.ents e
  small : ∀ x ∈ l.book, x.2.info.layout.size ≤ s

namespace LedgerAt
variable {s : Nat} {p : Option EcsId} {k : Nat} {l : Ledger} {a : AWorld}

theorem new (s : Nat) : LedgerAt s none 0 Ledger.new AWorld.new :=
  ⟨rfl, Tidy.new, List.nodup_nil, fun _ => rfl, fun _ _ => rfl, fun _ => rfl,
    (fun c => ⟨(fun h => nomatch h), (fun ⟨ids, h1, h2⟩ => by rw [List.mem_singleton.1 h1] at h2; cases h2)⟩),
    (fun x hx => nomatch hx), List.mem_singleton.2 rfl, (fun e he => nomatch he), (fun x hx => nomatch hx)⟩

theorem live (h : LedgerAt s p k l a) {e : EcsId} : l.Live e ↔ a.info e ≠ none := by
  rw [h.info, Ne, Option.map_eq_none_iff, lookup_none]
  exact Classical.not_not.symm

theorem isAlive (h : LedgerAt s p k l a) {e : EcsId} (he : l.Live e) : a.isAlive e = .ok true := h.tidy.alive (h.live.1 he)

theorem entry {e : EcsId} (he : l.Live e) : ∃ en, l.book.lookup e = some en := lookup_isSome he

theorem liveOf {e : EcsId} {en : Entry} (he : l.book.lookup e = some en) : l.Live e := by
  apply Classical.byContradiction
  intro hc
  rw [lookup_none.2 hc] at he; cases he

theorem infoOf (h : LedgerAt s p k l a) {e : EcsId} {en : Entry} (he : l.book.lookup e = some en) : a.info e = some en.info := by rw [h.info, he]; rfl

theorem cellOf (h : LedgerAt s p k l a) {e : EcsId} {en : Entry} (he : l.book.lookup e = some en) (c : EcsId) : a.cell e c = en.cells.lookup c := by rw [h.cell, he]; rfl

theorem isDead (h : LedgerAt s p k l a) {e : EcsId} (he : e ∈ l.dead) : a.isAlive e = .ok false := (h.gone e he).alive

theorem notDead (h : LedgerAt s p k l a) {e : EcsId} (he : l.Live e) : e ∉ l.dead := by
  intro hc
  have := h.isAlive he
  rw [h.isDead hc] at this; cases this

/-- An id that was not alive is fresh. -/
theorem fresh (h : LedgerAt s p k l a) {e : EcsId} (h1 : a.info e = none) (h2 : ¬ Gone a.ents e) : l.Fresh e :=
  ⟨fun hc => h.live.1 hc h1, fun hc => h2 (h.gone e hc)⟩

theorem shaped (h : LedgerAt s p k l a) : a.Shaped l.shapes := by
  intro e he
  obtain ⟨en, hen⟩ := entry (h.live.2 he)
  obtain ⟨ids, h1, h2⟩ := h.shape (e, en) ((lookup_some h.keys).1 hen)
  refine ⟨ids, h1, fun c => (h2 c).trans ?_⟩
  rw [h.cellOf hen, Ne, lookup_none]
  exact Classical.not_not.symm

theorem noFull (h : LedgerAt s p k l a) (hd : l.dead.length < 2 ^ 32) : a.NoFull := h.tidy.ids.noFull hd

/-- The components of an entity are in use. -/
theorem cellUse (h : LedgerAt s p k l a) {e c : EcsId} {en : Entry} (he : l.book.lookup e = some en) (hc : en.cells.lookup c ≠ none) : l.InUse c ∧ l.Live c := by
  have := h.tidy.cells e c (by rw [h.cellOf he]; exact hc)
  exact ⟨(h.used c).1 this.2, h.live.2 (h.tidy.used c this.2).1⟩

/-! #### registration -/

theorem learnAt (h : LedgerAt s p k l a) {t : Ty} (ht : t.size ≤ s) (hd : l.dead.length < 2 ^ 32) {P : EcsId → Ledger → Prop} (hP : l.ensure p t P) :
    ∃ c a' l', a.register t = (.ok c, a') ∧ LedgerAt s p k l' a' ∧ P c l' ∧ l'.types.lookup t = some c ∧ Grows a a' ∧ l'.dead = l.dead ∧ l'.shapes = l.shapes := by
  unfold Ledger.ensure at hP
  cases hc : l.types.lookup t with
  | some c =>
    rw [hc] at hP
    refine ⟨c, a, l, ?_, h, hP, hc, Grows.refl a, rfl, rfl⟩
    unfold AWorld.register
    rw [h.types, hc]
  | none =>
    rw [hc] at hP
    obtain ⟨hslots, hP⟩ := hP
    have hmem : t ∉ l.types.map Prod.fst := lookup_none.1 hc
    have hlearn : learn (l.types.map Prod.fst) t = t :: l.types.map Prod.fst := if_neg hmem
    have hs := h.slots
    obtain ⟨c, a', h1, h2, h3, h4, h5, h6, h7, h8, h9⟩ := h.tidy.register (t := t) (by rw [hlearn, List.length_cons, List.length_map]; omega) hd
    have hal : a.isAlive c ≠ .ok true := h9 (by rw [h.types]; exact hc)
    have hnone : a.info c = none := by
      cases hi : a.info c with
      | none => rfl
      | some m => exact absurd (h.tidy.alive (by rw [hi]; simp)) hal
    have hfresh : l.Fresh c := by
      apply h.fresh hnone
      intro hg
      have g1 : a'.isAlive c = .ok false := (h3.gone c hg).alive
      have g2 : a'.isAlive c = .ok true := h2.alive (by rw [h5]; simp)
      rw [g1] at g2; cases g2
    have hlook : l.book.lookup c = none := lookup_none.2 hfresh.1
    have hbook : ∀ x, (l.learn t c).book.lookup x = if x = c then some ⟨ComponentMeta.fromGeneric t, []⟩ else l.book.lookup x := by
      intro x
      show (l.book ++ [(c, _)]).lookup x = _
      rw [lookup_append']
      by_cases hx : x = c
      · subst hx; rw [hlook, if_pos rfl]; simp
      · rw [if_neg hx, List.lookup_cons]
        have hb : (x == c) = false := by simpa using hx
        rw [hb]; simp
    refine ⟨c, a', l.learn t c, h1, ?_, hP c hfresh h8, by show ((t, c) :: l.types).lookup t = _; simp, h3, rfl, rfl⟩
    refine ⟨?_, ?_, ?_, ?_, ?_, ?_, ?_, ?_, h.empty, fun e he => h3.gone e (h.gone e he), ?_⟩
    · show l.slots + 1 = k + ((t, c) :: l.types).length
      rw [List.length_cons]; omega
    · show Tidy p (t :: l.types.map Prod.fst) k l.dead.length a'
      rw [← hlearn]; exact h2
    · show ((l.book ++ [(c, _)]).map Prod.fst).Nodup
      rw [List.map_append, List.nodup_append]
      refine ⟨h.keys, by simp, ?_⟩
      intro x hx y hy
      have hyc : y = c := by simpa using hy
      rintro rfl
      exact hfresh.1 (hyc ▸ hx)
    · intro x
      rw [hbook]
      by_cases hx : x = c
      · rw [if_pos hx, hx, h5]; rfl
      · rw [if_neg hx, ← h.info]
        cases hi : a.info x with
        | none => exact h7 x hi hx
        | some m => exact h3.info x m hi
    · intro x y
      rw [hbook, h3.cell, h.cell]
      by_cases hx : x = c
      · rw [if_pos hx, hx, hlook]; rfl
      · rw [if_neg hx]
    · intro t'
      show _ = ((t, c) :: l.types).lookup t'
      rw [List.lookup_cons]
      by_cases ht' : t' = t
      · subst ht'; simp [h4]
      · have hb : (t' == t) = false := by simpa using ht'
        rw [hb, h6 t' ht']; exact h.types t'
    · intro x
      rw [h3.used]; exact h.used x
    · intro x hx
      rcases List.mem_append.1 hx with hx | hx
      · exact h.shape x hx
      · rw [List.mem_singleton.1 hx]
        exact ⟨[], h.empty, fun _ => Iff.rfl⟩
    · intro x hx
      rcases List.mem_append.1 hx with hx | hx
      · exact h.small x hx
      · rw [List.mem_singleton.1 hx]; exact ht


/-! #### builders -/

theorem chainAt {e : EcsId} {m : ComponentMeta} (gs : List Give) : ∀ {l : Ledger} {a : AWorld} {r : Cells} {P : Cells → Ledger → Prop}, LedgerAt s (some e) k l a →
    l.dead.length < 2 ^ 32 → (∀ x ∈ r, l.Live x.1) → Give.chain s e gs r l P →
    ∃ r' l' a', AWorld.acts ⟨e, m, r⟩ (gs.map Give.toAct ++ [.build]) a = AWorld.acts ⟨e, m, r'⟩ [.build] a' ∧
      (AWorld.ActsOk ⟨e, m, r'⟩ [.build] a' → AWorld.ActsOk ⟨e, m, r⟩ (gs.map Give.toAct ++ [.build]) a) ∧ LedgerAt s (some e) k l' a' ∧
      (∀ x ∈ r', l'.Live x.1) ∧ P r' l' ∧ (l'.dead = l.dead ∧ l'.shapes = l.shapes) ∧ Grows a a' ∧ (∀ x ∈ gs, actBytes x.toAct ≤ s) ∧ ∀ t v, Give.typed t v ∈ gs → t.size ≤ s := by
  induction gs with
  | nil => exact fun h hd hr hP => ⟨_, _, _, rfl, (fun g => g), h, hr, hP, ⟨rfl, rfl⟩, Grows.refl _, (fun x hx => nomatch hx), (fun t v hx => nomatch hx)⟩
  | cons g gs ih =>
    intro l a r P h hd hr hP
    cases g with
    | typed t v =>
      obtain ⟨hv, ht, hP⟩ := hP
      obtain ⟨c, a1, l1, h1, h2, h3, h4, h5, h6, h7⟩ := h.learnAt ht hd hP
      have hty : a1.types t = some c := by rw [h2.types]; exact h4
      have hci := h2.tidy.types t c hty
      have hlive : l1.Live c := h2.live.2 (by rw [hci]; simp)
      have hr1 : ∀ x ∈ r ++ [(c, v)], l1.Live x.1 := by
        intro x hx
        rcases List.mem_append.1 hx with hx | hx
        · exact h2.live.2 (h5.infoNe (h.live.1 (hr x hx)))
        · rw [List.mem_singleton.1 hx]; exact hlive
      obtain ⟨r', l', a', g1, g2, g3, g4, g5, g6, g7, g8, g9⟩ := ih h2 (by rw [h6]; exact hd) hr1 h3
      have hact : a.act ⟨e, m, r⟩ (.with t v) = (.ok ⟨e, m, r ++ [(c, v)]⟩, a1) := by
        unfold AWorld.act
        simp only [h1]
        unfold AWorld.give
        rw [h2.isAlive hlive, hci]
        have : v.take (ComponentMeta.fromGeneric t).layout.size = v := List.take_of_length_le (by rw [hv]; exact Nat.le_refl _)
        simp only [this]
      refine ⟨r', l', a', ?_, ?_, g3, g4, g5, ⟨g6.1.trans h6, g6.2.trans h7⟩, h5.trans g7, ?_, ?_⟩
      · show AWorld.acts _ (.with t v :: (gs.map Give.toAct ++ [.build])) a = _
        rw [AWorld.acts, hact]; exact g1
      · show _ → AWorld.ActsOk _ (.with t v :: (gs.map Give.toAct ++ [.build])) a
        intro q; rw [AWorld.ActsOk, hact]; exact ⟨hv, g2 q⟩
      · intro x hx
        rcases List.mem_cons.1 hx with rfl | hx
        · show v.length ≤ s; omega
        · exact g8 x hx
      · intro t' v' hx
        rcases List.mem_cons.1 hx with hx | hx
        · cases hx; exact ht
        · exact g9 t' v' hx
    | dyn c v =>
      obtain ⟨⟨en, hen, hv⟩, hP⟩ := hP
      have hlive := liveOf hen
      have hr1 : ∀ x ∈ r ++ [(c, v)], l.Live x.1 := by
        intro x hx
        rcases List.mem_append.1 hx with hx | hx
        · exact hr x hx
        · rw [List.mem_singleton.1 hx]; exact hlive
      obtain ⟨r', l', a', g1, g2, g3, g4, g5, g6, g7, g8, g9⟩ := ih h hd hr1 hP
      have hact : a.act ⟨e, m, r⟩ (.withDynamicWithData c v) = (.ok ⟨e, m, r ++ [(c, v)]⟩, a) := by
        show a.give c v _ = _
        unfold AWorld.give
        rw [h.isAlive hlive, h.infoOf hen]
        have : v.take en.info.layout.size = v := List.take_of_length_le (by rw [hv]; exact Nat.le_refl _)
        simp only [this]
      refine ⟨r', l', a', ?_, ?_, g3, g4, g5, g6, g7, ?_, ?_⟩
      · show AWorld.acts _ (.withDynamicWithData c v :: (gs.map Give.toAct ++ [.build])) a = _
        rw [AWorld.acts, hact]; exact g1
      · show _ → AWorld.ActsOk _ (.withDynamicWithData c v :: (gs.map Give.toAct ++ [.build])) a
        intro q
        rw [AWorld.ActsOk, hact]
        refine ⟨?_, g2 q⟩
        intro m' hm'
        rw [h.infoOf hen] at hm'
        cases hm'
        exact Nat.le_of_eq hv.symm
      · intro x hx
        rcases List.mem_cons.1 hx with rfl | hx
        · show v.length ≤ s
          rw [hv]; exact h.small _ ((lookup_some h.keys).1 hen)
        · exact g8 x hx
      · intro t' v' hx
        rcases List.mem_cons.1 hx with hx | hx
        · cases hx
        · exact g9 t' v' hx
    | tag c =>
      obtain ⟨⟨en, hen, hv⟩, hP⟩ := hP
      have hlive := liveOf hen
      have hr1 : ∀ x ∈ r ++ [(c, [])], l.Live x.1 := by
        intro x hx
        rcases List.mem_append.1 hx with hx | hx
        · exact hr x hx
        · rw [List.mem_singleton.1 hx]; exact hlive
      obtain ⟨r', l', a', g1, g2, g3, g4, g5, g6, g7, g8, g9⟩ := ih h hd hr1 hP
      have hact : a.act ⟨e, m, r⟩ (.withDynamic c) = (.ok ⟨e, m, r ++ [(c, [])]⟩, a) := by
        unfold AWorld.act
        simp only [h.isAlive hlive, h.infoOf hen, hv]
        rfl
      refine ⟨r', l', a', ?_, ?_, g3, g4, g5, g6, g7, ?_, ?_⟩
      · show AWorld.acts _ (.withDynamic c :: (gs.map Give.toAct ++ [.build])) a = _
        rw [AWorld.acts, hact]; exact g1
      · show _ → AWorld.ActsOk _ (.withDynamic c :: (gs.map Give.toAct ++ [.build])) a
        intro q; rw [AWorld.ActsOk, hact]; exact ⟨trivial, g2 q⟩
      · intro x hx
        rcases List.mem_cons.1 hx with rfl | hx
        · exact Nat.zero_le _
        · exact g8 x hx
      · intro t' v' hx
        rcases List.mem_cons.1 hx with hx | hx
        · cases hx
        · exact g9 t' v' hx

theorem pending {e : EcsId} (h : LedgerAt s (some e) k l a) : l.Fresh e := by
  refine ⟨fun hc => absurd rfl ((h.tidy.built e).1 (h.live.1 hc)).2, fun hc => ?_⟩
  have := h.tidy.pend e rfl
  rw [h.isDead hc] at this; cases this

theorem finishAt {e : EcsId} {m : ComponentMeta} {r : Cells} (h : LedgerAt s (some e) k l a) (hr : ∀ x ∈ r, l.Live x.1) (hm : m.layout.size ≤ s) :
    LedgerAt s none k (l.build e m r) (a.finish ⟨e, m, r⟩) := by
  have he := h.pending
  have hnone : l.book.lookup e = none := lookup_none.2 he.1
  have hbook : ∀ x, (l.build e m r).book.lookup x = if x = e then some ⟨m, r⟩ else l.book.lookup x := by
    intro x
    show (l.book ++ [(e, _)]).lookup x = _
    rw [lookup_append']
    by_cases hx : x = e
    · subst hx; rw [hnone, if_pos rfl]; simp
    · rw [if_neg hx, List.lookup_cons]
      have hb : (x == e) = false := by simpa using hx
      rw [hb]; simp
  refine ⟨h.slots, Tidy.finish (b := ⟨e, m, r⟩) h.tidy ?_, ?_, ?_, ?_, h.types, ?_, ?_, addShape_sub h.empty, h.gone, ?_⟩
  · intro c hc
    obtain ⟨x, hx, rfl⟩ := List.mem_map.1 hc
    exact h.live.1 (hr x hx)
  · show ((l.book ++ [(e, _)]).map Prod.fst).Nodup
    rw [List.map_append, List.nodup_append]
    refine ⟨h.keys, by simp, ?_⟩
    intro x hx y hy
    have hyc : y = e := by simpa using hy
    rintro rfl
    exact he.1 (hyc ▸ hx)
  · intro x
    rw [hbook]
    show (if x = e then some m else a.info x) = _
    by_cases hx : x = e
    · rw [if_pos hx, if_pos hx]; rfl
    · rw [if_neg hx, if_neg hx]; exact h.info x
  · intro x c
    rw [hbook]
    show (if x = e then r.lookup c else a.cell x c) = _
    by_cases hx : x = e
    · rw [if_pos hx, if_pos hx]; rfl
    · rw [if_neg hx, if_neg hx]; exact h.cell x c
  · intro c
    show (a.used c || (r.map Prod.fst).contains c) = true ↔ ∃ x ∈ Ledger.addShape (r.map Prod.fst) l.shapes, c ∈ x
    rw [addShape_use, Bool.or_eq_true, h.used c, List.contains_iff_mem]
    exact Iff.rfl
  · intro x hx
    rcases List.mem_append.1 hx with hx | hx
    · obtain ⟨ids, h1, h2⟩ := h.shape x hx
      exact ⟨ids, addShape_sub h1, h2⟩
    · rw [List.mem_singleton.1 hx]
      exact (addShape_eq (r.map Prod.fst) l.shapes).2.1
  · intro x hx
    rcases List.mem_append.1 hx with hx | hx
    · exact h.small x hx
    · rw [List.mem_singleton.1 hx]; exact hm

theorem sum_le {s : Nat} : ∀ gs : List Give, (∀ x ∈ gs, actBytes x.toAct ≤ s) → ((gs.map Give.toAct ++ [BAct.build]).map actBytes).sum ≤ gs.length * s := by
  intro gs
  induction gs with
  | nil => intro _; simp [actBytes]
  | cons x gs ih =>
    intro h
    have hx := h x List.mem_cons_self
    have := ih (fun y hy => h y (List.mem_cons_of_mem _ hy))
    simp only [List.map_cons, List.cons_append, List.sum_cons, List.length_cons, Nat.succ_mul]
    omega

/-- The whole chain. -/
theorem spawnAt (hs : s < 2 ^ 29) (h : LedgerAt s none k l a) (hd : l.dead.length < 2 ^ 32) {kind : SpawnKind} {gs : List Give} (hlen : gs.length < 2 ^ 32)
    (hm : ∀ m, kind = .withMeta m → m.layout.size ≤ s) (hcap : ∀ n, kind = .capacity n → n ≤ isizeMax) (hsl : l.slots + 1 ≤ 2 ^ 32)
    {P : EcsId → Cells → Ledger → Prop}
    (hP : ∀ e, l.Fresh e → Give.chain s e gs [] { l with slots := l.slots + 1 } fun r l => (r.map Prod.fst).Nodup ∧ P e r l) :
    ∃ e r l' a', a.spawn kind (gs.map Give.toAct ++ [.build]) = (.ok e, a') ∧ a.ChainOk s kind (gs.map Give.toAct ++ [.build]) ∧
      LedgerAt s none (k + 1) (l'.build e (AWorld.metaOf kind) r) a' ∧ l'.dead = l.dead ∧ l'.shapes = l.shapes ∧ P e r l' := by
  obtain ⟨e, a1, h1, h2, h3, h4, h5, h6, h7⟩ := h.tidy.spawnId (by rw [List.length_map]; have := h.slots; omega) hd
  have hsame : a1.info = a.info := by
    unfold AWorld.spawnId at h1
    injection h1 with _ h1
    rw [← h1]
  have hat : LedgerAt s (some e) (k + 1) { l with slots := l.slots + 1 } a1 :=
    ⟨(by show l.slots + 1 = k + 1 + l.types.length; have := h.slots; omega), h2, h.keys, (by rw [hsame]; exact h.info), (by rw [h3.cell]; exact h.cell), (by rw [h4]; exact h.types),
      (by rw [h3.used]; exact h.used), h.shape, h.empty, fun x hx => h3.gone x (h.gone x hx), h.small⟩
  obtain ⟨r, l', a', g1, g2, g3, g4, ⟨g5, g5'⟩, g6, g7, g8, g9⟩ := chainAt (m := AWorld.metaOf kind) (r := []) gs hat hd (fun x hx => nomatch hx) (hP e hat.pending)
  have hms : (AWorld.metaOf kind).layout.size ≤ s := by
    cases kind with
    | withMeta m => exact hm m rfl
    | plain => exact Nat.zero_le _
    | capacity n => exact Nat.zero_le _
  refine ⟨e, r, l', _, ?_, ⟨?_, ?_, hm, hcap, ?_⟩, g3.finishAt g4 hms, g6.1, g6.2, g5'⟩
  · unfold AWorld.spawn
    rw [h1]
    simp only [g1]
    rfl
  · intro e' a1' he
    rw [h1] at he
    cases he
    refine g2 ⟨⟨?_, g5⟩, trivial⟩
    rw [g3.info, lookup_none.2 g3.pending.1]; rfl
  · have q1 := sum_le gs g8
    have q2 : gs.length * s ≤ 2 ^ 32 * 2 ^ 29 := Nat.mul_le_mul (Nat.le_of_lt hlen) (Nat.le_of_lt hs)
    have q3 : 2 * (2 ^ 32 * 2 ^ 29) < isizeMax := by decide
    omega
  · intro t v hmem
    rcases List.mem_append.1 hmem with hmem | hmem
    · obtain ⟨y, hy, hh⟩ := List.mem_map.1 hmem
      cases y with
      | typed t' v' => cases hh; exact g9 t v hy
      | dyn c v' => cases hh
      | tag c => cases hh
    · cases List.mem_singleton.1 hmem

/-! #### calls -/

theorem useLookup {x : EcsId} {e : EcsId} {g : Cells → Cells} : (l.book.update e g).lookup x =
    (l.book.lookup x).map fun en => ⟨en.info, if x = e then g en.cells else en.cells⟩ := Book.mapCells_lookup _ _ _

/-- The components of one entity change. -/
theorem updateAt (h : LedgerAt s none k l a) {e : EcsId} {en : Entry} (he : l.book.lookup e = some en) {g : Cells → Cells} {ids : List EcsId} {a' : AWorld}
    (ht : Tidy none (l.types.map Prod.fst) k l.dead.length a') (hi : a'.info = a.info) (hty : a'.types = a.types) (hen : a'.ents = a.ents)
    (hc : ∀ x c, a'.cell x c = if x = e then (g en.cells).lookup c else a.cell x c) (hids : SameIds ids ((g en.cells).map Prod.fst))
    (hu : ∀ c, a'.used c = true ↔ a.used c = true ∨ c ∈ ids) :
    LedgerAt s none k { l with book := l.book.update e g, shapes := Ledger.addShape ids l.shapes } a' := by
  have hb := fun x => useLookup (l := l) (x := x) (e := e) (g := g)
  refine ⟨h.slots, ht, ?_, ?_, ?_, by rw [hty]; exact h.types, ?_, ?_, addShape_sub h.empty, by rw [hen]; exact h.gone, ?_⟩
  · show ((l.book.update e g).map Prod.fst).Nodup
    unfold Book.update
    rw [Book.mapCells_keys]; exact h.keys
  · intro x
    show _ = ((l.book.update e g).lookup x).map Entry.info
    rw [hi, hb, h.info]
    cases l.book.lookup x <;> rfl
  · intro x c
    show _ = ((l.book.update e g).lookup x).bind _
    rw [hc, hb]
    by_cases hx : x = e
    · subst hx
      rw [if_pos rfl, he]
      simp
    · rw [if_neg hx, h.cell]
      cases l.book.lookup x with
      | none => rfl
      | some en' => simp [hx]
  · intro c
    rw [hu, h.used]
    exact addShape_use.symm
  · intro x hx
    obtain ⟨y, h1, h2, h3, h4⟩ := Book.mem_mapCells (show x ∈ l.book.mapCells (fun x r => if x = e then g r else r) from hx)
    by_cases hy : y.1 = e
    · rw [if_pos hy] at h4
      have : y.2 = en := by
        have := (lookup_some h.keys).2 (show (e, y.2) ∈ l.book by rw [← hy]; exact h1)
        rw [he] at this; cases this; rfl
      obtain ⟨z, q1, q2⟩ := (addShape_eq ids l.shapes).2.1
      refine ⟨z, q1, fun c => (q2 c).trans ?_⟩
      rw [h4, this]; exact hids c
    · rw [if_neg hy] at h4
      obtain ⟨z, q1, q2⟩ := h.shape y h1
      exact ⟨z, addShape_sub q1, by rw [h4]; exact q2⟩
  · intro x hx
    obtain ⟨y, h1, h2, h3, h4⟩ := Book.mem_mapCells (show x ∈ l.book.mapCells (fun x r => if x = e then g r else r) from hx)
    rw [h3]; exact h.small y h1

theorem addAt (h : LedgerAt s none k l a) {e c : EcsId} {en ec : Entry} {v : Bytes} (he : l.book.lookup e = some en) (hc : l.book.lookup c = some ec)
    (hn : en.cells.lookup c = none) (hv : v.length = ec.info.layout.size) : ∃ a', a.addDyn e c v = (.ok (), a') ∧ LedgerAt s none k (l.add e c v en.cells) a' := by
  obtain ⟨a', h1, h2, h3, h4⟩ := h.tidy.addDyn (h.live.1 (liveOf he)) (h.infoOf hc) (by rw [h.cellOf he]; exact hn) hv
  refine ⟨a', h1, ?_⟩
  have h5 : a'.info = a.info ∧ a'.ents = a.ents := by
    unfold AWorld.addDyn at h1
    rw [h.isAlive (liveOf he), h.isAlive (liveOf hc), h.infoOf he, h.cellOf he, hn, h.infoOf hc] at h1
    injection h1 with _ h1
    rw [← h1]; exact ⟨rfl, rfl⟩
  refine h.updateAt he h2 h5.1 h4 h5.2 ?_ ?_ ?_
  · intro x y
    rw [h3.cell, lookup_append']
    by_cases hx : x = e
    · subst hx
      rw [if_pos rfl]
      by_cases hy : y = c
      · subst hy; rw [if_pos ⟨rfl, rfl⟩, hn]; simp
      · rw [if_neg (fun q => hy q.2), h.cellOf he, List.lookup_cons]
        have hb : (y == c) = false := by simpa using hy
        rw [hb]; simp
    · rw [if_neg hx, if_neg (fun q => hx q.1)]
  · intro y
    rw [List.map_append]; exact Iff.rfl
  · intro y
    rw [h3.used, Bool.or_eq_true, beq_iff_eq]
    constructor
    · rintro (q | rfl)
      · exact .inl q
      · exact .inr (List.mem_append_right _ (List.mem_singleton.2 rfl))
    · rintro (q | q)
      · exact .inl q
      · rcases List.mem_append.1 q with q | q
        · obtain ⟨v', hv'⟩ := lookup_isSome q
          exact .inl ((h.used y).2 (h.cellUse he (by rw [hv']; simp)).1)
        · exact .inr (List.mem_singleton.1 q)

theorem takeAt (h : LedgerAt s none k l a) {e c : EcsId} {en : Entry} (he : l.book.lookup e = some en) (hn : en.cells.lookup c ≠ none) :
    ∃ a', a.removeDyn e c = (.ok (), a') ∧ LedgerAt s none k (l.take e c en.cells) a' := by
  obtain ⟨h1, h2⟩ := h.tidy.removeDyn (e := e) (c := c) (by rw [h.cellOf he]; exact hn)
  refine ⟨_, h1, h.updateAt he h2 rfl rfl rfl ?_ (fun _ => Iff.rfl) ?_⟩
  · intro x y
    show (if x = e ∧ y = c then none else a.cell x y) = _
    by_cases hx : x = e
    · subst hx
      rw [if_pos rfl, Cells.drop_lookup]
      by_cases hy : y = c
      · rw [if_pos ⟨rfl, hy⟩, if_pos hy]
      · rw [if_neg (fun q => hy q.2), if_neg hy, h.cellOf he]
    · rw [if_neg hx, if_neg (fun q => hx q.1)]
  · intro y
    show a.used y = true ↔ _
    constructor
    · exact .inl
    · rintro (q | q)
      · exact q
      · obtain ⟨v', hv'⟩ := lookup_isSome q
        rw [Cells.drop_lookup] at hv'
        split at hv'
        · cases hv'
        · exact (h.used y).2 (h.cellUse he (by rw [hv']; simp)).1

theorem despawnAt (h : LedgerAt s none k l a) {e : EcsId} (he : l.Live e) (hu : ¬ l.InUse e) (ht : ∀ t, l.types.lookup t ≠ some e) :
    ∃ a', a.despawn e = (.ok true, a') ∧ LedgerAt s none k { l with book := l.book.remove e, dead := e :: l.dead } a' := by
  obtain ⟨a', h1, h2, h3, h4, h5, h6, h7, h8⟩ := h.tidy.despawn (h.live.1 he)
    (by cases hb : a.used e with | false => rfl | true => exact absurd ((h.used e).1 hb) hu) (fun t hc => ht t (by rw [← h.types]; exact hc))
  refine ⟨a', h1, h.slots, h2, ?_, ?_, ?_, by rw [h4]; exact h.types, by rw [h5]; exact h.used, ?_, h.empty, ?_, ?_⟩
  · exact h.keys.sublist (List.filter_sublist.map Prod.fst)
  · intro x
    show _ = ((l.book.remove e).lookup x).map _
    rw [h6, Book.remove_lookup, h.info]
    by_cases hx : x = e
    · rw [if_pos hx, if_pos hx]; rfl
    · rw [if_neg hx, if_neg hx]
  · intro x c
    show _ = ((l.book.remove e).lookup x).bind _
    rw [h3, Book.remove_lookup, h.cell]
    by_cases hx : x = e
    · rw [if_pos hx, if_pos hx]; rfl
    · rw [if_neg hx, if_neg hx]
  · exact fun x hx => h.shape x (List.mem_filter.1 hx).1
  · intro x hx
    rcases List.mem_cons.1 hx with rfl | hx
    · exact h7
    · exact h8 x (h.gone x hx)
  · exact fun x hx => h.small x (List.mem_filter.1 hx).1

/-- Only values change. -/
theorem valuesAt (h : LedgerAt s none k l a) {g : EcsId → Cells → Cells} (hg : ∀ e r, (g e r).map Prod.fst = r.map Prod.fst) {cell' : EcsId → EcsId → Option Bytes}
    (hc : ∀ e c, cell' e c = (l.book.lookup e).bind (fun en => (g e en.cells).lookup c)) :
    LedgerAt s none k { l with book := l.book.mapCells g } { a with cell := cell' } := by
  refine ⟨h.slots, h.tidy.setCell ?_, ?_, ?_, ?_, h.types, h.used, ?_, h.empty, h.gone, ?_⟩
  · intro x c hn
    rw [hc] at hn
    rw [h.cell]
    cases hb : l.book.lookup x with
    | none => rw [hb] at hn; exact absurd rfl hn
    | some en =>
      rw [hb] at hn
      replace hn : (g x en.cells).lookup c ≠ none := hn
      show en.cells.lookup c ≠ none
      rw [Ne, lookup_none] at hn ⊢
      rw [← hg x en.cells]; exact hn
  · show ((l.book.mapCells g).map Prod.fst).Nodup
    rw [Book.mapCells_keys]; exact h.keys
  · intro x
    show _ = ((l.book.mapCells g).lookup x).map _
    rw [Book.mapCells_lookup, h.info]
    cases l.book.lookup x <;> rfl
  · intro x c
    show cell' x c = ((l.book.mapCells g).lookup x).bind _
    rw [Book.mapCells_lookup, hc]
    cases l.book.lookup x <;> rfl
  · intro x hx
    obtain ⟨y, h1, h2, h3, h4⟩ := Book.mem_mapCells hx
    obtain ⟨z, q1, q2⟩ := h.shape y h1
    exact ⟨z, q1, by rw [h4, hg]; exact q2⟩
  · intro x hx
    obtain ⟨y, h1, h2, h3, h4⟩ := Book.mem_mapCells hx
    rw [h3]; exact h.small y h1

theorem writeAt (h : LedgerAt s none k l a) {e c : EcsId} {en : Entry} (he : l.book.lookup e = some en) (hn : en.cells.lookup c ≠ none) (v : Bytes) :
    ∃ a', a.write e c v = (.ok (), a') ∧ LedgerAt s none k { l with book := l.book.update e (fun r => r.put c v) } a' := by
  obtain ⟨w, hw⟩ : ∃ w, en.cells.lookup c = some w := by cases hx : en.cells.lookup c with | none => exact absurd hx hn | some w => exact ⟨w, rfl⟩
  refine ⟨{ a with cell := fun x y => if x = e ∧ y = c then some v else a.cell x y }, ?_, h.valuesAt ?_ ?_⟩
  · unfold AWorld.write
    rw [h.isAlive (liveOf he), h.isAlive (h.cellUse he hn).2, h.infoOf he, h.cellOf he, hw]
  · intro x r
    show (if x = e then r.put c v else r).map _ = _
    split
    · exact Cells.put_keys r c v
    · rfl
  · intro x y
    show (if x = e ∧ y = c then some v else a.cell x y) = _
    by_cases hx : x = e
    · subst hx
      rw [he]
      show _ = (if x = x then en.cells.put c v else en.cells).lookup y
      rw [if_pos rfl, Cells.put_lookup]
      by_cases hy : y = c
      · rw [if_pos ⟨rfl, hy⟩, if_pos hy, hw]; rfl
      · rw [if_neg (fun q => hy q.2), if_neg hy, h.cellOf he]
    · rw [if_neg (fun q => hx q.1), h.cell]
      cases l.book.lookup x with
      | none => rfl
      | some en' =>
        show _ = (if x = e then en'.cells.put c v else en'.cells).lookup y
        rw [if_neg hx]; rfl

/-! #### queries -/

theorem rowAt (h : LedgerAt s none k l a) (fs : List Fetch) (e : EcsId) : a.rowDyn fs e = l.book.see fs e := by
  unfold AWorld.rowDyn Book.see
  cases he : l.book.lookup e with
  | none =>
    rw [h.info, he]; rfl
  | some en =>
    rw [h.infoOf he]
    show fs.mapM (a.seenDyn e) = Cells.see e en.cells fs
    unfold Cells.see
    congr 1
    funext p
    cases p with
    | ecsId => rfl
    | «mut» c => show (a.cell e c).map _ = _; rw [h.cellOf he]
    | immut c => show (a.cell e c).map _ = _; rw [h.cellOf he]

theorem store_cells (e : EcsId) (fs : List Fetch) : ∀ {a : AWorld} {r : Cells} (out : List (Option Bytes)), (∀ c, a.cell e c = r.lookup c) →
    (∀ c, .mut c ∈ fs → r.lookup c ≠ none) → ∀ c, (a.storeAll e (AWorld.cellsDyn fs out)).cell e c = (r.store fs out).lookup c := by
  induction fs with
  | nil => intro a r out h _; cases out <;> exact h
  | cons p fs ih =>
    intro a r out h hm
    have hm' : ∀ c, .mut c ∈ fs → r.lookup c ≠ none := fun c hc => hm c (List.mem_cons_of_mem _ hc)
    cases out with
    | nil => cases p <;> exact h
    | cons o out =>
      cases p with
      | ecsId => exact ih out h hm'
      | immut c => exact ih out h hm'
      | «mut» c =>
        cases o with
        | none => exact ih out h hm'
        | some v =>
          refine ih (a := { a with cell := fun x y => if x = e ∧ y = c then some v else a.cell x y }) (r := r.put c v) out ?_ ?_
          · intro y
            show (if e = e ∧ y = c then some v else a.cell e y) = _
            rw [Cells.put_lookup]
            by_cases hy : y = c
            · rw [if_pos ⟨rfl, hy⟩, if_pos hy]
              cases hw : r.lookup c with
              | none => exact absurd hw (hm c List.mem_cons_self)
              | some w => rfl
            · rw [if_neg (fun q => hy q.2), if_neg hy, h]
          · intro y hy
            have := hm' y hy
            rw [Ne, lookup_none] at this ⊢
            rw [Cells.put_keys]; exact this

theorem storedAt (h : LedgerAt s none k l a) {e : EcsId} {en : Entry} (he : l.book.lookup e = some en) {fs : List Fetch} {ss : List AWorld.Seen}
    (hs : en.cells.see e fs = some ss) (f : List AWorld.Seen → List (Option Bytes)) :
    LedgerAt s none k { l with book := l.book.update e (Cells.run fs f e) } (a.storeAll e (AWorld.cellsDyn fs (f ss))) := by
  obtain ⟨cell', h1, h2⟩ := WorldSpec.storeAll_eq e (AWorld.cellsDyn fs (f ss)) a
  have h4 := store_cells e fs (a := a) (f ss) (h.cellOf he) (Cells.see_some hs)
  rw [h1] at h4 ⊢
  refine h.valuesAt ?_ ?_
  · intro x r
    show (if x = e then _ else r).map _ = _
    split
    · exact Cells.run_keys fs f e r
    · rfl
  · intro x c
    by_cases hx : x = e
    · subst hx
      rw [he]
      show _ = (if x = x then Cells.run fs f x en.cells else en.cells).lookup c
      rw [if_pos rfl]
      unfold Cells.run
      rw [hs]
      exact h4 c
    · rw [h2 x hx, h.cell]
      cases l.book.lookup x with
      | none => rfl
      | some en' =>
        show _ = (if x = e then _ else en'.cells).lookup c
        rw [if_neg hx]; rfl

theorem loopAt (h : LedgerAt s none k l a) {fs : List Fetch} (f : List AWorld.Seen → List (Option Bytes)) {es : List EcsId} (hn : es.Nodup)
    (he : ∀ e, e ∈ es ↔ (a.rowDyn fs e).isSome = true) :
    LedgerAt s none k { l with book := l.book.run fs f } (AWorld.sweep (a.rowDyn fs) (AWorld.cellsDyn fs) (Body.log (eachBody f)) es a []).1 ∧
      (AWorld.sweep (a.rowDyn fs) (AWorld.cellsDyn fs) (Body.log (eachBody f)) es a []).2.Perm (l.book.rows fs) := by
  rw [sweep_log]
  refine ⟨?_, ?_⟩
  · show LedgerAt s none k _ (AWorld.sweep (a.rowDyn fs) (AWorld.cellsDyn fs) (fun (_ : Unit) ss => ((), f ss)) es a ()).1
    rw [WorldSpec.sweep_each a hn he]
    unfold AWorld.each
    refine h.valuesAt (g := Cells.run fs f) (fun e r => Cells.run_keys fs f e r) ?_
    intro x c
    have hr := h.rowAt fs x
    cases h1 : l.book.lookup x with
    | none =>
      unfold Book.see at hr
      rw [h1] at hr
      simp only [hr]
      rw [h.cell, h1]; rfl
    | some en =>
      unfold Book.see at hr
      rw [h1] at hr
      replace hr : a.rowDyn fs x = en.cells.see x fs := hr
      show _ = (Cells.run fs f x en.cells).lookup c
      unfold Cells.run
      cases h2 : en.cells.see x fs with
      | none =>
        rw [h2] at hr
        simp only [hr]
        exact h.cellOf h1 c
      | some ss =>
        rw [h2] at hr
        simp only [hr]
        exact store_cells x fs (f ss) (h.cellOf h1) (Cells.see_some h2) c
  · show ((es.filterMap (a.rowDyn fs)).reverse ++ []).Perm (l.book.rows fs)
    rw [List.append_nil]
    refine (List.reverse_perm _).trans ?_
    have h1 : l.book.rows fs = (l.book.map Prod.fst).filterMap (a.rowDyn fs) := by
      have hall : ∀ x ∈ l.book, a.rowDyn fs x.1 = x.2.cells.see x.1 fs := by
        intro x hx
        have : l.book.lookup x.1 = some x.2 := (lookup_some h.keys).2 hx
        rw [h.rowAt fs x.1]
        unfold Book.see
        rw [this]; rfl
      unfold Book.rows
      rw [List.filterMap_map]
      generalize l.book = b at hall
      induction b with
      | nil => rfl
      | cons x b ih =>
        rw [List.filterMap_cons, List.filterMap_cons, ih (fun y hy => hall y (List.mem_cons_of_mem _ hy))]
        rw [show (a.rowDyn fs ∘ Prod.fst) x = x.2.cells.see x.1 fs from hall x List.mem_cons_self]
    rw [h1]
    have hp : ∀ (xs ys : List EcsId), xs.Nodup → ys.Nodup → (∀ e, (a.rowDyn fs e).isSome = true → (e ∈ xs ↔ e ∈ ys)) →
        (xs.filterMap (a.rowDyn fs)).Perm (ys.filterMap (a.rowDyn fs)) := by
      have hf : ∀ xs : List EcsId, xs.filterMap (a.rowDyn fs) = (xs.filter (fun e => (a.rowDyn fs e).isSome)).filterMap (a.rowDyn fs) := by
        intro xs
        induction xs with
        | nil => rfl
        | cons e xs ih =>
          rw [List.filterMap_cons, List.filter_cons]
          cases hr : a.rowDyn fs e with
          | none => simp [ih]
          | some ss => simp [hr, ih]
      intro xs ys hx hy hxy
      rw [hf xs, hf ys]
      refine List.Perm.filterMap _ ((List.perm_ext_iff_of_nodup (hx.filter _) (hy.filter _)).2 ?_)
      intro e
      rw [List.mem_filter, List.mem_filter]
      constructor
      · rintro ⟨q1, q2⟩; exact ⟨(hxy e q2).1 q1, q2⟩
      · rintro ⟨q1, q2⟩; exact ⟨(hxy e q2).2 q1, q2⟩
    refine hp es _ hn h.keys ?_
    intro e hs
    refine ⟨fun _ => ?_, fun _ => (he e).2 hs⟩
    apply h.live.2
    intro hc
    unfold AWorld.rowDyn at hs
    rw [hc] at hs
    cases hs

theorem stridesAt (h : LedgerAt s p k l a) {fs : List Fetch} {ns : List Nat} (hs : StridesIds l.book fs ns) : a.Strides fs ns := by
  unfold StridesIds at hs
  unfold AWorld.Strides
  induction hs with
  | nil => exact .nil
  | cons hx _ ih =>
    refine .cons ⟨hx.1, fun c m hof hm => ?_⟩ ih
    obtain ⟨en, hen⟩ := LedgerAt.entry (h.live.2 (by rw [hm]; simp : a.info c ≠ none))
    have := h.infoOf hen
    rw [hm] at this
    cases this
    exact hx.2 c en hof hen

/-- A loop over columns that treats the rows one after the other does to the ledger what a loop over the rows does. -/
theorem loopColsAt (h : LedgerAt s none k l a) {fs : List Fetch} (f : List AWorld.Seen → List (Option Bytes)) {ess : List (List EcsId)} (hn : ess.flatten.Nodup)
    (he : ∀ e, e ∈ ess.flatten ↔ (a.rowDyn fs e).isSome = true) :
    LedgerAt s none k { l with book := l.book.run fs f } (AWorld.sweepLines fs (a.rowDyn fs) (ColBody.log (tableBody f)) ess a []).1 ∧
      (AWorld.sweepLines fs (a.rowDyn fs) (ColBody.log (tableBody f)) ess a []).2.flatten.Perm (l.book.rows fs) := by
  have hall : ∀ es ∈ ess, ∀ e ∈ es, (a.rowDyn fs e).isSome = true := fun es hes e hx => (he e).1 (List.mem_flatten.2 ⟨es, hes, hx⟩)
  obtain ⟨h1, h2⟩ := h.loopAt f hn he
  rw [sweep_log] at h1 h2
  rw [sweepLines_log, WorldSpec.sweepLines_rows ess hall]
  refine ⟨h1, ?_⟩
  show ((ess.filterMap (fun es => List.mapM (a.rowDyn fs) es)).reverse ++ []).flatten.Perm _
  rw [List.append_nil]
  refine List.Perm.trans ?_ h2
  show _root_.List.Perm _ ((ess.flatten.filterMap (a.rowDyn fs)).reverse ++ [])
  rw [List.append_nil]
  refine ((List.reverse_perm _).flatten).trans (List.Perm.trans ?_ (List.reverse_perm _).symm)
  rw [flatten_rows ess hall]

/-- What a typed query fetches. -/
theorem fetchAt (h : LedgerAt s p k l a) (ps : List Param) : ps.mapM a.fetch = l.fetches ps := by
  unfold Ledger.fetches
  congr 1
  funext x
  cases x with
  | ids => rfl
  | «mut» t => show (a.types t).map _ = _; rw [h.types]
  | ref t => show (a.types t).map _ = _; rw [h.types]

/-- A typed query is a dynamic one. -/
theorem static_row {a : AWorld} {ps : List Param} {fs : List Fetch} (h : ps.mapM a.fetch = some fs) :
    a.row ps = a.rowDyn fs ∧ a.cells ps = AWorld.cellsDyn fs := by
  have hp := mapM_pairs h
  clear h
  have h1 : (∀ e, ps.mapM (a.seen e) = fs.mapM (a.seenDyn e)) ∧ ∀ out, a.cells ps out = AWorld.cellsDyn fs out := by
    induction hp with
    | nil => exact ⟨fun _ => rfl, fun out => by cases out <;> rfl⟩
    | @cons x y xs ys hx _ ih =>
      obtain ⟨ih1, ih2⟩ := ih
      cases x with
      | ids =>
        cases hx
        refine ⟨fun e => ?_, fun out => ?_⟩
        · rw [List.mapM_cons, List.mapM_cons, ih1]; rfl
        · cases out with
          | nil => rfl
          | cons o out => exact ih2 out
      | «mut» t =>
        cases hc : a.types t with
        | none => simp [AWorld.fetch, hc] at hx
        | some c =>
          simp [AWorld.fetch, hc] at hx
          subst hx
          refine ⟨fun e => ?_, fun out => ?_⟩
          · rw [List.mapM_cons, List.mapM_cons, ih1]
            show (((a.types t).bind (a.cell e)).map AWorld.Seen.value >>= _) = _
            rw [hc]; rfl
          · cases out with
            | nil => rfl
            | cons o out =>
              cases o with
              | none => exact ih2 out
              | some v =>
                unfold AWorld.cells
                simp only [hc, ih2 out]
                rfl
      | ref t =>
        cases hc : a.types t with
        | none => simp [AWorld.fetch, hc] at hx
        | some c =>
          simp [AWorld.fetch, hc] at hx
          subst hx
          refine ⟨fun e => ?_, fun out => ?_⟩
          · rw [List.mapM_cons, List.mapM_cons, ih1]
            show (((a.types t).bind (a.cell e)).map AWorld.Seen.value >>= _) = _
            rw [hc]; rfl
          · cases out with
            | nil => rfl
            | cons o out => exact ih2 out
  exact ⟨by funext e; unfold AWorld.row AWorld.rowDyn; rw [h1.1], by funext out; exact h1.2 out⟩

theorem mapM_none_of {α β : Type} {f : α → Option β} {l : List α} (h : l.mapM f = none) : ∃ x ∈ l, f x = none := by
  induction l with
  | nil => simp at h
  | cons x l ih =>
    rw [List.mapM_cons] at h
    cases hx : f x with
    | none => exact ⟨x, List.mem_cons_self, hx⟩
    | some y =>
      rw [hx] at h
      cases hl : l.mapM f with
      | none =>
        obtain ⟨z, h1, h2⟩ := ih hl
        exact ⟨z, List.mem_cons_of_mem _ h1, h2⟩
      | some ys => rw [hl] at h; cases h

/-- A query with a type that has no id shows nothing. -/
theorem static_none {a : AWorld} {ps : List Param} (h : ps.mapM a.fetch = none) (e : EcsId) : a.row ps e = none := by
  obtain ⟨x, h1, h2⟩ := mapM_none_of h
  have : a.seen e x = none := by
    cases x with
    | ids => cases h2
    | «mut» t =>
      cases hc : a.types t with
      | none => show ((a.types t).bind (a.cell e)).map _ = none; rw [hc]; rfl
      | some c => simp [AWorld.fetch, hc] at h2
    | ref t =>
      cases hc : a.types t with
      | none => show ((a.types t).bind (a.cell e)).map _ = none; rw [hc]; rfl
      | some c => simp [AWorld.fetch, hc] at h2
  unfold AWorld.row
  split
  · exact mapM_none h1 this
  · rfl

theorem seesAt (h : LedgerAt s none k l a) {ps : List Param} {fs : List Fetch} (hf : l.fetches ps = some fs) :
    a.row ps = a.rowDyn fs ∧ a.cells ps = AWorld.cellsDyn fs := static_row (by rw [h.fetchAt]; exact hf)

/-- Getting the locks. -/
theorem lockAt (h : LedgerAt s none k l a) {static : Bool} {fs : List Fetch} (hc : CompatibleIds fs)
    (hu : static = true → ∀ x ∈ fs, ∀ c, x.Of c → l.InUse c) : a.lockAll static fs false = (.ok (), a) := by
  have key : ∀ (fs : List Fetch) (held : List (EcsId × Bool)), CompatibleIds fs → (static = true → ∀ x ∈ fs, ∀ c, x.Of c → l.InUse c) →
      (∀ c wr, (c, wr) ∈ held → ∀ f ∈ fs, ∀ w2, AWorld.want f = some (c, w2) → wr = false ∧ w2 = false) → (a.take static held fs).1 = none := by
    intro fs
    induction fs with
    | nil => exact fun _ _ _ _ => rfl
    | cons f fs ih =>
      intro held hp hu hh
      unfold CompatibleIds at hp
      rw [List.pairwise_cons] at hp
      have hu' : static = true → ∀ x ∈ fs, ∀ c, x.Of c → l.InUse c := fun q x hx => hu q x (List.mem_cons_of_mem _ hx)
      have hh' : ∀ c wr, (c, wr) ∈ held → ∀ g ∈ fs, ∀ w2, AWorld.want g = some (c, w2) → wr = false ∧ w2 = false :=
        fun c wr hm g hg => hh c wr hm g (List.mem_cons_of_mem _ hg)
      have hgo : ∀ c wr, AWorld.want f = some (c, wr) → ∀ c' wr', (c', wr') ∈ held ++ [(c, wr)] → ∀ g ∈ fs, ∀ w2, AWorld.want g = some (c', w2) → wr' = false ∧ w2 = false := by
        intro c wr hw c' wr' hm g hg w2 hw2
        rcases List.mem_append.1 hm with hm | hm
        · exact hh' c' wr' hm g hg w2 hw2
        · cases List.mem_singleton.1 hm
          have := hp.1 g hg c
          cases f <;> cases hw <;> cases g <;> cases hw2
          · exact absurd rfl (this.1 rfl).1
          · exact absurd rfl (this.1 rfl).2
          · exact absurd rfl (this.2 rfl)
          · exact ⟨rfl, rfl⟩
      unfold AWorld.take
      cases hw : AWorld.want f with
      | none => exact ih held hp.2 hu' hh'
      | some cw =>
        obtain ⟨c, wr⟩ := cw
        cases hl : a.lock c with
        | none =>
          cases static with
          | false =>
            simp only [hl]
            exact ih held hp.2 hu' hh'
          | true =>
            have := hu rfl f List.mem_cons_self c (by cases f <;> cases hw <;> simp [Fetch.Of])
            have := (h.tidy.used c ((h.used c).2 this)).2
            rw [hl] at this; cases this
        | some poisoned =>
          cases poisoned with
          | true => exact absurd hl (h.tidy.clean c)
          | false =>
            simp only [hl]
            rw [if_neg, if_neg (by simp)]
            · exact ih _ hp.2 hu' (hgo c wr hw)
            · rintro (g | ⟨g1, g2⟩)
              · have := (hh c true g f List.mem_cons_self wr hw).1; cases this
              · have := (hh c false g2 f List.mem_cons_self wr hw).2
                rw [g1] at this; cases this
  have h1 := key fs [] hc hu (fun c wr hm => by cases hm)
  unfold AWorld.lockAll
  cases htk : a.take static [] fs with
  | mk x held =>
    rw [htk] at h1
    cases h1
    rfl

theorem queryAt (h : LedgerAt s none k l a) {ps : List Param} (hc : Compatible ps) (hu : ∀ fs, l.fetches ps = some fs → ∀ x ∈ fs, ∀ c, x.Of c → l.InUse c) :
    a.query ps false = (.ok (), a) := by
  unfold AWorld.query
  rw [h.fetchAt]
  cases hm : l.fetches ps with
  | none => rfl
  | some fs =>
    refine h.lockAt ?_ (fun _ => hu fs hm)
    refine pairs_pairwise ?_ (mapM_pairs (show ps.mapM a.fetch = some fs by rw [h.fetchAt]; exact hm)) hc
    intro x x' f f' hf hf' hpp c
    have hof : ∀ (x : Param) (f : Fetch), a.fetch x = some f → (f = .mut c → ∃ t, a.types t = some c ∧ x = .mut t) ∧ (f = .immut c → ∃ t, a.types t = some c ∧ x = .ref t) := by
      intro x f hf
      cases x with
      | ids => cases hf; exact ⟨fun q => (by cases q), fun q => (by cases q)⟩
      | «mut» t =>
        cases ht : a.types t with
        | none => simp [AWorld.fetch, ht] at hf
        | some c' =>
          simp [AWorld.fetch, ht] at hf
          subst hf
          exact ⟨fun q => (by cases q; exact ⟨t, ht, rfl⟩), fun q => (by cases q)⟩
      | ref t =>
        cases ht : a.types t with
        | none => simp [AWorld.fetch, ht] at hf
        | some c' =>
          simp [AWorld.fetch, ht] at hf
          subst hf
          exact ⟨fun q => (by cases q), fun q => (by cases q; exact ⟨t, ht, rfl⟩)⟩
    refine ⟨fun q1 => ⟨fun q2 => ?_, fun q2 => ?_⟩, fun q1 q2 => ?_⟩
    · obtain ⟨t, g1, g2⟩ := (hof x f hf).1 q1
      obtain ⟨t', g3, g4⟩ := (hof x' f' hf').1 q2
      have := h.tidy.inj t t' c g1 g3
      subst this
      exact ((hpp t).1 g2).1 g4
    · obtain ⟨t, g1, g2⟩ := (hof x f hf).1 q1
      obtain ⟨t', g3, g4⟩ := (hof x' f' hf').2 q2
      have := h.tidy.inj t t' c g1 g3
      subst this
      exact ((hpp t).1 g2).2 g4
    · obtain ⟨t, g1, g2⟩ := (hof x f hf).2 q1
      obtain ⟨t', g3, g4⟩ := (hof x' f' hf').1 q2
      have := h.tidy.inj t t' c g1 g3
      subst this
      exact (hpp t).2 g2 g4

theorem visitAt {ps : List Param} {fs : List Fetch} (f : List AWorld.Seen → List (Option Bytes)) (es : List EcsId) : ∀ {l : Ledger} {a : AWorld} (h0 : List Found),
    LedgerAt s none k l a → l.fetches ps = some fs → (∀ e ∈ es, l.Live e ∨ e ∈ l.dead) →
    ∃ a' : AWorld, a.visit ps (getBody f) es h0 = (.ok ((l.book.got fs f es).reverse ++ h0), a') ∧ LedgerAt s none k { l with book := l.book.visit fs f es } a' := by
  induction es with
  | nil => exact fun h0 h _ _ => ⟨_, rfl, h⟩
  | cons e es ih =>
    intro l a h0 h hf he
    have hal : ∃ b, a.isAlive e = .ok b := by
      rcases he e List.mem_cons_self with h1 | h1
      · exact ⟨true, h.isAlive h1⟩
      · exact ⟨false, h.isDead h1⟩
    obtain ⟨b, hal⟩ := hal
    obtain ⟨hR, hC⟩ := h.seesAt hf
    have hrow : a.row ps e = l.book.see fs e := by rw [hR, h.rowAt]
    have hlive : ∀ g, ∀ x ∈ es, ({ l with book := l.book.update e g } : Ledger).Live x ∨ x ∈ l.dead := by
      intro g x hx
      refine (he x (List.mem_cons_of_mem _ hx)).imp ?_ id
      intro q
      show x ∈ (l.book.update e g).map Prod.fst
      unfold Book.update
      rw [Book.mapCells_keys]; exact q
    cases h3 : l.book.see fs e with
    | none =>
      have hsame : l.book.update e (Cells.run fs f e) = l.book := by
        apply Book.update_same
        rintro ⟨x, en⟩ hx rfl
        unfold Book.see at h3
        rw [(lookup_some h.keys).2 hx] at h3
        show Cells.run fs f x en.cells = en.cells
        unfold Cells.run
        rw [show en.cells.see x fs = none from h3]
      obtain ⟨a', g1, g2⟩ := ih (none :: h0) h hf (fun x hx => he x (List.mem_cons_of_mem _ hx))
      refine ⟨a', ?_, ?_⟩
      · unfold AWorld.visit
        rw [h3] at hrow
        simp only [hal, hrow]
        rw [g1]
        show _ = (Except.ok ((l.book.see fs e :: Book.got fs f es (l.book.update e (Cells.run fs f e))).reverse ++ h0), a')
        rw [h3, hsame]
        simp
      · show LedgerAt s none k { l with book := Book.visit fs f es (l.book.update e (Cells.run fs f e)) } a'
        rw [hsame]; exact g2
    | some ss =>
      cases h1 : l.book.lookup e with
      | none => unfold Book.see at h3; rw [h1] at h3; cases h3
      | some en =>
        have hs : en.cells.see e fs = some ss := by unfold Book.see at h3; rw [h1] at h3; exact h3
        obtain ⟨a', g1, g2⟩ := ih (some ss :: h0) (h.storedAt h1 hs f) hf (hlive _)
        refine ⟨a', ?_, g2⟩
        unfold AWorld.visit
        rw [h3] at hrow
        simp only [hal, hrow]
        rw [show getBody f (some ss :: h0) = f ss from rfl, hC, g1]
        show _ = (Except.ok ((l.book.see fs e :: Book.got fs f es (l.book.update e (Cells.run fs f e))).reverse ++ h0), a')
        rw [h3]
        simp

theorem visit_none {a : AWorld} {ps : List Param} (hr : ∀ e, a.row ps e = none) (body : List Found → List (Option Bytes)) (es : List EcsId) : ∀ h0 : List Found,
    (∀ e ∈ es, ∃ b, a.isAlive e = .ok b) → a.visit ps body es h0 = (.ok ((es.map fun _ => none).reverse ++ h0), a) := by
  induction es with
  | nil => exact fun _ _ => rfl
  | cons e es ih =>
    intro h0 he
    obtain ⟨b, hb⟩ := he e List.mem_cons_self
    unfold AWorld.visit
    simp only [hb, hr]
    rw [ih _ (fun x hx => he x (List.mem_cons_of_mem _ hx))]
    simp

/-- The call does nothing because an entity is not alive. -/
theorem idleAt (h : LedgerAt s p k l a) {e c : EcsId} (hi : e ∈ l.dead ∨ (l.Live e ∧ c ∈ l.dead)) :
    a.isAlive e = .ok false ∨ (a.isAlive e = .ok true ∧ a.isAlive c = .ok false) :=
  hi.imp h.isDead (fun x => ⟨h.isAlive x.1, h.isDead x.2⟩)

/-- An operation that is one call. -/
theorem askAt {β γ : Type} {k' : Nat} {l' : Ledger} {a' : AWorld} {q : Ask} {g : Except Fault Answer → Except Fault β} {f : β → Client γ}
    {Q : List (List EcsId) → Except Fault γ → AWorld → Prop} {r : Answer} {y : β} (h' : LedgerAt s none k' l' a') (hd : l'.dead.length < 2 ^ 32)
    (hS : ∃ T, l'.shapes = T ++ l.shapes) (hq : a.ask q = (.ok r, a')) (hok : a.AskOk s q) (hg : g (.ok r) = .ok y) (h : Prog.wp s l'.shapes (f y) a' Q) :
    Prog.wp s l.shapes ((Prog.ask q fun x => .done (g x) : Client β) >>= f : Client γ) a Q := by
  obtain ⟨T, hT⟩ := hS
  refine ask_wp hq hok (h'.noFull hd) (T := T) (by rw [← hT]; exact h'.shaped) hg (by rw [← hT]; exact h)

end LedgerAt

/-- What is proved about a session is true of its program. -/
theorem session_wp {α : Type} {s : Nat} (hs : s < 2 ^ 29) (p : Session α) : ∀ {k : Nat} {l : Ledger} {a : AWorld} {Q : α → Ledger → Prop}, LedgerAt s none k l a →
    l.dead.length < 2 ^ 32 → p.wp s l Q →
    Prog.wp s l.shapes p.compile a (fun S r a => ∃ x l' k', r = .ok x ∧ LedgerAt s none k' l' a ∧ S = l'.shapes ∧ Q x l') := by
  induction p with
  | done x => exact fun h _ hq => ⟨x, _, _, rfl, h, rfl, hq⟩
  | fail f => exact fun _ _ hq => hq.elim
  | register t k ih =>
    rintro n l a Q h hd ⟨ht, hq⟩
    obtain ⟨c, a', l', h1, h2, h3, h4, h5, h6, h7⟩ := h.learnAt ht hd hq
    exact LedgerAt.askAt (q := .register t) (r := .id c) (y := c) (g := Client.answerId) h2 (by rw [h6]; exact hd) ⟨[], h7⟩ (by simp only [AWorld.ask, h1]; rfl) ht rfl
      (ih c h2 (by rw [h6]; exact hd) h3)
  | spawn kind gs k ih =>
    rintro n l a Q h hd ⟨hlen, hm, hcap, hsl, hq⟩
    obtain ⟨e, r, l', a', h1, h2, h3, h4, h5, h6⟩ := h.spawnAt hs hd hlen hm hcap hsl hq
    obtain ⟨T, hT⟩ := (addShape_eq (r.map Prod.fst) l'.shapes).1
    exact LedgerAt.askAt (a := a) (q := .spawn kind (gs.map Give.toAct ++ [BAct.build])) (r := .id e) (y := e) (g := Client.answerId) h3 (by show l'.dead.length < _; rw [h4]; exact hd)
      ⟨T, by rw [← h5]; exact hT⟩ (by simp only [AWorld.ask, h1]; rfl) h2 rfl (ih e h3 (by show l'.dead.length < _; rw [h4]; exact hd) h6)
  | add e t v k ih =>
    rintro n l a Q h hd ⟨he, hv, ht, hq⟩
    obtain ⟨c, a1, l1, h1, h2, ⟨en, q1, q2, q3⟩, h4, h5, h6, h7⟩ := h.learnAt ht hd hq
    have hinfo := h2.tidy.types t c (by rw [h2.types]; exact h4)
    obtain ⟨ec, hec⟩ := LedgerAt.entry (h2.live.2 (by rw [hinfo]; simp))
    have hsz : ec.info = ComponentMeta.fromGeneric t := by
      have := h2.infoOf hec
      rw [hinfo] at this
      exact (Option.some.inj this).symm
    obtain ⟨a', g1, g2⟩ := h2.addAt q1 hec q2 (by rw [hsz]; exact hv)
    obtain ⟨T, hT⟩ := (addShape_eq (en.cells.map Prod.fst ++ [c]) l1.shapes).1
    refine LedgerAt.askAt (q := .call (.addComponent e t v)) (r := .unit) (y := ()) (g := Client.answerUnit) (f := fun _ => k.compile) g2
      (by show l1.dead.length < _; rw [h6]; exact hd) ⟨T, by rw [← h7]; exact hT⟩ ?_ ⟨hv, ht⟩ rfl (ih g2 (by show l1.dead.length < _; rw [h6]; exact hd) q3)
    show (match a.addComponent e t v with | (r, a) => (Except.map _ r, a)) = _
    unfold AWorld.addComponent
    rw [h.isAlive he]
    simp only [h1, g1]
    rfl
  | addDyn e c v k ih =>
    rintro n l a Q h hd ⟨hv, hq⟩
    have hok : a.AskOk s (.call (.addDynamicWithData e c v)) := by
      intro m hm
      obtain ⟨en, hen⟩ := LedgerAt.entry (h.live.2 (by rw [hm]; simp : a.info c ≠ none))
      have := h.infoOf hen
      rw [hm] at this
      cases this
      exact Nat.le_of_eq (hv en hen).symm
    rcases hq with ⟨en, q1, q2, q3, q4⟩ | ⟨hi, hq⟩
    · obtain ⟨ec, hec⟩ := LedgerAt.entry q2
      obtain ⟨a', g1, g2⟩ := h.addAt q1 hec q3 (hv ec hec)
      obtain ⟨T, hT⟩ := (addShape_eq (en.cells.map Prod.fst ++ [c]) l.shapes).1
      refine LedgerAt.askAt (q := .call (.addDynamicWithData e c v)) (r := .unit) (y := ()) (g := Client.answerUnit) (f := fun _ => k.compile) g2 hd ⟨T, hT⟩ ?_ hok rfl (ih g2 hd q4)
      show (match a.addDyn e c v with | (r, a) => (Except.map _ r, a)) = _
      rw [g1]; rfl
    · refine LedgerAt.askAt (q := .call (.addDynamicWithData e c v)) (r := .unit) (y := ()) (g := Client.answerUnit) (f := fun _ => k.compile) h hd ⟨[], rfl⟩ ?_ hok rfl (ih h hd hq)
      show (match a.addDyn e c v with | (r, a) => (Except.map _ r, a)) = _
      unfold AWorld.addDyn
      rcases h.idleAt hi with g | ⟨g, g'⟩
      · rw [g]; rfl
      · rw [g, g']; rfl
  | addTag e c k ih =>
    rintro n l a Q h hd ⟨en, ec, q1, q2, q3, q4, hq⟩
    obtain ⟨a', g1, g2⟩ := h.addAt (v := []) q1 q2 q4 q3.symm
    obtain ⟨T, hT⟩ := (addShape_eq (en.cells.map Prod.fst ++ [c]) l.shapes).1
    refine LedgerAt.askAt (q := .call (.addDynamic e c)) (r := .unit) (y := ()) (g := Client.answerUnit) (f := fun _ => k.compile) g2 hd ⟨T, hT⟩ ?_ trivial rfl (ih g2 hd hq)
    show (match a.addZst e c with | (r, a) => (Except.map _ r, a)) = _
    unfold AWorld.addZst
    rw [h.isAlive (LedgerAt.liveOf q1), h.isAlive (LedgerAt.liveOf q2)]
    simp only [h.infoOf q2, q3]
    rw [if_neg (by simp), g1]
    rfl
  | remove e t k ih =>
    rintro n l a Q h hd ⟨ht, en, c, q1, q2, q3, hq⟩
    obtain ⟨a', g1, g2⟩ := h.takeAt q1 q3
    obtain ⟨T, hT⟩ := (addShape_eq ((en.cells.drop c).map Prod.fst) l.shapes).1
    refine LedgerAt.askAt (q := .call (.removeComponent e t)) (r := .unit) (y := ()) (g := Client.answerUnit) (f := fun _ => k.compile) g2 hd ⟨T, hT⟩ ?_ ht rfl (ih g2 hd hq)
    show (match a.removeComponent e t with | (r, a) => (Except.map _ r, a)) = _
    unfold AWorld.removeComponent AWorld.register
    rw [h.isAlive (LedgerAt.liveOf q1), h.types, q2]
    simp only [g1]
    rfl
  | removeDyn e c k ih =>
    rintro n l a Q h hd (⟨en, q1, q2, hq⟩ | ⟨hi, hq⟩)
    · obtain ⟨a', g1, g2⟩ := h.takeAt q1 q2
      obtain ⟨T, hT⟩ := (addShape_eq ((en.cells.drop c).map Prod.fst) l.shapes).1
      refine LedgerAt.askAt (q := .call (.removeDynamic e c)) (r := .unit) (y := ()) (g := Client.answerUnit) (f := fun _ => k.compile) g2 hd ⟨T, hT⟩ ?_ trivial rfl (ih g2 hd hq)
      show (match a.removeDyn e c with | (r, a) => (Except.map _ r, a)) = _
      rw [g1]; rfl
    · refine LedgerAt.askAt (q := .call (.removeDynamic e c)) (r := .unit) (y := ()) (g := Client.answerUnit) (f := fun _ => k.compile) h hd ⟨[], rfl⟩ ?_ trivial rfl (ih h hd hq)
      show (match a.removeDyn e c with | (r, a) => (Except.map _ r, a)) = _
      unfold AWorld.removeDyn
      rcases h.idleAt hi with g | ⟨g, g'⟩
      · rw [g]; rfl
      · rw [g, g']; rfl
  | despawn e k ih =>
    rintro n l a Q h hd (⟨q1, q2, q3, q4, hq⟩ | ⟨q1, hq⟩)
    · obtain ⟨a', g1, g2⟩ := h.despawnAt q1 q2 q3
      exact LedgerAt.askAt (q := .despawn e) (r := .bool true) (y := true) (g := Client.answerBool) g2 q4 ⟨[], rfl⟩ (by simp only [AWorld.ask, g1]; rfl) trivial rfl
        (ih true g2 q4 hq)
    · exact LedgerAt.askAt (q := .despawn e) (r := .bool false) (y := false) (g := Client.answerBool) h hd ⟨[], rfl⟩
        (by simp only [AWorld.ask, AWorld.despawn, h.isDead q1]; rfl) trivial rfl (ih false h hd hq)
  | isAlive e k ih =>
    rintro n l a Q h hd (⟨q1, hq⟩ | ⟨q1, hq⟩)
    · exact LedgerAt.askAt (q := .isAlive e) (r := .bool true) (y := true) (g := Client.answerBool) h hd ⟨[], rfl⟩ (by simp only [AWorld.ask, h.isAlive q1]; rfl) trivial rfl
        (ih true h hd hq)
    · exact LedgerAt.askAt (q := .isAlive e) (r := .bool false) (y := false) (g := Client.answerBool) h hd ⟨[], rfl⟩ (by simp only [AWorld.ask, h.isDead q1]; rfl) trivial rfl
        (ih false h hd hq)
  | has e t k ih =>
    intro n l a Q h hd hq
    unfold Session.wp at hq
    have go : ∀ b, a.hasComponent t e = .ok b → (k b).wp s l Q → Prog.wp s l.shapes (Session.has e t k).compile a
        (fun S r a => ∃ x l' k', r = .ok x ∧ LedgerAt s none k' l' a ∧ S = l'.shapes ∧ Q x l') := by
      intro b h1 hq
      exact LedgerAt.askAt (q := .has t e) (r := .bool b) (y := b) (g := Client.answerBool) h hd ⟨[], rfl⟩ (by simp only [AWorld.ask, h1]; rfl) trivial rfl (ih b h hd hq)
    have hty := h.types t
    cases hc : l.types.lookup t with
    | none =>
      rw [hc] at hq hty
      exact go false (by unfold AWorld.hasComponent; rw [hty]) hq
    | some c =>
      rw [hc] at hq hty
      rcases hq with ⟨en, q1, hq⟩ | ⟨q1, hq⟩
      · refine go _ ?_ hq
        unfold AWorld.hasComponent
        rw [hty]
        simp only [h.isAlive (LedgerAt.liveOf q1), h.cellOf q1]
      · refine go _ ?_ hq
        have h0 : l.book.lookup e = none := lookup_none.2 (fun hc => h.notDead hc q1)
        unfold AWorld.hasComponent
        rw [hty]
        simp only [h.isDead q1, h.cell, h0]
        rfl
  | look e c m k ih =>
    rintro n l a Q h hd ⟨hm, hq⟩
    have hok : a.AskOk s (.look e c m) := by
      intro x hx
      obtain ⟨en, hen⟩ := LedgerAt.entry (h.live.2 (by rw [hx]; simp : a.info c ≠ none))
      have := h.infoOf hen
      rw [hx] at this
      cases this
      exact hm en hen
    rcases hq with ⟨en, v, q1, q2, hq⟩ | ⟨hi, hq⟩
    · have h1 : a.look e c = .ok (some v) := by
        unfold AWorld.look
        rw [h.isAlive (LedgerAt.liveOf q1), h.isAlive (h.cellUse q1 (by rw [q2]; simp)).2, h.infoOf q1, h.cellOf q1, q2]
      exact LedgerAt.askAt (q := .look e c m) (r := .value (some v)) (y := some v) (g := Client.answerValue) h hd ⟨[], rfl⟩ (by simp only [AWorld.ask, h1]; rfl) hok rfl
        (ih _ h hd hq)
    · have h1 : a.look e c = .ok none := by
        unfold AWorld.look
        rcases h.idleAt hi with g | ⟨g, g'⟩
        · rw [g]
        · rw [g, g']
      exact LedgerAt.askAt (q := .look e c m) (r := .value none) (y := none) (g := Client.answerValue) h hd ⟨[], rfl⟩ (by simp only [AWorld.ask, h1]; rfl) hok rfl
        (ih _ h hd hq)
  | write e c v k ih =>
    rintro n l a Q h hd ⟨hv, hq⟩
    have hok : a.AskOk s (.call (.write e c v)) := by
      intro m hm
      obtain ⟨en, hen⟩ := LedgerAt.entry (h.live.2 (by rw [hm]; simp : a.info c ≠ none))
      have := h.infoOf hen
      rw [hm] at this
      cases this
      exact hv en hen
    rcases hq with ⟨en, q1, q2, hq⟩ | ⟨hi, hq⟩
    · obtain ⟨a', g1, g2⟩ := h.writeAt q1 q2 v
      refine LedgerAt.askAt (q := .call (.write e c v)) (r := .unit) (y := ()) (g := Client.answerUnit) (f := fun _ => k.compile) g2 hd ⟨[], rfl⟩ ?_ hok rfl (ih g2 hd hq)
      show (match a.write e c v with | (r, a) => (Except.map _ r, a)) = _
      rw [g1]; rfl
    · refine LedgerAt.askAt (q := .call (.write e c v)) (r := .unit) (y := ()) (g := Client.answerUnit) (f := fun _ => k.compile) h hd ⟨[], rfl⟩ ?_ hok rfl (ih h hd hq)
      show (match a.write e c v with | (r, a) => (Except.map _ r, a)) = _
      unfold AWorld.write
      rcases h.idleAt hi with g | ⟨g, g'⟩
      · rw [g]; rfl
      · rw [g, g']; rfl
  | forEach ps f k ih =>
    intro n l a Q h hd hw
    unfold Session.wp at hw
    obtain ⟨hne, hc, hf, hlen, hq⟩ := hw
    refine (client_bind _ _).2 ?_
    unfold Client.forEach Prog.wp
    cases hfs : l.fetches ps with
    | none =>
      rw [hfs] at hq
      rw [h.queryAt hc (by intro fs hx; rw [hfs] at hx; cases hx)]
      refine ⟨hlen, hne, each_typed hf, ?_⟩
      intro es hn he
      have hr : ∀ e, a.row ps e = none := LedgerAt.static_none (by rw [h.fetchAt]; exact hfs)
      have : es = [] := by
        cases es with
        | nil => rfl
        | cons e es =>
          have := (he e).1 List.mem_cons_self
          rw [hr] at this; cases this
      subst this
      exact ih _ h hd hq
    | some fs =>
      rw [hfs] at hq
      rw [h.queryAt hc (by intro fs' hx; rw [hfs] at hx; cases hx; exact hq.1)]
      refine ⟨hlen, hne, each_typed hf, ?_⟩
      obtain ⟨hR, hC⟩ := h.seesAt hfs
      rw [hR, hC]
      intro es hn he
      obtain ⟨h1, h2⟩ := h.loopAt f hn he
      have := ih _ h1 hd (hq.2 _ h2)
      exact this
  | forEachDyn fs f k ih =>
    rintro n l a Q h hd ⟨hne, hc, hf, hlen, hli, hq⟩
    refine (client_bind _ _).2 ?_
    unfold Client.forEachDyn Prog.wp
    rw [h.lockAt hc (by intro hx; cases hx)]
    refine ⟨hlen, hne, fun x hx c hof => h.live.1 (hli x hx c hof), ?_, ?_⟩
    · intro st ss i c m bs h1 h2 h3
      obtain ⟨en, hen⟩ := LedgerAt.entry (h.live.2 (by rw [h2]; simp : a.info c ≠ none))
      have := h.infoOf hen
      rw [h2] at this
      cases this
      exact hf ss i c en bs h1 hen h3
    · intro es hn he
      obtain ⟨h1, h2⟩ := h.loopAt f hn he
      have := ih _ h1 hd (hq _ h2)
      exact this
  | forEachCols fs ns f k ih =>
    rintro n l a Q h hd ⟨hne, hc, hs, hf, hlen, hli, hq⟩
    refine (client_bind _ _).2 ?_
    unfold Client.forEachCols Prog.wp
    rw [h.lockAt hc (by intro hx; cases hx)]
    refine ⟨hlen, hne, fun x hx c hof => h.live.1 (hli x hx c hof), h.stridesAt hs, ?_, ?_⟩
    · intro st sss i j c m bs h1 h2 h3
      obtain ⟨en, hen⟩ := LedgerAt.entry (h.live.2 (by rw [h3]; simp : a.info c ≠ none))
      have := h.infoOf hen
      rw [h3] at this
      cases this
      obtain ⟨ss, h4⟩ := mem_tableStores f sss h1
      exact hf ss j c en bs h2 hen h4
    · intro ess hn he _
      obtain ⟨h1, h2⟩ := h.loopColsAt f hn he
      have := ih _ h1 hd (hq _ h2)
      exact this
  | lookEach ps f es k ih =>
    intro n l a Q h hd hw
    unfold Session.wp at hw
    obtain ⟨hc, hf, he, hq⟩ := hw
    refine (client_bind _ _).2 ?_
    unfold Client.lookEach Prog.wp
    cases hfs : l.fetches ps with
    | none =>
      rw [hfs] at hq
      rw [h.queryAt hc (by intro fs hx; rw [hfs] at hx; cases hx)]
      refine ⟨get_typed hf, ?_⟩
      have h1 := LedgerAt.visit_none (LedgerAt.static_none (a := a) (ps := ps) (by rw [h.fetchAt]; exact hfs)) (getBody f) es [] (by
        intro e hm
        rcases he e hm with q | q
        · exact ⟨true, h.isAlive q⟩
        · exact ⟨false, h.isDead q⟩)
      have := ih _ h hd hq
      rw [List.append_nil] at h1
      erw [h1]
      show Prog.wp s l.shapes (k (es.map fun _ => none).reverse.reverse).compile a _
      rw [List.reverse_reverse]
      exact this
    | some fs =>
      rw [hfs] at hq
      rw [h.queryAt hc (by intro fs' hx; rw [hfs] at hx; cases hx; exact hq.1)]
      refine ⟨get_typed hf, ?_⟩
      obtain ⟨a', h1, h2⟩ := LedgerAt.visitAt f es [] h hfs he
      have := ih _ h2 hd hq.2
      rw [List.append_nil] at h1
      erw [h1]
      show Prog.wp s l.shapes (k (l.book.got fs f es).reverse.reverse).compile a' _
      rw [List.reverse_reverse]
      exact this

end Ellecs
