import Verif.Proofs.Fate
import Verif.Proofs.Session
/-! # The values in a ledger, and the drop calls at the end of the world -/
namespace Ellecs.WorldSpec
open World

/-- Every entity is once in the ledger, and has each component once. -/
structure Once (l : Ledger) : Prop where
  keys : (l.book.map Prod.fst).Nodup
  cells : ∀ x ∈ l.book, (x.2.cells.map Prod.fst).Nodup

theorem mapCells_keys (b : Book) (g : EcsId → Cells → Cells) : (b.mapCells g).map Prod.fst = b.map Prod.fst := by
  unfold Book.mapCells
  rw [List.map_map]
  rfl

theorem once_mapCells {l l' : Ledger} {g : EcsId → Cells → Cells} (h : Once l) (hl : l'.book = l.book.mapCells g)
    (hg : ∀ e en, (e, en) ∈ l.book → (en.cells.map Prod.fst).Nodup → ((g e en.cells).map Prod.fst).Nodup) : Once l' := by
  refine ⟨by rw [hl, mapCells_keys]; exact h.keys, ?_⟩
  rw [hl]
  intro x hx
  unfold Book.mapCells at hx
  obtain ⟨⟨e, en⟩, hy, rfl⟩ := List.mem_map.1 hx
  exact hg e en hy (h.cells _ hy)

theorem cellsPut_keys {r : Cells} {c : EcsId} {v : Bytes} : (r.put c v).map Prod.fst = r.map Prod.fst := by
  unfold Cells.put
  rw [List.map_map]
  rfl

theorem cellsStore_keys {fs : List Fetch} {out : List (Option Bytes)} {r : Cells} : (r.store fs out).map Prod.fst = r.map Prod.fst := by
  fun_induction Cells.store r fs out with
  | case1 r c fs v out ih => rw [ih, cellsPut_keys]
  | case2 r f fs o out _ ih => exact ih
  | case3 => rfl

theorem cellsRun_keys {fs : List Fetch} {f : List AWorld.Seen → List (Option Bytes)} {e : EcsId} {r : Cells} : (r.run fs f e).map Prod.fst = r.map Prod.fst := by
  unfold Cells.run
  split
  · rfl
  · exact cellsStore_keys

theorem once_push {l l' : Ledger} (h : Once l) {e : EcsId} {en : Entry} (hl : l'.book = l.book ++ [(e, en)]) (he : ¬ l.Live e) (hn : (en.cells.map Prod.fst).Nodup) : Once l' := by
  constructor
  · rw [hl, List.map_append, List.nodup_append]
    refine ⟨h.keys, List.nodup_cons.2 ⟨List.not_mem_nil, List.nodup_nil⟩, ?_⟩
    intro y hy z hz hyz
    rw [List.map_cons, List.map_nil, List.mem_singleton] at hz
    subst hyz; subst hz
    exact he hy
  · intro x hx
    rw [hl] at hx
    rcases List.mem_append.1 hx with hx | hx
    · exact h.cells x hx
    · rw [List.mem_singleton.1 hx]; exact hn

/-- The ledger is fine, and no entity has the id `p`. -/
def OnceBut (p : Option EcsId) (l : Ledger) : Prop := Once l ∧ ∀ e, p = some e → ¬ l.Live e

theorem once_ensure {p : Option EcsId} {t : Ty} {l : Ledger} {P Q : EcsId → Ledger → Prop} (h : OnceBut p l) (hq : ∀ c l, OnceBut p l → P c l → Q c l) (he : l.ensure p t P) :
    l.ensure p t Q := by
  unfold Ledger.ensure at he ⊢
  split
  · rename_i c hc; rw [hc] at he; exact hq _ _ h he
  · rename_i hc
    rw [hc] at he
    refine ⟨he.1, fun c hf hp => hq _ _ ⟨once_push h.1 (l' := l.learn t c) rfl hf.1 List.nodup_nil, ?_⟩ (he.2 c hf hp)⟩
    intro e hpe hl
    unfold Ledger.Live Ledger.learn at hl
    rw [List.map_append, List.mem_append] at hl
    rcases hl with hl | hl
    · exact h.2 e hpe hl
    · rw [List.map_cons, List.map_nil, List.mem_singleton] at hl
      subst hl; exact hp hpe

theorem once_chain {s : Nat} {e : EcsId} (gs : List Give) : ∀ {r : Cells} {l : Ledger} {P Q : Cells → Ledger → Prop}, OnceBut (some e) l →
    (∀ r l, OnceBut (some e) l → P r l → Q r l) → Give.chain s e gs r l P → Give.chain s e gs r l Q := by
  induction gs with
  | nil => intro r l P Q h hq hc; exact hq _ _ h hc
  | cons g gs ih =>
    intro r l P Q h hq hc
    cases g with
    | typed t v => exact ⟨hc.1, hc.2.1, once_ensure h (fun c l hl hc => ih hl hq hc) hc.2.2⟩
    | dyn c v => exact ⟨hc.1, ih h hq hc.2⟩
    | tag c => exact ⟨hc.1, ih h hq hc.2⟩

theorem once_but {l : Ledger} (h : Once l) : OnceBut none l := ⟨h, fun _ hh => nomatch hh⟩

theorem once_add {l : Ledger} (h : Once l) {e c : EcsId} {v : Bytes} {en : Entry} {ids : Cells} (he : l.book.lookup e = some en) (hc : en.cells.lookup c = none) :
    Once (l.add e c v ids) := by
  refine once_mapCells h (l' := l.add e c v ids) (g := fun x r => if x = e then r ++ [(c, v)] else r) rfl ?_
  intro x ex hx hn
  split
  · rename_i hxe
    subst hxe
    have : ex = en := by
      have := (lookup_some h.keys).2 hx
      rw [he] at this; injection this with this; exact this.symm
    subst this
    rw [List.map_append, List.nodup_append]
    refine ⟨hn, List.nodup_cons.2 ⟨List.not_mem_nil, List.nodup_nil⟩, ?_⟩
    intro y hy z hz hyz
    rw [List.map_cons, List.map_nil, List.mem_singleton] at hz
    subst hyz; subst hz
    exact lookup_none.1 hc hy
  · exact hn

theorem once_take {l : Ledger} (h : Once l) {e c : EcsId} {ids : Cells} : Once (l.take e c ids) := by
  refine once_mapCells h (l' := l.take e c ids) (g := fun x r => if x = e then r.drop c else r) rfl ?_
  intro x ex hx hn
  split
  · unfold Cells.drop
    exact hn.sublist (List.filter_sublist.map _)
  · exact hn

theorem once_same {l l' : Ledger} {g : EcsId → Cells → Cells} (h : Once l) (hl : l'.book = l.book.mapCells g) (hg : ∀ e r, (g e r).map Prod.fst = r.map Prod.fst) : Once l' :=
  once_mapCells h hl fun e en _ hn => by rw [hg]; exact hn

theorem once_write {l : Ledger} (h : Once l) {e c : EcsId} {v : Bytes} : Once { l with book := l.book.update e (fun r => r.put c v) } := by
  refine once_same h (g := fun x r => if x = e then r.put c v else r) rfl fun x r => ?_
  split
  · exact cellsPut_keys
  · rfl

theorem once_visit {fs : List Fetch} {f : List AWorld.Seen → List (Option Bytes)} (es : List EcsId) : ∀ {l : Ledger}, Once l → Once { l with book := l.book.visit fs f es } := by
  induction es with
  | nil => intro l h; exact h
  | cons e es ih =>
    intro l h
    refine ih (l := { l with book := l.book.update e (Cells.run fs f e) }) (once_same h (g := fun x r => if x = e then Cells.run fs f e r else r) rfl fun x r => ?_)
    split
    · exact cellsRun_keys
    · rfl

theorem once_remove {l : Ledger} (h : Once l) {e : EcsId} : Once { l with book := l.book.remove e, dead := e :: l.dead } :=
  ⟨h.keys.sublist (List.filter_sublist.map _), fun x hx => h.cells x (List.mem_filter.1 hx).1⟩

/-- A session leaves the ledger fine. -/
theorem wp_once {α : Type} {s : Nat} (p : Session α) : ∀ {l : Ledger} {Q : α → Ledger → Prop}, Once l → p.wp s l Q → p.wp s l (fun x l => Once l ∧ Q x l) := by
  induction p with
  | done x => exact fun h hq => ⟨h, hq⟩
  | fail f => exact fun _ hq => hq
  | register t k ih => exact fun h ⟨h1, h2⟩ => ⟨h1, once_ensure (once_but h) (fun c l hl g => ih c hl.1 g) h2⟩
  | spawn kind gs k ih =>
    intro l Q h ⟨h1, h2, h3, h4, h5⟩
    exact ⟨h1, h2, h3, h4, fun e he => once_chain gs (l := { l with slots := l.slots + 1 }) ⟨⟨h.keys, h.cells⟩, fun x hx => by cases hx; exact he.1⟩
      (fun r l hl g => ⟨g.1, ih e (once_push hl.1 (l' := l.build e (AWorld.metaOf kind) r) rfl (hl.2 e rfl) g.1) g.2⟩) (h5 e he)⟩
  | add e t v k ih =>
    exact fun h ⟨h1, h2, h3, h4⟩ => ⟨h1, h2, h3, once_ensure (once_but h) (fun c l hl ⟨en, g1, g2, g3⟩ => ⟨en, g1, g2, ih (once_add hl.1 g1 g2) g3⟩) h4⟩
  | addDyn e c v k ih =>
    exact fun h ⟨h1, hq⟩ => ⟨h1, hq.imp (fun ⟨en, g1, g2, g3, g4⟩ => ⟨en, g1, g2, g3, ih (once_add h g1 g3) g4⟩) (fun ⟨g1, g2⟩ => ⟨g1, ih h g2⟩)⟩
  | addTag e c k ih => exact fun h ⟨en, ec, h1, h2, h3, h4, h5⟩ => ⟨en, ec, h1, h2, h3, h4, ih (once_add h h1 h4) h5⟩
  | remove e t k ih => exact fun h ⟨h1, en, c, h2, h3, h4, h5⟩ => ⟨h1, en, c, h2, h3, h4, ih (once_take h) h5⟩
  | removeDyn e c k ih => exact fun h hq => hq.imp (fun ⟨en, g1, g2, g3⟩ => ⟨en, g1, g2, ih (once_take h) g3⟩) (fun ⟨g1, g2⟩ => ⟨g1, ih h g2⟩)
  | despawn e k ih => exact fun h hq => hq.imp (fun ⟨h1, h2, h3, h4, h5⟩ => ⟨h1, h2, h3, h4, ih _ (once_remove h) h5⟩) (fun ⟨h1, h2⟩ => ⟨h1, ih _ h h2⟩)
  | isAlive e k ih => exact fun h hq => hq.imp (fun ⟨h1, h2⟩ => ⟨h1, ih _ h h2⟩) (fun ⟨h1, h2⟩ => ⟨h1, ih _ h h2⟩)
  | has e t k ih =>
    intro l Q h hq
    unfold Session.wp at hq ⊢
    cases hc : l.types.lookup t with
    | none => rw [hc] at hq; exact ih _ h hq
    | some c => rw [hc] at hq; exact hq.imp (fun ⟨r, h1, h2⟩ => ⟨r, h1, ih _ h h2⟩) (fun ⟨h1, h2⟩ => ⟨h1, ih _ h h2⟩)
  | look e c n k ih => exact fun h ⟨h1, hq⟩ => ⟨h1, hq.imp (fun ⟨en, v, g1, g2, g3⟩ => ⟨en, v, g1, g2, ih _ h g3⟩) (fun ⟨g1, g2⟩ => ⟨g1, ih _ h g2⟩)⟩
  | write e c v k ih => exact fun h ⟨h1, hq⟩ => ⟨h1, hq.imp (fun ⟨en, g1, g2, g3⟩ => ⟨en, g1, g2, ih (once_write h) g3⟩) (fun ⟨g1, g2⟩ => ⟨g1, ih h g2⟩)⟩
  | forEach ps f k ih =>
    intro l Q h hq
    unfold Session.wp at hq ⊢
    obtain ⟨h1, h2, h3, h4, hq⟩ := hq
    refine ⟨h1, h2, h3, h4, ?_⟩
    cases hc : l.fetches ps with
    | none => rw [hc] at hq; exact ih _ h hq
    | some fs => rw [hc] at hq; exact ⟨hq.1, fun rows hr => ih _ (once_same h (g := Cells.run fs f) rfl fun _ _ => cellsRun_keys) (hq.2 rows hr)⟩
  | forEachDyn fs f k ih =>
    exact fun h ⟨h1, h2, h3, h4, h5, h6⟩ => ⟨h1, h2, h3, h4, h5, fun rows hr => ih _ (once_same h (g := Cells.run fs f) rfl fun _ _ => cellsRun_keys) (h6 rows hr)⟩
  | forEachCols fs ns f k ih =>
    exact fun h ⟨h1, h2, h3, h4, h5, h6, h7⟩ => ⟨h1, h2, h3, h4, h5, h6, fun rows hr => ih _ (once_same h (g := Cells.run fs f) rfl fun _ _ => cellsRun_keys) (h7 rows hr)⟩
  | lookEach ps f es k ih =>
    intro l Q h hq
    unfold Session.wp at hq ⊢
    obtain ⟨h1, h2, h3, hq⟩ := hq
    refine ⟨h1, h2, h3, ?_⟩
    cases hc : l.fetches ps with
    | none => rw [hc] at hq; exact ih _ h hq
    | some fs => rw [hc] at hq; exact ⟨hq.1, ih _ (once_visit es h) hq.2⟩

theorem once_new : Once Ledger.new := ⟨List.nodup_nil, fun _ hx => nomatch hx⟩

/-- The values in the ledger. -/
def bookPairs (b : Book) : List (EcsId × EcsId) := b.flatMap (fun x => x.2.cells.map (fun y => (x.1, y.1)))

theorem bookPairs_nodup {l : Ledger} (h : Once l) : (bookPairs l.book).Nodup := by
  unfold bookPairs List.Nodup
  rw [List.pairwise_flatMap]
  constructor
  · intro x hx
    rw [List.pairwise_map]
    exact (List.pairwise_map.1 (h.cells x hx)).imp fun hne hh => hne (by injection hh)
  · refine (List.pairwise_map.1 h.keys).imp ?_
    intro x y hne p hp q hq hh
    obtain ⟨_, _, rfl⟩ := List.mem_map.1 hp
    obtain ⟨_, _, rfl⟩ := List.mem_map.1 hq
    injection hh with hh _
    exact hne hh

theorem perm_of_nodup {α : Type} [DecidableEq α] {l l' : List α} (h : l.Nodup) (h' : l'.Nodup) (hm : ∀ x, x ∈ l ↔ x ∈ l') : l.Perm l' :=
  List.perm_iff_count.2 fun x => by
    rw [h.count, h'.count]
    simp only [hm x]

theorem estate_perm {w : World} {a : AWorld} {l : Ledger} (h : Inv w) (ha : w.Shows a) (hl : w.Records l) (ho : Once l) :
    (nzEvs (w.archetypes.map Archetype.storages).flatten).Perm l.estate := by
  have hmem : ∀ x, x ∈ pairs w ↔ x ∈ bookPairs l.book := by
    rintro ⟨e, c⟩
    rw [mem_pairs h]
    unfold bookPairs
    simp only [List.mem_flatMap, List.mem_map, Prod.mk.injEq]
    constructor
    · rintro ⟨bs, hh⟩
      obtain ⟨en, h1, h2⟩ := (hl.values e c bs).1 hh
      exact ⟨(e, en), h1, (c, bs), (lookup_some (ho.cells _ h1)).1 h2, rfl, rfl⟩
    · rintro ⟨⟨e', en⟩, h1, ⟨c', bs⟩, h2, rfl, rfl⟩
      exact ⟨bs, (hl.values _ _ bs).2 ⟨en, h1, (lookup_some (ho.cells _ h1)).2 h2⟩⟩
  rw [pairs_evs h ha]
  refine ((perm_of_nodup (pairs_nodup h) (bookPairs_nodup ho) hmem).flatMap_right _).trans ?_
  unfold bookPairs Ledger.estate
  rw [List.flatMap_assoc, List.filter_flatMap]
  refine List.Perm.of_eq (flatMap_congr_mem ?_)
  rintro ⟨e, en⟩ hx
  rw [List.flatMap_map, List.filter_flatMap]
  refine flatMap_congr_mem ?_
  rintro ⟨c, bs⟩ hy
  have hh : w.Has e c bs := (hl.values e c bs).2 ⟨en, hx, (lookup_some (ho.cells _ hx)).2 hy⟩
  obtain ⟨m, hm⟩ := Inv.infoOf h hh
  have hlive : l.Live c := (hl.alive c).1 (alive_iff.2 (h.row_live ((infoIs_iff h).1 hm).1))
  obtain ⟨ec, hec⟩ := lookup_isSome hlive
  have hi := hl.info c ec ((lookup_some ho.keys).1 hec)
  rw [due_has ha hh hm]
  unfold Ledger.due
  rw [hec]
  simp only
  rw [hm.uniq hi]

end Ellecs.WorldSpec
