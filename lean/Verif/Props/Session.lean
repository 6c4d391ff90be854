import Verif.Proofs.Session
/-!
# C69: a logic for everything in the API

`Session` (in `Spec/Session.lean`) are programs that use component ids and component types, typed and dynamic calls, builders
with metadata, pointers, and both kinds of queries.  `Session.wp` is a logic for them that speaks of a `Ledger`: a list of
entities with metadata and values, and the ids of the types.  What it derives is true of the program when it is run on the
tables.
-/
namespace Ellecs.WorldSpec
open World Demo

theorem ledger_records {s k : Nat} {l : Ledger} {a : AWorld} {w : World} (h : LedgerAt s none k l a) (ha : w.Shows a) : w.Records l := by
  have hal : ∀ e, w.isAlive e = a.isAlive e := fun e => by unfold World.isAlive AWorld.isAlive; rw [ha.ents]
  refine ⟨h.keys, ?_, ?_, ?_, ?_, ?_⟩
  · intro e
    rw [hal]
    constructor
    · intro he
      exact h.live.2 ((h.tidy.built e).2 ⟨he, by simp⟩)
    · exact h.isAlive
  · intro e he
    rw [hal]; exact h.isDead he
  · intro e en he
    exact (ha.info e en.info).1 (h.infoOf ((lookup_some h.keys).2 he))
  · intro e c bs
    rw [← ha.cell, h.cell]
    constructor
    · intro hc
      cases hr : l.book.lookup e with
      | none => rw [hr] at hc; cases hc
      | some en => rw [hr] at hc; exact ⟨en, (lookup_some h.keys).1 hr, hc⟩
    · rintro ⟨en, h1, h2⟩
      rw [(lookup_some h.keys).2 h1]; exact h2
  · intro t
    rw [← ha.types]; exact h.types t

/-- C69: if the logic derives `Q` for a session, then the session, run on a new world, ends without a panic (and without
any of the other ends of `C65_sound`); what it returns is as `Q` says, the ledger is right about the tables, and there are
no more tables than combinations of components. -/
theorem C69_sound {α : Type} {s : Nat} (hs : s < 2 ^ 29) {p : Session α} {Q : α → Ledger → Prop} (h : p.wp s Ledger.new Q) :
    ∃ x w' l, Exec p.compile World.new (.ok x) w' ∧ Reachable w' ∧ w'.Records l ∧ (l.shapes.length < 2 ^ 32 → w'.archetypes.length ≤ l.shapes.length) ∧ Q x l := by
  have h1 := session_wp hs p (LedgerAt.new s) (by show 0 < 2 ^ 32; decide) h
  obtain ⟨r, w', S', a', h2, h3, h4, h5, x, l, k, rfl, h6, rfl, h7⟩ := C65_sound hs .new C57_new (S := [[]]) (fun m hm => by cases hm) (fun t ht => nomatch ht) h1
  exact ⟨x, w', l, h2, h3, ledger_records h6 h4, fun hl => h5.count h3.sound.inv hl, h7⟩

/-- C69: the session has one result, so this is what every execution does. -/
theorem C69_every {α : Type} {s : Nat} (hs : s < 2 ^ 29) {p : Session α} {Q : α → Ledger → Prop} (h : p.wp s Ledger.new Q) {r : Except Fault α} {w' : World}
    (he : Exec p.compile World.new r w') :
    ∃ x l, r = .ok x ∧ Reachable w' ∧ w'.Records l ∧ (l.shapes.length < 2 ^ 32 → w'.archetypes.length ≤ l.shapes.length) ∧ Q x l := by
  obtain ⟨x, u, l, h1, h2⟩ := C69_sound hs h
  obtain ⟨rfl, rfl⟩ := C65_one_result he h1
  exact ⟨x, l, rfl, h2⟩

theorem ensure_mono {p : Option EcsId} {t : Ty} {l : Ledger} {P P' : EcsId → Ledger → Prop} (h : ∀ c l, P c l → P' c l) : l.ensure p t P → l.ensure p t P' := by
  unfold Ledger.ensure
  cases l.types.lookup t with
  | some c => exact h c l
  | none => exact fun ⟨h1, h2⟩ => ⟨h1, fun c g1 g2 => h c _ (h2 c g1 g2)⟩

theorem chain_mono {s : Nat} {e : EcsId} (gs : List Give) : ∀ {r : Cells} {l : Ledger} {P P' : Cells → Ledger → Prop}, (∀ r l, P r l → P' r l) →
    Give.chain s e gs r l P → Give.chain s e gs r l P' := by
  induction gs with
  | nil => exact fun h g => h _ _ g
  | cons x gs ih =>
    intro r l P P' h
    cases x with
    | typed t v => exact fun ⟨h1, h2, h3⟩ => ⟨h1, h2, ensure_mono (fun c l g => ih h g) h3⟩
    | dyn c v => exact fun ⟨h1, h2⟩ => ⟨h1, ih h h2⟩
    | tag c => exact fun ⟨h1, h2⟩ => ⟨h1, ih h h2⟩

/-- C69: what is derived may be weakened. -/
theorem C69_mono {α : Type} {s : Nat} (p : Session α) : ∀ {l : Ledger} {Q R : α → Ledger → Prop}, (∀ x l, Q x l → R x l) → p.wp s l Q → p.wp s l R := by
  induction p with
  | done x => exact fun h hq => h _ _ hq
  | fail f => exact fun _ hq => hq
  | register t k ih => exact fun h ⟨h1, h2⟩ => ⟨h1, ensure_mono (fun c l g => ih c h g) h2⟩
  | spawn kind gs k ih =>
    exact fun h ⟨h1, h2, h3, h4, h5⟩ => ⟨h1, h2, h3, h4, fun e he => chain_mono gs (fun r l g => ⟨g.1, ih e h g.2⟩) (h5 e he)⟩
  | add e t v k ih => exact fun h ⟨h1, h2, h3, h4⟩ => ⟨h1, h2, h3, ensure_mono (fun c l ⟨en, g1, g2, g3⟩ => ⟨en, g1, g2, ih h g3⟩) h4⟩
  | addDyn e c v k ih => exact fun h ⟨h1, hq⟩ => ⟨h1, hq.imp (fun ⟨en, g1, g2, g3, g4⟩ => ⟨en, g1, g2, g3, ih h g4⟩) (fun ⟨g1, g2⟩ => ⟨g1, ih h g2⟩)⟩
  | addTag e c k ih => exact fun h ⟨en, ec, h1, h2, h3, h4, h5⟩ => ⟨en, ec, h1, h2, h3, h4, ih h h5⟩
  | remove e t k ih => exact fun h ⟨h1, en, c, h2, h3, h4, h5⟩ => ⟨h1, en, c, h2, h3, h4, ih h h5⟩
  | removeDyn e c k ih => exact fun h hq => hq.imp (fun ⟨en, g1, g2, g3⟩ => ⟨en, g1, g2, ih h g3⟩) (fun ⟨g1, g2⟩ => ⟨g1, ih h g2⟩)
  | despawn e k ih => exact fun h hq => hq.imp (fun ⟨h1, h2, h3, h4, h5⟩ => ⟨h1, h2, h3, h4, ih _ h h5⟩) (fun ⟨h1, h2⟩ => ⟨h1, ih _ h h2⟩)
  | isAlive e k ih => exact fun h hq => hq.imp (fun ⟨h1, h2⟩ => ⟨h1, ih _ h h2⟩) (fun ⟨h1, h2⟩ => ⟨h1, ih _ h h2⟩)
  | has e t k ih =>
    intro l Q R h hq
    unfold Session.wp at hq ⊢
    cases hc : l.types.lookup t with
    | none => rw [hc] at hq; exact ih _ h hq
    | some c => rw [hc] at hq; exact hq.imp (fun ⟨r, h1, h2⟩ => ⟨r, h1, ih _ h h2⟩) (fun ⟨h1, h2⟩ => ⟨h1, ih _ h h2⟩)
  | look e c n k ih => exact fun h ⟨h1, hq⟩ => ⟨h1, hq.imp (fun ⟨en, v, g1, g2, g3⟩ => ⟨en, v, g1, g2, ih _ h g3⟩) (fun ⟨g1, g2⟩ => ⟨g1, ih _ h g2⟩)⟩
  | write e c v k ih => exact fun h ⟨h1, hq⟩ => ⟨h1, hq.imp (fun ⟨en, g1, g2, g3⟩ => ⟨en, g1, g2, ih h g3⟩) (fun ⟨g1, g2⟩ => ⟨g1, ih h g2⟩)⟩
  | forEach ps f k ih =>
    intro l Q R h hq
    unfold Session.wp at hq ⊢
    obtain ⟨h1, h2, h3, h4, hq⟩ := hq
    refine ⟨h1, h2, h3, h4, ?_⟩
    cases hc : l.fetches ps with
    | none => rw [hc] at hq; exact ih _ h hq
    | some fs => rw [hc] at hq; exact ⟨hq.1, fun rows hr => ih _ h (hq.2 rows hr)⟩
  | forEachDyn fs f k ih => exact fun h ⟨h1, h2, h3, h4, h5, h6⟩ => ⟨h1, h2, h3, h4, h5, fun rows hr => ih _ h (h6 rows hr)⟩
  | forEachCols fs ns f k ih => exact fun h ⟨h1, h2, h3, h4, h5, h6, h7⟩ => ⟨h1, h2, h3, h4, h5, h6, fun rows hr => ih _ h (h7 rows hr)⟩
  | lookEach ps f es k ih =>
    intro l Q R h hq
    unfold Session.wp at hq ⊢
    obtain ⟨h1, h2, h3, hq⟩ := hq
    refine ⟨h1, h2, h3, ?_⟩
    cases hc : l.fetches ps with
    | none => rw [hc] at hq; exact ih _ h hq
    | some fs => rw [hc] at hq; exact ⟨hq.1, ih _ h hq.2⟩

/-- C69: sessions one after the other. -/
theorem C69_bind {α β : Type} {s : Nat} (p : Session α) (f : α → Session β) : ∀ {l : Ledger} {Q : β → Ledger → Prop},
    (p.bind f).wp s l Q ↔ p.wp s l (fun x l => (f x).wp s l Q) := by
  induction p with
  | done x => exact Iff.rfl
  | fail e => exact Iff.rfl
  | register t k ih => intro l Q; simp only [Session.bind, Session.wp, ih]
  | spawn kind gs k ih => intro l Q; simp only [Session.bind, Session.wp, ih]
  | add e t v k ih => intro l Q; simp only [Session.bind, Session.wp, ih]
  | addDyn e c v k ih => intro l Q; simp only [Session.bind, Session.wp, ih]
  | addTag e c k ih => intro l Q; simp only [Session.bind, Session.wp, ih]
  | remove e t k ih => intro l Q; simp only [Session.bind, Session.wp, ih]
  | removeDyn e c k ih => intro l Q; simp only [Session.bind, Session.wp, ih]
  | despawn e k ih => intro l Q; simp only [Session.bind, Session.wp, ih]
  | isAlive e k ih => intro l Q; simp only [Session.bind, Session.wp, ih]
  | has e t k ih => intro l Q; simp only [Session.bind, Session.wp, ih]
  | look e c n k ih => intro l Q; simp only [Session.bind, Session.wp, ih]
  | write e c v k ih => intro l Q; simp only [Session.bind, Session.wp, ih]
  | forEach ps g k ih => intro l Q; simp only [Session.bind, Session.wp, ih]
  | forEachDyn fs g k ih => intro l Q; simp only [Session.bind, Session.wp, ih]
  | forEachCols fs ns g k ih => intro l Q; simp only [Session.bind, Session.wp, ih]
  | lookEach ps g es k ih => intro l Q; simp only [Session.bind, Session.wp, ih]

/-- C69: a loop of sessions with an invariant `I`. -/
theorem C69_forEachIn {β : Type} {s : Nat} (f : β → Session Unit) (I : List β → Ledger → Prop)
    (hf : ∀ x xs l, I (x :: xs) l → (f x).wp s l (fun _ l => I xs l)) : ∀ (xs : List β) {l : Ledger}, I xs l →
    (Session.forEachIn xs f).wp s l (fun _ l => I [] l) := by
  intro xs
  induction xs with
  | nil => exact fun h => h
  | cons x xs ih => exact fun h => (C69_bind _ _).2 (C69_mono _ (fun _ l h => ih h) (hf x xs _ h))

/-- C69: the same for a number of repetitions. -/
theorem C69_times {s : Nat} (p : Session Unit) (I : Nat → Ledger → Prop) (hp : ∀ i l, I i l → p.wp s l (fun _ l => I (i + 1) l)) :
    ∀ (n : Nat) {i : Nat} {l : Ledger}, I i l → (Session.times n p).wp s l (fun _ l => I (i + n) l) := by
  intro n
  induction n with
  | zero => exact fun h => h
  | succ n ih =>
    intro i l h
    refine (C69_bind _ _).2 (C69_mono _ (fun _ l h => ?_) (hp i l h))
    have := ih (i := i + 1) h
    rw [show i + 1 + n = i + (n + 1) by omega] at this
    exact this

/-! ### a case -/

theorem look_hit {β : Type} {x : EcsId} {v : β} {z : List (EcsId × β)} : List.lookup x ((x, v) :: z) = some v := by simp

theorem look_skip {β : Type} {x y : EcsId} (h : x ≠ y) {v : β} {z : List (EcsId × β)} : List.lookup x ((y, v) :: z) = List.lookup x z := by
  rw [List.lookup_cons]
  have : (x == y) = false := by simpa using h
  rw [this]

/-- A typed and a dynamic component, two entities, a loop over rows, a loop over columns, then pointers, a removal, a despawn. -/
def demoSession (m : ComponentMeta) : Session (Option Bytes × Option Bytes × Bool × Option Bytes × Nat) :=
  .register tA fun c =>
  .spawn (.withMeta m) [] fun d =>
  .spawn .plain [.typed tA (val 4 1), .dyn d (val 4 2)] fun x =>
  .spawn .plain [.dyn d (val 4 3)] fun y =>
  .forEachDyn [.mut d] (fun _ => [some (val 4 9)]) fun rows =>
  .forEachCols [.ecsId, .mut d] [8, 4] (fun _ => [none, some (val 4 8)]) fun tables =>
  .removeDyn x d <|
  .write y d (val 4 7) <|
  .look y d 4 fun v =>
  .look x c 4 fun u =>
  .despawn y fun b =>
  .look y d 4 fun z => .done (v, u, b, z, rows.length + tables.flatten.length)

theorem demoSession_wp {m : ComponentMeta} (hm : m.layout.size = 4) : (demoSession m).wp 8 Ledger.new fun r l =>
    r = (some (val 4 7), some (val 4 1), true, none, 4) ∧
      ∃ c d x, l.book = [(c, ⟨ComponentMeta.fromGeneric tA, []⟩), (d, ⟨m, []⟩), (x, ⟨ComponentMeta.unit, [(c, val 4 1)]⟩)] ∧ l.shapes.length = 4 := by
  refine ⟨by decide, by decide, ?_⟩
  intro c _ _
  change Session.wp 8 _ ⟨[(c, ⟨ComponentMeta.fromGeneric tA, []⟩)], [(tA, c)], [[]], [], 1⟩ _
  refine ⟨by simp, (by intro m' h; cases h; omega), (by intro n h; cases h), by simp, ?_⟩
  intro d hd
  have hdc : d ≠ c := fun h => hd.1 (by rw [h]; exact List.mem_singleton.2 rfl)
  refine ⟨by simp, ?_⟩
  change Session.wp 8 _ ⟨[(c, ⟨ComponentMeta.fromGeneric tA, []⟩), (d, ⟨m, []⟩)], [(tA, c)], [[]], [], 2⟩ _
  refine ⟨by simp, (by intro m' h; cases h), (by intro n h; cases h), by simp, ?_⟩
  intro x hx
  have hxc : x ≠ c := fun h => hx.1 (by rw [h]; exact List.mem_cons_self)
  have hxd : x ≠ d := fun h => hx.1 (by rw [h]; exact List.mem_cons_of_mem _ List.mem_cons_self)
  have l1 : ∀ (u v : Entry) (z : List (EcsId × Entry)), List.lookup d ((c, u) :: (d, v) :: z) = some v := by
    intro u v z; rw [look_skip hdc, look_hit]
  refine ⟨by decide, by decide, ?_⟩
  change Give.chain 8 x [.dyn d (val 4 2)] [(c, val 4 1)] ⟨[(c, ⟨ComponentMeta.fromGeneric tA, []⟩), (d, ⟨m, []⟩)], [(tA, c)], [[]], [], 3⟩ _
  refine ⟨⟨_, l1 _ _ _, hm.symm⟩, ?_, ?_⟩
  · simpa using fun h : c = d => hdc h.symm
  change Session.wp 8 _ ⟨[(c, ⟨ComponentMeta.fromGeneric tA, []⟩), (d, ⟨m, []⟩), (x, ⟨ComponentMeta.unit, [(c, val 4 1), (d, val 4 2)]⟩)], [(tA, c)], [[c, d], []], [], 3⟩ _
  refine ⟨by simp, (by intro m' h; cases h), (by intro n h; cases h), by simp, ?_⟩
  intro y hy
  have hyc : y ≠ c := fun h => hy.1 (by rw [h]; exact List.mem_cons_self)
  have hyd : y ≠ d := fun h => hy.1 (by rw [h]; exact List.mem_cons_of_mem _ List.mem_cons_self)
  have hyx : y ≠ x := fun h => hy.1 (by rw [h]; exact List.mem_cons_of_mem _ (List.mem_cons_of_mem _ List.mem_cons_self))
  have l2 : ∀ (u v w : Entry) (z : List (EcsId × Entry)), List.lookup x ((c, u) :: (d, v) :: (x, w) :: z) = some w := by
    intro u v w z; rw [look_skip hxc, look_skip hxd, look_hit]
  have l3 : ∀ (u v w z : Entry), List.lookup y [(c, u), (d, v), (x, w), (y, z)] = some z := by
    intro u v w z; rw [look_skip hyc, look_skip hyd, look_skip hyx, look_hit]
  refine ⟨⟨_, l1 _ _ _, hm.symm⟩, by simp, ?_⟩
  have s2 : Ledger.addShape [d] [[c, d], []] = [[d], [c, d], []] := by simp [Ledger.addShape, hdc.symm]
  simp only [Ledger.build, List.map_cons, List.map_nil, List.nil_append, s2]
  change Session.wp 8 _ ⟨[(c, ⟨ComponentMeta.fromGeneric tA, []⟩), (d, ⟨m, []⟩), (x, ⟨ComponentMeta.unit, [(c, val 4 1), (d, val 4 2)]⟩), (y, ⟨ComponentMeta.unit, [(d, val 4 3)]⟩)],
    [(tA, c)], [[d], [c, d], []], [], 4⟩ _
  have q1 : ∀ v w : Bytes, List.lookup d [(c, v), (d, w)] = some w := by intro v w; rw [look_skip hdc, look_hit]
  refine ⟨by simp, List.pairwise_singleton _ _, ?_, by simp, ?_, ?_⟩
  · intro ss i c' en bs h1 h2 h3
    rcases i with _ | i
    · cases h1
      cases h3
      rw [l1] at h2
      cases h2
      exact hm.symm
    · cases h3
  · intro f hf c' hc'
    cases List.mem_singleton.1 hf
    simp [Fetch.Of] at hc'
    subst hc'
    exact List.mem_cons_of_mem _ List.mem_cons_self
  intro rows hr
  have b1 : Book.run [.mut d] (fun _ => [some (val 4 9)]) [(c, ⟨ComponentMeta.fromGeneric tA, []⟩), (d, ⟨m, []⟩), (x, ⟨ComponentMeta.unit, [(c, val 4 1), (d, val 4 2)]⟩),
      (y, ⟨ComponentMeta.unit, [(d, val 4 3)]⟩)] =
      [(c, ⟨ComponentMeta.fromGeneric tA, []⟩), (d, ⟨m, []⟩), (x, ⟨ComponentMeta.unit, [(c, val 4 1), (d, val 4 9)]⟩), (y, ⟨ComponentMeta.unit, [(d, val 4 9)]⟩)] := by
    simp [Book.run, Book.mapCells, Cells.run, Cells.see, q1, Cells.store, Cells.put, hdc.symm]
  have r1 : rows.length = 2 := by
    rw [hr.length_eq]
    simp [Book.rows, Cells.see, q1, List.filterMap_cons]
  simp only [b1]
  refine ⟨by simp, by simp [CompatibleIds], .cons ⟨fun _ => rfl, fun c' en hof => by simp [Fetch.Of] at hof⟩ (.cons ⟨nofun, ?_⟩ .nil), ?_, by simp, ?_, ?_⟩
  · intro c' en hof he
    simp [Fetch.Of] at hof
    subst hof
    rw [l1] at he
    cases he
    exact hm.symm
  · intro ss i c' en bs h1 h2 h3
    rcases i with _ | _ | i
    · cases h1
    · cases h1
      cases h3
      rw [l1] at h2
      cases h2
      exact hm.symm
    · cases h3
  · intro f hf c' hc'
    rcases List.mem_cons.1 hf with rfl | hf
    · simp [Fetch.Of] at hc'
    cases List.mem_singleton.1 hf
    simp [Fetch.Of] at hc'
    subst hc'
    exact List.mem_cons_of_mem _ List.mem_cons_self
  intro tables ht
  have b1' : Book.run [.ecsId, .mut d] (fun _ => [none, some (val 4 8)]) [(c, ⟨ComponentMeta.fromGeneric tA, []⟩), (d, ⟨m, []⟩), (x, ⟨ComponentMeta.unit, [(c, val 4 1), (d, val 4 9)]⟩),
      (y, ⟨ComponentMeta.unit, [(d, val 4 9)]⟩)] =
      [(c, ⟨ComponentMeta.fromGeneric tA, []⟩), (d, ⟨m, []⟩), (x, ⟨ComponentMeta.unit, [(c, val 4 1), (d, val 4 8)]⟩), (y, ⟨ComponentMeta.unit, [(d, val 4 8)]⟩)] := by
    simp [Book.run, Book.mapCells, Cells.run, Cells.see, q1, Cells.store, Cells.put, hdc.symm]
  have r2 : tables.flatten.length = 2 := by
    rw [ht.length_eq]
    simp [Book.rows, Cells.see, q1, List.filterMap_cons]
  simp only [b1']
  refine .inl ⟨_, l2 _ _ _ _, by rw [q1]; simp, ?_⟩
  have s3 : Ledger.addShape [c] [[d], [c, d], []] = [[c], [d], [c, d], []] := by simp [Ledger.addShape, hdc, hdc.symm]
  have d1 : Cells.drop [(c, val 4 1), (d, val 4 8)] d = [(c, val 4 1)] := by simp [Cells.drop, hdc.symm]
  have b2 : Book.update x (fun r => r.drop d) [(c, ⟨ComponentMeta.fromGeneric tA, []⟩), (d, ⟨m, []⟩), (x, ⟨ComponentMeta.unit, [(c, val 4 1), (d, val 4 8)]⟩),
      (y, ⟨ComponentMeta.unit, [(d, val 4 8)]⟩)] =
      [(c, ⟨ComponentMeta.fromGeneric tA, []⟩), (d, ⟨m, []⟩), (x, ⟨ComponentMeta.unit, [(c, val 4 1)]⟩), (y, ⟨ComponentMeta.unit, [(d, val 4 8)]⟩)] := by
    simp [Book.update, Book.mapCells, hxc.symm, hxd.symm, hyx]
    exact d1
  simp only [Ledger.take, d1, List.map_cons, List.map_nil, s3, b2]
  refine ⟨?_, .inl ⟨_, l3 _ _ _ _, by rw [look_hit]; simp, ?_⟩⟩
  · intro en he
    rw [l1] at he; cases he; exact hm.symm
  have b3 : Book.update y (fun r => r.put d (val 4 7)) [(c, ⟨ComponentMeta.fromGeneric tA, []⟩), (d, ⟨m, []⟩), (x, ⟨ComponentMeta.unit, [(c, val 4 1)]⟩),
      (y, ⟨ComponentMeta.unit, [(d, val 4 8)]⟩)] =
      [(c, ⟨ComponentMeta.fromGeneric tA, []⟩), (d, ⟨m, []⟩), (x, ⟨ComponentMeta.unit, [(c, val 4 1)]⟩), (y, ⟨ComponentMeta.unit, [(d, val 4 7)]⟩)] := by
    simp [Book.update, Book.mapCells, hyc.symm, hyd.symm, hyx.symm, Cells.put]
  simp only [b3]
  refine ⟨?_, .inl ⟨_, val 4 7, l3 _ _ _ _, look_hit, ?_⟩⟩
  · intro en he
    rw [l1] at he; cases he; exact hm.symm
  refine ⟨?_, .inl ⟨_, val 4 1, l2 _ _ _ _, look_hit, ?_⟩⟩
  · intro en he
    rw [look_hit] at he; cases he; rfl
  have b4 : Book.remove y [(c, ⟨ComponentMeta.fromGeneric tA, []⟩), (d, ⟨m, []⟩), (x, ⟨ComponentMeta.unit, [(c, val 4 1)]⟩), (y, ⟨ComponentMeta.unit, [(d, val 4 7)]⟩)] =
      [(c, ⟨ComponentMeta.fromGeneric tA, []⟩), (d, ⟨m, []⟩), (x, ⟨ComponentMeta.unit, [(c, val 4 1)]⟩)] := by
    simp [Book.remove, hyc.symm, hyd.symm, hyx.symm]
  refine .inl ⟨by simp [Ledger.Live], ?_, ?_, by simp, ?_⟩
  · rintro ⟨ids, h1, h2⟩
    simp at h1
    rcases h1 with rfl | rfl | rfl | rfl
    · exact hyc (List.mem_singleton.1 h2)
    · exact hyd (List.mem_singleton.1 h2)
    · simp at h2; exact h2.elim hyc hyd
    · cases h2
  · intro t
    show List.lookup t [(tA, c)] ≠ some y
    rw [List.lookup_cons]
    split
    · intro h; cases h; exact hyc rfl
    · simp
  simp only [b4]
  refine ⟨?_, .inr ⟨.inl (List.mem_singleton.2 rfl), ?_⟩⟩
  · intro en he
    rw [l1] at he; cases he; exact hm.symm
  · exact ⟨by rw [r1, r2], c, d, x, rfl, rfl⟩

example : ∃ w' l, Exec (demoSession ⟨none, ⟨4, 4⟩⟩).compile World.new (.ok (some (val 4 7), some (val 4 1), true, none, 4)) w' ∧ w'.Records l ∧ w'.archetypes.length ≤ 4 := by
  obtain ⟨x, w', l, h1, _, h2, h3, rfl, _, _, _, _, h4⟩ := C69_sound (by decide) (demoSession_wp (m := ⟨none, ⟨4, 4⟩⟩) rfl)
  exact ⟨w', l, h1, h2, h4 ▸ h3 (by omega)⟩

/-- Every execution of it ends so. -/
example {r : Except Fault (Option Bytes × Option Bytes × Bool × Option Bytes × Nat)} {w' : World} (h : Exec (demoSession ⟨none, ⟨4, 4⟩⟩).compile World.new r w') :
    r = .ok (some (val 4 7), some (val 4 1), true, none, 4) := by
  obtain ⟨x, l, rfl, _, _, _, rfl, _⟩ := C69_every (by decide) (demoSession_wp (m := ⟨none, ⟨4, 4⟩⟩) rfl) h
  rfl

/-- A session after it, of which less is derived. -/
example : ((demoSession ⟨none, ⟨4, 4⟩⟩).bind fun r => .done r.2.2.1).wp 8 Ledger.new (fun b _ => b = true) :=
  (C69_bind _ _).2 (C69_mono _ (fun _ _ h => by rw [h.1]; rfl) (demoSession_wp rfl))

end Ellecs.WorldSpec
