import Verif.Proofs.Cases
import Verif.Proofs.Panics
import Verif.Proofs.Demo
/-!
# C72: the order of iteration

Which entities a query visits is the subject of C14 and C15.  In which order is a consequence of the calls before: each
combination of components has a line, in which entities queue up.
-/
namespace Ellecs.WorldSpec
open World Demo

/-- C72: no lines at the start. -/
theorem C72_new : lines World.new = [] := rfl

/-- C72: what each call that returns does to the lines. -/
theorem C72_calls {w w' : World} (hw : Reachable w) {c : Call} (hc : c.Ok w) (h : c.exec w = .ok () w') (hlen : w'.archetypes.length < 2 ^ 32) : Lines w w' c :=
  exec_lines hw.sound.inv hw.sound.nowrap hw.sound.idle hc hlen h

/-- C72: after a call that panics, entities may have entered, but none left or moved. -/
theorem C72_panic {w w' : World} (hw : Reachable w) {c : Call} (hc : c.Ok w) {f : Fault} (h : c.exec w = .error f w') (hl : ¬ Limit f) (hd : f ≠ .deadlock)
    (hn : w'.NoFullSlot) (hlen : w'.archetypes.length < 2 ^ 32) : ∃ xs, Arrive w'.HasComp xs (lines w) (lines w') := by
  obtain ⟨xs, ha⟩ := (exec_joined hw.sound.inv hw.sound.nowrap hc).error h hl
  have hi := (Reachable.panic c f hw hc h hl hd hn).sound.inv
  rw [lines_eq w, lines_eq w']
  exact ⟨xs, ha.arrive hi hlen (Pre.refl _)⟩

/-- C72: to be exact, the entities of new types and, if the builder was built before the panic, the new entity. -/
theorem C72_panic_exact {w w' : World} (hw : Reachable w) {c : Call} (hc : c.Ok w) {f : Fault} (h : c.exec w = .error f w') (hl : ¬ Limit f) (hd : f ≠ .deadlock)
    (hn : w'.NoFullSlot) (hlen : w'.archetypes.length < 2 ^ 32) : PanicLines w w' c :=
  panic_lines hw.sound.inv hw.sound.nowrap (Reachable.panic c f hw hc h hl hd hn).sound.inv hlen hc h hl

/-- C72: the lines are for different components, and an entity is in one place only. -/
theorem C72_proper {w : World} (hw : Reachable w) (hlen : w.archetypes.length < 2 ^ 32) : Proper (lines w) := lines_proper hw.sound.inv hlen

/-- C72: so what happens to the lines is determined by who enters and leaves. -/
theorem C72_determined {L L1 L2 : List Line} (h : Proper L) {s : EcsId → Prop} {x : EcsId} :
    (Enters s x L L1 → Enters s x L L2 → L1 = L2) ∧ (Exits s x L L1 → Exits s x L L2 → L1 = L2) ∧
    (Enters s x L L1 → (∀ l ∈ L, x ∉ l.2) → Proper L1) ∧ (Exits s x L L1 → Proper L1 ∧ ∀ l ∈ L1, x ∉ l.2) := by
  have hm : ∀ L : List Line, (∀ l ∈ L, x ∉ l.2) ↔ x ∉ L.flatMap Prod.snd := by
    intro L; rw [List.mem_flatMap]
    constructor
    · rintro h1 ⟨l, hl, hx⟩; exact h1 l hl hx
    · intro h1 l hl hx; exact h1 ⟨l, hl, hx⟩
  refine ⟨enters_unique h.lines, exits_unique h, fun h1 h2 => enters_proper h h1 ((hm L).1 h2), fun h1 => ?_⟩
  rw [hm]
  exact exits_proper h h1

/-- C72: the iteration of a static query goes through the lines that have the types asked for, one after the other. -/
theorem C72_static_order {w v v' : World} (hw : Reachable w) (hv : SameButLocks w v) (hlen : w.archetypes.length < 2 ^ 32) {ps : List Param}
    (hne : ps ≠ []) {q : StaticQuery} (hq : query ps v = .ok q v') :
    ∃ (it : StaticIter) (rows : List (List Item)), q.iter v' = .ok it ∧ Produces (fun s => StaticIter.next v' s) it rows ∧
      Pairs (fun e row => Pairs (Denotes w e) ps row) (walk (lines w) (WantsTypes w ps)) rows := by
  have hi := hw.sound.inv
  obtain ⟨_, ⟨fs, ks, hb, h1, h2, it, h3, h4⟩ | ⟨⟨p, hp, t, hpt, ht⟩, it, h3, h4⟩⟩ :=
    static_main hi hv hlen hne (fun p _ t c _ ht hl => typesUsed hw ht hl) hq
  · refine ⟨it, _, h3, h4, ?_⟩
    rw [← wants_eq hb, ← walk_eq h1 h2]
    exact static_rows hi hb (fun k hk => (h2 k).1 hk)
  · refine ⟨it, _, h3, h4, ?_⟩
    rw [walk_none hp hpt ht]
    exact .nil

/-- C72: the same for dynamic queries, row by row and column by column. -/
theorem C72_dynamic_order {w v v' : World} (hw : Reachable w) (hv : SameButLocks w v) (hlen : w.archetypes.length < 2 ^ 32) {fs : List Fetch}
    (hne : fs ≠ []) (hb : Calm w ∨ ∀ f ∈ fs, ∀ c, f.Of c → w.Row c) {q : DynQuery} (hq : queryDynamic fs v = .ok q v') :
    (∃ (it : DynIter) (rows : List (List Ptr)), q.iter v' = .ok it ∧ Produces (fun s => DynIter.next v' s) it rows ∧
      Pairs (fun e row => Pairs (FetchAt w e) fs row) (walk (lines w) (WantsIds fs)) rows) ∧
    ∃ (it : ColumnIter) (items : List (List (Ptr × Nat))), q.columnIter v' = .ok it ∧ Produces (fun s => ColumnIter.next v' s) it items ∧
      Pairs (fun es item => Pairs (ColumnFor w es) fs item) (visits (lines w) (WantsIds fs)) items := by
  have hi := hw.sound.inv
  obtain ⟨_, ks, h1, h2, ⟨it, h3, h4⟩, it', h5, h6⟩ := dynamic_main hi hv hlen hne (locksUsed_of hw hb) hq
  refine ⟨⟨it, _, h3, h4, ?_⟩, it', _, h5, h6, ?_⟩
  · rw [← walk_eq h1 h2]
    exact dyn_rows hi (fun k hk => (h2 k).1 hk)
  · rw [← visits_eq h1 h2]
    have : ∀ ks : List Nat, (∀ k ∈ ks, TableOk w fs k) → Pairs (fun es item => Pairs (ColumnFor w es) fs item) (ks.map (entitiesOf w)) (ks.map (columnsOf w fs)) := by
      intro ks
      induction ks with
      | nil => intro _; exact .nil
      | cons k ks ih =>
        intro hk
        exact .cons (columnFor hi (hk k List.mem_cons_self)) (ih fun k h => hk k (List.mem_cons_of_mem _ h))
    exact this ks (fun k h => (h2 k).1 h)

/-- C72: if an entity enters, the order of the others stays the same for all queries; if it enters a line that is not visited,
nothing changes. -/
theorem C72_stable {L L' : List Line} {s : EcsId → Prop} {x : EcsId} (h : Enters s x L L') (want : (EcsId → Prop) → Prop) :
    (walk L want).Sublist (walk L' want) ∧ (¬ want s → walk L' want = walk L want) := enters_walk h want

/-- C72: if an entity leaves, the order of the others stays the same for all queries that do not visit its line. -/
theorem C72_leave {L L' : List Line} {s : EcsId → Prop} {x : EcsId} (h : Exits s x L L') (want : (EcsId → Prop) → Prop) (hs : ¬ want s) :
    walk L' want = walk L want := exits_walk h want hs

/-! ### a case -/

theorem demo_roster : roster demo =
    [([], [ent 1, ent 2, ent 4]), ([ent 1, ent 2], [ent 6]), ([ent 1], [ent 3]), ([ent 1, ent 2, ent 4], []), ([ent 1, ent 4], [ent 0])] := by decide +kernel

theorem sameButLocks_refl (w : World) : SameButLocks w w := ⟨w.locks, rfl, rfl⟩

theorem demo_short : demo.archetypes.length < 2 ^ 32 := by decide +kernel

theorem demo_query : query [.ref tA] demo = .ok ⟨[.ref tA], [.read 0], some [.immut (ent 1)]⟩ (after (query [.ref tA] demo)) := eq_of_endsOk (by decide +kernel)

/-- A query for `A` visits the entities 6, 3, 0 in this order. -/
theorem demo_walk {w : World} (hA : w.typeMap tA = some (ent 1))
    (hr : roster w = [([], [ent 1, ent 2, ent 4]), ([ent 1, ent 2], [ent 6]), ([ent 1], [ent 3]), ([ent 1, ent 2, ent 4], []), ([ent 1, ent 4], [ent 0])]) :
    walk (lines w) (WantsTypes w [.ref tA]) = [ent 6, ent 3, ent 0] := by
  have hb : Pairs (Bound w) [.ref tA] [.immut (ent 1)] := .cons ⟨ent 1, hA, rfl⟩ .nil
  rw [← wants_eq hb, lines_eq, hr]
  have hw : ∀ ids : List EcsId, WantsIds [.immut (ent 1)] (fun c => c ∈ ids) ↔ ent 1 ∈ ids := by
    intro ids; simp [WantsIds, Fetch.Of]
  simp only [view, List.map_cons, List.map_nil, walk_cons, hw]
  rw [if_neg (by decide), if_pos (by decide), if_pos (by decide), if_pos (by decide), if_pos (by decide)]
  rfl

example : ∃ it rows, StaticQuery.iter ⟨[.ref tA], [.read 0], some [.immut (ent 1)]⟩ (after (query [.ref tA] demo)) = .ok it ∧
    Produces (fun s => StaticIter.next (after (query [.ref tA] demo)) s) it rows ∧
    Pairs (fun e row => Pairs (Denotes demo e) [.ref tA] row) [ent 6, ent 3, ent 0] rows := by
  have := C72_static_order demo_reachable (sameButLocks_refl demo) demo_short (List.cons_ne_nil _ _) demo_query
  rw [demo_walk (by decide +kernel) demo_roster] at this
  exact this

/-- Entity 6 despawned. -/
theorem demo_despawn : Call.exec (.despawn (ent 6)) demo = .ok () (after (Call.exec (.despawn (ent 6)) demo)) := eq_of_endsOk (by decide +kernel)

theorem demo_exit : Exits (demo.HasComp (ent 6)) (ent 6) (lines demo) (lines (after (Call.exec (.despawn (ent 6)) demo))) := by
  have ha : demo.Alive (ent 6) := by decide +kernel
  have hlen : (after (Call.exec (.despawn (ent 6)) demo)).archetypes.length < 2 ^ 32 := by decide +kernel
  have := C72_calls demo_reachable (c := .despawn (ent 6)) trivial demo_despawn hlen
  generalize after (Call.exec (.despawn (ent 6)) demo) = w' at *
  rcases this with h | h
  · exact h.2
  · exact absurd ha h.1

/-- A chain of calls that panics: `A` has data. -/
def lateChain : List BAct := [.with tC (val 2 1), .withDynamic (ent 1)]

theorem lateChain_ok (w : World) : (Call.spawn .plain lateChain).Ok w := by
  intro e w1 b w2 _ _ pre a post h b1 w3 _
  have ha : a ∈ lateChain := by rw [h]; simp
  simp only [lateChain, List.mem_cons, List.not_mem_nil, or_false] at ha
  rcases ha with rfl | rfl
  · rfl
  · trivial

/-- The entity of the new type stays. -/
example : endsWith (Call.exec (.spawn .plain lateChain) demo) .componentHasData = true ∧ ¬ Limit .componentHasData ∧ (Call.spawn .plain lateChain).Ok demo ∧
    roster (after (Call.exec (.spawn .plain lateChain) demo)) =
      [([], [ent 1, ent 2, ent 4, ent 7]), ([ent 1, ent 2], [ent 6]), ([ent 1], [ent 3]), ([ent 1, ent 2, ent 4], []), ([ent 1, ent 4], [ent 0])] := by
  refine ⟨?_, ?_, lateChain_ok demo, ?_⟩
  · decide +kernel
  · rintro (h | h | h) <;> cases h
  · decide +kernel

/-- The rule at a line of three. -/
example (s : EcsId → Prop) (a b c : EcsId) : Exits s a [(s, [a, b, c])] [(s, [c, b])] := .exit (k := 0) rfl (.inside [] [b] c)

/-! ### The theorems at work -/

example := C72_calls demo_reachable (c := .addComponent (ent 6) tZ []) rfl (eq_of_endsOk (by decide +kernel)) (by decide +kernel)
example := C72_panic demo_reachable (c := .removeComponent (ent 0) tB) trivial (f := .notPresent) (eq_of_endsWith (by decide +kernel)) (by rintro (h | h | h) <;> cases h) (by decide) (by decide +kernel) (by decide +kernel)
example := C72_panic_exact demo_reachable (c := .removeComponent (ent 0) tB) trivial (f := .notPresent) (eq_of_endsWith (by decide +kernel)) (by rintro (h | h | h) <;> cases h) (by decide) (by decide +kernel) (by decide +kernel)
example := C72_proper demo_reachable demo_small
example := C72_static_order demo_reachable busy_same demo_small (by decide) qA_made
example := C72_dynamic_order demo_reachable busy_same demo_small (by decide) (.inl demo_calm) dA_made
example : lines World.new = [] ∧ lines demo ≠ [] := ⟨C72_new, fun h => by have := congrArg (List.map Prod.snd) h; revert this; decide +kernel⟩
/-- Whichever way entity 6 leaves its line, the lines that are left are the same. -/
example {L : List Line} (h : Exits (demo.HasComp (ent 6)) (ent 6) (lines demo) L) : L = lines (after (Call.exec (.despawn (ent 6)) demo)) :=
  ((C72_determined (C72_proper demo_reachable demo_small)).2.1 h demo_exit)
example (s : EcsId → Prop) (a b c : EcsId) (want : (EcsId → Prop) → Prop) : (walk [(s, [a, b])] want).Sublist (walk [(s, [a, b, c])] want) :=
  (C72_stable (L := [(s, [a, b])]) (x := c) (s := s) (.queue (k := 0) (es := [a, b]) rfl) want).1

end Ellecs.WorldSpec
