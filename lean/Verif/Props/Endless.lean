import Verif.Proofs.Endless
import Verif.Props.Fate
import Verif.Props.Lasting
import Verif.Props.Refine
/-!
# C88: the world cannot be told apart from plain maps, however long the program

`C57` and `C75` without the bound on recycling, for programs that despawn no type.  After `2^32` recyclings of a slot its
ids are handed out again; the maps do the same.
-/
namespace Ellecs.WorldSpec
open World Demo

/-- C88: these are the programs of `C87` without leaked values. -/
theorem C88_lasting {w : World} (h : Endless w) : Lasting w [] := h.lasting

/-- C88: every world shows exactly one collection of maps. -/
theorem C88_view {w : World} (hw : Endless w) : ∃ a, w.Shows a ∧ ∀ b, w.Shows b → b = a :=
  ⟨w.view, view_shows hw.inv.inv, fun _ hb => shows_unique hb (view_shows hw.inv.inv)⟩

/-- C88: every call does to the tables what it does to the maps.  This even holds if types were despawned, as long as no
slot of a type is used up (`Safe`). -/
theorem C88_call {w : World} (hw : Safe w []) {a : AWorld} (ha : w.Shows a) {q : Ask} (hq : q.Ok w) : Alike (q.exec w) (a.ask q) :=
  have hs := hw.inv
  alike_iff.2 (sim_ask hs.inv hs.ready hs.held ha hq)

/-- C88: in a conversation all answers are those of the maps, and the drop calls are those the maps ask for. -/
theorem C88_talk {w w' : World} (hw : Endless w) {a : AWorld} (ha : w.Shows a) {tr : List (Ask × Except Fault Answer)} (h : LongTalk w tr w') :
    Endless w' ∧ (a.answers (tr.map Prod.fst)).1 = tr.map Prod.snd ∧ w'.Shows (a.answers (tr.map Prod.fst)).2 ∧
      ∃ evs, w'.log = w.log ++ evs ∧ a.Fates (tr.map Prod.fst) evs :=
  have hs := h.shows hw ha
  ⟨h.endless hw, hs.1.1, hs.1.2, hs.2⟩

/-- C88 for a program that starts with a new world. -/
theorem C88_program {w : World} {tr : List (Ask × Except Fault Answer)} (h : LongTalk World.new tr w) :
    (AWorld.new.answers (tr.map Prod.fst)).1 = tr.map Prod.snd ∧ w.Shows (AWorld.new.answers (tr.map Prod.fst)).2 ∧
      AWorld.new.Fates (tr.map Prod.fst) w.log := by
  obtain ⟨_, h1, h2, evs, h3, h4⟩ := C88_talk .new C57_new h
  refine ⟨h1, h2, ?_⟩
  rw [h3]; exact h4

/-- C88: the rows of a static query are what the maps say: one row for each entity that has one. -/
theorem C88_query_rows {w w' : World} (hw : Endless w) (hlen : w.archetypes.length < 2 ^ 32) {a : AWorld} (ha : w.Shows a)
    {ps : List Param} (hne : ps ≠ []) {q : StaticQuery} (hq : query ps w = .ok q w') :
    ∃ (it : StaticIter) (rows : List (List Item)) (es : List EcsId) (ss : List (List AWorld.Seen)),
      q.iter w' = .ok it ∧ Produces (fun s => StaticIter.next w' s) it rows ∧ rows.mapM (fun r => r.mapM w.readItem) = .ok ss ∧
      es.Nodup ∧ (∀ e, e ∈ es ↔ (a.row ps e).isSome = true) ∧ es.map (a.row ps) = ss.map some := by
  have hi := hw.inv.inv
  obtain ⟨it, es, rows, h1, h2, h3, h4, h5⟩ : ∃ (it : StaticIter) (es : List EcsId) (rows : List (List Item)), q.iter w' = .ok it ∧
      Produces (fun s => StaticIter.next w' s) it rows ∧ es.Nodup ∧ (∀ e, e ∈ es ↔ HasTypes w ps e) ∧
      Pairs (fun e row => Pairs (Denotes w e) ps row) es rows := by
    obtain ⟨_, ⟨fs, ks, hb, h1, h2, it, h3, h4⟩ | ⟨⟨p, hp, t, hpt, ht⟩, it, h3, h4⟩⟩ :=
      static_main hi ⟨w.locks, rfl, rfl⟩ hlen hne (fun p _ t c _ ht hl => hw.typesUsed ht hl) hq
    · exact ⟨it, _, _, h3, h4, ents_nodup hi h1, fun e => (mem_visited hi h2 e).trans (hasAll_types hb e),
        static_rows hi hb (fun k hk => (h2 k).1 hk)⟩
    · refine ⟨it, [], [], h3, h4, List.nodup_nil, fun e => ?_, .nil⟩
      simp only [List.not_mem_nil, false_iff]
      rintro ⟨_, hh⟩
      obtain ⟨bs, c, hc, _⟩ := hh p hp t hpt
      rw [ht] at hc; cases hc
  obtain ⟨ss, s1, s2⟩ := pairs_mapM (k := a.row ps) (g := fun r => r.mapM w.readItem) h5 (fun e row he hr => by
    rw [row_eq hi ha ((h4 e).1 he).1]
    exact readRow_eq hi ha hr)
  exact ⟨it, rows, es, ss, h1, h2, s1, h3, fun e => (h4 e).trans (row_isSome hi ha).symm, s2⟩

/-- C88: the same for looking up one entity in a static query. -/
theorem C88_query_get {w w' : World} (hw : Endless w) {a : AWorld} (ha : w.Shows a) {ps : List Param} {q : StaticQuery} (hq : query ps w = .ok q w')
    {e : EcsId} (he : e.uindex < a.ents.generations.length) :
    ∃ r, q.get w' e = .ok r ∧ r.isSome = (a.row ps e).isSome ∧ ∀ items, r = some items → ∃ ss, items.mapM w.readItem = .ok ss ∧ a.row ps e = some ss := by
  have hi := hw.inv.inv
  rw [ha.ents] at he
  rcases get_spec hi ⟨w.locks, rfl, rfl⟩ hq e with ⟨_, h⟩ | ⟨r, h1, h2, h3⟩
  · omega
  refine ⟨r, h1, Bool.eq_iff_iff.2 (h2.trans (row_isSome hi ha).symm), ?_⟩
  intro items hr
  have : HasTypes w ps e := h2.1 (by rw [hr]; rfl)
  rw [row_eq hi ha this.1]
  exact readRow_eq hi ha (h3 items hr)

/-- C88: the same for the rows of a dynamic query for components that were built. -/
theorem C88_dynamic_rows {w w' : World} (hw : Endless w) (hlen : w.archetypes.length < 2 ^ 32) {a : AWorld} (ha : w.Shows a)
    {fs : List Fetch} (hne : fs ≠ []) (hb : ∀ f ∈ fs, ∀ c, f.Of c → a.info c ≠ none) {q : DynQuery} (hq : queryDynamic fs w = .ok q w') :
    ∃ (it : DynIter) (rows : List (List Ptr)) (es : List EcsId) (ss : List (List AWorld.Seen)),
      q.iter w' = .ok it ∧ Produces (fun s => DynIter.next w' s) it rows ∧
      rows.mapM (fun r => (fs.zip r).mapM (fun x => w.readFetch x.1 x.2)) = .ok ss ∧
      es.Nodup ∧ (∀ e, e ∈ es ↔ (a.rowDyn fs e).isSome = true) ∧ es.map (a.rowDyn fs) = ss.map some := by
  have hi := hw.inv.inv
  have hb : ∀ f ∈ fs, ∀ c, f.Of c → w.Row c := fun f hf c hc => by
    apply Classical.byContradiction
    intro hr
    exact hb f hf c hc ((ha.infoNone hi).2 hr)
  obtain ⟨_, ks, h1, h2, ⟨it, h3, h4⟩, _⟩ := dynamic_main hi ⟨w.locks, rfl, rfl⟩ hlen hne (hw.locksUsed hb) hq
  have hv := mem_visited hi h2
  obtain ⟨ss, s1, s2⟩ := pairs_mapM (k := a.rowDyn fs) (g := fun r => (fs.zip r).mapM (fun x => w.readFetch x.1 x.2))
    (dyn_rows hi (fun k hk => (h2 k).1 hk)) (fun e row he hr => by
      rw [rowDyn_eq hi ha ((hv e).1 he).1]
      exact readDyn_eq hi ha hr)
  exact ⟨it, _, _, ss, h3, h4, s1, ents_nodup hi h1, fun e => (hv e).trans (rowDyn_isSome hi ha).symm, s2⟩

/-! ## past the bound -/

theorem ask_despawn_full (g : BitVec 32) : Ask.exec (.despawn ⟨g, 0⟩) (full (fun _ => none) g .unit) = .ok (.bool true) (husk (fun _ => none) g) := by
  simp only [Ask.exec, bind, EStateM.bind, despawn_full]; rfl

theorem ask_spawn_husk (g : BitVec 32) :
    Ask.exec (.spawn .plain [.build]) (husk (fun _ => none) g) = .ok (.id ⟨g + 1, 0⟩) (full (fun _ => none) (g + 1) .unit) := by
  simp only [Ask.exec, bind, EStateM.bind, spawn_husk]; rfl

theorem talk_husk (n : Nat) : ∃ xs, LongTalk (husk (fun _ => none) 0) xs (husk (fun _ => none) (BitVec.ofNat 32 n)) := by
  induction n with
  | zero => exact ⟨[], .done _⟩
  | succ n ih =>
    obtain ⟨xs, ih⟩ := ih
    rw [← ofNat_succ]
    exact ⟨_, ih.append (.ok (q := .spawn .plain [.build]) (chainOk_build _ _) (fun _ _ h => by cases h) (ask_spawn_husk _)
      (.ok (q := .despawn _) trivial (fun _ _ h => by cases h) (ask_despawn_full _) (.done _)))⟩

/-- The last generation. -/
def last : BitVec 32 := BitVec.ofNat 32 (2 ^ 32 - 1)

theorem last_succ : last + 1 = 0 := by decide +kernel

theorem talk_last : ∃ xs, LongTalk (husk (fun _ => none) 0) xs (husk (fun _ => none) last) := talk_husk _

/-- An entity is spawned, despawned, and found to be dead. -/
def first : List (Ask × Except Fault Answer) :=
  [(.spawn .plain [.build], .ok (.id ⟨0, 0⟩)), (.despawn ⟨0, 0⟩, .ok (.bool true)), (.isAlive ⟨0, 0⟩, .ok (.bool false))]

theorem first_talk : LongTalk World.new first (husk (fun _ => none) 0) :=
  .ok (w1 := full (fun _ => none) 0 .unit) (chainOk_valid (as := []) SafeInv.new.inv SafeInv.new.ready (by simp) (by decide +kernel))
    (fun _ _ h => by cases h) rfl (.ok trivial (fun _ _ h => by cases h) (ask_despawn_full 0)
      (.ok (w1 := husk (fun _ => none) 0) trivial (fun _ _ h => by cases h) rfl (.done _)))

/-- C88: so there are conversations in which an id that was despawned is alive again, and the maps say the same. -/
theorem C88_again : ∃ (xs : List (Ask × Except Fault Answer)) (w : World), LongTalk World.new
    (first ++ xs ++ [(.spawn .plain [.build], .ok (.id ⟨0, 0⟩)), (.isAlive ⟨0, 0⟩, .ok (.bool true))]) w := by
  obtain ⟨xs, h⟩ := talk_last
  refine ⟨xs, full (fun _ => none) 0 .unit, (first_talk.append h).append ?_⟩
  have hs := ask_spawn_husk last
  rw [last_succ] at hs
  exact .ok (chainOk_build _ _) (fun _ _ h => by cases h) hs (.ok (w1 := full (fun _ => none) 0 .unit) trivial (fun _ _ h => by cases h) rfl (.done _))

/-! ## cases -/

/-- After `2^32` recyclings: an entity with a value gets the id of the first entity. -/
def lateAsk : Ask := .spawn .plain [.with tA (val 4 7), .build]

def late : World := after (lateAsk.exec (husk (fun _ => none) last))

theorem late_talk : ∃ xs, LongTalk World.new (first ++ xs ++ [(lateAsk, .ok (.id ⟨0, 0⟩))]) late := by
  obtain ⟨xs, h⟩ := talk_last
  have ht := first_talk.append h
  have hi := (ht.endless .new).inv
  refine ⟨xs, ht.append (.ok ?_ (fun _ _ h => by cases h) (eq_of_endsOk (by decide +kernel)) (.done _))⟩
  exact chainOk_valid (as := [.with tA (val 4 7)]) hi.inv hi.ready (by decide +kernel) (by decide +kernel)

theorem late_endless : Endless late := late_talk.elim (fun _ h => h.endless .new)

example : ∃ xs : List (Ask × Except Fault Answer), LongTalk World.new xs late ∧ (AWorld.new.answers (xs.map Prod.fst)).1 = xs.map Prod.snd := by
  obtain ⟨xs, h⟩ := late_talk
  exact ⟨_, h, (C88_program h).1⟩

def lateQ : StaticQuery := ⟨[.mut tA, .ids], [.write 0, .none], some [.mut ⟨0, 1⟩, .ecsId]⟩
def lateW : World := after (query [.mut tA, .ids] late)
theorem lateQ_made : query [.mut tA, .ids] late = .ok lateQ lateW := eq_of_endsOk (by decide +kernel)

def lateD : DynQuery := ⟨[.read 0, .none], [.immut ⟨0, 1⟩, .ecsId], false⟩
def lateU : World := after (queryDynamic [.immut ⟨0, 1⟩, .ecsId] late)
theorem lateD_made : queryDynamic [.immut ⟨0, 1⟩, .ecsId] late = .ok lateD lateU := eq_of_endsOk (by decide +kernel)

theorem late_shows : late.Shows late.view := view_shows late_endless.inv.inv

/-- The first entity is alive again and has a value, in a world that is out of reach for the other properties. -/
example : late.Alive ⟨0, 0⟩ ∧ late.Has ⟨0, 0⟩ ⟨0, 1⟩ (val 4 7) ∧ late.typeMap tA = some ⟨0, 1⟩ := by decide +kernel
example : Endless (worn (2 ^ 32 - 1)) ∧ ¬ Reachable (worn (2 ^ 32 - 1)) :=
  ⟨talk_last.elim (fun _ h => (first_talk.append h).endless .new), fun h => h.sound.nowrap _ (List.mem_singleton.2 rfl) rfl rfl⟩
example : ∃ w a, Safe w [] ∧ w.Shows a ∧ Ask.Ok w (.despawn ⟨0, 0⟩) ∧ Alike (Ask.exec (.despawn ⟨0, 0⟩) w) (a.ask (.despawn ⟨0, 0⟩)) := by
  have key : ∀ w, Endless w → ∃ a, Safe w [] ∧ w.Shows a ∧ Ask.Ok w (.despawn ⟨0, 0⟩) ∧ Alike (Ask.exec (.despawn ⟨0, 0⟩) w) (a.ask (.despawn ⟨0, 0⟩)) := by
    intro w hw
    obtain ⟨a, ha, _⟩ := C88_view hw
    exact ⟨a, C87_safe (C88_lasting hw), ha, trivial, C88_call (C87_safe (C88_lasting hw)) ha trivial⟩
  exact ⟨late, key late late_endless⟩
example := C88_query_rows late_endless (by decide +kernel) late_shows (by simp) lateQ_made
example := C88_query_get late_endless late_shows lateQ_made (e := ⟨0, 0⟩) (by rw [late_shows.ents]; decide +kernel)
example := C88_dynamic_rows late_endless (by decide +kernel) late_shows (by simp) (fun f hf c hc hn => by
  have hr := (late_shows.infoNone late_endless.inv.inv).1 hn
  have h1 : late.Row ⟨0, 1⟩ := by decide +kernel
  simp only [List.mem_cons, List.not_mem_nil, or_false] at hf
  rcases hf with rfl | rfl
  · rcases hc with hc | hc <;> cases hc
    exact hr h1
  · rcases hc with hc | hc <;> cases hc) lateD_made

end Ellecs.WorldSpec
