import Verif.Proofs.Estate
import Verif.Props.Session
import Verif.Props.Undo
/-!
# C75: which destructors run, and in which order, follows from the calls
-/
namespace Ellecs.WorldSpec
open World Demo

/-- C75: a call makes exactly the drop calls the maps say, in that order, whether it returns or panics. -/
theorem C75_call {w : World} {a : AWorld} (hw : Reachable w) (ha : w.Shows a) {c : Call} (hc : c.Ok w) :
    (∀ w', c.exec w = .ok () w' → ∃ evs, w'.log = w.log ++ evs ∧ a.Drops c evs) ∧
    (∀ f w', c.exec w = .error f w' → ¬ Limit f → ∃ evs, w'.log = w.log ++ evs ∧ a.Drops c evs) :=
  have h := exec_log hw.sound.inv hw.sound.nowrap.ready ha c hc
  ⟨fun _ hx => h.ok hx, fun _ _ hx hl => (h.error hx).resolve_left hl⟩

/-- C75: the drop calls of a conversation are those of its calls, one after the other. -/
theorem C75_talk {w w' : World} {a : AWorld} {tr : List (Ask × Except Fault Answer)} (hw : Reachable w) (ha : w.Shows a) (h : Talk w tr w') :
    ∃ evs, w'.log = w.log ++ evs ∧ a.Fates (tr.map Prod.fst) evs :=
  Talk.fates hw h ha

/-- C75: nothing is left open; the maps and the calls determine the drop calls. -/
theorem C75_unique (a : AWorld) :
    (∀ c x y, a.Drops c x → a.Drops c y → x = y) ∧ (∀ qs x y, a.Fates qs x → a.Fates qs y → x = y) ∧ (∀ L x y, a.Burial L x → a.Burial L y → x = y) :=
  ⟨fun _ _ _ => drops_unique, fun _ _ _ => fates_unique, fun _ _ _ => burial_unique⟩

/-- C75: so the same calls on worlds that look the same make the same drop calls in the same order. -/
theorem C75_same {w1 w2 w1' w2' : World} {a : AWorld} {tr1 tr2 : List (Ask × Except Fault Answer)} (h1 : Reachable w1) (h2 : Reachable w2) (a1 : w1.Shows a) (a2 : w2.Shows a)
    (t1 : Talk w1 tr1 w1') (t2 : Talk w2 tr2 w2') (hq : tr1.map Prod.fst = tr2.map Prod.fst) :
    ∃ evs, w1'.log = w1.log ++ evs ∧ w2'.log = w2.log ++ evs := by
  obtain ⟨x, l1, f1⟩ := C75_talk h1 a1 t1
  obtain ⟨y, l2, f2⟩ := C75_talk h2 a2 t2
  rw [hq] at f1
  rw [fates_unique f1 f2] at l1
  exact ⟨y, l1, l2⟩

/-- C75: dropping the world calls the destructors of all values that have bytes: table by table, in a table component by
component in ascending order of their ids, the entities from the last row to the first. -/
theorem C75_world {w : World} {a : AWorld} (hw : Reachable w) (ha : w.Shows a) : ∃ evs, dropWorld w = .ok evs ∧ a.Burial (lines w) evs :=
  ⟨_, burial_world hw.sound.inv ha⟩

theorem storeAll_log {l : List (Ptr × Bytes)} : ∀ {w w' : World}, w.storeAll l = .ok w' → w'.log = w.log := by
  induction l with
  | nil => intro w w' h; cases h; rfl
  | cons p l ih =>
    intro w w' h
    obtain ⟨p, bs⟩ := p
    unfold World.storeAll at h
    split at h
    · cases h
    · rename_i w1 h1
      rw [ih h, writeLog h1]

theorem forEach_log {σ ρ τ : Type} {next : World → σ → Except Fault (Option ρ × σ)} {see : World → ρ → Except Fault (List AWorld.Seen)}
    {target : ρ → List (Option Bytes) → List (Ptr × Bytes)} {body : Body τ} {w w' : World} {s : σ} {x y : τ} (h : ForEach next see target body w s x w' y) : w'.log = w.log := by
  induction h with
  | done _ => rfl
  | row _ _ h1 _ ih => rw [ih, storeAll_log h1]

/-- C75: queries, loops over their iterators and look-ups in them drop nothing. -/
theorem C75_loop :
    (∀ {ps : List Param} {w w' : World} {q : StaticQuery}, query ps w = .ok q w' → w'.log = w.log) ∧
    (∀ {ps : List Param} {w w' : World} {f : Fault}, query ps w = .error f w' → w'.log = w.log) ∧
    (∀ {fs : List Fetch} {w w' : World} {q : DynQuery}, queryDynamic fs w = .ok q w' → w'.log = w.log) ∧
    (∀ {fs : List Fetch} {w w' : World} {f : Fault}, queryDynamic fs w = .error f w' → w'.log = w.log) ∧
    (∀ {τ : Type} {body : Body τ} {w w' : World} {it : StaticIter} {x y : τ}, ForEachStatic body w it x w' y → w'.log = w.log) ∧
    (∀ {τ : Type} {fs : List Fetch} {body : Body τ} {w w' : World} {it : DynIter} {x y : τ}, ForEachDyn fs body w it x w' y → w'.log = w.log) ∧
    (∀ {q : StaticQuery} {body : List Found → List (Option Bytes)} {es : List EcsId} {w w' : World} {h : List Found} {r : Except Fault (List Found)},
      Visit q body es w h w' r → w'.log = w.log) ∧
    (∀ {p : Bool} {gs : List Guard} {w w' : World}, dropGuards p gs w = .ok () w' → w'.log = w.log) := by
  refine ⟨fun h => queryLog.ok h, fun h => queryLog.error h, fun h => queryDynLog.ok h, fun h => queryDynLog.error h, fun h => forEach_log h, fun h => forEach_log h, ?_, fun h => releaseLog h⟩
  intro q body es w w' h r hv
  induction hv with
  | done => rfl
  | miss _ _ ih => exact ih
  | hit _ _ h1 _ ih => rw [ih, storeAll_log h1]
  | panic _ _ => rfl

/-- C75: when the world of a session is dropped, the destructors that run are those of the values in its ledger that have
bytes, each once. -/
theorem C75_session {α : Type} {s : Nat} (hs : s < 2 ^ 29) {p : Session α} {Q : α → Ledger → Prop} (h : p.wp s Ledger.new Q) :
    ∃ x w' l evs, Exec p.compile World.new (.ok x) w' ∧ Q x l ∧ dropWorld w' = .ok evs ∧ evs.Perm l.estate := by
  obtain ⟨x, w', l, h1, h2, h3, _, h4, h5⟩ := C69_sound hs (wp_once p once_new h)
  have ha := view_shows h2.sound.inv
  exact ⟨x, w', l, _, h1, h5, (burial_world h2.sound.inv ha).1, estate_perm h2.sound.inv ha h3 h4⟩

/-- What a conversation adds to the log. -/
def dropped (qs : List Ask) (w : World) : Option (List DropEv) := (converse qs w).map (fun r => r.2.log.drop w.log.length)

/-- C75: an entity with two components is despawned; a value is given to an entity that is gone; a component is removed. -/
example : (converse [.despawn (ent 6), .call (.addComponent (ent 6) tB (val 8 1)), .call (.removeDynamic (ent 3) (ent 1))] demo).isSome = true ∧
    dropped [.despawn (ent 6), .call (.addComponent (ent 6) tB (val 8 1)), .call (.removeDynamic (ent 3) (ent 1))] demo =
      some [⟨.generic tA, val 4 7⟩, ⟨.generic tB, val 8 8⟩, ⟨.generic tB, val 8 1⟩, ⟨.generic tA, val 4 3⟩] := by
  decide +kernel

/-- C75: the end of a world. -/
example : Reachable demo ∧ demo.Shows demo.view ∧ (dropWorld demo).toOption = some [⟨.generic tA, val 4 7⟩, ⟨.generic tB, val 8 8⟩, ⟨.generic tA, val 4 3⟩, ⟨.generic tA, val 4 1⟩] := by
  refine ⟨demo_reachable, view_shows demo_reachable.sound.inv, by decide +kernel⟩

/-- C75: at the end of the demo session of C69 one value is left to be dropped. -/
example : ∃ x w', Exec (demoSession ⟨none, ⟨4, 4⟩⟩).compile World.new (.ok x) w' ∧ dropWorld w' = .ok [⟨.generic tA, val 4 1⟩] := by
  obtain ⟨x, w', l, evs, h1, ⟨_, c, d, e, hb, _⟩, h2, h3⟩ := C75_session (by decide) (demoSession_wp (m := ⟨none, ⟨4, 4⟩⟩) rfl)
  refine ⟨x, w', h1, ?_⟩
  have : l.estate = [⟨.generic tA, val 4 1⟩] := by
    unfold Ledger.estate Ledger.due
    rw [hb]
    simp only [List.flatMap_cons, List.flatMap_nil, List.append_nil, List.nil_append, look_hit]
    rfl
  rw [this] at h3
  rw [h2, List.perm_singleton.1 h3]

/-! ### The theorems at work -/

example {a : AWorld} (h : demo.Shows a) := C75_call demo_reachable h (c := .despawn (ent 6)) trivial
example {a : AWorld} (h : demo.Shows a) := C75_talk demo_reachable h trip_talk
example {a : AWorld} (h : demo.Shows a) := C75_same demo_reachable demo_reachable h h trip_talk trip_talk rfl
example {a : AWorld} (h : demo.Shows a) := C75_world demo_reachable h
/-- The conclusions of `C75_unique` are about something: the first component speaks of calls that drop something. -/
example {evs : List DropEv} (h : demo.view.Drops (.despawn (ent 6)) evs) : demo.view.Drops (.despawn (ent 6)) evs ∧ ∀ x, demo.view.Drops (.despawn (ent 6)) x → x = evs :=
  ⟨h, fun _ hx => (C75_unique _).1 _ _ _ hx h⟩
example := C75_loop.1 busy_made

end Ellecs.WorldSpec
