import Verif.Proofs.Script
/-!
# C67: a world is a database

`Script` (in `Spec/Database.lean`) are programs that use component types only: they spawn and despawn entities, add, remove
and check components, loop over queries and look entities up.  `Script.wp` is a logic for them that speaks of a list of
entities with values.  What it derives is true of the program when it is run on the tables.
-/
namespace Ellecs.WorldSpec
open World Demo

theorem sim_stores {sc : Scope} {sn : Scene} {S : List (List EcsId)} {a : AWorld} {w : World} (hs : Sim sc sn S a) (ha : w.Shows a) :
    w.Stores sn.db ∧ ∀ e ∈ sn.dead, w.isAlive e = .ok false := by
  obtain ⟨L, D, hdb, _, _, _, hg⟩ := hs
  have hal : ∀ e, w.isAlive e = a.isAlive e := fun e => by unfold World.isAlive AWorld.isAlive; rw [ha.ents]
  refine ⟨⟨hdb.keys, ?_, ?_, ?_⟩, ?_⟩
  · intro e
    rw [hal, ← ha.types]
    constructor
    · intro he
      exact hdb.all e ((hdb.tidy.built e).2 ⟨he, by simp⟩)
    · rintro (he | ⟨t, ht⟩)
      · exact hdb.tidy.alive (hdb.ent e he).1
      · exact hdb.tidy.alive (by rw [hdb.tidy.types t e ht]; simp)
  · intro e he t
    rw [← ha.types]; exact (hdb.ent e he).2.2 t
  · intro e t bs
    rw [← ha.types]
    have hval := hdb.val e t
    constructor
    · rintro ⟨c, h1, h2⟩
      rw [h1] at hval
      replace hval : a.cell e c = _ := hval
      rw [(ha.cell e c bs).2 h2] at hval
      cases hr : sn.db.lookup e with
      | none => rw [hr] at hval; cases hval
      | some r => rw [hr] at hval; exact ⟨r, (lookup_some hdb.keys).1 hr, hval.symm⟩
    · rintro ⟨r, h1, h2⟩
      obtain ⟨c, h3, h4⟩ := hdb.cell ((lookup_some hdb.keys).2 h1) h2
      exact ⟨c, h3, (ha.cell e c bs).1 h4⟩
  · intro e he
    rw [hal]; exact (hg e he).alive

/-- C67: if the logic derives `Q` for a script, then the script, run on a new world, ends without a panic (and without
any of the other ends of `C65_sound`); what it returns is as `Q` says, the values in the tables are those of the database,
and there are no more tables than combinations of types. -/
theorem C67_sound {α : Type} {sc : Scope} (hsc : sc.Ok) {p : Script α} {Q : α → Scene → Prop} (h : p.wp sc ⟨[], [], 0⟩ Q) :
    ∃ x w' sn, Exec p.compile World.new (.ok x) w' ∧ Reachable w' ∧ w'.Stores sn.db ∧ (∀ e ∈ sn.dead, w'.isAlive e = .ok false) ∧
      w'.archetypes.length ≤ sc.shapes.length ∧ Q x sn := by
  have h0 : Sim sc ⟨[], [], 0⟩ [[]] AWorld.new :=
    ⟨[], [[]], DbAt.new, (fun t ht => nomatch ht), ⟨by simp, (fun l hl => by rw [List.mem_singleton.1 hl]; exact hsc.empty), Nat.le_refl _,
      ⟨[], List.mem_singleton.2 rfl, fun c hc => nomatch hc⟩, (fun l hl t ht => by rw [List.mem_singleton.1 hl] at ht; cases ht),
      fun l hl => ⟨[], List.mem_singleton.2 rfl, fun c => ⟨(fun hc => nomatch hc), (fun ⟨t, _, ht⟩ => nomatch ht)⟩⟩⟩, (fun x hx => nomatch hx), (fun e he => nomatch he)⟩
  have h1 := script_wp hsc p h0 (by show 0 < 2 ^ 32; decide) (by show 0 + sc.types.length ≤ 2 ^ 32; have := hsc.types; omega) h
  obtain ⟨r, w', S', a', h2, h3, h4, h5, x, sn, rfl, h6, h7⟩ := C65_sound hsc.size .new C57_new (S := [[]]) (fun m hm => by cases hm) (fun t ht => nomatch ht) h1
  obtain ⟨h8, h9⟩ := sim_stores h6 h4
  refine ⟨x, w', sn, h2, h3, h8, h9, ?_, h7⟩
  obtain ⟨L, D, _, _, hS, _, _⟩ := h6
  have h10 : D.length ≤ sc.shapes.length := hS.nodup.length_le_of_subset hS.mem
  have h11 := hS.len
  have h12 := hsc.shapes
  have := h5.count h3.sound.inv (by omega)
  omega

/-- C67: the script has one result, so this is what every execution does. -/
theorem C67_every {α : Type} {sc : Scope} (hsc : sc.Ok) {p : Script α} {Q : α → Scene → Prop} (h : p.wp sc ⟨[], [], 0⟩ Q) {r : Except Fault α} {w' : World}
    (he : Exec p.compile World.new r w') : ∃ x sn, r = .ok x ∧ Reachable w' ∧ w'.Stores sn.db ∧ (∀ e ∈ sn.dead, w'.isAlive e = .ok false) ∧
      w'.archetypes.length ≤ sc.shapes.length ∧ Q x sn := by
  obtain ⟨x, u, sn, h1, h2⟩ := C67_sound hsc h
  obtain ⟨rfl, rfl⟩ := C65_one_result he h1
  exact ⟨x, sn, rfl, h2⟩

/-- C67: what is derived may be weakened. -/
theorem C67_mono {α : Type} {sc : Scope} (p : Script α) : ∀ {sn : Scene} {Q R : α → Scene → Prop}, (∀ x sn, Q x sn → R x sn) → p.wp sc sn Q → p.wp sc sn R := by
  induction p with
  | done x => exact fun h hq => h _ _ hq
  | fail f => exact fun _ hq => hq
  | spawn r k ih => exact fun h ⟨h1, h2, h3, h4, h5⟩ => ⟨h1, h2, h3, h4, fun e g1 g2 => ih e h (h5 e g1 g2)⟩
  | add e t v k ih => exact fun h ⟨r, h1, h2, h3, h4, h5⟩ => ⟨r, h1, h2, h3, h4, ih h h5⟩
  | remove e t k ih => exact fun h ⟨r, h1, h2, h3, h4⟩ => ⟨r, h1, h2, h3, ih h h4⟩
  | despawn e k ih => exact fun h hq => hq.imp (fun ⟨h1, h2, h3⟩ => ⟨h1, h2, ih _ h h3⟩) (fun ⟨h1, h2⟩ => ⟨h1, ih _ h h2⟩)
  | isAlive e k ih => exact fun h hq => hq.imp (fun ⟨h1, h2⟩ => ⟨h1, ih _ h h2⟩) (fun ⟨h1, h2⟩ => ⟨h1, ih _ h h2⟩)
  | has e t k ih => exact fun h hq => hq.imp (fun ⟨r, h1, h2⟩ => ⟨r, h1, ih _ h h2⟩) (fun ⟨h1, h2⟩ => ⟨h1, ih _ h h2⟩)
  | forEach ps f k ih => exact fun h ⟨h1, h2, h3, h4⟩ => ⟨h1, h2, h3, fun rs hr => ih rs h (h4 rs hr)⟩
  | lookEach ps f es k ih => exact fun h ⟨h1, h2, h3, h4, h5⟩ => ⟨h1, h2, h3, h4, ih _ h h5⟩

/-- C67: scripts one after the other. -/
theorem C67_bind {α β : Type} {sc : Scope} (p : Script α) (f : α → Script β) : ∀ {sn : Scene} {Q : β → Scene → Prop},
    (p.bind f).wp sc sn Q ↔ p.wp sc sn (fun x sn => (f x).wp sc sn Q) := by
  induction p with
  | done x => exact Iff.rfl
  | fail e => exact Iff.rfl
  | spawn r k ih => intro sn Q; simp only [Script.bind, Script.wp, ih]
  | add e t v k ih => intro sn Q; simp only [Script.bind, Script.wp, ih]
  | remove e t k ih => intro sn Q; simp only [Script.bind, Script.wp, ih]
  | despawn e k ih => intro sn Q; simp only [Script.bind, Script.wp, ih]
  | isAlive e k ih => intro sn Q; simp only [Script.bind, Script.wp, ih]
  | has e t k ih => intro sn Q; simp only [Script.bind, Script.wp, ih]
  | forEach ps g k ih => intro sn Q; simp only [Script.bind, Script.wp, ih]
  | lookEach ps g es k ih => intro sn Q; simp only [Script.bind, Script.wp, ih]

/-- C67: a loop of scripts with an invariant `I`. -/
theorem C67_forEachIn {β : Type} {sc : Scope} (f : β → Script Unit) (I : List β → Scene → Prop)
    (hf : ∀ x xs sn, I (x :: xs) sn → (f x).wp sc sn (fun _ sn => I xs sn)) : ∀ (xs : List β) {sn : Scene}, I xs sn →
    (Script.forEachIn xs f).wp sc sn (fun _ sn => I [] sn) := by
  intro xs
  induction xs with
  | nil => exact fun h => h
  | cons x xs ih => exact fun h => (C67_bind _ _).2 (C67_mono _ (fun _ sn h => ih h) (hf x xs _ h))

/-- C67: the same for a number of repetitions. -/
theorem C67_times {sc : Scope} (p : Script Unit) (I : Nat → Scene → Prop) (hp : ∀ i sn, I i sn → p.wp sc sn (fun _ sn => I (i + 1) sn)) :
    ∀ (n : Nat) {i : Nat} {sn : Scene}, I i sn → (Script.times n p).wp sc sn (fun _ sn => I (i + n) sn) := by
  intro n
  induction n with
  | zero => exact fun h => h
  | succ n ih =>
    intro i sn h
    refine (C67_bind _ _).2 (C67_mono _ (fun _ sn h => ?_) (hp i sn h))
    have := ih (i := i + 1) h
    rw [show i + 1 + n = i + (n + 1) by omega] at this
    exact this

/-! ### a case -/

/-- Two entities are made, a system runs, one is despawned, the other loses a component; then all are looked at. -/
def demoScript : Script (Bool × Bool × Bool × List Found) := do
  let x ← .spawn [(tA, val 4 1), (tB, val 8 2)] .done
  let y ← .spawn [(tA, val 4 3)] .done
  let _ ← .forEach [.mut tA] (fun _ => [some (val 4 9)]) .done
  let b1 ← .despawn y .done
  .remove x tB (.done ())
  let b2 ← .has x tB .done
  let b3 ← .isAlive y .done
  .lookEach [.ids, .ref tA] (fun _ => []) [x, y] (fun rs => .done (b1, b2, b3, rs.map (Option.map (List.drop 1))))

def demoScope : Scope := ⟨[tA, tB], [[], [tA, tB], [tA]], 8⟩

theorem demoScope_ok : demoScope.Ok := ⟨by decide, by decide, by decide, by decide, by decide⟩

theorem demoScript_wp : demoScript.wp demoScope ⟨[], [], 0⟩ (fun r sn => r = (true, false, false, [some [.value (val 4 9)], none]) ∧
    ∃ x, sn.db = [(x, [(tA, val 4 9)])]) := by
  refine ⟨by decide, by decide, ⟨by decide, [tA, tB], by decide, fun t => Iff.rfl⟩, by decide, ?_⟩
  intro x _ _
  change Script.wp demoScope _ ⟨[(x, [(tA, val 4 1), (tB, val 8 2)])], [], 1⟩ _
  refine ⟨by decide, by decide, ⟨by decide, [tA], by decide, fun t => Iff.rfl⟩, by show 1 + 1 + 2 ≤ 2 ^ 32; decide, ?_⟩
  intro y hy _
  have hyx : x ≠ y := fun h => hy (by rw [h]; exact List.mem_singleton.2 rfl)
  have hb : (y == x) = false := by simpa using fun h => hyx h.symm
  refine ⟨List.pairwise_singleton _ _, ⟨tA, .inl List.mem_cons_self⟩, ?_, ?_⟩
  · intro ss i t bs h1 h2
    rcases i with _ | i
    · cases h1; cases h2; rfl
    · cases h2
  intro rows _
  change Script.wp demoScope _ ⟨[(x, [(tA, val 4 9), (tB, val 8 2)]), (y, [(tA, val 4 9)])], [], 2⟩ _
  refine .inl ⟨List.mem_cons_of_mem _ List.mem_cons_self, by show 0 + 1 < 2 ^ 32; decide, ?_⟩
  have e1 : Db.remove y [(x, [(tA, val 4 9), (tB, val 8 2)]), (y, [(tA, val 4 9)])] = [(x, [(tA, val 4 9), (tB, val 8 2)])] := by
    simp [Db.remove, hyx]
  simp only [e1]
  have hx : ∀ r : Fields, List.lookup x [(x, r)] = some r := fun r => by simp
  have e2 : ∀ (r : Fields) (f : Fields → Fields), Db.update x f [(x, r)] = [(x, f r)] := fun r f => by simp [Db.update]
  refine ⟨[(tA, val 4 9), (tB, val 8 2)], hx _, by decide, ⟨by decide, [tA], by decide, fun t => Iff.rfl⟩, ?_⟩
  simp only [e2]
  change Script.wp demoScope _ ⟨[(x, [(tA, val 4 9)])], [y], 2⟩ _
  refine .inl ⟨[(tA, val 4 9)], hx _, ?_⟩
  refine .inr ⟨List.mem_singleton.2 rfl, ?_⟩
  refine ⟨by simp [Compatible], ⟨tA, .inr (List.mem_cons_of_mem _ List.mem_cons_self)⟩, ?_, ?_, ?_⟩
  · intro ss i t bs h1 h2; cases h2
  · intro e he
    rcases List.mem_cons.1 he with rfl | he
    · exact .inl List.mem_cons_self
    · exact .inr he
  · have e3 : Db.got [.ids, .ref tA] (fun _ => []) [x, y] [(x, [(tA, val 4 9)])] = [some [.id x, .value (val 4 9)], none] := by
      simp only [Db.got, hx, e2, List.lookup_cons, List.lookup_nil, hb]
      rfl
    have e4 : Db.visit [.ids, .ref tA] (fun _ => []) [x, y] [(x, [(tA, val 4 9)])] = [(x, [(tA, val 4 9)])] := by
      have e5 : ∀ (r : Fields) (f : Fields → Fields), Db.update y f [(x, r)] = [(x, r)] := fun r f => by simp [Db.update, hyx]
      simp only [Db.visit, List.foldl, e2, e5]
      rfl
    simp only [e3, e4]
    exact ⟨rfl, x, rfl⟩

example : ∃ w' sn, Exec demoScript.compile World.new (.ok (true, false, false, [some [.value (val 4 9)], none])) w' ∧ w'.Stores sn := by
  obtain ⟨x, w', sn, h1, _, h2, _, _, rfl, _⟩ := C67_sound demoScope_ok demoScript_wp
  exact ⟨w', sn.db, h1, h2⟩

/-- Every execution of it ends so. -/
example {r : Except Fault (Bool × Bool × Bool × List Found)} {w' : World} (h : Exec demoScript.compile World.new r w') :
    r = .ok (true, false, false, [some [.value (val 4 9)], none]) := by
  obtain ⟨x, sn, rfl, _, _, _, _, rfl, _⟩ := C67_every demoScope_ok demoScript_wp h
  rfl

/-- A script after it, of which less is derived. -/
example : (demoScript.bind fun r => .done r.1).wp demoScope ⟨[], [], 0⟩ (fun b _ => b = true) :=
  (C67_bind _ _).2 (C67_mono _ (fun _ _ h => by rw [h.1]; rfl) demoScript_wp)

/-- A loop that asks for each of the entities of the scene whether it is alive. -/
example (x y : EcsId) : (Script.forEachIn [x, y] fun e => .isAlive e fun _ => .done ()).wp demoScope ⟨[(x, []), (y, [(tA, val 4 1)])], [], 2⟩
    (fun _ sn => sn.db = [(x, []), (y, [(tA, val 4 1)])]) :=
  C67_mono _ (fun _ _ h => h.1) (C67_forEachIn (sc := demoScope) (fun e => .isAlive e fun _ => .done ()) (fun es sn => sn.db = [(x, []), (y, [(tA, val 4 1)])] ∧ ∀ e ∈ es, e ∈ [x, y])
    (fun e es sn h => Or.inl ⟨by rw [h.1]; exact h.2 e List.mem_cons_self, h.1, fun e' he => h.2 e' (List.mem_cons_of_mem _ he)⟩) [x, y] ⟨rfl, fun _ h => h⟩)

end Ellecs.WorldSpec
