import Verif.Proofs.DemoFacts
import Verif.Proofs.Demo
import Verif.Proofs.Effect
/-!
# C09-C12, C19, C26, C30, C37, C49, C50: single entities and cells
-/
namespace Ellecs.WorldSpec
open World Demo

/-! ## C09 -/

/-- `L` lists the components of `e` with value and metadata, each once. -/
structure ComponentsOf (w : World) (e : EcsId) (L : List (EcsId × Bytes × ComponentMeta)) : Prop where
  once : (L.map Prod.fst).Nodup
  info : ∀ p ∈ L, w.InfoIs p.1 p.2.2
  has : ∀ c bs, w.Has e c bs ↔ ∃ m, (c, bs, m) ∈ L

/-- C09: when `despawn(e)` returns `true`, exactly `e` is gone and exactly its values have been dropped. -/
theorem C09_despawn_exact {w w' : World} (hw : Reachable w) {e : EcsId} (hr : despawn e w = .ok true w') :
    w.Alive e ∧ w.Row e ∧ (∀ x, w'.Alive x ↔ w.Alive x ∧ x ≠ e) ∧ (∀ x, w'.Row x ↔ w.Row x ∧ x ≠ e) ∧
    (∀ x c bs, w'.Has x c bs ↔ w.Has x c bs ∧ x ≠ e) ∧ (∀ x m, w'.InfoIs x m ↔ w.InfoIs x m ∧ x ≠ e) ∧ w'.typeMap = w.typeMap ∧
    ∃ L, ComponentsOf w e L ∧ w'.log = w.log ++ L.flatMap (fun p => owed p.2.2 p.2.1) := by
  have hi := hw.sound.inv
  rcases (despawn_spec hi e).ok hr with ⟨h, _⟩ | ⟨_, h1, h2, h3, hg, evs, L, hd, hlog, _⟩
  · cases h
  refine ⟨alive_iff.2 h1, h2, fun x => by rw [alive_iff, alive_iff, hg.live], hg.row, hg.has, ?_, hg.typ, L, ⟨hd.nodup, ?_, hd.has⟩, ?_⟩
  · intro x m
    rw [infoIs_iff hg.inv, infoIs_iff hi, hg.row]
    constructor
    · rintro ⟨⟨q1, q2⟩, q3⟩
      refine ⟨⟨q1, ?_⟩, q2⟩
      rw [← hg.comp x.uindex (fun hh => q2 (Entities.Live.uniq (hi.row_live q1) h1 hh))]; exact q3
    · rintro ⟨⟨q1, q3⟩, q2⟩
      refine ⟨⟨q1, q2⟩, ?_⟩
      rw [hg.comp x.uindex (fun hh => q2 (Entities.Live.uniq (hi.row_live q1) h1 hh))]; exact q3
  · rintro ⟨c, bs, m⟩ hp
    obtain ⟨p, hpp⟩ := has_points ((hd.has c bs).2 ⟨m, hp⟩)
    obtain ⟨m', hm'⟩ := hpp.info hi
    have := ((infoIs_iff hi).1 hm').2
    rw [hd.comp _ hp] at this; injection this with this; subst this
    exact hm'
  · rw [hlog, hd.evs]
    congr 1

example := C09_despawn_exact demo_reachable (e := ent 6) (eq_of_endsOk (by decide +kernel))

/-- C09: it returns `true` for every built entity that is not the component of some table. -/
theorem C09_despawn_succeeds {w : World} (hw : Reachable w) {e : EcsId} (he : w.Row e) (hu : ¬ w.Used e) : ∃ w', despawn e w = .ok true w' := by
  have hi := hw.sound.inv
  have ha : w.isAlive e = .ok true := alive_iff.2 (hi.row_live he)
  rcases (despawn_spec hi e).cases with ⟨b, w', hx, ⟨_, h, _⟩ | ⟨rfl, _⟩⟩ | ⟨f, w', hx, _, ⟨_, h⟩ | ⟨_, _, h⟩ | ⟨_, _, h⟩⟩
  · rw [ha] at h; cases h
  · exact ⟨w', hx⟩
  · rw [ha] at h; cases h
  · exact absurd h hu
  · exact absurd he h

example := C09_despawn_succeeds demo_reachable (e := ent 6) (by decide +kernel) (by decide +kernel)

example : ∃ w', despawn (ent 6) demo = .ok true w' := ⟨_, eq_of_endsOk (by decide +kernel)⟩

/-! ## C10 -/

/-- C10: asking for the component id of a type again, any number of calls later, gives the same id; other types have other
ids. -/
theorem C10_ids_stable_distinct {w w1 w2 w3 : World} (hw : Reachable w) {t s : Ty} {id id' : EcsId} (h1 : getOrCreate t w = .ok id w1)
    (hn : w1.NoFullSlot) (h2 : Later w1 w2) (h3 : getOrCreate s w2 = .ok id' w3) : id = id' ↔ t = s := by
  have g1 := (getOrCreate_spec hw.sound.inv hw.sound.nowrap.ready t).ok h1
  have hw1 : Reachable w1 := .ok (.register t) hw trivial (by show (EStateM.bind (getOrCreate t) _) w = _; unfold EStateM.bind; rw [h1]; rfl) hn
  have hs2 := (h2.reachable hw1).sound
  have hk := (h2.keeps hw1).typ t id g1.2.1
  obtain ⟨gg, g2, _⟩ := (getOrCreate_spec hs2.inv hs2.nowrap.ready s).ok h3
  have hk3 := gg.typ t id hk
  constructor
  · intro he
    subst he
    exact gg.inv.type.inj _ _ _ hk3 g2
  · intro he
    subst he
    rw [hk3] at g2
    injection g2

example := C10_ids_stable_distinct demo_reachable (t := tC) (s := tA) (id := ⟨1, 5⟩) (id' := ent 1) (eq_of_endsOk (by decide +kernel)) (by decide +kernel) (.refl _) (eq_of_endsOk (by decide +kernel))

/-- C10: the layout and the drop function recorded for it are those of the type, as long as it is alive. -/
theorem C10_info {w w1 w2 : World} (hw : Reachable w) {t : Ty} {id : EcsId} (h1 : getOrCreate t w = .ok id w1) (hn : w1.NoFullSlot)
    (h2 : Later w1 w2) {m : ComponentMeta} (hm : w2.InfoIs id m) : m = ⟨some (.generic t), t.layout⟩ := by
  have g1 := (getOrCreate_spec hw.sound.inv hw.sound.nowrap.ready t).ok h1
  have hw1 : Reachable w1 := .ok (.register t) hw trivial (by show (EStateM.bind (getOrCreate t) _) w = _; unfold EStateM.bind; rw [h1]; rfl) hn
  have hs2 := (h2.reachable hw1).sound
  obtain ⟨hr, hc⟩ := (infoIs_iff hs2.inv).1 hm
  have := hs2.inv.type.comp t id ((h2.keeps hw1).typ t id g1.2.1) (hs2.inv.row_live hr)
  rw [hc] at this
  injection this

example := C10_info demo_reachable (t := tB) (id := ent 2) (eq_of_endsOk (by decide +kernel)) (by decide +kernel) (.refl _) (m := metaB) (by decide +kernel)

example : ∃ w1 w2 w3, getOrCreate tC demo = .ok ⟨1, 5⟩ w1 ∧ w1.NoFullSlot ∧ Later w1 w2 ∧ w2.Alive ⟨1, 5⟩ ∧ getOrCreate tA w2 = .ok (ent 1) w3 := by
  refine ⟨_, _, _, eq_of_endsOk (by decide +kernel), by decide +kernel, .refl _, by decide +kernel, eq_of_endsOk (by decide +kernel)⟩

/-! ## C11 -/

/-- C11: `has_component::<T>(e)`, which takes `&self`, is exact for every id with a slot. -/
theorem C11_has_component_exact {w : World} (hw : Reachable w) (t : Ty) {e : EcsId} (he : e.uindex < w.entities.generations.length) :
    ∃ b, w.hasComponent t e = .ok b ∧ (b = true ↔ ∃ bs, w.HasT e t bs) := by
  rcases hasComponent_spec hw.sound.inv t e with ⟨_, h, _⟩ | ⟨b, h1, h2⟩
  · exfalso
    unfold World.isAlive Entities.isAlive at h
    rw [List.getElem?_eq_getElem he] at h
    cases h
  · refine ⟨b, h1, h2.trans ?_⟩
    constructor
    · rintro ⟨c, hc, bs, hb⟩; exact ⟨bs, c, hc, hb⟩
    · rintro ⟨bs, c, hc, hb⟩; exact ⟨c, hc, bs, hb⟩

example := C11_has_component_exact demo_reachable tB (e := ent 6) (by decide +kernel)

/-- C11: an entity that has a component is alive and built. -/
theorem C11_has_alive {w : World} (hw : Reachable w) {t : Ty} {e : EcsId} {bs : Bytes} (h : w.HasT e t bs) : w.Alive e ∧ w.Row e := by
  obtain ⟨c, _, hb⟩ := h
  have := hw.sound.inv.has_live hb
  exact ⟨alive_iff.2 (hw.sound.inv.row_live this), this⟩

example := C11_has_alive demo_reachable (e := ent 6) (t := tB) (bs := val 8 8) ⟨ent 2, demo_typeB, by decide +kernel⟩

example : demo.hasComponent tB (ent 6) = .ok true ∧ demo.hasComponent tB (ent 0) = .ok false ∧ demo.hasComponent tA (ent 5) = .ok false ∧
    demo.hasComponent tC (ent 0) = .ok false := by decide +kernel

/-! ## C12 -/

/-- C12, the part that holds: the pointer points at the value of that component of that entity; for ids that are not alive
(but have a slot) the answer is `None`.  Missing: `None` for an entity without the component, see `C12_absent_panics`. -/
theorem C12_get_component_partial {w : World} (hw : Reachable w) {e c : EcsId} :
    (w.HasComp e c → ∃ p, w.getComponentMutDynamic e c = .ok (some p) ∧ w.PointsAt p e c) ∧
    (∀ p, w.getComponentMutDynamic e c = .ok (some p) → w.PointsAt p e c ∧ w.HasComp e c) ∧
    (e.uindex < w.entities.generations.length → c.uindex < w.entities.generations.length → ¬ w.Alive e ∨ ¬ w.Alive c →
      w.getComponentMutDynamic e c = .ok none) := by
  have hi := hw.sound.inv
  have hpt : ∀ p, w.PointsAt p e c → w.HasComp e c := fun p hp => by
    obtain ⟨_, _, _, _, _, _, _, _, _, _, _, _, _, hh⟩ := hp.cell hi
    exact ⟨_, hh⟩
  have halive : w.HasComp e c → w.isAlive e = .ok true ∧ w.isAlive c = .ok true ∧ w.Row e := by
    rintro ⟨bs, hb⟩
    have h1 := hi.has_live hb
    obtain ⟨a, ha, hc⟩ := has_used hi hb
    exact ⟨alive_iff.2 (hi.row_live h1), alive_iff.2 (hi.live_comp ha hc).1, h1⟩
  have hrange : ∀ x : EcsId, x.uindex < w.entities.generations.length → w.isAlive x ≠ .error .noGeneration := by
    intro x hx h
    unfold World.isAlive Entities.isAlive at h
    rw [List.getElem?_eq_getElem hx] at h
    cases h
  rcases getComponentMut_spec hi e c with ⟨h1, h2⟩ | ⟨h1, h2⟩ | ⟨h1, h2, h3, h4⟩ | ⟨p, h1, hp⟩
  · refine ⟨fun hc => ?_, fun p hp => (by rw [h1] at hp; cases hp), fun r1 r2 _ => ?_⟩
    · obtain ⟨q1, q2, _⟩ := halive hc
      rcases h2 with h2 | h2
      · rw [q1] at h2; cases h2
      · rw [q2] at h2; cases h2
    · rcases h2 with h2 | h2
      · exact absurd h2 (hrange e r1)
      · exact absurd h2 (hrange c r2)
  · refine ⟨fun hc => ?_, fun p hp => (by rw [h1] at hp; cases hp), fun _ _ _ => h1⟩
    obtain ⟨q1, q2, q3⟩ := halive hc
    rcases h2 with h2 | h2 | h2
    · exact absurd q1 h2
    · exact absurd q2 h2
    · exact absurd q3 h2
  · refine ⟨fun hc => absurd hc h4, fun p hp => (by rw [h1] at hp; cases hp), ?_⟩
    intro _ _ hh
    rcases hh with hh | hh
    · exact absurd (alive_iff.2 (hi.row_live h2)) hh
    · exact absurd h3 hh
  · refine ⟨fun _ => ⟨p, h1, hp⟩, ?_, ?_⟩
    · intro p' hp'
      rw [h1] at hp'; injection hp' with hp'; injection hp' with hp'; subst hp'
      exact ⟨hp, hpt p hp⟩
    · intro _ _ hh
      obtain ⟨q1, q2, _⟩ := halive (hpt p hp)
      rcases hh with hh | hh
      · exact absurd q1 hh
      · exact absurd q2 hh

example : ∃ p, demo.getComponentMutDynamic (ent 6) (ent 2) = .ok (some p) ∧ demo.PointsAt p (ent 6) (ent 2) :=
  (C12_get_component_partial demo_reachable).1 ⟨val 8 8, by decide +kernel⟩
example : demo.getComponentMutDynamic (ent 5) (ent 2) = .ok none :=
  (C12_get_component_partial demo_reachable).2.2 (by decide +kernel) (by decide +kernel) (.inl (by decide +kernel))

/-- C12: at most one pointer points at a component of an entity, and reading through it gives the value. -/
theorem C12_pointer_reads {w : World} (hw : Reachable w) {e c : EcsId} {p : Ptr} {m : ComponentMeta} (hp : w.PointsAt p e c) (hm : w.InfoIs c m) :
    (∀ p', w.PointsAt p' e c → p' = p) ∧ ∃ bs, w.readPtr p m.layout.size = .ok bs ∧ w.Has e c bs :=
  ⟨fun _ hp' => hp'.uniq hw.sound.inv hp, readPtr_spec hw.sound.inv hp hm⟩

example := C12_pointer_reads demo_reachable six_A infoA

/-- C12 fails: for every live built entity without the (live) component the call panics instead of returning `None`. -/
theorem C12_absent_panics {w : World} (hw : Reachable w) {e c : EcsId} (he : w.Row e) (hc : w.Alive c) (hn : ¬ w.HasComp e c) :
    w.getComponentMutDynamic e c = .error .indexOob := by
  have hi := hw.sound.inv
  have ha : w.Alive e := alive_iff.2 (hi.row_live he)
  rcases getComponentMut_spec hi e c with ⟨_, h2⟩ | ⟨_, h2⟩ | ⟨h1, _⟩ | ⟨p, _, hp⟩
  · unfold Alive at ha hc
    rcases h2 with h2 | h2
    · rw [ha] at h2; cases h2
    · rw [hc] at h2; cases h2
  · rcases h2 with h2 | h2 | h2
    · exact absurd ha h2
    · exact absurd hc h2
    · exact absurd he h2
  · exact h1
  · obtain ⟨_, _, _, _, _, _, _, _, _, _, _, _, _, hh⟩ := hp.cell hi
    exact absurd ⟨_, hh⟩ hn

example := C12_absent_panics demo_reachable (e := ent 0) (c := ent 2) (by decide +kernel) (by decide +kernel) (by decide +kernel)

example : demo.HasComp (ent 6) (ent 2) ∧ demo.Row (ent 0) ∧ demo.Alive (ent 2) ∧ ¬ demo.HasComp (ent 0) (ent 2) ∧ ¬ demo.Alive (ent 5) := by
  decide +kernel

/-! ## C19 -/

/-- C19: a write through a pointer to component `c` of `e` changes that value and nothing else. -/
theorem C19_write_frame {w : World} (hw : Reachable w) {p : Ptr} {e c : EcsId} (hp : w.PointsAt p e c) {m : ComponentMeta} (hm : w.InfoIs c m)
    {bs : Bytes} (hb : bs.length = m.layout.size) :
    ∃ w', w.writePtr p bs = .ok w' ∧ (∀ x, w'.Has e c x ↔ x = bs) ∧ (∀ y d, (y ≠ e ∨ d ≠ c) → ∀ x, w'.Has y d x ↔ w.Has y d x) ∧
      (∀ y, w'.Row y ↔ w.Row y) ∧ (∀ y, w'.Alive y ↔ w.Alive y) ∧ (∀ y n, w'.InfoIs y n ↔ w.InfoIs y n) ∧ w'.typeMap = w.typeMap ∧
      w'.log = w.log ∧
      (∀ p' y d n, w.PointsAt p' y d → w.InfoIs d n → w'.readPtr p' n.layout.size = if y = e ∧ d = c then .ok bs else w.readPtr p' n.layout.size) := by
  have hi := hw.sound.inv
  obtain ⟨w', h1, h2⟩ := writePtr_spec hi hp hm hb
  have hinfo : ∀ y n, w'.InfoIs y n ↔ w.InfoIs y n := fun y n => by rw [infoIs_iff h2.inv, infoIs_iff hi, h2.row, h2.metas]
  refine ⟨w', h1, h2.self, h2.others, h2.row, fun y => by rw [alive_iff, alive_iff, h2.ent], hinfo, h2.typ, h2.log, ?_⟩
  intro p' y d n hp' hn
  have hpw : w'.PointsAt p' y d := (h2.points p' y d).2 hp'
  obtain ⟨b1, r1, q1⟩ := readPtr_spec h2.inv hpw ((hinfo d n).2 hn)
  obtain ⟨b2, r2, q2⟩ := readPtr_spec hi hp' hn
  rw [r1, r2]
  split
  · rename_i hh
    obtain ⟨rfl, rfl⟩ := hh
    rw [(h2.self b1).1 q1]
  · rename_i hh
    have : y ≠ e ∨ d ≠ c := by
      by_cases hy : y = e
      · exact Or.inr (fun hd => hh ⟨hy, hd⟩)
      · exact Or.inl hy
    rw [has_uniq hi ((h2.others y d this b1).1 q1) q2]

example := C19_write_frame demo_reachable six_B infoB (bs := val 8 3) rfl

example : ∃ p m, demo.PointsAt p (ent 6) (ent 1) ∧ demo.InfoIs (ent 1) m ∧ (val 4 9).length = m.layout.size := by
  have h : demo.HasComp (ent 6) (ent 1) := by decide +kernel
  obtain ⟨bs, hb⟩ := h
  obtain ⟨p, hp⟩ := has_points hb
  exact ⟨p, _, hp, infoOf_iff.1 (Option.some_get (by decide +kernel : (demo.infoOf (ent 1)).isSome = true)).symm, by decide +kernel⟩

/-! ## C26 -/

/-- C26, the part that holds: after a call that panicked (not by exhausting memory) the world is still one that can be
reached, so that all theorems about reachable worlds apply; every entity known before is alive iff it was alive, keeps its
components and values, and types keep their ids.  Calls that call `build` a second time or with a duplicate are excluded
by `Call.Ok` (see C25, C27); a stray lock may be left behind, see `C26_stray_lock`. -/
theorem C26_rejected_partial {w w' : World} (hw : Reachable w) {c : Call} (hc : c.Ok w) {f : Fault} (hr : c.exec w = .error f w') (hl : ¬ Limit f)
    (hd : f ≠ .deadlock) :
    Reachable w' ∧ (∀ x, w.entities.Known x → (w'.Alive x ↔ w.Alive x) ∧ (w'.Row x ↔ w.Row x) ∧ ∀ d bs, w'.Has x d bs ↔ w.Has x d bs) ∧
    (∀ t d, w.typeMap t = some d → w'.typeMap t = some d) ∧ (∀ x m, w.Alive x → (w'.InfoIs x m ↔ w.InfoIs x m)) := by
  have hs := hw.sound
  rcases (exec_keeps hs.inv hs.nowrap hc).error hr with (hh | hh) | ⟨h1, h2⟩
  · exact absurd hh hl
  · exact absurd hh hd
  have hw' : Reachable w' := .panic c f hw hc hr hl hd h2.nowrap
  refine ⟨hw', fun x hx => ⟨?_, h2.row x hx, h2.has x hx⟩, h1.typ, ?_⟩
  · rw [alive_iff, alive_iff]
    exact ⟨fun h => h2.old x h hx, h2.live x⟩
  · intro x m hx
    have hlx := alive_iff.1 hx
    rw [infoIs_iff hw'.sound.inv, infoIs_iff hs.inv, h2.row x hlx.known, h2.comp x hlx]

/-- Misuse of several kinds: adding what is present, removing what is absent, a dead id, a builder call with a dead
component after a new type was registered, despawning a component that is used. -/
example : (∃ w', Call.exec (.addComponent (ent 0) tA (val 4 9)) demo = .error .alreadyPresent w') ∧
    (∃ w', Call.exec (.removeComponent (ent 0) tB) demo = .error .notPresent w') ∧
    (∃ w', Call.exec (.addComponent (ent 5) tA (val 4 9)) demo = .error .notAlive w') ∧
    (∃ w', Call.exec (.spawn .plain [.with tC (val 2 1), .withDynamic (ent 5)]) demo = .error .unwrapNone w') ∧
    (∃ w', Call.exec (.despawn (ent 1)) demo = .error .despawnTodo w') :=
  ⟨⟨_, eq_of_endsWith (by decide +kernel)⟩, ⟨_, eq_of_endsWith (by decide +kernel)⟩, ⟨_, eq_of_endsWith (by decide +kernel)⟩,
    ⟨_, eq_of_endsWith (by decide +kernel)⟩, ⟨_, eq_of_endsWith (by decide +kernel)⟩⟩

theorem stray_runs : (runP [.spawn .plain []] demo).isSome = true := by decide +kernel
/-- A world with an entity that was spawned and not built. -/
def stray : World := (runP [.spawn .plain []] demo).get stray_runs
theorem stray_reachable : Reachable stray := runP_reachable demo_reachable (Option.some_get stray_runs).symm
def stray' : World := after (Call.exec (.addDynamicWithData (ent 0) ⟨1, 5⟩ []) stray)

/-- What iterating the dynamic query `fs` starts with. -/
def dynStart (w : World) (fs : List Fetch) : Option Fault :=
  match World.queryDynamic fs w with
  | .error f _ => some f
  | .ok q w' =>
    match q.iter w' with
    | .error f => some f
    | .ok _ => none

/-- C26 fails in a corner: adding a component that was spawned but not built panics after its lock was created.  The
lock makes later dynamic queries of that id panic, which they did not before. -/
theorem C26_stray_lock : Reachable stray ∧ Call.exec (.addDynamicWithData (ent 0) ⟨1, 5⟩ []) stray = .error .unwrapNone stray' ∧
    dynStart stray [.immut ⟨1, 5⟩] = none ∧ dynStart stray' [.immut ⟨1, 5⟩] = some .unwrapNone :=
  ⟨stray_reachable, eq_of_endsWith (by decide +kernel), by decide +kernel, by decide +kernel⟩

/-! ## C30 -/

/-- C30: no two tables (of the first `2^32`) have the same set of components; the first one has none. -/
theorem C30_one_table {w : World} (hw : Reachable w) {i j : Nat} (hil : i < 2 ^ 32) (hjl : j < 2 ^ 32) {a b : Archetype}
    (hi : w.archetypes[i]? = some a) (hj : w.archetypes[j]? = some b) :
    ((∀ c, c ∈ a.compIds ↔ c ∈ b.compIds) → i = j) ∧ a.compIds.Nodup ∧ (i = 0 → a.compIds = []) := by
  have h := hw.sound.inv
  have sa := h.shape a (List.mem_of_getElem? hi)
  have sb := h.shape b (List.mem_of_getElem? hj)
  refine ⟨?_, SortedIds.nodup sa.sorted, ?_⟩
  · intro hab
    have he : a.compIds = b.compIds := SortedIds.ext sa.sorted sb.sorted hab
    have e1 : (w.archetypes.map Archetype.compIds)[i]? = some a.compIds := by rw [List.getElem?_map, hi]; rfl
    have e2 : (w.archetypes.map Archetype.compIds)[j]? = some a.compIds := by rw [List.getElem?_map, hj, he]; rfl
    rcases Nat.lt_trichotomy i j with hij | hij | hij
    · exact absurd e2 (h.uniq i j _ hij hjl e1)
    · exact hij
    · exact absurd e1 (h.uniq j i _ hij hil e2)
  · rintro rfl; exact h.arch0 a hi

example := C30_one_table demo_reachable (by decide) (by decide) table2_at table4_at

/-- C30: the columns of a table are exactly its components. -/
theorem C30_columns {w : World} (hw : Reachable w) {i : Nat} {a : Archetype} (hi : w.archetypes[i]? = some a) :
    a.storages.map Prod.fst = a.compIds ∧ ∀ p ∈ a.storages, p.2.elems.length = a.entities.length := by
  have h := hw.sound.inv
  have hm := List.mem_of_getElem? hi
  refine ⟨(h.shape a hm).ids, fun p hp => ?_⟩
  have := (h.col a hm p hp).2.1
  rw [UVec.length_elems]; exact this

example := C30_columns demo_reachable table4_at

example : demo.archetypes.length = 5 ∧ demo.archetypes.map (fun a => a.compIds) =
    [[], [ent 1, ent 2], [ent 1], [ent 1, ent 2, ent 4], [ent 1, ent 4]] := by decide +kernel

/-! ## C37 -/

/-- C37 fails: despawning an entity that some table (even an empty one) has as a component always panics and does nothing. -/
theorem C37_despawn_used_panics {w : World} (hw : Reachable w) {e : EcsId} (he : w.Alive e) (hu : w.Used e) :
    despawn e w = .error .despawnTodo w := by
  have hi := hw.sound.inv
  have ha : w.isAlive e = .ok true := he
  rcases (despawn_spec hi e).cases with ⟨b, w', hx, ⟨_, h, _⟩ | ⟨_, _, _, h, _⟩⟩ | ⟨f, w', hx, rfl, ⟨_, h⟩ | ⟨rfl, _⟩ | ⟨_, _, h⟩⟩
  · rw [ha] at h; cases h
  · obtain ⟨a, h1, h2⟩ := hu
    exact absurd h2 (h a h1)
  · rw [ha] at h; cases h
  · exact hx
  · obtain ⟨a, h1, h2⟩ := hu
    obtain ⟨hl, m, hm⟩ := hi.live_comp h1 h2
    rcases getEntityMeta_spec hi e with ⟨_, h3⟩ | ⟨_, h3⟩ | ⟨_, _, h3, _⟩ | ⟨_, _, _, _, _, _, h3⟩
    · rcases Entities.isAlive_cases _ e with ⟨h4, _⟩ | ⟨_, _, _⟩ | ⟨_, _⟩
      · exact nomatch ha.symm.trans h4
      · contradiction
      · exact absurd hl (by intro h5; have := h5.lt; omega)
    · exact absurd hl h3
    · unfold compOf at hm; unfold instOf at h3
      rw [Option.map_eq_some_iff] at hm
      obtain ⟨em, hm, _⟩ := hm
      rw [hm] at h3; cases h3
    · exact absurd ((row_iff e).2 ⟨_, _, h3⟩) h

example := C37_despawn_used_panics demo_reachable (e := ent 2) (by decide +kernel) (by decide +kernel)

/-- C37 fails: the component of a type that some entity has. -/
theorem C37_witness : Reachable demo ∧ demo.HasComp (ent 6) (ent 2) ∧ ∃ w', despawn (ent 2) demo = .error .despawnTodo w' ∧
    w'.HasComp (ent 6) (ent 2) :=
  ⟨demo_reachable, by decide +kernel, _, eq_of_endsWith (by decide +kernel), by decide +kernel⟩

/-- C37, the part that holds: an entity that is despawned is no component of any entity. -/
theorem C37_despawned_unused_partial {w w' : World} (hw : Reachable w) {e : EcsId} (hr : despawn e w = .ok true w') :
    ¬ w.Used e ∧ ¬ w'.Used e ∧ ∀ x, ¬ w'.HasComp x e := by
  rcases (despawn_spec hw.sound.inv e).ok hr with ⟨h, _⟩ | ⟨_, h1, h2, h3, hg, _⟩
  · cases h
  · have hu : ¬ w.Used e := fun ⟨a, ha, hc⟩ => h3 a ha hc
    have hu' : ¬ w'.Used e := fun hh => hu (used_ids hg.ids.symm hh)
    exact ⟨hu, hu', fun x ⟨bs, hb⟩ => hu' (has_used hg.inv hb)⟩

example := C37_despawned_unused_partial demo_reachable (e := ent 3) (eq_of_endsOk (by decide +kernel))

/-! ## C49 -/

/-- The id has a slot in this world, but is not alive. -/
def Dead (w : World) (e : EcsId) : Prop := e.uindex < w.entities.generations.length ∧ ¬ w.Alive e

theorem dead_answer {w : World} {e : EcsId} (h : Dead w e) : w.isAlive e = .ok false := by
  obtain ⟨h1, h2⟩ := h
  unfold Alive at h2
  unfold World.isAlive Entities.isAlive at *
  rw [List.getElem?_eq_getElem h1] at *
  simp only at *
  cases hb : (w.entities.generations[e.uindex].1 && e.gen == w.entities.generations[e.uindex].2) with
  | false => rfl
  | true => rw [hb] at h2; exact absurd rfl h2

/-- C49: looking at a dead id. -/
theorem C49_dead_reads {w : World} {e : EcsId} (h : Dead w e) (hw : Reachable w) :
    w.isAlive e = .ok false ∧ w.getEntityMeta e = .ok none ∧ (∀ c, w.getComponentMutDynamic e c = .ok none) ∧
    (∀ x, w.Alive x → w.getComponentMutDynamic x e = .ok none) ∧
    (∀ t, w.hasComponent t e = .ok false) ∧ ∀ q : StaticQuery, q.get w e = .ok none := by
  have ha := dead_answer h
  refine ⟨ha, ?_, ?_, ?_, ?_, ?_⟩
  · unfold getEntityMeta; unfold World.isAlive at ha; rw [ha]
  · intro c; unfold getComponentMutDynamic; rw [ha]
  · intro x hx; unfold getComponentMutDynamic; unfold Alive at hx; rw [hx]; simp only [ha]
  · intro t
    obtain ⟨b, h1, h2⟩ := C11_has_component_exact hw t h.1
    cases b with
    | false => exact h1
    | true =>
      obtain ⟨bs, hb⟩ := h2.1 rfl
      exact absurd (C11_has_alive hw hb).1 h.2
  · intro q; unfold StaticQuery.get; rw [ha]

example := C49_dead_reads (w := demo) (e := ent 5) (by unfold Dead; decide +kernel) demo_reachable

/-- C49: changing a dead id does nothing; the typed calls panic (and `add_component` drops its argument). -/
theorem C49_dead_writes {w : World} {e : EcsId} (h : Dead w e) :
    despawn e w = .ok false w ∧ (∀ c src, addComponentDynamicWithData e c src w = .ok () w) ∧ (∀ c, removeComponentDynamic e c w = .ok () w) ∧
    (∀ x src, w.Alive x → addComponentDynamicWithData x e src w = .ok () w) ∧ (∀ x, w.Alive x → removeComponentDynamic x e w = .ok () w) ∧
    (∀ c, addComponentDynamic e c w = .error .notAlive w) ∧
    (∀ t v, addComponent e t v w = .error .notAlive { w with log := w.log ++ [⟨.generic t, v⟩] }) ∧
    (∀ t, removeComponent e t w = .error .notAlive w) := by
  have ha := dead_answer h
  refine ⟨?_, ?_, ?_, ?_, ?_, ?_, ?_, ?_⟩
  · simp [despawn, bind, EStateM.bind, get, getThe, MonadStateOf.get, EStateM.get, liftE, ha, pure, EStateM.pure]
  · intro c src
    simp [addComponentDynamicWithData, bind, EStateM.bind, get, getThe, MonadStateOf.get, EStateM.get, liftE, ha, pure, EStateM.pure]
  · intro c
    simp [removeComponentDynamic, bind, EStateM.bind, get, getThe, MonadStateOf.get, EStateM.get, liftE, ha, pure, EStateM.pure]
  · intro x src hx
    unfold Alive at hx
    simp [addComponentDynamicWithData, bind, EStateM.bind, get, getThe, MonadStateOf.get, EStateM.get, liftE, ha, hx, pure, EStateM.pure]
  · intro x hx
    unfold Alive at hx
    simp [removeComponentDynamic, bind, EStateM.bind, get, getThe, MonadStateOf.get, EStateM.get, liftE, ha, hx, pure, EStateM.pure]
  · intro c
    simp [addComponentDynamic, bind, EStateM.bind, get, getThe, MonadStateOf.get, EStateM.get, liftE, ha, throw, throwThe, MonadExceptOf.throw, EStateM.throw]
  · intro t v
    simp [addComponent, orDropValue, bind, EStateM.bind, get, getThe, MonadStateOf.get, EStateM.get, liftE, ha, throw, throwThe, MonadExceptOf.throw, EStateM.throw]
  · intro t
    simp [removeComponent, bind, EStateM.bind, get, getThe, MonadStateOf.get, EStateM.get, liftE, ha, throw, throwThe, MonadExceptOf.throw, EStateM.throw]

example : Dead demo (ent 5) ∧ Dead demo ⟨7, 0⟩ ∧ Reachable demo := by
  refine ⟨?_, ?_, demo_reachable⟩ <;> (unfold Dead; decide +kernel)

/-! ## C50 -/

/-- C50: an id without a slot in this world makes every call that consults it panic; the world is unchanged
(`add_component` drops its argument). -/
theorem C50_foreign {w : World} {e : EcsId} (h : w.entities.generations.length ≤ e.uindex) :
    w.isAlive e = .error .noGeneration ∧ w.getEntityMeta e = .error .noGeneration ∧
    (∀ c, w.getComponentMutDynamic e c = .error .noGeneration) ∧ (∀ x, w.Alive x → w.getComponentMutDynamic x e = .error .noGeneration) ∧
    (∀ t c, w.typeMap t = some c → w.hasComponent t e = .error .noGeneration) ∧ (∀ q : StaticQuery, q.get w e = .error .noGeneration) ∧
    despawn e w = .error .noGeneration w ∧ (∀ c src, addComponentDynamicWithData e c src w = .error .noGeneration w) ∧
    (∀ x src, w.Alive x → addComponentDynamicWithData x e src w = .error .noGeneration w) ∧
    (∀ c, removeComponentDynamic e c w = .error .noGeneration w) ∧ (∀ x, w.Alive x → removeComponentDynamic x e w = .error .noGeneration w) ∧
    (∀ c, addComponentDynamic e c w = .error .noGeneration w) ∧ (∀ x, w.Alive x → addComponentDynamic x e w = .error .noGeneration w) ∧
    (∀ t v, addComponent e t v w = .error .noGeneration { w with log := w.log ++ [⟨.generic t, v⟩] }) ∧
    (∀ t, removeComponent e t w = .error .noGeneration w) := by
  have ha : w.isAlive e = .error .noGeneration := by
    unfold World.isAlive Entities.isAlive
    rw [List.getElem?_eq_none h]
  refine ⟨ha, ?_, ?_, ?_, ?_, ?_, ?_, ?_, ?_, ?_, ?_, ?_, ?_, ?_, ?_⟩
  · unfold getEntityMeta; unfold World.isAlive at ha; rw [ha]
  · intro c; unfold getComponentMutDynamic; rw [ha]
  · intro x hx; unfold getComponentMutDynamic; unfold Alive at hx; rw [hx]; simp only [ha]
  · intro t c ht
    unfold hasComponent getEntityMeta
    unfold World.isAlive at ha
    simp [ht, ha]
  · intro q; unfold StaticQuery.get; rw [ha]
  · simp [despawn, bind, EStateM.bind, get, getThe, MonadStateOf.get, EStateM.get, liftE, ha]
  · intro c src
    simp [addComponentDynamicWithData, bind, EStateM.bind, get, getThe, MonadStateOf.get, EStateM.get, liftE, ha]
  · intro x src hx
    unfold Alive at hx
    simp [addComponentDynamicWithData, bind, EStateM.bind, get, getThe, MonadStateOf.get, EStateM.get, liftE, ha, hx]
  · intro c
    simp [removeComponentDynamic, bind, EStateM.bind, get, getThe, MonadStateOf.get, EStateM.get, liftE, ha]
  · intro x hx
    unfold Alive at hx
    simp [removeComponentDynamic, bind, EStateM.bind, get, getThe, MonadStateOf.get, EStateM.get, liftE, ha, hx]
  · intro c
    simp [addComponentDynamic, bind, EStateM.bind, get, getThe, MonadStateOf.get, EStateM.get, liftE, ha]
  · intro x hx
    unfold Alive at hx
    simp [addComponentDynamic, bind, EStateM.bind, get, getThe, MonadStateOf.get, EStateM.get, liftE, ha, hx]
  · intro t v
    simp [addComponent, orDropValue, bind, EStateM.bind, get, getThe, MonadStateOf.get, EStateM.get, liftE, ha]
  · intro t
    simp [removeComponent, bind, EStateM.bind, get, getThe, MonadStateOf.get, EStateM.get, liftE, ha]

example : demo.entities.generations.length ≤ (ent 77).uindex ∧ demo.typeMap tA = some (ent 1) := by decide +kernel

end Ellecs.WorldSpec
