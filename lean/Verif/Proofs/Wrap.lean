import Verif.Spec.Wrap
import Verif.Proofs.Demo
/-!
# A slot is recycled until its generation wraps around
-/
namespace Ellecs.WorldSpec
open World Demo

/-- A despawn, in terms of the functions it calls. -/
theorem despawn_of {w : World} {e : EcsId} {m : EntityMeta} {a a' : Archetype} {ms : List (Option EntityMeta)} {evs : List DropEv} {es : Entities} {b : Bool}
    (h1 : w.isAlive e = .ok true) (h2 : w.archetypes.any (fun a => (a.compLookup e).isSome) = false) (h3 : w.getEntityMeta e = .ok (some m))
    (h4 : w.archetypes[m.inst.archetype]? = some a) (h5 : a.despawn e m.inst.index w.metas = .ok (a', ms, evs)) (h6 : w.entities.despawn e = .ok (b, es)) :
    World.despawn e w = .ok true { w with archetypes := w.archetypes.set m.inst.archetype a', metas := ms, log := w.log ++ evs, entities := es } := by
  simp only [World.despawn, bind, EStateM.bind, get, getThe, MonadStateOf.get, EStateM.get, liftE, h1, h2, h3]
  simp [unwrap, World.step, h4, h5, h6, EStateM.bind, liftE]
  rfl

/-- The table of entities without components. -/
def bare (es : List EcsId) : Archetype := ⟨fun _ => none, es, [], [], AddRemoveCache.new⟩

/-- A world with one slot and these types. -/
def oneSlot (tm : Ty → Option EcsId) (es : Entities) (a : Archetype) (m : Option EntityMeta) : World where
  archetypes := [a]
  bitset := []
  entBits := ⟨[1], 1⟩
  entities := es
  metas := [m]
  typeMap := tm
  lockLookup := fun _ => none
  locks := []
  reuse := none
  log := []

/-- The slot is free. -/
def husk (tm : Ty → Option EcsId) (g : BitVec 32) : World := oneSlot tm ⟨[(false, g)], [0]⟩ (bare []) none

/-- The slot is taken but nothing was built. -/
def taken (tm : Ty → Option EcsId) (g : BitVec 32) : World := oneSlot tm ⟨[(true, g)], []⟩ (bare []) none

/-- There is an entity in the slot. -/
def full (tm : Ty → Option EcsId) (g : BitVec 32) (m : ComponentMeta) : World := oneSlot tm ⟨[(true, g)], []⟩ (bare [⟨g, 0⟩]) (some ⟨⟨0, 0⟩, m⟩)

theorem alive_full (g : BitVec 32) : Entities.isAlive ⟨[(true, g)], []⟩ ⟨g, 0⟩ = .ok true := by
  simp [Entities.isAlive, EcsId.uindex]

theorem setMeta_full (tm : Ty → Option EcsId) (g : BitVec 32) (a : Archetype) (m : EntityMeta) :
    (oneSlot tm ⟨[(true, g)], []⟩ a none).setEntityMeta ⟨g, 0⟩ m = .ok (oneSlot tm ⟨[(true, g)], []⟩ a (some m)) := by
  unfold setEntityMeta
  rw [show (oneSlot tm ⟨[(true, g)], []⟩ a none).entities = ⟨[(true, g)], []⟩ from rfl, alive_full]
  rfl

theorem build_taken (tm : Ty → Option EcsId) (g : BitVec 32) :
    Builder.build ⟨[], 0, 0, [], ⟨g, 0⟩, .unit, 0⟩ (taken tm g) = .ok ⟨[], 0, 0, [], ⟨g, 0⟩, .unit, 0⟩ (full tm g .unit) := by
  have h : Builder.build ⟨[], 0, 0, [], ⟨g, 0⟩, .unit, 0⟩ (taken tm g) =
      (World.step (fun w => w.setEntityMeta ⟨g, 0⟩ ⟨⟨0, 0⟩, .unit⟩) >>= fun _ => pure (⟨[], 0, 0, [], ⟨g, 0⟩, .unit, 0⟩ : Builder))
        (oneSlot tm ⟨[(true, g)], []⟩ (bare [⟨g, 0⟩]) none) := rfl
  rw [h]
  simp only [bind, EStateM.bind, World.step, setMeta_full]
  rfl

theorem spawnId_husk (tm : Ty → Option EcsId) (g : BitVec 32) : spawnId (husk tm g) = .ok ⟨g + 1, 0⟩ (taken tm (g + 1)) := rfl

theorem spawn_husk (tm : Ty → Option EcsId) (g : BitVec 32) : spawnWith .plain [.build] (husk tm g) = .ok ⟨g + 1, 0⟩ (full tm (g + 1) .unit) := by
  have h : Builder.new ⟨g + 1, 0⟩ .unit (taken tm (g + 1)) = .ok ⟨[], 0, 0, [], ⟨g + 1, 0⟩, .unit, 0⟩ (taken tm (g + 1)) := rfl
  simp only [spawnWith, bind, EStateM.bind, spawnId_husk, h, Builder.acts, Builder.act, Builder.orDrop, build_taken]
  rfl

theorem despawn_full (tm : Ty → Option EcsId) (g : BitVec 32) (m : ComponentMeta) : World.despawn ⟨g, 0⟩ (full tm g m) = .ok true (husk tm g) := by
  have h1 : (full tm g m).isAlive ⟨g, 0⟩ = .ok true := alive_full g
  have h2 : (full tm g m).getEntityMeta ⟨g, 0⟩ = .ok (some ⟨⟨0, 0⟩, m⟩) := by
    unfold getEntityMeta
    rw [show (full tm g m).entities.isAlive ⟨g, 0⟩ = .ok true from alive_full g]; rfl
  have h3 : (bare [⟨g, 0⟩]).despawn ⟨g, 0⟩ 0 [some ⟨⟨0, 0⟩, m⟩] = .ok (bare [], [none], []) := by
    unfold Archetype.despawn
    simp only [bare, List.getElem?_cons_zero, ne_eq, not_true_eq_false, if_false]
    rfl
  have h4 : Entities.despawn ⟨[(true, g)], []⟩ ⟨g, 0⟩ = .ok (true, ⟨[(false, g)], [0]⟩) := by
    unfold Entities.despawn; rw [alive_full]; rfl
  exact despawn_of (w := full tm g m) (m := ⟨⟨0, 0⟩, m⟩) (a := bare [⟨g, 0⟩]) h1 rfl h2 rfl h3 h4

/-- The only type has the id of the first use of slot 0. -/
def only (t : Ty) : Ty → Option EcsId := mapInsert (fun _ => none) t ⟨0, 0⟩

theorem first_register (t : Ty) : getOrCreate t World.new = .ok ⟨0, 0⟩ (full (only t) 0 (.fromGeneric t)) := rfl

/-! ## the calls are allowed -/

theorem chainOk_build (tm : Ty → Option EcsId) (g : BitVec 32) : ChainOk (husk tm g) .plain [.build] := by
  intro e w1 b w2 h1 h2 pre a post h3 b1 w3 h4
  rw [spawnId_husk] at h1
  cases h1
  cases h2
  cases pre with
  | nil =>
    cases h3; cases h4
    refine ⟨?_, List.nodup_nil⟩
    rintro ⟨k, r, a, h5, h6⟩
    cases k with
    | zero => cases h5; cases h6
    | succ k => cases h5
  | cons x pre =>
    have := congrArg List.length h3
    simp at this

theorem _root_.Ellecs.World.Returns.append {w w1 w2 : World} {cs ds : List Call} (h1 : Returns w cs w1) (h2 : Returns w1 ds w2) : Returns w (cs ++ ds) w2 := by
  induction h1 with
  | nil => exact h2
  | cons ho he _ ih => exact .cons ho he (ih h2)

theorem exec_spawn_husk (tm : Ty → Option EcsId) (g : BitVec 32) : Call.exec (.spawn .plain [.build]) (husk tm g) = .ok () (full tm (g + 1) .unit) := by
  simp only [Call.exec, bind, EStateM.bind, spawn_husk]; rfl

theorem exec_despawn_full (tm : Ty → Option EcsId) (g : BitVec 32) (m : ComponentMeta) : Call.exec (.despawn ⟨g, 0⟩) (full tm g m) = .ok () (husk tm g) := by
  simp only [Call.exec, bind, EStateM.bind, despawn_full]; rfl

theorem exec_register_new (t : Ty) : Call.exec (.register t) World.new = .ok () (full (only t) 0 (.fromGeneric t)) := by
  simp only [Call.exec, bind, EStateM.bind, first_register]; rfl

theorem ofNat_succ (n : Nat) : BitVec.ofNat 32 n + 1 = BitVec.ofNat 32 (n + 1) := by
  rw [BitVec.ofNat_add]; rfl

theorem recycle_returns (tm : Ty → Option EcsId) (n : Nat) : Returns (husk tm 0) (recycle n) (husk tm (BitVec.ofNat 32 n)) := by
  unfold recycle
  induction n with
  | zero => exact .nil _
  | succ n ih =>
    rw [List.range_succ, List.flatMap_append]
    refine ih.append ?_
    rw [← ofNat_succ]
    simp only [List.flatMap_cons, List.flatMap_nil, List.append_nil, ← ofNat_succ]
    exact .cons (chainOk_build tm _) (exec_spawn_husk tm _) (.cons trivial (exec_despawn_full tm _ _) (.nil _))

theorem revive_returns (t : Ty) (n : Nat) : Returns World.new (revive t n) (full (only t) (BitVec.ofNat 32 (n + 1)) .unit) := by
  unfold revive
  refine Returns.append (Returns.append (.cons trivial (exec_register_new t) (.cons trivial (exec_despawn_full _ _ _) (.nil _))) (recycle_returns _ n)) ?_
  rw [← ofNat_succ]
  exact .cons (chainOk_build _ _) (exec_spawn_husk _ _) (.nil _)

/-! ## after the wrap-around -/

/-- The next slot is taken. -/
def second (t : Ty) : World := { full (only t) 0 .unit with entities := ⟨[(true, 0), (true, 0)], []⟩ }

/-- An entity was built with the component that was despawned. -/
def doubted (t : Ty) : World := after (Builder.build ⟨[], 0, 0, [⟨0, 0⟩], ⟨0, 1⟩, .unit, 1⟩ (second t))

theorem typeMap_second (t : Ty) : (second t).typeMap t = some ⟨0, 0⟩ := by
  simp [second, full, oneSlot, only, mapInsert]

theorem register_second (t : Ty) : getOrCreate t (second t) = .ok ⟨0, 0⟩ (second t) := by
  simp only [getOrCreate, bind, EStateM.bind, get, getThe, MonadStateOf.get, EStateM.get, typeMap_second]; rfl

theorem with_second (t : Ty) (v : Bytes) :
    Builder.withDynamicWithData ⟨[], 0, 0, [], ⟨0, 1⟩, .unit, 0⟩ v ⟨0, 0⟩ (second t) = .ok ⟨[], 0, 0, [⟨0, 0⟩], ⟨0, 1⟩, .unit, 1⟩ := by
  have h : (second t).getEntityMeta ⟨0, 0⟩ = .ok (some ⟨⟨0, 0⟩, .unit⟩) := rfl
  unfold Builder.withDynamicWithData
  rw [h]
  simp [ComponentMeta.unit, writeAt]

theorem act_second (t : Ty) (v : Bytes) :
    Builder.act ⟨[], 0, 0, [], ⟨0, 1⟩, .unit, 0⟩ (.with t v) (second t) = .ok ⟨[], 0, 0, [⟨0, 0⟩], ⟨0, 1⟩, .unit, 1⟩ (second t) := by
  simp only [Builder.act, Builder.orDrop, bind, EStateM.bind, register_second, get, getThe, MonadStateOf.get, EStateM.get, with_second]
  rfl

theorem build_second (t : Ty) : Builder.build ⟨[], 0, 0, [⟨0, 0⟩], ⟨0, 1⟩, .unit, 1⟩ (second t) = .ok ⟨[], 0, 0, [], ⟨0, 1⟩, .unit, 1⟩ (doubted t) := by with_unfolding_all rfl

theorem spawn_second (t : Ty) (v : Bytes) : spawnWith .plain [.with t v, .build] (full (only t) 0 .unit) = .ok ⟨0, 1⟩ (doubted t) := by
  have h1 : spawnId (full (only t) 0 .unit) = .ok ⟨0, 1⟩ (second t) := rfl
  have h2 : Builder.new ⟨0, 1⟩ .unit (second t) = .ok ⟨[], 0, 0, [], ⟨0, 1⟩, .unit, 0⟩ (second t) := rfl
  have h3 : Builder.act ⟨[], 0, 0, [⟨0, 0⟩], ⟨0, 1⟩, .unit, 1⟩ .build (second t) = .ok ⟨[], 0, 0, [], ⟨0, 1⟩, .unit, 1⟩ (doubted t) := by with_unfolding_all rfl
  simp only [spawnWith, bind, EStateM.bind, h1, h2, Builder.acts, act_second, h3]
  rfl

theorem typeMap_doubted (t : Ty) : (doubted t).typeMap t = some ⟨0, 0⟩ := by
  have h : (doubted t).typeMap = (second t).typeMap := by with_unfolding_all rfl
  rw [h, typeMap_second]

theorem query_doubted (t : Ty) : ∃ w', query [.ref t] (doubted t) = .ok ⟨[.ref t], [.read 0], some [.immut ⟨0, 0⟩]⟩ w' ∧ w' = { doubted t with locks := w'.locks } := by
  have h : allFetches (doubted t) [.ref t] = some [.immut ⟨0, 0⟩] := by
    simp only [allFetches, Param.fetchType, typeMap_doubted]
  refine ⟨{ doubted t with locks := [⟨1, false, false⟩] }, ?_, rfl⟩
  unfold query
  rw [h]
  with_unfolding_all rfl

theorem chainOk_second (t : Ty) {v : Bytes} (hv : v.length = t.size) : ChainOk (full (only t) 0 .unit) .plain [.with t v, .build] := by
  intro e w1 b w2 h1 h2 pre a post h3 b1 w3 h4
  cases h1
  cases h2
  cases pre with
  | nil => cases h3; exact hv
  | cons x pre =>
    cases pre with
    | nil =>
      cases h3
      have h5 : Builder.acts ⟨[], 0, 0, [], ⟨0, 1⟩, .unit, 0⟩ [.with t v] (second t) = .ok ⟨[], 0, 0, [⟨0, 0⟩], ⟨0, 1⟩, .unit, 1⟩ (second t) := by
        simp only [Builder.acts, bind, EStateM.bind, act_second]; rfl
      have h6 := h5.symm.trans h4
      injection h6 with h7 h8
      subst h7 h8
      refine ⟨?_, by simp⟩
      rintro ⟨k, r, a, h9, h10⟩
      cases k with
      | zero =>
        cases h9
        cases r with
        | zero => cases h10
        | succ r => cases h10
      | succ k => cases h9
    | cons y pre =>
      have := congrArg List.length h3
      simp at this

theorem exec_spawn_second (t : Ty) (v : Bytes) : Call.exec (.spawn .plain [.with t v, .build]) (full (only t) 0 .unit) = .ok () (doubted t) := by
  simp only [Call.exec, bind, EStateM.bind, spawn_second]; rfl

/-! ## before the wrap-around -/

theorem reachable_husk (t : Ty) (n : Nat) (hn : n + 1 < 2 ^ 32) : Reachable (husk (only t) (BitVec.ofNat 32 n)) := by
  have hfull : ∀ g m, (full (only t) g m).NoFullSlot := by
    intro g m p hp h
    have : p = (true, g) := List.mem_singleton.1 hp
    subst this; cases h
  have hhusk : ∀ n, n + 1 < 2 ^ 32 → (husk (only t) (BitVec.ofNat 32 n)).NoFullSlot := by
    intro n hn p hp _ h
    have : p = (false, BitVec.ofNat 32 n) := List.mem_singleton.1 hp
    subst this
    have := congrArg BitVec.toNat h
    simp only [BitVec.toNat_ofNat, BitVec.toNat_allOnes] at this
    omega
  induction n with
  | zero => exact .ok (.despawn ⟨0, 0⟩) (.ok (.register t) .new trivial (exec_register_new t) (hfull _ _)) trivial (exec_despawn_full _ _ _) (hhusk 0 (by decide))
  | succ n ih =>
    rw [← ofNat_succ]
    refine .ok (.despawn _) (.ok (.spawn .plain [.build]) (ih (by omega)) (chainOk_build _ _) (exec_spawn_husk _ _) (hfull _ _)) trivial (exec_despawn_full _ _ _) ?_
    rw [ofNat_succ]
    exact hhusk _ hn

theorem reachable_full (t : Ty) (n : Nat) (hn : n + 1 < 2 ^ 32) : Reachable (full (only t) (BitVec.ofNat 32 (n + 1)) .unit) := by
  rw [← ofNat_succ]
  refine .ok (.spawn .plain [.build]) (reachable_husk t n hn) (chainOk_build _ _) (exec_spawn_husk _ _) ?_
  intro p hp h
  have : p = (true, _) := List.mem_singleton.1 hp
  subst this; cases h

theorem spawn_before (t : Ty) (v : Bytes) {g : BitVec 32} (hg : g ≠ 0) :
    spawnWith .plain [.with t v, .build] (full (only t) g .unit) = .error .deadComponent { full (only t) g .unit with entities := ⟨[(true, g), (true, 0)], []⟩ } := by
  have h1 : spawnId (full (only t) g .unit) = .ok ⟨0, 1⟩ { full (only t) g .unit with entities := ⟨[(true, g), (true, 0)], []⟩ } := rfl
  generalize hw : ({ full (only t) g .unit with entities := ⟨[(true, g), (true, 0)], []⟩ } : World) = w at *
  have h2 : Builder.new ⟨0, 1⟩ .unit w = .ok ⟨[], 0, 0, [], ⟨0, 1⟩, .unit, 0⟩ w := by subst hw; rfl
  have h3 : getOrCreate t w = .ok ⟨0, 0⟩ w := by
    have : w.typeMap t = some ⟨0, 0⟩ := by subst hw; simp [full, oneSlot, only, mapInsert]
    simp only [getOrCreate, bind, EStateM.bind, get, getThe, MonadStateOf.get, EStateM.get, this]; rfl
  have h4 : w.getEntityMeta ⟨0, 0⟩ = .ok none := by
    have : w.entities.isAlive ⟨0, 0⟩ = .ok false := by
      subst hw
      simp [Entities.isAlive, EcsId.uindex]
      exact fun h => hg h.symm
    unfold getEntityMeta
    rw [this]
  have h5 : Builder.withDynamicWithData ⟨[], 0, 0, [], ⟨0, 1⟩, .unit, 0⟩ v ⟨0, 0⟩ w = .error .deadComponent := by
    unfold Builder.withDynamicWithData; rw [h4]
  have h6 : Builder.act ⟨[], 0, 0, [], ⟨0, 1⟩, .unit, 0⟩ (.with t v) w = .error .deadComponent w := by
    simp only [Builder.act, Builder.orDrop, bind, EStateM.bind, h3, get, getThe, MonadStateOf.get, EStateM.get, h5, liftE]
    rfl
  simp only [spawnWith, bind, EStateM.bind, h1, h2, Builder.acts, h6]

end Ellecs.WorldSpec
