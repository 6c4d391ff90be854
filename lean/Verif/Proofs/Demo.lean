import Verif.Proofs.Chain
/-!
# Concrete worlds

Checkers that evaluate the specification vocabulary on concrete worlds, and some concrete worlds that are used to
show that hypotheses of theorems can be met.
-/
namespace Ellecs

deriving instance DecidableEq for StaticQuery, DynQuery

namespace World

instance decHas (w : World) (e c : EcsId) (bs : Bytes) : Decidable (w.Has e c bs) :=
  decidable_of_iff (∃ a ∈ w.archetypes, ∃ r < a.entities.length, a.entities[r]? = some e ∧
      ∃ p ∈ a.storages, p.1 = c ∧ p.2.elems[r]? = some bs) (by
    constructor
    · rintro ⟨a, ha, r, _, h1, ⟨c', v⟩, h2, h3, h4⟩
      obtain ⟨k, hk⟩ := List.mem_iff_getElem?.1 ha
      cases h3
      exact ⟨k, r, a, v, hk, h1, h2, h4⟩
    · rintro ⟨k, r, a, v, h1, h2, h3, h4⟩
      exact ⟨a, List.mem_of_getElem? h1, r, (List.getElem?_eq_some_iff.1 h2).1, h2, (c, v), h3, rfl, h4⟩)

instance decHasComp (w : World) (e c : EcsId) : Decidable (w.HasComp e c) :=
  decidable_of_iff (∃ a ∈ w.archetypes, ∃ r < a.entities.length, a.entities[r]? = some e ∧
      ∃ p ∈ a.storages, p.1 = c ∧ (p.2.elems[r]?).isSome) (by
    constructor
    · rintro ⟨a, ha, r, _, h1, ⟨c', v⟩, h2, h3, h4⟩
      obtain ⟨k, hk⟩ := List.mem_iff_getElem?.1 ha
      cases h3
      obtain ⟨bs, hb⟩ := Option.isSome_iff_exists.1 h4
      exact ⟨bs, k, r, a, v, hk, h1, h2, hb⟩
    · rintro ⟨bs, k, r, a, v, h1, h2, h3, h4⟩
      exact ⟨a, List.mem_of_getElem? h1, r, (List.getElem?_eq_some_iff.1 h2).1, h2, (c, v), h3, rfl, by rw [h4]; rfl⟩)

instance decRow (w : World) (e : EcsId) : Decidable (w.Row e) :=
  decidable_of_iff (∃ a ∈ w.archetypes, e ∈ a.entities) (by
    constructor
    · rintro ⟨a, ha, he⟩
      obtain ⟨k, hk⟩ := List.mem_iff_getElem?.1 ha
      obtain ⟨r, hr⟩ := List.mem_iff_getElem?.1 he
      exact ⟨k, r, a, hk, hr⟩
    · rintro ⟨k, r, a, h1, h2⟩
      exact ⟨a, List.mem_of_getElem? h1, List.mem_of_getElem? h2⟩)

instance decUsed (w : World) (c : EcsId) : Decidable (w.Used c) :=
  inferInstanceAs (Decidable (∃ a ∈ w.archetypes, c ∈ a.compIds))

instance : DecidableEq (Except Fault Bool) := fun a b =>
  match a, b with
  | .ok x, .ok y => if h : x = y then .isTrue (by rw [h]) else .isFalse (by intro e; injection e; contradiction)
  | .error x, .error y => if h : x = y then .isTrue (by rw [h]) else .isFalse (by intro e; injection e; contradiction)
  | .ok _, .error _ => .isFalse (by intro e; cases e)
  | .error _, .ok _ => .isFalse (by intro e; cases e)

instance decAlive (w : World) (e : EcsId) : Decidable (w.Alive e) := inferInstanceAs (Decidable (_ = _))

/-- The metadata `get_entity_meta` finds. -/
def infoOf (w : World) (c : EcsId) : Option ComponentMeta :=
  match w.getEntityMeta c with
  | .ok (some m) => some m.comp
  | _ => none

theorem infoOf_iff {w : World} {c : EcsId} {m : ComponentMeta} : w.infoOf c = some m ↔ w.InfoIs c m := by
  unfold infoOf InfoIs
  constructor
  · intro h
    split at h
    · rename_i x hx
      injection h with h; subst h
      exact ⟨x.inst, hx⟩
    · cases h
  · rintro ⟨im, h⟩
    rw [h]

instance decInfo (w : World) (c : EcsId) (m : ComponentMeta) : Decidable (w.InfoIs c m) := decidable_of_iff _ infoOf_iff

/-- `Names` as a function. -/
def nameOf (w : World) : BAct → Option EcsId
  | .with t _ => w.typeMap t
  | .withDynamic id => some id
  | .withDynamicWithData id _ => some id
  | .build => none

theorem names_iff {w : World} {a : BAct} {c : EcsId} : Names w a c ↔ nameOf w a = some c := by
  cases a <;> simp [Names, nameOf, eq_comm]

/-- The type of a `with` call. -/
def tyOf : BAct → Option Ty
  | .with t _ => some t
  | _ => none

instance decClash (w : World) (a b : BAct) : Decidable (Clash w a b) :=
  decidable_of_iff (((tyOf a).isSome ∧ tyOf a = tyOf b) ∨ ((nameOf w a).isSome ∧ nameOf w a = nameOf w b)) (by
    unfold Clash
    refine or_congr ?_ ?_
    · constructor
      · rintro ⟨h1, h2⟩
        cases a <;> cases b <;> simp_all [tyOf]
      · rintro ⟨t, v, v', rfl, rfl⟩
        simp [tyOf]
    · constructor
      · rintro ⟨h1, h2⟩
        obtain ⟨c, hc⟩ := Option.isSome_iff_exists.1 h1
        exact ⟨c, names_iff.2 hc, names_iff.2 (by rw [← h2, hc])⟩
      · rintro ⟨c, h1, h2⟩
        rw [names_iff] at h1 h2
        exact ⟨by rw [h1]; rfl, h1.trans h2.symm⟩)

instance decDistinct (w : World) (as : List BAct) : Decidable (Distinct w as) :=
  inferInstanceAs (Decidable (List.Pairwise _ _))

instance decValid (w : World) (a : BAct) : Decidable (ActValid w a) :=
  match a with
  | .with t v => decidable_of_iff (v.length = t.size ∧ ∀ c ∈ w.typeMap t, w.Alive c) (by simp [ActValid])
  | .withDynamic id => decidable_of_iff (∃ m ∈ w.infoOf id, m.layout.size = 0) (by simp [ActValid, infoOf_iff])
  | .withDynamicWithData id v => decidable_of_iff (∃ m ∈ w.infoOf id, m.layout.size ≤ v.length) (by simp [ActValid, infoOf_iff])
  | .build => .isFalse (fun h => h)

instance decNoFull (w : World) : Decidable w.NoFullSlot := inferInstanceAs (Decidable (∀ p ∈ w.entities.generations, _))

instance decRoomyV (v : UVec) : Decidable (UVec.Roomy v) := by unfold UVec.Roomy; exact inferInstance

instance decRoomy (w : World) : Decidable w.Roomy :=
  decidable_of_iff ((∀ a ∈ w.archetypes, ∀ p ∈ a.storages, UVec.Roomy p.2) ∧
      ∀ o ∈ w.metas, ∀ m ∈ o, m.comp.layout.size * 4 < isizeMax) (by
    unfold Roomy
    refine and_congr Iff.rfl ?_
    constructor
    · intro h m hm; exact h _ hm m rfl
    · intro h o ho m hm; cases hm; exact h m ho)

/-- The calls before a final `build`. -/
def beforeBuild : List BAct → Option (List BAct)
  | [] => none
  | .build :: [] => some []
  | a :: as => (beforeBuild as).map (a :: ·)

theorem beforeBuild_eq {l as : List BAct} (h : beforeBuild l = some as) : l = as ++ [.build] := by
  induction l generalizing as with
  | nil => cases h
  | cons a l ih =>
    unfold beforeBuild at h
    split at h
    · cases h
    · rename_i e; cases e; cases h; rfl
    · rename_i e; cases e
      cases hb : beforeBuild l with
      | none => rw [hb] at h; cases h
      | some as' => rw [hb] at h; cases h; rw [ih hb]; rfl

theorem chainOk_nobuild {w : World} (h : Inv w) (hn : w.Ready) {kind : SpawnKind} {as : List BAct}
    (hv : ∀ a ∈ as, ActValid w a) : ChainOk w kind as := by
  intro e w1 b w2 x1 x2
  obtain ⟨i2, n2, p1, _, _, _, _, _, hv2⟩ := chain_start h hn x1 x2 hv
  exact callsOk_valid as i2 n2 p1.blk hv2

/-- A sufficient check for `Call.Ok`. -/
def okB (w : World) : Call → Bool
  | .spawn _ acts =>
    match beforeBuild acts with
    | some as => decide (∀ a ∈ as, ActValid w a) && decide (Distinct w as)
    | none => decide (∀ a ∈ acts, ActValid w a)
  | .addComponent _ t v => decide (v.length = t.size)
  | .addDynamicWithData _ c src => decide (∀ m ∈ w.infoOf c, m.layout.size ≤ src.length)
  | .write _ c bs => decide (∀ m ∈ w.infoOf c, bs.length = m.layout.size)
  | _ => true

theorem okB_ok {w : World} (h : Sound w) {c : Call} (hc : okB w c = true) : c.Ok w := by
  cases c with
  | spawn kind acts =>
    unfold okB at hc
    cases hb : beforeBuild acts with
    | some as =>
      simp only [hb, Bool.and_eq_true, decide_eq_true_eq] at hc
      rw [beforeBuild_eq hb]
      exact chainOk_valid h.inv h.nowrap.ready hc.1 hc.2
    | none =>
      simp only [hb, decide_eq_true_eq] at hc
      exact chainOk_nobuild h.inv h.nowrap.ready hc
  | addComponent e t v => exact (of_decide_eq_true hc : v.length = t.size)
  | addDynamicWithData e c src =>
    intro m hm
    exact (of_decide_eq_true hc : ∀ m ∈ w.infoOf c, _) m (infoOf_iff.2 hm)
  | write e c bs =>
    intro m hm
    exact (of_decide_eq_true hc : ∀ m ∈ w.infoOf c, _) m (infoOf_iff.2 hm)
  | _ => trivial

instance (w : World) (t : Ty) : Decidable (w.TypeAlive t) :=
  match h : w.typeMap t with
  | none => isTrue (by intro c hc; rw [h] at hc; cases hc)
  | some c =>
    if ha : w.Alive c then isTrue (by intro c' hc; rw [h] at hc; injection hc with hc; subst hc; exact ha)
    else isFalse (fun hh => ha (hh c h))

/-- Make calls one after the other; none may panic. -/
def run : List Call → World → Option World
  | [], w => some w
  | c :: cs, w =>
    match okB w c, c.exec w with
    | true, .ok _ w' => if w'.NoFullSlot then run cs w' else none
    | _, _ => none

theorem run_calm {cs : List Call} {w w' : World} (hw : Calm w) (h : run cs w = some w') : Calm w' := by
  induction cs generalizing w with
  | nil => cases h; exact hw
  | cons c cs ih =>
    unfold run at h
    split at h
    · rename_i w1 h1 h2
      split at h
      · rename_i hn
        exact ih (.ok c hw (okB_ok hw.reachable.sound h1) h2 hn) h
      · cases h
    · cases h

instance decLimit (f : Fault) : Decidable (Limit f) := by unfold Limit; exact inferInstance

/-- Make calls one after the other, carrying on after panics. -/
def runP : List Call → World → Option World
  | [], w => some w
  | c :: cs, w =>
    match okB w c, c.exec w with
    | true, .ok _ w' => if w'.NoFullSlot then runP cs w' else none
    | true, .error f w' => if ¬ Limit f ∧ f ≠ .deadlock ∧ w'.NoFullSlot then runP cs w' else none
    | _, _ => none

theorem runP_reachable {cs : List Call} {w w' : World} (hw : Reachable w) (h : runP cs w = some w') : Reachable w' := by
  induction cs generalizing w with
  | nil => cases h; exact hw
  | cons c cs ih =>
    unfold runP at h
    split at h
    · rename_i w1 h1 h2
      split at h
      · rename_i hn
        exact ih (.ok c hw (okB_ok hw.sound h1) h2 hn) h
      · cases h
    · rename_i f w1 h1 h2
      split at h
      · rename_i hn
        exact ih (.panic c f hw (okB_ok hw.sound h1) h2 hn.1 hn.2.1 hn.2.2) h
      · cases h
    · cases h

/-- The state in which a call ended. -/
def after {α : Type} (r : EStateM.Result Fault World α) : World :=
  match r with
  | .ok _ w => w
  | .error _ w => w

def endsOk {α : Type} [DecidableEq α] (r : EStateM.Result Fault World α) (a : α) : Bool :=
  match r with
  | .ok a' _ => decide (a' = a)
  | .error _ _ => false

def endsWith {α : Type} (r : EStateM.Result Fault World α) (f : Fault) : Bool :=
  match r with
  | .ok _ _ => false
  | .error f' _ => decide (f' = f)

theorem eq_of_endsOk {α : Type} [DecidableEq α] {r : EStateM.Result Fault World α} {a : α} (h : endsOk r a = true) : r = .ok a (after r) := by
  cases r with
  | ok a' w => simp only [endsOk, decide_eq_true_eq] at h; subst h; rfl
  | error f w => cases h

theorem eq_of_endsWith {α : Type} {r : EStateM.Result Fault World α} {f : Fault} (h : endsWith r f = true) : r = .error f (after r) := by
  cases r with
  | ok a' w => cases h
  | error f' w => simp only [endsWith, decide_eq_true_eq] at h; subst h; rfl

end World

/-! ### A world with three types and four entities -/
namespace Demo
open World

/-- A 4 byte type, an 8 byte type and a zero sized type. -/
def tA : Ty := ⟨0, ⟨4, 2⟩⟩
def tB : Ty := ⟨1, ⟨8, 3⟩⟩
def tZ : Ty := ⟨2, ⟨0, 0⟩⟩
def tC : Ty := ⟨3, ⟨2, 1⟩⟩
/-- `n` bytes `k`. -/
def val (n : Nat) (k : BitVec 8) : Bytes := List.replicate n (some k)
/-- The id with generation 0 and index `i`. -/
abbrev ent (i : BitVec 32) : EcsId := ⟨0, i⟩

/-- Entity 0 has `A = 1111, Z`, entity 3 has `A = 3333`, entity 5 was despawned (and had `A, B`), entity 6 has `A, B`;
entities 1, 2, 4 are the component entities of `A`, `B`, `Z`. -/
def calls : List Call := [
  .spawn .plain [.with tA (val 4 1), .with tB (val 8 2), .build],
  .spawn (.capacity 100) [.with tA (val 4 3), .build],
  .addComponent (ent 0) tZ [],
  .removeComponent (ent 0) tB,
  .spawn .plain [.withDynamicWithData (ent 1) (val 4 5), .with tB (val 8 6), .build],
  .spawn .plain [.with tB (val 8 8), .with tA (val 4 7), .build],
  .despawn (ent 5)]

theorem calls_run : (run calls World.new).isSome = true := by decide +kernel
def demo : World := (run calls World.new).get calls_run
theorem demo_calm : Calm demo := run_calm .new (Option.some_get calls_run).symm
theorem demo_reachable : Reachable demo := demo_calm.reachable

example : demo.Has (ent 0) (ent 1) (val 4 1) ∧ demo.HasComp (ent 0) (ent 4) ∧ ¬ demo.HasComp (ent 0) (ent 2) ∧
    demo.Has (ent 3) (ent 1) (val 4 3) ∧ ¬ demo.Alive (ent 5) ∧ demo.Has (ent 6) (ent 2) (val 8 8) ∧
    demo.Has (ent 6) (ent 1) (val 4 7) ∧ demo.typeMap tA = some (ent 1) ∧ demo.typeMap tB = some (ent 2) ∧ demo.typeMap tZ = some (ent 4) := by
  decide +kernel

end Demo
end Ellecs
