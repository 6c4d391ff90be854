import Verif.Proofs.DemoFacts
import Verif.Proofs.Frame
import Verif.Proofs.LockRun
/-!
# Concrete queries

Queries of the world `demo` that the examples beside the theorems about queries and locks use.
-/
namespace Ellecs

instance {α : Type} [DecidableEq α] : DecidableEq (Except Fault α) := fun a b =>
  match a, b with
  | .ok x, .ok y => if h : x = y then .isTrue (by rw [h]) else .isFalse (by intro e; injection e; contradiction)
  | .error x, .error y => if h : x = y then .isTrue (by rw [h]) else .isFalse (by intro e; injection e; contradiction)
  | .ok _, .error _ => .isFalse (by intro e; cases e)
  | .error _, .ok _ => .isFalse (by intro e; cases e)

/-- What an iterator yields, from its first calls. -/
theorem Produces.eq {σ α : Type} {next : σ → Except Fault (Option α × σ)} {s : σ} {xs : List α} (h : Produces next s xs) (ys : List α)
    (hy : callN next (ys.length + 1) s = .ok (ys.map some ++ [none])) : xs = ys := by
  have h1 := h (ys.length + 1)
  rw [hy] at h1
  injection h1 with h1
  have key : ∀ (ys xs : List α), ys.map some ++ [none] = (xs.map some).take (ys.length + 1) ++ List.replicate (ys.length + 1 - xs.length) none → xs = ys := by
    intro ys
    induction ys with
    | nil =>
      intro xs hx
      cases xs with
      | nil => rfl
      | cons x xs => simp at hx
    | cons y ys ih =>
      intro xs hx
      cases xs with
      | nil => simp [List.replicate_succ] at hx
      | cons x xs =>
        simp only [List.map_cons, List.length_cons, List.cons_append, List.take_succ_cons, List.cons.injEq, Option.some.injEq] at hx
        rw [hx.1, ih xs (by rw [hx.2]; simp)]
  exact key ys xs h1

namespace WorldSpec
open World Demo

/-- `demo` while a query `(&B,)` is live. -/
def busy : World := after (query [.ref tB] demo)
theorem busy_made : query [.ref tB] demo = .ok ⟨[.ref tB], [.read 1], some [.immut (ent 2)]⟩ busy := eq_of_endsOk (by decide +kernel)
theorem busy_same : SameButLocks demo busy := (query_ok busy_made).2.1

/-- A query `(&mut A, EcsIds)` made while the other one is live. -/
def qA : StaticQuery := ⟨[.mut tA, .ids], [.write 0, .none], some [.mut (ent 1), .ecsId]⟩
def vA : World := after (query [.mut tA, .ids] busy)
theorem qA_made : query [.mut tA, .ids] busy = .ok qA vA := eq_of_endsOk (by decide +kernel)

/-- A dynamic query for `A` and ids, made at that time. -/
def dA : DynQuery := ⟨[.read 0, .none], [.immut (ent 1), .ecsId], false⟩
def uA : World := after (queryDynamic [.immut (ent 1), .ecsId] busy)
theorem dA_made : queryDynamic [.immut (ent 1), .ecsId] busy = .ok dA uA := eq_of_endsOk (by decide +kernel)

theorem bound_mutA : Pairs (Bound demo) [.mut tA, .ids] [.mut (ent 1), .ecsId] := .cons ⟨ent 1, demo_typeA, rfl⟩ (.cons rfl .nil)

theorem nobody_of {w : World} {c : EcsId} (h : ∀ a ∈ w.archetypes, c ∈ a.storages.map Prod.fst → a.entities = []) (e : EcsId) : ¬ w.HasComp e c := by
  rintro ⟨bs, k, r, a, v, h1, h2, h3, h4⟩
  rw [h a (List.mem_of_getElem? h1) (List.mem_map.2 ⟨_, h3, rfl⟩)] at h2
  simp at h2

/-- `demo` after its only entity with `B` was despawned. -/
theorem noB_runs : (runP [.despawn (ent 6)] demo).isSome = true := by decide +kernel
def noB : World := (runP [.despawn (ent 6)] demo).get noB_runs
theorem noB_reachable : Reachable noB := runP_reachable demo_reachable (Option.some_get noB_runs).symm
theorem noB_none (e : EcsId) (bs : Bytes) : ¬ noB.HasT e tB bs := by
  rintro ⟨c, h1, h2⟩
  have h3 : noB.typeMap tB = some (ent 2) := by decide +kernel
  rw [h3] at h1
  injection h1 with h1; subst h1
  exact nobody_of (by decide +kernel) e ⟨bs, h2⟩

theorem columnAt_of {w : World} {k j n : Nat} {c : EcsId} {f : Fetch} (hf : f.Of c)
    (h : ∃ a ∈ w.archetypes[k]?, a.entities.length = n ∧ ∃ x ∈ a.storages[j]?, x.1 = c) : ColumnAt w k f (⟨.storage k j, 0⟩, n) := by
  obtain ⟨a, h1, h2, ⟨c', v⟩, h3, h4⟩ := h
  cases h4
  rcases hf with rfl | rfl <;> exact ⟨a, h1, h2.symm, j, v, h3, rfl⟩

theorem one_A : ColumnAt demo 1 (.mut (ent 1)) (⟨.storage 1 0, 0⟩, 1) := columnAt_of (Or.inl rfl) (by decide +kernel)
theorem one_B : ColumnAt demo 1 (.mut (ent 2)) (⟨.storage 1 1, 0⟩, 1) := columnAt_of (Or.inl rfl) (by decide +kernel)

theorem sizeA : FetchSize demo (.mut (ent 1)) 4 := ⟨_, infoOf_iff.1 (Option.some_get (by decide +kernel : (demo.infoOf (ent 1)).isSome = true)).symm, by decide +kernel⟩
theorem sizeB : FetchSize demo (.mut (ent 2)) 8 := ⟨_, infoOf_iff.1 (Option.some_get (by decide +kernel : (demo.infoOf (ent 2)).isSome = true)).symm, by decide +kernel⟩

/-- The rows of the two queries. -/
theorem qA_rows {it : StaticIter} {rows : List (List Item)} (hit : qA.iter vA = .ok it) (h : Produces (fun s => StaticIter.next vA s) it rows) :
    rows = [[.mut tA ⟨.storage 1 0, 0⟩, .id (ent 6)], [.mut tA ⟨.storage 2 0, 0⟩, .id (ent 3)], [.mut tA ⟨.storage 4 0, 0⟩, .id (ent 0)]] := by
  refine h.eq _ ?_
  have h1 : (match qA.iter vA with | .ok it => callN (fun s => StaticIter.next vA s) 4 it | .error f => .error f) =
      .ok [some [.mut tA ⟨.storage 1 0, 0⟩, .id (ent 6)], some [.mut tA ⟨.storage 2 0, 0⟩, .id (ent 3)], some [.mut tA ⟨.storage 4 0, 0⟩, .id (ent 0)], none] := by
    decide +kernel
  rw [hit] at h1
  exact h1

theorem dA_rows {it : DynIter} {rows : List (List Ptr)} (hit : dA.iter uA = .ok it) (h : Produces (fun s => DynIter.next uA s) it rows) :
    rows = [[⟨.storage 1 0, 0⟩, ⟨.entities 1, 0⟩], [⟨.storage 2 0, 0⟩, ⟨.entities 2, 0⟩], [⟨.storage 4 0, 0⟩, ⟨.entities 4, 0⟩]] := by
  refine h.eq _ ?_
  have h1 : (match dA.iter uA with | .ok it => callN (fun s => DynIter.next uA s) 4 it | .error f => .error f) =
      .ok [some [⟨.storage 1 0, 0⟩, ⟨.entities 1, 0⟩], some [⟨.storage 2 0, 0⟩, ⟨.entities 2, 0⟩], some [⟨.storage 4 0, 0⟩, ⟨.entities 4, 0⟩], none] := by
    decide +kernel
  rw [hit] at h1
  exact h1

theorem _root_.Ellecs.World.SameButLocks.refl (w : World) : SameButLocks w w := ⟨w.locks, rfl, rfl⟩

theorem dM_made : queryDynamic [.mut (ent 1), .ecsId] demo = .ok ⟨[.write 0, .none], [.mut (ent 1), .ecsId], false⟩ (after (queryDynamic [.mut (ent 1), .ecsId] demo)) :=
  eq_of_endsOk (by decide +kernel)

/-- Nothing has the component entity 0. -/
theorem d0_made : queryDynamic [.immut (ent 1), .mut (ent 0)] busy =
    .ok ⟨[.read 0, .none], [.immut (ent 1), .mut (ent 0)], true⟩ (after (queryDynamic [.immut (ent 1), .mut (ent 0)] busy)) := eq_of_endsOk (by decide +kernel)

theorem qB_made : query [.ref tA, .mut tB] noB =
    .ok ⟨[.ref tA, .mut tB], [.read 0, .write 1], some [.immut (ent 1), .mut (ent 2)]⟩ (after (query [.ref tA, .mut tB] noB)) := eq_of_endsOk (by decide +kernel)

/-- The world in which an operation without result ends. -/
theorem ok_of_isSome {x : Except Fault World} (h : x.toOption.isSome = true) : x = .ok (x.toOption.get h) := by
  cases x with
  | ok a => rfl
  | error f => cases h

/-- A write of `A` of entity 6. -/
theorem wrote_ok : (demo.writePtr ⟨.storage 1 0, 0⟩ (val 4 9)).toOption.isSome = true := by decide +kernel
def wrote : World := (demo.writePtr ⟨.storage 1 0, 0⟩ (val 4 9)).toOption.get wrote_ok
theorem wrote_made : demo.writePtr ⟨.storage 1 0, 0⟩ (val 4 9) = .ok wrote := ok_of_isSome wrote_ok

/-- The fetches of a list of parameters are determined. -/
theorem Bound.unique {w : World} {ps : List Param} {fs fs' : List Fetch} (h : Pairs (Bound w) ps fs) (h' : Pairs (Bound w) ps fs') : fs = fs' := by
  have := (allFetches_bound.2 h).symm.trans (allFetches_bound.2 h')
  injection this

/-- The query `(&mut A,)` is alive; then also `(&B, EcsIds)`. -/
def one : World := after (query [.mut tA] demo)
def two : World := after (query [.ref tB, .ids] one)
theorem one_made : query [.mut tA] demo = .ok ⟨[.mut tA], [.write 0], some [.mut (ent 1)]⟩ one := eq_of_endsOk (by decide +kernel)
theorem two_made : query [.ref tB, .ids] one = .ok ⟨[.ref tB, .ids], [.read 1, .none], some [.immut (ent 2), .ecsId]⟩ two := eq_of_endsOk (by decide +kernel)

/-- The two queries. -/
def liveA : LiveQuery := ⟨[], [(.mut (ent 1), .write 0)], none⟩
def liveB : LiveQuery := ⟨[], [(.immut (ent 2), .read 1), (.ecsId, .none)], none⟩

theorem one_run : LockRun demo one.locks [liveA] := by
  have h1 : LockRun demo demo.locks [⟨[.mut (ent 1)], [], none⟩] := .step (.refl _ _) (.create [.mut (ent 1)])
  have h2 : (Fetch.mut (ent 1)).acquireStatic demo demo.locks = .ok (.write 0, one.locks) := by decide +kernel
  exact .step h1 (.acquire (pre := []) (post := []) (Or.inl h2))

theorem two_run : LockRun demo two.locks [liveA, liveB] := by
  have h1 : LockRun demo one.locks [liveA, ⟨[.immut (ent 2), .ecsId], [], none⟩] := .step one_run (.create [.immut (ent 2), .ecsId])
  have h2 : (Fetch.immut (ent 2)).acquireStatic demo one.locks = .ok (.read 1, two.locks) := by decide +kernel
  have h3 : Fetch.ecsId.acquireStatic demo two.locks = .ok (.none, two.locks) := by decide +kernel
  have h4 : LockRun demo two.locks [liveA, ⟨[.ecsId], [(.immut (ent 2), .read 1)], none⟩] := .step h1 (.acquire (pre := [liveA]) (post := []) (Or.inl h2))
  exact .step h4 (.acquire (pre := [liveA]) (post := []) (Or.inl h3))

instance decPoisoned (w : World) (c : EcsId) : Decidable (w.Poisoned c) :=
  decidable_of_iff (∃ i ∈ w.lockLookup c, ∃ l ∈ w.locks[i]?, l.poisoned = true) (by
    constructor
    · rintro ⟨i, h1, l, h2, h3⟩; exact ⟨i, l, h1, h2, h3⟩
    · rintro ⟨i, l, h1, h2, h3⟩; exact ⟨i, h1, l, h2, h3⟩)

/-- The component a fetch asks for. -/
def _root_.Ellecs.Fetch.comp? : Fetch → Option EcsId
  | .ecsId => none
  | .mut c | .immut c => some c

theorem _root_.Ellecs.Fetch.of_iff {f : Fetch} {c : EcsId} : f.Of c ↔ f.comp? = some c := by
  cases f <;> simp [Fetch.Of, Fetch.comp?]

/-- The type a parameter asks for. -/
def _root_.Ellecs.Param.ty? : Param → Option Ty
  | .ids => none
  | .mut t | .ref t => some t

theorem _root_.Ellecs.Param.of_iff {p : Param} {t : Ty} : p.Of t ↔ p.ty? = some t := by
  cases p <;> simp [Param.Of, Param.ty?]

instance decOf (f : Fetch) (c : EcsId) : Decidable (f.Of c) := decidable_of_iff _ Fetch.of_iff.symm

instance decFetchClash (f f' : Fetch) : Decidable (Ellecs.Clash f f') :=
  decidable_of_iff (∃ c ∈ f.comp?, f'.comp? = some c ∧ (f = .mut c ∨ f' = .mut c)) (by
    simp only [Ellecs.Clash, Fetch.of_iff, Option.mem_def])

instance decSelfClash (fs : List Fetch) : Decidable (SelfClash fs) :=
  decidable_of_iff (∃ i < fs.length, ∃ j < fs.length, i ≠ j ∧ ∃ f ∈ fs[i]?, ∃ f' ∈ fs[j]?, Ellecs.Clash f f') (by
    constructor
    · rintro ⟨i, _, j, _, hij, f, h1, f', h2, h⟩; exact ⟨i, j, f, f', hij, h1, h2, h⟩
    · rintro ⟨i, j, f, f', hij, h1, h2, h⟩
      exact ⟨i, (List.getElem?_eq_some_iff.1 h1).1, j, (List.getElem?_eq_some_iff.1 h2).1, hij, f, h1, f', h2, h⟩)

theorem comps_all {fs : List Fetch} {P : EcsId → Prop} (h : ∀ f ∈ fs, ∀ c ∈ f.comp?, P c) : ∀ f ∈ fs, ∀ c, f.Of c → P c :=
  fun f hf c hc => h f hf c (Fetch.of_iff.1 hc)

theorem types_all {ps : List Param} {P : Ty → Prop} (h : ∀ p ∈ ps, ∀ t ∈ p.ty?, P t) : ∀ p ∈ ps, ∀ t, p.Of t → P t :=
  fun p hp t ht => h p hp t (Param.of_iff.1 ht)

theorem bound_all {w : World} {ps : List Param} {fs : List Fetch} {P : List Fetch → Prop} (hb : Pairs (Bound w) ps fs) (h : P fs) :
    ∀ fs', Pairs (Bound w) ps fs' → P fs' := fun _ hb' => Bound.unique hb hb' ▸ h

/-- A third query `(&B, &mut Z)`, and a dynamic one. -/
def qBZ : StaticQuery := ⟨[.ref tB, .mut tZ], [.read 1, .write 2], some [.immut (ent 2), .mut (ent 4)]⟩
def heldBZ : World := after (query [.ref tB, .mut tZ] { demo with locks := two.locks })
theorem heldBZ_made : query [.ref tB, .mut tZ] { demo with locks := two.locks } = .ok qBZ heldBZ := eq_of_endsOk (by decide +kernel)
theorem bound_BZ : Pairs (Bound demo) [.ref tB, .mut tZ] [.immut (ent 2), .mut (ent 4)] := .cons ⟨_, demo_typeB, rfl⟩ (.cons ⟨_, demo_typeZ, rfl⟩ .nil)

def dBZ : DynQuery := ⟨[.read 1, .write 2], [.immut (ent 2), .mut (ent 4)], false⟩
def four : World := after (queryDynamic [.immut (ent 2), .mut (ent 4)] { demo with locks := two.locks })
theorem four_made : queryDynamic [.immut (ent 2), .mut (ent 4)] { demo with locks := two.locks } = .ok dBZ four := eq_of_endsOk (by decide +kernel)

/-- A dynamic query may ask twice for something that is no component: it takes no lock for it. -/
def liveU : LiveQuery := ⟨[], [(.mut (ent 0), .none), (.mut (ent 0), .none)], none⟩
theorem unused_run : LockRun demo demo.locks [liveU] := by
  have h1 : LockRun demo demo.locks [⟨[.mut (ent 0), .mut (ent 0)], [], none⟩] := .step (.refl _ _) (.create _)
  have h2 : (Fetch.mut (ent 0)).acquireDyn demo demo.locks = .ok (.none, demo.locks, true) := by decide +kernel
  have h3 : LockRun demo demo.locks [⟨[.mut (ent 0)], [(.mut (ent 0), .none)], none⟩] := .step h1 (.acquire (pre := []) (post := []) (Or.inr ⟨_, h2⟩))
  exact .step h3 (.acquire (pre := []) (post := []) (Or.inr ⟨_, h2⟩))

theorem step_release {w : World} {ls : List RwLock} {f : Fetch} {g : Guard} :
    LockStep w ls [⟨[], [(f, g)], some true⟩] (g.release true ls) [⟨[], [], some true⟩] := .release (pre := []) (post := [])

theorem panic_run {w : World} {ls : List RwLock} {f : Fetch} {g : Guard} (h : LockRun w ls [⟨[], [(f, g)], none⟩]) :
    LockRun w ls [⟨[], [(f, g)], some true⟩] ∧ LockRun w (g.release true ls) [] :=
  have h1 : LockRun w ls [⟨[], [(f, g)], some true⟩] := .step h (.close (pre := []) (post := []) true)
  ⟨h1, .step (.step h1 step_release) (.gone (pre := []) (post := []))⟩

/-- The owner of the query `(&mut A,)` panics: the query is being dropped, and then gone. -/
def closingA : LiveQuery := ⟨[], [(.mut (ent 1), .write 0)], some true⟩
def sickLocks : List RwLock := (Guard.write 0).release true one.locks
theorem closing_run : LockRun demo one.locks [closingA] := (panic_run one_run).1
theorem release_step : LockStep demo one.locks [closingA] sickLocks [⟨[], [], some true⟩] := step_release
theorem sick_run : LockRun demo sickLocks [] := (panic_run one_run).2
theorem sick_poisoned : Poisoned { demo with locks := sickLocks } (ent 1) := by decide +kernel

/-- The owner of a query of `&mut A` and `&B` panicked. -/
def bad : World := after ((Call.query [.mut tA, .ref tB] true).exec demo)
theorem bad_made : (Call.query [.mut tA, .ref tB] true).exec demo = .ok () bad := eq_of_endsOk (by decide +kernel)
theorem bad_reachable : Reachable bad := .ok (.query [.mut tA, .ref tB] true) demo_reachable trivial bad_made (by decide +kernel)

end WorldSpec
end Ellecs
