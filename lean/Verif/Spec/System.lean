import Verif.Spec.Abstract
/-!
# Specification: loops over queries

`for row in query.iter() { .. }`, where the body looks at everything the row shows and stores new values through the
mutable references of the row.  This is what programs use the crate for (`run` in benches/bench_static.rs and
benches/bench_dynamic.rs, the loop in playground/src/main.rs).  `ForEach` runs such a loop on the tables, pointer by
pointer; `AWorld.sweep` and `AWorld.each` say what it is meant to do.
-/
namespace Ellecs

/-- What a loop body does with a row, given what it remembers from earlier rows (`τ`): the new values for the positions
of the row (`none`: nothing is stored there), and what it remembers. -/
abbrev Body (τ : Type) := τ → List AWorld.Seen → τ × List (Option Bytes)

namespace World

/-- Store one value after the other. -/
def storeAll : World → List (Ptr × Bytes) → Except Fault World
  | w, [] => .ok w
  | w, (p, bs) :: ts =>
    match w.writePtr p bs with
    | .error f => .error f
    | .ok w' => w'.storeAll ts

/-- Where the body of a loop over a static query stores: through the mutable references. -/
def targets : List Item → List (Option Bytes) → List (Ptr × Bytes)
  | .mut _ p :: is, some bs :: out => (p, bs) :: targets is out
  | _ :: is, _ :: out => targets is out
  | _, _ => []

/-- The same for a dynamic query: through the pointers of the mutable fetches. -/
def targetsDyn : List Fetch → List Ptr → List (Option Bytes) → List (Ptr × Bytes)
  | .mut _ :: fs, p :: ps, some bs :: out => (p, bs) :: targetsDyn fs ps out
  | _ :: fs, _ :: ps, _ :: out => targetsDyn fs ps out
  | _, _, _ => []

/-- The loop: call `next`, look at the row, run the body, store, until `next` returns `None`.  From `w`, with the iterator
`s` and the memory `x`, it ends in a world and with a memory; a loop that panics or touches memory it may not touch does
not end. -/
inductive ForEach {σ ρ τ : Type} (next : World → σ → Except Fault (Option ρ × σ)) (see : World → ρ → Except Fault (List AWorld.Seen))
    (target : ρ → List (Option Bytes) → List (Ptr × Bytes)) (body : Body τ) : World → σ → τ → World → τ → Prop
  | done {w : World} {s s' : σ} {x : τ} : next w s = .ok (none, s') → ForEach next see target body w s x w x
  | row {w w1 w2 : World} {s s' : σ} {r : ρ} {ss : List AWorld.Seen} {x z : τ} : next w s = .ok (some r, s') → see w r = .ok ss →
      w.storeAll (target r (body x ss).2) = .ok w1 → ForEach next see target body w1 s' (body x ss).1 w2 z →
      ForEach next see target body w s x w2 z

/-- `for row in query.iter()` of a static query. -/
abbrev ForEachStatic {τ : Type} (body : Body τ) : World → StaticIter → τ → World → τ → Prop :=
  ForEach StaticIter.next (fun w r => r.mapM w.readItem) targets body

/-- `for row in query.iter()` of a dynamic query. -/
abbrev ForEachDyn {τ : Type} (fs : List Fetch) (body : Body τ) : World → DynIter → τ → World → τ → Prop :=
  ForEach DynIter.next (fun w r => (fs.zip r).mapM (fun x => w.readFetch x.1 x.2)) (targetsDyn fs) body

end World

/-- The values stored have the sizes of the types (the type system guarantees this). -/
def Body.Typed {τ : Type} (ps : List Param) (body : Body τ) : Prop :=
  ∀ (x : τ) (ss : List AWorld.Seen) (i : Nat) (t : Ty) (bs : Bytes), ps[i]? = some (.mut t) → (body x ss).2[i]? = some (some bs) → bs.length = t.size

/-- The values stored have the sizes recorded for the components (the caller of the unsafe cast guarantees this). -/
def Body.Sized {τ : Type} (a : AWorld) (fs : List Fetch) (body : Body τ) : Prop :=
  ∀ (x : τ) (ss : List AWorld.Seen) (i : Nat) (c : EcsId) (m : ComponentMeta) (bs : Bytes), fs[i]? = some (.mut c) → a.info c = some m →
    (body x ss).2[i]? = some (some bs) → bs.length = m.layout.size

namespace AWorld

/-- An entity gets new values. -/
def storeAll (e : EcsId) : List (EcsId × Bytes) → AWorld → AWorld
  | [], a => a
  | (c, bs) :: cs, a => storeAll e cs { a with cell := fun x y => if x = e ∧ y = c then some bs else a.cell x y }

/-- The components a row of a static query stores. -/
def cells (a : AWorld) : List Param → List (Option Bytes) → List (EcsId × Bytes)
  | .mut t :: ps, some bs :: out =>
    match a.types t with
    | none => a.cells ps out
    | some c => (c, bs) :: a.cells ps out
  | _ :: ps, _ :: out => a.cells ps out
  | _, _ => []

/-- The components a row of a dynamic query stores. -/
def cellsDyn : List Fetch → List (Option Bytes) → List (EcsId × Bytes)
  | .mut c :: fs, some bs :: out => (c, bs) :: cellsDyn fs out
  | _ :: fs, _ :: out => cellsDyn fs out
  | _, _ => []

/-- The body runs once for each of the entities, in this order; it is shown `row e`. -/
def sweep {τ : Type} (row : EcsId → Option (List Seen)) (cells : List (Option Bytes) → List (EcsId × Bytes)) (body : Body τ) :
    List EcsId → AWorld → τ → AWorld × τ
  | [], a, x => (a, x)
  | e :: es, a, x =>
    match row e with
    | none => sweep row cells body es a x
    | some ss => sweep row cells body es (a.storeAll e (cells (body x ss).2)) (body x ss).1

/-- A body that remembers nothing runs for every entity that has a row. -/
def each (row : EcsId → Option (List Seen)) (cells : List (Option Bytes) → List (EcsId × Bytes)) (f : List Seen → List (Option Bytes)) (a : AWorld) : AWorld :=
  { a with cell := fun e c =>
    match row e with
    | none => a.cell e c
    | some ss => (a.storeAll e (cells (f ss))).cell e c }

/-- A loop over a static query whose body remembers nothing. -/
def run (ps : List Param) (f : List Seen → List (Option Bytes)) (a : AWorld) : AWorld := a.each (a.row ps) (a.cells ps) f

/-- A loop over a dynamic query whose body remembers nothing. -/
def runDyn (fs : List Fetch) (f : List Seen → List (Option Bytes)) (a : AWorld) : AWorld := a.each (a.rowDyn fs) (cellsDyn fs) f

end AWorld

/-- A body that remembers nothing. -/
def Body.of (f : List AWorld.Seen → List (Option Bytes)) : Body Unit := fun _ ss => ((), f ss)

end Ellecs
