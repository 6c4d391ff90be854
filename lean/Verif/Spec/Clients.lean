import Verif.Spec.Database
/-!
# Specification: the programs of the repository that use the crate

The playground (playground/src/main.rs) and the benchmarks of typed components (benches/bench_static.rs), as scripts.
What is general in them (the types, their numbers, the values, the number of runs, the arithmetic on the values) are
parameters.  Criterion decides how often `run` is called (benches/benchmarks.rs): `n` stands for any number.
-/
namespace Ellecs
open World

namespace Script

/-- One `spawn!` for each of the rows (all `Benchmark::new`); returns the entities in order. -/
def spawnAll : List Fields → Script (List EcsId)
  | [] => .done []
  | r :: rs => .spawn r fun e => (spawnAll rs).bind fun es => .done (e :: es)

/-- As `create_entities!` of `padded_get` (bench_static.rs:545-556): each new entity gets one more component by
`add_component`. -/
def spawnAddAll (t : Ty) (v : Bytes) : List Fields → Script (List EcsId)
  | [] => .done []
  | r :: rs => .spawn r fun e => .add e t v ((spawnAddAll t v rs).bind fun es => .done (e :: es))

/-- `Benchmark::new` and then `n` times `query::<..>().iter().for_each(..)`: frag_iter_20_padding_20 (bench_static.rs:3-75),
frag_iter_2000, frag_iter_200, frag_iter_20 (77-206), simple_iter (208-250), simple_large_iter (339-385); with `n = 0`
simple_insert and frag_insert (252-337). -/
def iterBench (rs : List Fields) (ps : List Param) (f : List AWorld.Seen → List (Option Bytes)) (n : Nat) : Script (List EcsId) :=
  (spawnAll rs).bind fun es => (times n (.forEach ps f fun _ => .done ())).bind fun _ => .done es

/-- add_remove, padded_add_remove, wide_add_remove (bench_static.rs:387-504): all entities get a component, then it is
removed from all of them. -/
def addRemoveBench (rs : List Fields) (t : Ty) (v : Bytes) (n : Nat) : Script (List EcsId) :=
  (spawnAll rs).bind fun es =>
    (times n ((forEachIn es fun e => .add e t v (.done ())).bind fun _ => forEachIn es fun e => .remove e t (.done ()))).bind fun _ => .done es

/-- `let mut q = world.query::<(&mut T,)>(); for &e in es { q.get(e).unwrap() }`, `n` times.  The script looks at what
was found at the end of the loop; in the code it is inside.  (They differ only when there is something to fail at.) -/
def getAll (t : Ty) (es : List EcsId) (n : Nat) : Script Unit :=
  times n (.lookEach [.mut t] (fun _ => []) es fun found => if found.all Option.isSome then .done () else .fail .unwrapNone)

/-- The playground (playground/src/main.rs:9-24) and `get` (bench_static.rs:506-536). -/
def getBench (rs : List Fields) (t : Ty) (n : Nat) : Script (List EcsId) :=
  (spawnAll rs).bind fun es => (getAll t es n).bind fun _ => .done es

/-- `padded_get` (bench_static.rs:538-577). -/
def paddedGetBench (rs : List Fields) (t : Ty) (v : Bytes) (n : Nat) : Script (List EcsId) :=
  (spawnAddAll t v rs).bind fun es => (getAll t es n).bind fun _ => .done es

end Script

/-- A row that may be spawned: no type twice, all values have the size of their type, and the combination of types is one
of those of the scope. -/
structure Scope.Row (sc : Scope) (r : Fields) : Prop where
  nodup : (r.map Prod.fst).Nodup
  size : ∀ x ∈ r, x.2.length = x.1.size
  allows : sc.Allows (r.map Prod.fst)

/-- Run on a new world the program ends without panic (and without any of the ends excluded by `Exec`).  In every
execution the entities it returns are different, they are the only ones besides those that stand for types, the `i`-th of
them has just the values of the `i`-th row, and there are at most `m` tables. -/
def Leaves (p : Script (List EcsId)) (rs : List Fields) (m : Nat) : Prop :=
  (∃ es w, Exec p.compile World.new (.ok es) w) ∧
    ∀ r w, Exec p.compile World.new r w → ∃ es, r = .ok es ∧ es.length = rs.length ∧ es.Nodup ∧ Reachable w ∧ w.Stores (es.zip rs) ∧ w.archetypes.length ≤ m

end Ellecs
