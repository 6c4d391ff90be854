import Verif.Spec.Session
/-!
# Specification: the benchmarks of dynamic components

The programs of benches/bench_dynamic.rs, as sessions.  All of them are `dynBench`: ids for components are made, entities
are spawned with values for these ids, then a loop over a dynamic query runs as often as Criterion wants (`n`).
-/
namespace Ellecs
open World

/-- The components of an entity, by the position of the id in the list of ids (`ids[n]`, bench_dynamic.rs:321). -/
abbrev IdxRow := List (Nat × Bytes)

namespace IdxRow

/-- The id at a position.  (All positions used are in range, see `DynRow` and `C70_iter`.) -/
def idAt (ids : List EcsId) (i : Nat) : EcsId := ids.getD i ⟨0, 0⟩

/-- The components and their values. -/
def cells (ids : List EcsId) (r : IdxRow) : Cells := r.map fun x => (idAt ids x.1, x.2)

/-- What a query for these positions (`true`: mutable) shows. -/
def see (r : IdxRow) (qs : List (Bool × Nat)) : Option (List AWorld.Seen) := qs.mapM fun q => (r.lookup q.2).map .value

def put (r : IdxRow) (i : Nat) (v : Bytes) : IdxRow := r.map fun x => (x.1, if x.1 = i then v else x.2)

/-- The values for the mutable positions are stored. -/
def store (r : IdxRow) : List (Bool × Nat) → List (Option Bytes) → IdxRow
  | (true, i) :: qs, some v :: out => store (r.put i v) qs out
  | _ :: qs, _ :: out => store r qs out
  | _, _ => r

/-- The body `f` of a loop runs for an entity. -/
def run (qs : List (Bool × Nat)) (f : List AWorld.Seen → List (Option Bytes)) (r : IdxRow) : IdxRow :=
  match r.see qs with
  | none => r
  | some ss => r.store qs (f ss)

end IdxRow

/-- `FetchType::Mut(ids[i])` or `FetchType::Immut(ids[i])` -/
def idxFetch (ids : List EcsId) (q : Bool × Nat) : Fetch := if q.1 then .mut (IdxRow.idAt ids q.2) else .immut (IdxRow.idAt ids q.2)

namespace Session

/-- `spawn_with_component_meta(m).build()` for each of the metadata. -/
def spawnMetas : List ComponentMeta → Session (List EcsId)
  | [] => .done []
  | m :: ms => .spawn (.withMeta m) [] fun e => (spawnMetas ms).bind fun es => .done (e :: es)

/-- `spawn().with_dynamic_with_data(..)..build()` for each of the rows. -/
def spawnRows : List Cells → Session (List EcsId)
  | [] => .done []
  | r :: rs => .spawn .plain (r.map fun x => .dyn x.1 x.2) fun e => (spawnRows rs).bind fun es => .done (e :: es)

/-- frag_iter_20_padding_20 (bench_dynamic.rs:6-69), frag_iter_20 (71-119), frag_iter_200 (121-169), frag_iter_2000
(171-219), simple_iter (221-296), simple_large_iter (298-365): `Benchmark::new`, and then `n` times `run`. -/
def dynBench (ms : List ComponentMeta) (rs : List IdxRow) (qs : List (Bool × Nat)) (f : List AWorld.Seen → List (Option Bytes)) (n : Nat) :
    Session (List EcsId × List EcsId) :=
  (spawnMetas ms).bind fun ids => (spawnRows (rs.map (IdxRow.cells ids))).bind fun es =>
    (times n (.forEachDyn (qs.map (idxFetch ids)) f fun _ => .done ())).bind fun _ => .done (ids, es)

end Session

/-- A row that may be spawned: no component twice, and the values have the sizes of the metadata. -/
structure DynRow (ms : List ComponentMeta) (r : IdxRow) : Prop where
  nodup : (r.map Prod.fst).Nodup
  size : ∀ x ∈ r, ∃ m, ms[x.1]? = some m ∧ x.2.length = m.layout.size

/-- Run on a new world the program ends without panic (and without any of the ends excluded by `Exec`).  In every
execution it returns the ids of the components and the entities; they are all different and there are no others; the ids
have the metadata `ms` and no components, the `i`-th entity has just the values of the `i`-th row; no type is
registered; and there are at most `m` tables. -/
def LeavesDyn (p : Session (List EcsId × List EcsId)) (ms : List ComponentMeta) (rs : List IdxRow) (m : Nat) : Prop :=
  (∃ r w, Exec p.compile World.new (.ok r) w) ∧
    ∀ r w, Exec p.compile World.new r w → ∃ ids es l, r = .ok (ids, es) ∧ ids.length = ms.length ∧ es.length = rs.length ∧ (ids ++ es).Nodup ∧ Reachable w ∧
      w.Records l ∧ l.types = [] ∧ l.book = ids.zip (ms.map (⟨·, []⟩)) ++ es.zip (rs.map fun r => ⟨ComponentMeta.unit, r.cells ids⟩) ∧ w.archetypes.length ≤ m

end Ellecs
