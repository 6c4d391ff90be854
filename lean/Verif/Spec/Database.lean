import Verif.Spec.Program
/-!
# Specification: a world as a database

The view of a program that uses component types only (no component ids): a list of entities, each with the values of some
types.  `Client` are programs that stop at the first panic.
-/
namespace Ellecs
open World

/-- The values of an entity. -/
abbrev Fields := List (Ty × Bytes)

/-- Entities and their values. -/
abbrev Db := List (EcsId × Fields)

namespace Fields

/-- What a query shows of an entity with these values, if it shows it. -/
def see (e : EcsId) (r : Fields) (ps : List Param) : Option (List AWorld.Seen) :=
  ps.mapM fun
    | .ids => some (.id e)
    | .mut t | .ref t => (r.lookup t).map .value

/-- A value is overwritten. -/
def put (r : Fields) (t : Ty) (v : Bytes) : Fields := r.map fun x => if x.1 = t then (t, v) else x

/-- The values for the mutable references of a row are stored. -/
def store (r : Fields) : List Param → List (Option Bytes) → Fields
  | .mut t :: ps, some v :: out => store (r.put t v) ps out
  | _ :: ps, _ :: out => store r ps out
  | _, _ => r

/-- A value is taken away. -/
def drop (r : Fields) (t : Ty) : Fields := r.filter fun x => x.1 ≠ t

/-- The body `f` of a loop runs for an entity. -/
def run (ps : List Param) (f : List AWorld.Seen → List (Option Bytes)) (e : EcsId) (r : Fields) : Fields :=
  match r.see e ps with
  | none => r
  | some ss => r.store ps (f ss)

/-- Values a caller may give to a new entity: each type once, right sizes. -/
structure Ok (s : Nat) (r : Fields) : Prop where
  nodup : (r.map Prod.fst).Nodup
  size : ∀ x ∈ r, x.2.length = x.1.size
  small : ∀ x ∈ r, x.1.size ≤ s

end Fields

namespace Db

/-- The values of one entity change. -/
def update (e : EcsId) (f : Fields → Fields) (db : Db) : Db := db.map fun x => if x.1 = e then (e, f x.2) else x

/-- An entity is taken away. -/
def remove (e : EcsId) (db : Db) : Db := db.filter fun x => x.1 ≠ e

/-- A loop over a query. -/
def run (ps : List Param) (f : List AWorld.Seen → List (Option Bytes)) (db : Db) : Db := db.map fun x => (x.1, x.2.run ps f x.1)

/-- The rows a query shows. -/
def rows (ps : List Param) (db : Db) : List (List AWorld.Seen) := db.filterMap fun x => x.2.see x.1 ps

/-- One entity after the other is looked up in a query, and changed. -/
def visit (ps : List Param) (f : List AWorld.Seen → List (Option Bytes)) (es : List EcsId) (db : Db) : Db :=
  es.foldl (fun db e => db.update e (Fields.run ps f e)) db

/-- The rows these look-ups show. -/
def got (ps : List Param) (f : List AWorld.Seen → List (Option Bytes)) : List EcsId → Db → List (Option (List AWorld.Seen))
  | [], _ => []
  | e :: es, db => (db.lookup e).bind (Fields.see e · ps) :: got ps f es (db.update e (Fields.run ps f e))

end Db

namespace World

/-- The database is what is in the world: its entities (besides the ones that stand for types) and their values. -/
structure Stores (w : World) (db : Db) : Prop where
  keys : (db.map Prod.fst).Nodup
  alive : ∀ e, w.isAlive e = .ok true ↔ e ∈ db.map Prod.fst ∨ ∃ t, w.typeMap t = some e
  apart : ∀ e ∈ db.map Prod.fst, ∀ t, w.typeMap t ≠ some e
  values : ∀ e t bs, (∃ c, w.typeMap t = some c ∧ w.Has e c bs) ↔ ∃ r, (e, r) ∈ db ∧ r.lookup t = some bs

/-- No two parameters of the query exclude each other. -/
def Compatible (ps : List Param) : Prop :=
  ps.Pairwise fun p q => ∀ t, (p = .mut t → q ≠ .mut t ∧ q ≠ .ref t) ∧ (p = .ref t → q ≠ .mut t)

/-- The query asks for a type (one that asks only for ids also shows the entities of component types). -/
def AsksType (ps : List Param) : Prop := ∃ t, .mut t ∈ ps ∨ .ref t ∈ ps

end World

/-- The results have the sizes of the types that are stored. -/
def FitsTypes (ps : List Param) (f : List AWorld.Seen → List (Option Bytes)) : Prop :=
  ∀ (ss : List AWorld.Seen) (i : Nat) (t : Ty) (bs : Bytes), ps[i]? = some (.mut t) → (f ss)[i]? = some (some bs) → bs.length = t.size

/-! ### programs that stop at the first panic -/

abbrev Client (α : Type) := ExceptT Fault Prog α

namespace Client

def answerId : Except Fault Answer → Except Fault EcsId
  | .ok (.id e) => .ok e
  | .ok _ => .error .fuel
  | .error f => .error f

def answerBool : Except Fault Answer → Except Fault Bool
  | .ok (.bool b) => .ok b
  | .ok _ => .error .fuel
  | .error f => .error f

def answerUnit : Except Fault Answer → Except Fault Unit
  | .ok _ => .ok ()
  | .error f => .error f

/-- `spawn!(&mut world, ..)` (arche_tape/src/lib.rs:6-15). -/
def spawn (r : Fields) : Client EcsId :=
  Prog.ask (.spawn .plain (r.map (fun x => .with x.1 x.2) ++ [.build])) fun x => .done (answerId x)

/-- `world.add_component(e, v)` -/
def add (e : EcsId) (t : Ty) (v : Bytes) : Client Unit := Prog.ask (.call (.addComponent e t v)) fun x => .done (answerUnit x)

/-- `world.remove_component::<T>(e)` -/
def remove (e : EcsId) (t : Ty) : Client Unit := Prog.ask (.call (.removeComponent e t)) fun x => .done (answerUnit x)

/-- `world.despawn(e)` -/
def despawn (e : EcsId) : Client Bool := Prog.ask (.despawn e) fun x => .done (answerBool x)

/-- `world.has_component::<T>(e)` -/
def has (e : EcsId) (t : Ty) : Client Bool := Prog.ask (.has t e) fun x => .done (answerBool x)

/-- `world.query::<..>().iter().for_each(..)`; returns the rows, the last one first. -/
def forEach (ps : List Param) (f : List AWorld.Seen → List (Option Bytes)) : Client (List (List AWorld.Seen)) :=
  Prog.loop ps (fun | ss :: _ => f ss | [] => []) .done

/-- `let mut q = world.query::<..>(); for &e in es { .. q.get(e) .. }`; returns what was found. -/
def lookEach (ps : List Param) (f : List AWorld.Seen → List (Option Bytes)) (es : List EcsId) : Client (List Found) :=
  Prog.visit ps es (fun | some ss :: _ => f ss | _ => []) fun
    | .ok h => .done (.ok h.reverse)
    | .error f => .done (.error f)

/-- `world.is_alive(e)` -/
def isAlive (e : EcsId) : Client Bool := Prog.ask (.isAlive e) fun x => .done (answerBool x)

end Client

/-! ### scripts -/

/-- A program that knows component types only.  It stops at the first panic. -/
inductive Script (α : Type) : Type
  | done (x : α)
  /-- a panic of the program itself -/
  | fail (f : Fault)
  | spawn (r : Fields) (k : EcsId → Script α)
  | add (e : EcsId) (t : Ty) (v : Bytes) (k : Script α)
  | remove (e : EcsId) (t : Ty) (k : Script α)
  | despawn (e : EcsId) (k : Bool → Script α)
  | isAlive (e : EcsId) (k : Bool → Script α)
  | has (e : EcsId) (t : Ty) (k : Bool → Script α)
  /-- `for row in query.iter()`: the values to store are chosen by the row -/
  | forEach (ps : List Param) (f : List AWorld.Seen → List (Option Bytes)) (k : List (List AWorld.Seen) → Script α)
  /-- `get` for each of the entities -/
  | lookEach (ps : List Param) (f : List AWorld.Seen → List (Option Bytes)) (es : List EcsId) (k : List Found → Script α)

/-- What a script knows: the database, the entities that were despawned, how many were spawned. -/
structure Scene where
  db : Db
  dead : List EcsId
  spawned : Nat

/-- The types, the combinations of types and the sizes a script may use. -/
structure Scope where
  types : List Ty
  shapes : List (List Ty)
  size : Nat

namespace Scope

structure Ok (sc : Scope) : Prop where
  size : sc.size < 2 ^ 29
  sizes : ∀ t ∈ sc.types, t.size ≤ sc.size
  types : sc.types.length < 2 ^ 32
  shapes : sc.shapes.length < 2 ^ 32
  empty : [] ∈ sc.shapes

/-- An entity may have values of just these types. -/
def Allows (sc : Scope) (l : List Ty) : Prop := (∀ t ∈ l, t ∈ sc.types) ∧ ∃ l' ∈ sc.shapes, ∀ t, t ∈ l' ↔ t ∈ l

end Scope

namespace Script

def bind {α β : Type} : Script α → (α → Script β) → Script β
  | .done x, f => f x
  | .fail e, _ => .fail e
  | .spawn r k, f => .spawn r (fun e => (k e).bind f)
  | .add e t v k, f => .add e t v (k.bind f)
  | .remove e t k, f => .remove e t (k.bind f)
  | .despawn e k, f => .despawn e (fun b => (k b).bind f)
  | .isAlive e k, f => .isAlive e (fun b => (k b).bind f)
  | .has e t k, f => .has e t (fun b => (k b).bind f)
  | .forEach ps g k, f => .forEach ps g (fun rs => (k rs).bind f)
  | .lookEach ps g es k, f => .lookEach ps g es (fun rs => (k rs).bind f)

instance : Monad Script where
  pure := .done
  bind := bind

/-- The program it stands for. -/
def compile {α : Type} : Script α → Client α
  | .done x => pure x
  | .fail f => throw f
  | .spawn r k => Client.spawn r >>= fun e => (k e).compile
  | .add e t v k => Client.add e t v >>= fun _ => k.compile
  | .remove e t k => Client.remove e t >>= fun _ => k.compile
  | .despawn e k => Client.despawn e >>= fun b => (k b).compile
  | .isAlive e k => Client.isAlive e >>= fun b => (k b).compile
  | .has e t k => Client.has e t >>= fun b => (k b).compile
  | .forEach ps f k => Client.forEach ps f >>= fun rs => (k rs).compile
  | .lookEach ps f es k => Client.lookEach ps f es >>= fun rs => (k rs).compile

/-- One script after the other. -/
def forEachIn {β : Type} : List β → (β → Script Unit) → Script Unit
  | [], _ => .done ()
  | x :: xs, f => (f x).bind fun _ => forEachIn xs f

/-- `(0..n).for_each(..)` -/
def times : Nat → Script Unit → Script Unit
  | 0, _ => .done ()
  | n + 1, p => p.bind fun _ => times n p

/-- The logic of scripts: it speaks of the database only. -/
def wp {α : Type} (sc : Scope) : Script α → Scene → (α → Scene → Prop) → Prop
  | .done x, sn, Q => Q x sn
  | .fail _, _, _ => False
  | .spawn r k, sn, Q =>
    (r.map Prod.fst).Nodup ∧ (∀ x ∈ r, x.2.length = x.1.size) ∧ sc.Allows (r.map Prod.fst) ∧ sn.spawned + 1 + sc.types.length ≤ 2 ^ 32 ∧
      ∀ e, e ∉ sn.db.map Prod.fst → e ∉ sn.dead → wp sc (k e) ⟨sn.db ++ [(e, r)], sn.dead, sn.spawned + 1⟩ Q
  | .add e t v k, sn, Q =>
    ∃ r, sn.db.lookup e = some r ∧ r.lookup t = none ∧ v.length = t.size ∧ sc.Allows (r.map Prod.fst ++ [t]) ∧
      wp sc k { sn with db := sn.db.update e (fun r => r ++ [(t, v)]) } Q
  | .remove e t k, sn, Q =>
    ∃ r, sn.db.lookup e = some r ∧ r.lookup t ≠ none ∧ sc.Allows ((r.drop t).map Prod.fst) ∧ wp sc k { sn with db := sn.db.update e (fun r => r.drop t) } Q
  | .despawn e k, sn, Q =>
    (e ∈ sn.db.map Prod.fst ∧ sn.dead.length + 1 < 2 ^ 32 ∧ wp sc (k true) { sn with db := sn.db.remove e, dead := e :: sn.dead } Q) ∨
      (e ∈ sn.dead ∧ wp sc (k false) sn Q)
  | .isAlive e k, sn, Q => (e ∈ sn.db.map Prod.fst ∧ wp sc (k true) sn Q) ∨ (e ∈ sn.dead ∧ wp sc (k false) sn Q)
  | .has e t k, sn, Q => (∃ r, sn.db.lookup e = some r ∧ wp sc (k (r.lookup t).isSome) sn Q) ∨ (e ∈ sn.dead ∧ wp sc (k false) sn Q)
  | .forEach ps f k, sn, Q =>
    Compatible ps ∧ AsksType ps ∧ FitsTypes ps f ∧ ∀ rows : List (List AWorld.Seen), rows.Perm (sn.db.rows ps) → wp sc (k rows) { sn with db := sn.db.run ps f } Q
  | .lookEach ps f es k, sn, Q =>
    Compatible ps ∧ AsksType ps ∧ FitsTypes ps f ∧ (∀ e ∈ es, e ∈ sn.db.map Prod.fst ∨ e ∈ sn.dead) ∧
      wp sc (k (sn.db.got ps f es)) { sn with db := sn.db.visit ps f es } Q

end Script
end Ellecs
