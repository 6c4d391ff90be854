import Verif.Spec.Locks
/-!
# Specification: a world without tables

`AWorld` is what a world is to its user: which entities exist, which values they have.  It consists of plain maps: there
are no tables, rows, columns, caches, bitsets, buffers or lock numbers in it.  `AWorld.step` says what each call does to
it.  C57 states that the world of `Model/` cannot be told apart from this one.

The allocator of ids is kept as it is (C01-C04 are its specification).  Memory is unlimited here: an `AWorld` never
panics because an allocation would be too large.
-/
namespace Ellecs

structure AWorld where
  /-- the allocator of ids -/
  ents : Entities
  /-- the component entity of each registered type -/
  types : Ty → Option EcsId
  /-- the entities that are alive and built, with the layout and drop function recorded for them -/
  info : EcsId → Option ComponentMeta
  /-- the value of a component of an entity -/
  cell : EcsId → EcsId → Option Bytes
  /-- the entities that were used as a component of some entity (they cannot be despawned any more, see C37) -/
  used : EcsId → Bool
  /-- the components queries can lock, and whether the lock is poisoned -/
  lock : EcsId → Option Bool

namespace AWorld

def new : AWorld := ⟨Entities.new, fun _ => none, fun _ => none, fun _ _ => none, fun _ => false, fun _ => none⟩

/-- Components that had no lock get one. -/
def addLocks (ids : List EcsId) (a : AWorld) : AWorld :=
  { a with lock := fun c => if c ∈ ids ∧ a.lock c = none then some false else a.lock c }

/-- Components are in use from now on. -/
def use (ids : List EcsId) (a : AWorld) : AWorld := { a with used := fun c => a.used c || ids.contains c }

/-- `is_alive` -/
def isAlive (a : AWorld) (e : EcsId) : Except Fault Bool := a.ents.isAlive e

/-- A new id. -/
def spawnId (a : AWorld) : Except Fault EcsId × AWorld :=
  match a.ents.spawn with
  | (r, s) => (r, { a with ents := s })

/-- `get_or_create_type_id_ecsid` -/
def register (t : Ty) (a : AWorld) : Except Fault EcsId × AWorld :=
  match a.types t with
  | some id => (.ok id, a)
  | none =>
    match a.spawnId with
    | (.error f, a) => (.error f, a)
    | (.ok id, a) =>
      (.ok id, { a with
        types := fun t' => if t' = t then some id else a.types t'
        info := fun x => if x = id then some (ComponentMeta.fromGeneric t) else a.info x })

/-- `add_component_dynamic_with_data` -/
def addDyn (e c : EcsId) (src : Bytes) (a : AWorld) : Except Fault Unit × AWorld :=
  match a.isAlive e with
  | .error f => (.error f, a)
  | .ok false => (.ok (), a)
  | .ok true =>
    match a.isAlive c with
    | .error f => (.error f, a)
    | .ok false => (.ok (), a)
    | .ok true =>
      match a.info e, a.cell e c, a.info c with
      | none, _, _ => (.error .unwrapNone, a)
      | some _, some _, _ => (.error .alreadyPresent, a)
      | some _, none, none => (.error .unwrapNone, a.addLocks [c])
      | some _, none, some m =>
        (.ok (), (({ a with cell := fun x y => if x = e ∧ y = c then some (src.take m.layout.size) else a.cell x y }).use [c]).addLocks [c])

/-- `remove_component_dynamic` -/
def removeDyn (e c : EcsId) (a : AWorld) : Except Fault Unit × AWorld :=
  match a.isAlive e with
  | .error f => (.error f, a)
  | .ok false => (.ok (), a)
  | .ok true =>
    match a.isAlive c with
    | .error f => (.error f, a)
    | .ok false => (.ok (), a)
    | .ok true =>
      match a.info e, a.cell e c with
      | none, _ => (.error .unwrapNone, a)
      | some _, none => (.error .notPresent, a)
      | some _, some _ => (.ok (), { a with cell := fun x y => if x = e ∧ y = c then none else a.cell x y })

/-- `add_component_dynamic` -/
def addZst (e c : EcsId) (a : AWorld) : Except Fault Unit × AWorld :=
  match a.isAlive e with
  | .error f => (.error f, a)
  | .ok false => (.error .notAlive, a)
  | .ok true =>
    match a.isAlive c with
    | .error f => (.error f, a)
    | .ok false => (.error .notAlive, a)
    | .ok true =>
      match a.info c with
      | none => (.error .unwrapNone, a)
      | some m => if m.layout.size ≠ 0 then (.error .componentHasData, a) else a.addDyn e c []

/-- `add_component` -/
def addComponent (e : EcsId) (t : Ty) (v : Bytes) (a : AWorld) : Except Fault Unit × AWorld :=
  match a.isAlive e with
  | .error f => (.error f, a)
  | .ok false => (.error .notAlive, a)
  | .ok true =>
    match a.register t with
    | (.error f, a) => (.error f, a)
    | (.ok c, a) => a.addDyn e c v

/-- `remove_component` -/
def removeComponent (e : EcsId) (t : Ty) (a : AWorld) : Except Fault Unit × AWorld :=
  match a.isAlive e with
  | .error f => (.error f, a)
  | .ok false => (.error .notAlive, a)
  | .ok true =>
    match a.register t with
    | (.error f, a) => (.error f, a)
    | (.ok c, a) => a.removeDyn e c

/-- `despawn` -/
def despawn (e : EcsId) (a : AWorld) : Except Fault Bool × AWorld :=
  match a.isAlive e with
  | .error f => (.error f, a)
  | .ok false => (.ok false, a)
  | .ok true =>
    if a.used e then (.error .despawnTodo, a)
    else
      match a.info e, a.ents.despawn e with
      | none, _ => (.error .unwrapNone, a)
      | some _, .error f => (.error f, a)
      | some _, .ok (_, s) =>
        (.ok true, { a with
          ents := s
          info := fun x => if x = e then none else a.info x
          cell := fun x y => if x = e then none else a.cell x y })

/-- A write through the pointer of `get_component_mut_dynamic`, if there is one. -/
def write (e c : EcsId) (bs : Bytes) (a : AWorld) : Except Fault Unit × AWorld :=
  match a.isAlive e with
  | .error f => (.error f, a)
  | .ok false => (.ok (), a)
  | .ok true =>
    match a.isAlive c with
    | .error f => (.error f, a)
    | .ok false => (.ok (), a)
    | .ok true =>
      match a.info e, a.cell e c with
      | none, _ => (.ok (), a)
      | some _, none => (.error .indexOob, a)
      | some _, some _ => (.ok (), { a with cell := fun x y => if x = e ∧ y = c then some bs else a.cell x y })

/-! ### builders -/

/-- A builder: the entity, its own metadata, the values given so far. -/
structure Draft where
  entity : EcsId
  cmeta : ComponentMeta
  vals : List (EcsId × Bytes)

/-- A component is given to a builder. -/
def give (c : EcsId) (v : Bytes) (b : Draft) (a : AWorld) : Except Fault Draft × AWorld :=
  match a.isAlive c with
  | .error f => (.error f, a)
  | .ok _ =>
    match a.info c with
    | none => (.error .deadComponent, a)
    | some m => (.ok { b with vals := b.vals ++ [(c, v.take m.layout.size)] }, a)

/-- The entity of the builder becomes a built entity with the values given so far. -/
def finish (b : Draft) (a : AWorld) : AWorld :=
  (({ a with
    info := fun x => if x = b.entity then some b.cmeta else a.info x
    cell := fun x y => if x = b.entity then b.vals.lookup y else a.cell x y }).use (b.vals.map Prod.fst)).addLocks (b.vals.map Prod.fst)

/-- One call on a builder. -/
def act (b : Draft) (x : BAct) (a : AWorld) : Except Fault Draft × AWorld :=
  match x with
  | .with t v =>
    match a.register t with
    | (.error f, a) => (.error f, a)
    | (.ok c, a) => a.give c v b
  | .withDynamicWithData c v => a.give c v b
  | .withDynamic c =>
    match a.isAlive c with
    | .error f => (.error f, a)
    | .ok _ =>
      match a.info c with
      | none => (.error .unwrapNone, a)
      | some m => if m.layout.size ≠ 0 then (.error .componentHasData, a) else (.ok { b with vals := b.vals ++ [(c, [])] }, a)
  | .build => (.ok b, a.finish b)

/-- A chain of calls on a builder. -/
def acts (b : Draft) : List BAct → AWorld → Except Fault Draft × AWorld
  | [], a => (.ok b, a)
  | x :: xs, a =>
    match a.act b x with
    | (.error f, a) => (.error f, a)
    | (.ok b, a) => acts b xs a

/-- The metadata a builder gives to its entity. -/
def metaOf : World.SpawnKind → ComponentMeta
  | .withMeta m => m
  | _ => ComponentMeta.unit

/-- `spawn`, `spawn_with_capacity`, `spawn_with_component_meta` and the calls on the builder. -/
def spawn (kind : World.SpawnKind) (xs : List BAct) (a : AWorld) : Except Fault EcsId × AWorld :=
  match a.spawnId with
  | (.error f, a) => (.error f, a)
  | (.ok e, a) =>
    match acts ⟨e, metaOf kind, []⟩ xs a with
    | (.error f, a) => (.error f, a)
    | (.ok _, a) => (.ok e, a)

/-! ### queries -/

/-- The component a fetch locks, and whether it is for writing. -/
def want : Fetch → Option (EcsId × Bool)
  | .ecsId => none
  | .mut c => some (c, true)
  | .immut c => some (c, false)

/-- The locks of a query are taken one after the other; `held` are the ones it has.  A static query panics if a
component has no lock, a dynamic one goes on.  Returns the panic, if any, and the locks it has got. -/
def take (a : AWorld) (static : Bool) : (held : List (EcsId × Bool)) → List Fetch → Option Fault × List (EcsId × Bool)
  | held, [] => (none, held)
  | held, f :: fs =>
    match want f with
    | none => a.take static held fs
    | some (c, wr) =>
      match a.lock c with
      | none => if static then (some .indexOob, held) else a.take static held fs
      | some poisoned =>
        if (c, true) ∈ held ∨ (wr = true ∧ (c, false) ∈ held) then (some .deadlock, held)
        else if poisoned then (some .poisoned, held)
        else a.take static (held ++ [(c, wr)]) fs

/-- The locks held for writing are poisoned. -/
def poison (held : List (EcsId × Bool)) (a : AWorld) : AWorld :=
  { a with lock := fun c => if (c, true) ∈ held then (a.lock c).map (fun _ => true) else a.lock c }

/-- A query is made and dropped; `panicking`: because of a panic. -/
def lockAll (static : Bool) (fs : List Fetch) (panicking : Bool) (a : AWorld) : Except Fault Unit × AWorld :=
  match a.take static [] fs with
  | (some f, held) => (.error f, a.poison held)
  | (none, held) => (.ok (), if panicking then a.poison held else a)

/-- What a parameter of a static query fetches: nothing if its type is not registered. -/
def fetch (a : AWorld) : Param → Option Fetch
  | .ids => some .ecsId
  | .mut t => (a.types t).map Fetch.mut
  | .ref t => (a.types t).map Fetch.immut

/-- `query` -/
def query (ps : List Param) (panicking : Bool) (a : AWorld) : Except Fault Unit × AWorld :=
  match ps.mapM a.fetch with
  | none => (.ok (), a)
  | some fs => a.lockAll true fs panicking

/-- Forget what a call returned. -/
def void {α : Type} : Except Fault α × AWorld → Except Fault Unit × AWorld
  | (.error f, a) => (.error f, a)
  | (.ok _, a) => (.ok (), a)

/-- Make a call. -/
def step : World.Call → AWorld → Except Fault Unit × AWorld
  | .spawn kind xs, a => void (a.spawn kind xs)
  | .addComponent e t v, a => a.addComponent e t v
  | .removeComponent e t, a => a.removeComponent e t
  | .addDynamic e c, a => a.addZst e c
  | .addDynamicWithData e c src, a => a.addDyn e c src
  | .removeDynamic e c, a => a.removeDyn e c
  | .despawn e, a => void (a.despawn e)
  | .register t, a => void (a.register t)
  | .write e c bs, a => a.write e c bs
  | .query ps p, a => a.query ps p
  | .queryDynamic fs p, a => a.lockAll false fs p

/-! ### what a program can look at -/

/-- `has_component` -/
def hasComponent (t : Ty) (e : EcsId) (a : AWorld) : Except Fault Bool :=
  match a.types t with
  | none => .ok false
  | some c =>
    match a.isAlive e with
    | .error f => .error f
    | .ok _ => .ok (a.cell e c).isSome

/-- `get_component_mut_dynamic`, and the value behind the pointer. -/
def look (e c : EcsId) (a : AWorld) : Except Fault (Option Bytes) :=
  match a.isAlive e with
  | .error f => .error f
  | .ok false => .ok none
  | .ok true =>
    match a.isAlive c with
    | .error f => .error f
    | .ok false => .ok none
    | .ok true =>
      match a.info e, a.cell e c with
      | none, _ => .ok none
      | some _, none => .error .indexOob
      | some _, some bs => .ok (some bs)

/-- What is seen at one position of a row of a query. -/
inductive Seen
  | id (e : EcsId)
  | value (bs : Bytes)
  deriving DecidableEq, Repr

/-- What a parameter of a static query shows of an entity. -/
def seen (a : AWorld) (e : EcsId) : Param → Option Seen
  | .ids => some (.id e)
  | .mut t | .ref t => ((a.types t).bind (a.cell e)).map .value

/-- What a fetch of a dynamic query shows of an entity. -/
def seenDyn (a : AWorld) (e : EcsId) : Fetch → Option Seen
  | .ecsId => some (.id e)
  | .mut c | .immut c => (a.cell e c).map .value

/-- The row of an entity in a static query, if it has one. -/
def row (a : AWorld) (ps : List Param) (e : EcsId) : Option (List Seen) := if (a.info e).isSome then ps.mapM (a.seen e) else none

/-- The row of an entity in a dynamic query, if it has one. -/
def rowDyn (a : AWorld) (fs : List Fetch) (e : EcsId) : Option (List Seen) := if (a.info e).isSome then fs.mapM (a.seenDyn e) else none

end AWorld

namespace World

/-- `a` is what there is to see in `w`. -/
structure Shows (w : World) (a : AWorld) : Prop where
  ents : a.ents = w.entities
  types : a.types = w.typeMap
  info : ∀ x m, a.info x = some m ↔ w.InfoIs x m
  cell : ∀ e c bs, a.cell e c = some bs ↔ w.Has e c bs
  used : ∀ c, a.used c = true ↔ w.Used c
  lock : ∀ c p, a.lock c = some p ↔ ∃ (i : Nat) (l : RwLock), w.lockLookup c = some i ∧ w.locks[i]? = some l ∧ l.poisoned = p

/-- The two worlds show the same. -/
def SameView (w v : World) : Prop := ∃ a, w.Shows a ∧ v.Shows a

/-- The call ran into a limit of memory. -/
def OutOfMemory (f : Fault) : Prop := Limit f ∨ f = .builderCapacity

/-- A call of the world and a call of the map world end alike: with the same value or panic, in states that show the
same.  Nothing is said if the call ran into a limit of memory. -/
def Alike {α : Type} (r : EStateM.Result Fault World α) (s : Except Fault α × AWorld) : Prop :=
  match r with
  | .ok x w' => s.1 = .ok x ∧ w'.Shows s.2
  | .error f w' => OutOfMemory f ∨ (s.1 = .error f ∧ w'.Shows s.2)

/-! ### what a program can look at -/

/-- `get_component_mut_dynamic`, and then a read of `n` bytes through the pointer. -/
def look (e c : EcsId) (n : Nat) (w : World) : Except Fault (Option Bytes) :=
  match w.getComponentMutDynamic e c with
  | .error f => .error f
  | .ok none => .ok none
  | .ok (some p) =>
    match w.readPtr p n with
    | .error f => .error f
    | .ok bs => .ok (some bs)

/-- Reading an item of a static query. -/
def readItem (w : World) : Item → Except Fault AWorld.Seen
  | .id e => .ok (.id e)
  | .mut t p | .ref t p =>
    match w.readPtr p t.size with
    | .error f => .error f
    | .ok bs => .ok (.value bs)

/-- Reading through a pointer of a dynamic query, with the size recorded for the component. -/
def readFetch (w : World) : Fetch → Ptr → Except Fault AWorld.Seen
  | .ecsId, p =>
    match p.col with
    | .entities k =>
      match w.archetypes[k]? with
      | none => .error (.ub .readOob)
      | some a => if 8 ∣ p.off then (match a.entities[p.off / 8]? with | none => .error (.ub .readOob) | some e => .ok (.id e)) else .error (.ub .readOob)
    | _ => .error (.ub .readOob)
  | .mut c, p | .immut c, p =>
    match w.getEntityMeta c with
    | .ok (some m) =>
      match w.readPtr p m.comp.layout.size with
      | .error f => .error f
      | .ok bs => .ok (.value bs)
    | _ => .error (.ub .readOob)

/-- The call adds, removes or writes a component of `e`. -/
def Concerns (e : EcsId) : Call → Prop
  | .addComponent x _ _ => x = e
  | .removeComponent x _ => x = e
  | .addDynamic x _ => x = e
  | .addDynamicWithData x _ _ => x = e
  | .removeDynamic x _ => x = e
  | .write x _ _ => x = e
  | _ => False

/-- The types the call names are registered. -/
def Registered (w : World) : Call → Prop
  | .addComponent _ t _ => w.typeMap t ≠ none
  | .removeComponent _ t => w.typeMap t ≠ none
  | _ => True

/-! ### conversations -/

/-- What a program can ask of a world. -/
inductive Ask
  | call (c : Call)
  | spawn (kind : SpawnKind) (acts : List BAct)
  | despawn (e : EcsId)
  | register (t : Ty)
  | isAlive (e : EcsId)
  | has (t : Ty) (e : EcsId)
  | look (e c : EcsId) (n : Nat)

/-- The values the world answers with. -/
inductive Answer
  | unit
  | id (e : EcsId)
  | bool (b : Bool)
  | value (bs : Option Bytes)
  deriving DecidableEq, Repr

/-- What the world does. -/
def Ask.exec : Ask → M Answer
  | .call c => do
    c.exec
    pure .unit
  | .spawn kind acts => do
    let e ← spawnWith kind acts
    pure (.id e)
  | .despawn e => do
    let b ← World.despawn e
    pure (.bool b)
  | .register t => do
    let id ← getOrCreate t
    pure (.id id)
  | .isAlive e => do
    let w ← get
    let b ← liftE (w.isAlive e)
    pure (.bool b)
  | .has t e => do
    let w ← get
    let b ← liftE (w.hasComponent t e)
    pure (.bool b)
  | .look e c n => do
    let w ← get
    let b ← liftE (w.look e c n)
    pure (.value b)

/-- What the caller must guarantee. -/
def Ask.Ok (w : World) : Ask → Prop
  | .call c => c.Ok w
  | .spawn kind acts => (Call.spawn kind acts).Ok w
  | .look _ c n => ∀ m, w.InfoIs c m → n = m.layout.size
  | _ => True

/-- A conversation of a program with a world: what it asked and what the answers were.  The program may choose what to
ask next by the answers.  The conversation ends if the memory is exhausted, the program hangs, or a slot was recycled
`2^32` times. -/
inductive Talk : World → List (Ask × Except Fault Answer) → World → Prop
  | done (w : World) : Talk w [] w
  | ok {w w1 w2 : World} {q : Ask} {x : Answer} {rest : List (Ask × Except Fault Answer)} : q.Ok w → q.exec w = .ok x w1 → w1.NoFullSlot →
      Talk w1 rest w2 → Talk w ((q, .ok x) :: rest) w2
  | panic {w w1 w2 : World} {q : Ask} {f : Fault} {rest : List (Ask × Except Fault Answer)} : q.Ok w → q.exec w = .error f w1 →
      ¬ OutOfMemory f → f ≠ .deadlock → w1.NoFullSlot → Talk w1 rest w2 → Talk w ((q, .error f) :: rest) w2

end World

namespace AWorld

/-- What the map world does. -/
def ask (a : AWorld) : World.Ask → Except Fault World.Answer × AWorld
  | .call c => match a.step c with | (r, a) => (r.map (fun _ => .unit), a)
  | .spawn kind acts => match a.spawn kind acts with | (r, a) => (r.map .id, a)
  | .despawn e => match a.despawn e with | (r, a) => (r.map .bool, a)
  | .register t => match a.register t with | (r, a) => (r.map .id, a)
  | .isAlive e => ((a.isAlive e).map .bool, a)
  | .has t e => ((a.hasComponent t e).map .bool, a)
  | .look e c _ => ((a.look e c).map .value, a)

/-- The answers of the map world to a list of questions. -/
def answers (a : AWorld) : List World.Ask → List (Except Fault World.Answer) × AWorld
  | [] => ([], a)
  | q :: qs =>
    match a.ask q with
    | (x, a) =>
      match a.answers qs with
      | (xs, a) => (x :: xs, a)

end AWorld
end Ellecs
