import Verif.Spec.Database
/-!
# Specification: a ledger for programs that use component ids

Everything in the API: components made at run time and component types, dynamic and typed calls, both kinds of queries.
A `Ledger` is what such a program knows of its world; `Session.wp` is a logic for programs that do not panic.
-/
namespace Ellecs
open World

/-- The components of an entity and their values. -/
abbrev Cells := List (EcsId × Bytes)

/-- An entity: the layout and drop function it has as a component, and its own components. -/
structure Entry where
  info : ComponentMeta
  cells : Cells

/-- All entities, also the ones that are used as components or stand for types. -/
abbrev Book := List (EcsId × Entry)

namespace Cells

/-- What a dynamic query shows of an entity with these components, if it shows it. -/
def see (e : EcsId) (r : Cells) (fs : List Fetch) : Option (List AWorld.Seen) :=
  fs.mapM fun
    | .ecsId => some (.id e)
    | .mut c | .immut c => (r.lookup c).map .value

/-- A value is overwritten. -/
def put (r : Cells) (c : EcsId) (v : Bytes) : Cells := r.map fun x => (x.1, if x.1 = c then v else x.2)

/-- The values for the mutable pointers of a row are stored. -/
def store (r : Cells) : List Fetch → List (Option Bytes) → Cells
  | .mut c :: fs, some v :: out => store (r.put c v) fs out
  | _ :: fs, _ :: out => store r fs out
  | _, _ => r

/-- A component is taken away. -/
def drop (r : Cells) (c : EcsId) : Cells := r.filter fun x => x.1 ≠ c

/-- The body `f` of a loop runs for an entity. -/
def run (fs : List Fetch) (f : List AWorld.Seen → List (Option Bytes)) (e : EcsId) (r : Cells) : Cells :=
  match r.see e fs with
  | none => r
  | some ss => r.store fs (f ss)

end Cells

namespace Book

/-- The components of the entities change. -/
def mapCells (g : EcsId → Cells → Cells) (b : Book) : Book := b.map fun x => (x.1, ⟨x.2.info, g x.1 x.2.cells⟩)

/-- The components of one entity change. -/
def update (e : EcsId) (g : Cells → Cells) (b : Book) : Book := b.mapCells fun x r => if x = e then g r else r

/-- An entity is taken away. -/
def remove (e : EcsId) (b : Book) : Book := b.filter fun x => x.1 ≠ e

/-- A loop over a query. -/
def run (fs : List Fetch) (f : List AWorld.Seen → List (Option Bytes)) (b : Book) : Book := b.mapCells (Cells.run fs f)

/-- What a query shows of an entity. -/
def see (b : Book) (fs : List Fetch) (e : EcsId) : Option (List AWorld.Seen) := (b.lookup e).bind fun en => en.cells.see e fs

/-- The rows a query shows. -/
def rows (fs : List Fetch) (b : Book) : List (List AWorld.Seen) := b.filterMap fun x => x.2.cells.see x.1 fs

/-- One entity after the other is looked up in a query, and changed. -/
def visit (fs : List Fetch) (f : List AWorld.Seen → List (Option Bytes)) (es : List EcsId) (b : Book) : Book :=
  es.foldl (fun b e => b.update e (Cells.run fs f e)) b

/-- The rows these look-ups show. -/
def got (fs : List Fetch) (f : List AWorld.Seen → List (Option Bytes)) : List EcsId → Book → List Found
  | [], _ => []
  | e :: es, b => b.see fs e :: got fs f es (b.update e (Cells.run fs f e))

end Book

/-- What a program knows: the entities, the ids of the types, the combinations of components there were so far, the
entities that were despawned, how many ids there are. -/
structure Ledger where
  book : Book
  types : List (Ty × EcsId)
  shapes : List (List EcsId)
  dead : List EcsId
  slots : Nat

namespace Ledger

def new : Ledger := ⟨[], [], [[]], [], 0⟩

/-- There is such an entity. -/
def Live (l : Ledger) (e : EcsId) : Prop := e ∈ l.book.map Prod.fst

/-- A new entity may get this id. -/
def Fresh (l : Ledger) (e : EcsId) : Prop := ¬ l.Live e ∧ e ∉ l.dead

/-- The entity was used as a component. -/
def InUse (l : Ledger) (c : EcsId) : Prop := ∃ ids ∈ l.shapes, c ∈ ids

/-- One more combination of components, if there was none with the same elements. -/
def addShape (ids : List EcsId) (S : List (List EcsId)) : List (List EcsId) :=
  if S.any (fun x => x.all ids.contains && ids.all x.contains) then S else ids :: S

/-- A new entity. -/
def build (e : EcsId) (m : ComponentMeta) (r : Cells) (l : Ledger) : Ledger :=
  { l with book := l.book ++ [(e, ⟨m, r⟩)], shapes := addShape (r.map Prod.fst) l.shapes }

/-- A type gets an id. -/
def learn (t : Ty) (c : EcsId) (l : Ledger) : Ledger :=
  { l with book := l.book ++ [(c, ⟨ComponentMeta.fromGeneric t, []⟩)], types := (t, c) :: l.types, slots := l.slots + 1 }

/-- `P` holds of the id of a type, which may be a new one (any but `p`). -/
def ensure (p : Option EcsId) (t : Ty) (l : Ledger) (P : EcsId → Ledger → Prop) : Prop :=
  match l.types.lookup t with
  | some c => P c l
  | none => l.slots + 1 ≤ 2 ^ 32 ∧ ∀ c, l.Fresh c → p ≠ some c → P c (l.learn t c)

/-- An entity gets one more component. -/
def add (e c : EcsId) (v : Bytes) (r : Cells) (l : Ledger) : Ledger :=
  { l with book := l.book.update e (fun r => r ++ [(c, v)]), shapes := addShape (r.map Prod.fst ++ [c]) l.shapes }

/-- An entity loses a component. -/
def take (e c : EcsId) (r : Cells) (l : Ledger) : Ledger :=
  { l with book := l.book.update e (fun r => r.drop c), shapes := addShape ((r.drop c).map Prod.fst) l.shapes }

/-- What a typed query fetches: nothing if one of its types has no id yet. -/
def fetches (l : Ledger) (ps : List Param) : Option (List Fetch) :=
  ps.mapM fun
    | .ids => some .ecsId
    | .mut t => (l.types.lookup t).map .mut
    | .ref t => (l.types.lookup t).map .immut

end Ledger

namespace World

/-- The ledger is right about the world. -/
structure Records (w : World) (l : Ledger) : Prop where
  keys : (l.book.map Prod.fst).Nodup
  alive : ∀ e, w.isAlive e = .ok true ↔ l.Live e
  dead : ∀ e ∈ l.dead, w.isAlive e = .ok false
  info : ∀ e en, (e, en) ∈ l.book → w.InfoIs e en.info
  values : ∀ e c bs, w.Has e c bs ↔ ∃ en, (e, en) ∈ l.book ∧ en.cells.lookup c = some bs
  types : ∀ t, w.typeMap t = l.types.lookup t

/-- No two fetches exclude each other. -/
def CompatibleIds (fs : List Fetch) : Prop :=
  fs.Pairwise fun f g => ∀ c, (f = .mut c → g ≠ .mut c ∧ g ≠ .immut c) ∧ (f = .immut c → g ≠ .mut c)

end World

/-- The results have the sizes recorded for the components that are stored. -/
def FitsIds (b : Book) (fs : List Fetch) (f : List AWorld.Seen → List (Option Bytes)) : Prop :=
  ∀ (ss : List AWorld.Seen) (i : Nat) (c : EcsId) (en : Entry) (bs : Bytes), fs[i]? = some (.mut c) → b.lookup c = some en → (f ss)[i]? = some (some bs) →
    bs.length = en.info.layout.size

/-- The strides of the columns are the sizes recorded for the components. -/
def StridesIds (b : Book) : List Fetch → List Nat → Prop :=
  Pairs (fun f n => (f = .ecsId → n = 8) ∧ ∀ c en, f.Of c → b.lookup c = some en → n = en.info.layout.size)

/-- A component given to a builder. -/
inductive Give
  /-- `.with(value)` -/
  | typed (t : Ty) (v : Bytes)
  /-- `.with_dynamic_with_data(ptr, id)` -/
  | dyn (c : EcsId) (v : Bytes)
  /-- `.with_dynamic(id)` -/
  | tag (c : EcsId)

namespace Give

def toAct : Give → BAct
  | .typed t v => .with t v
  | .dyn c v => .withDynamicWithData c v
  | .tag c => .withDynamic c

/-- The components are given to the builder of `e`, one after the other; `r` are those it has. -/
def chain (s : Nat) (e : EcsId) : List Give → Cells → Ledger → (Cells → Ledger → Prop) → Prop
  | [], r, l, P => P r l
  | .typed t v :: gs, r, l, P => v.length = t.size ∧ t.size ≤ s ∧ l.ensure (some e) t fun c l => chain s e gs (r ++ [(c, v)]) l P
  | .dyn c v :: gs, r, l, P => (∃ en, l.book.lookup c = some en ∧ v.length = en.info.layout.size) ∧ chain s e gs (r ++ [(c, v)]) l P
  | .tag c :: gs, r, l, P => (∃ en, l.book.lookup c = some en ∧ en.info.layout.size = 0) ∧ chain s e gs (r ++ [(c, [])]) l P

end Give

namespace Client

def answerValue : Except Fault Answer → Except Fault (Option Bytes)
  | .ok (.value v) => .ok v
  | .ok _ => .error .fuel
  | .error f => .error f

/-- `world.get_or_create_type_id_ecsid::<T>()` -/
def register (t : Ty) : Client EcsId := Prog.ask (.register t) fun x => .done (answerId x)

/-- `world.spawn()`, `spawn_with_capacity` or `spawn_with_component_meta`, calls on the builder, `.build()` -/
def spawnDyn (kind : SpawnKind) (gs : List Give) : Client EcsId := Prog.ask (.spawn kind (gs.map Give.toAct ++ [.build])) fun x => .done (answerId x)

/-- `world.add_component_dynamic_with_data(e, ptr, c)` -/
def addDyn (e c : EcsId) (v : Bytes) : Client Unit := Prog.ask (.call (.addDynamicWithData e c v)) fun x => .done (answerUnit x)

/-- `world.add_component_dynamic(e, c)` -/
def addTag (e c : EcsId) : Client Unit := Prog.ask (.call (.addDynamic e c)) fun x => .done (answerUnit x)

/-- `world.remove_component_dynamic(e, c)` -/
def removeDyn (e c : EcsId) : Client Unit := Prog.ask (.call (.removeDynamic e c)) fun x => .done (answerUnit x)

/-- `world.get_component_mut_dynamic(e, c)`, and a read of `n` bytes -/
def look (e c : EcsId) (n : Nat) : Client (Option Bytes) := Prog.ask (.look e c n) fun x => .done (answerValue x)

/-- `world.get_component_mut_dynamic(e, c)`, and a write -/
def write (e c : EcsId) (v : Bytes) : Client Unit := Prog.ask (.call (.write e c v)) fun x => .done (answerUnit x)

/-- `world.query_dynamic(..).iter().for_each(..)`; returns the rows, the last one first. -/
def forEachDyn (fs : List Fetch) (f : List AWorld.Seen → List (Option Bytes)) : Client (List (List AWorld.Seen)) :=
  Prog.loopDyn fs (fun | ss :: _ => f ss | [] => []) .done

/-- What a loop over columns stores that treats the rows of a table, from row `i` on, one after the other. -/
def tableStores (f : List AWorld.Seen → List (Option Bytes)) : Nat → List (List AWorld.Seen) → List (Nat × Nat × Bytes)
  | _, [] => []
  | i, ss :: sss => rowStores i 0 (f ss) ++ tableStores f (i + 1) sss

/-- `for columns in world.query_dynamic(..).column_iter()`, and a loop over the rows of the columns; returns the rows of the tables, the
last table first. -/
def forEachCols (fs : List Fetch) (ns : List Nat) (f : List AWorld.Seen → List (Option Bytes)) : Client (List (List (List AWorld.Seen))) :=
  Prog.loopCols fs ns (fun | sss :: _ => tableStores f 0 sss | [] => []) .done

end Client

/-- A program that uses component ids and component types.  It stops at the first panic. -/
inductive Session (α : Type) : Type
  | done (x : α)
  /-- a panic of the program itself -/
  | fail (f : Fault)
  | register (t : Ty) (k : EcsId → Session α)
  | spawn (kind : SpawnKind) (gs : List Give) (k : EcsId → Session α)
  | add (e : EcsId) (t : Ty) (v : Bytes) (k : Session α)
  | addDyn (e c : EcsId) (v : Bytes) (k : Session α)
  | addTag (e c : EcsId) (k : Session α)
  | remove (e : EcsId) (t : Ty) (k : Session α)
  | removeDyn (e c : EcsId) (k : Session α)
  | despawn (e : EcsId) (k : Bool → Session α)
  | isAlive (e : EcsId) (k : Bool → Session α)
  | has (e : EcsId) (t : Ty) (k : Bool → Session α)
  | look (e c : EcsId) (n : Nat) (k : Option Bytes → Session α)
  | write (e c : EcsId) (v : Bytes) (k : Session α)
  | forEach (ps : List Param) (f : List AWorld.Seen → List (Option Bytes)) (k : List (List AWorld.Seen) → Session α)
  | forEachDyn (fs : List Fetch) (f : List AWorld.Seen → List (Option Bytes)) (k : List (List AWorld.Seen) → Session α)
  | forEachCols (fs : List Fetch) (ns : List Nat) (f : List AWorld.Seen → List (Option Bytes)) (k : List (List (List AWorld.Seen)) → Session α)
  | lookEach (ps : List Param) (f : List AWorld.Seen → List (Option Bytes)) (es : List EcsId) (k : List Found → Session α)

namespace Session

def bind {α β : Type} : Session α → (α → Session β) → Session β
  | .done x, f => f x
  | .fail e, _ => .fail e
  | .register t k, f => .register t (fun c => (k c).bind f)
  | .spawn kind gs k, f => .spawn kind gs (fun e => (k e).bind f)
  | .add e t v k, f => .add e t v (k.bind f)
  | .addDyn e c v k, f => .addDyn e c v (k.bind f)
  | .addTag e c k, f => .addTag e c (k.bind f)
  | .remove e t k, f => .remove e t (k.bind f)
  | .removeDyn e c k, f => .removeDyn e c (k.bind f)
  | .despawn e k, f => .despawn e (fun b => (k b).bind f)
  | .isAlive e k, f => .isAlive e (fun b => (k b).bind f)
  | .has e t k, f => .has e t (fun b => (k b).bind f)
  | .look e c n k, f => .look e c n (fun v => (k v).bind f)
  | .write e c v k, f => .write e c v (k.bind f)
  | .forEach ps g k, f => .forEach ps g (fun rs => (k rs).bind f)
  | .forEachDyn fs g k, f => .forEachDyn fs g (fun rs => (k rs).bind f)
  | .forEachCols fs ns g k, f => .forEachCols fs ns g (fun rs => (k rs).bind f)
  | .lookEach ps g es k, f => .lookEach ps g es (fun rs => (k rs).bind f)

instance : Monad Session where
  pure := .done
  bind := bind

/-- The program it stands for. -/
def compile {α : Type} : Session α → Client α
  | .done x => pure x
  | .fail f => throw f
  | .register t k => Client.register t >>= fun c => (k c).compile
  | .spawn kind gs k => Client.spawnDyn kind gs >>= fun e => (k e).compile
  | .add e t v k => Client.add e t v >>= fun _ => k.compile
  | .addDyn e c v k => Client.addDyn e c v >>= fun _ => k.compile
  | .addTag e c k => Client.addTag e c >>= fun _ => k.compile
  | .remove e t k => Client.remove e t >>= fun _ => k.compile
  | .removeDyn e c k => Client.removeDyn e c >>= fun _ => k.compile
  | .despawn e k => Client.despawn e >>= fun b => (k b).compile
  | .isAlive e k => Client.isAlive e >>= fun b => (k b).compile
  | .has e t k => Client.has e t >>= fun b => (k b).compile
  | .look e c n k => Client.look e c n >>= fun v => (k v).compile
  | .write e c v k => Client.write e c v >>= fun _ => k.compile
  | .forEach ps f k => Client.forEach ps f >>= fun rs => (k rs).compile
  | .forEachDyn fs f k => Client.forEachDyn fs f >>= fun rs => (k rs).compile
  | .forEachCols fs ns f k => Client.forEachCols fs ns f >>= fun rs => (k rs).compile
  | .lookEach ps f es k => Client.lookEach ps f es >>= fun rs => (k rs).compile

/-- One session after the other. -/
def forEachIn {β : Type} : List β → (β → Session Unit) → Session Unit
  | [], _ => .done ()
  | x :: xs, f => (f x).bind fun _ => forEachIn xs f

/-- `(0..n).for_each(..)` -/
def times : Nat → Session Unit → Session Unit
  | 0, _ => .done ()
  | n + 1, p => p.bind fun _ => times n p

/-- The logic of sessions: it speaks of the ledger only.  Components have at most `s` bytes. -/
def wp {α : Type} (s : Nat) : Session α → Ledger → (α → Ledger → Prop) → Prop
  | .done x, l, Q => Q x l
  | .fail _, _, _ => False
  | .register t k, l, Q => t.size ≤ s ∧ l.ensure none t fun c l => wp s (k c) l Q
  | .spawn kind gs k, l, Q =>
    gs.length < 2 ^ 32 ∧ (∀ m, kind = .withMeta m → m.layout.size ≤ s) ∧ (∀ n, kind = .capacity n → n ≤ isizeMax) ∧ l.slots + 1 ≤ 2 ^ 32 ∧
      ∀ e, l.Fresh e → Give.chain s e gs [] { l with slots := l.slots + 1 } fun r l =>
        (r.map Prod.fst).Nodup ∧ wp s (k e) (l.build e (AWorld.metaOf kind) r) Q
  | .add e t v k, l, Q =>
    l.Live e ∧ v.length = t.size ∧ t.size ≤ s ∧ l.ensure none t fun c l =>
      ∃ en, l.book.lookup e = some en ∧ en.cells.lookup c = none ∧ wp s k (l.add e c v en.cells) Q
  | .addDyn e c v k, l, Q =>
    (∀ en, l.book.lookup c = some en → v.length = en.info.layout.size) ∧
      ((∃ en, l.book.lookup e = some en ∧ l.Live c ∧ en.cells.lookup c = none ∧ wp s k (l.add e c v en.cells) Q) ∨
        ((e ∈ l.dead ∨ (l.Live e ∧ c ∈ l.dead)) ∧ wp s k l Q))
  | .addTag e c k, l, Q =>
    ∃ en ec, l.book.lookup e = some en ∧ l.book.lookup c = some ec ∧ ec.info.layout.size = 0 ∧ en.cells.lookup c = none ∧ wp s k (l.add e c [] en.cells) Q
  | .remove e t k, l, Q =>
    t.size ≤ s ∧ ∃ en c, l.book.lookup e = some en ∧ l.types.lookup t = some c ∧ en.cells.lookup c ≠ none ∧ wp s k (l.take e c en.cells) Q
  | .removeDyn e c k, l, Q =>
    (∃ en, l.book.lookup e = some en ∧ en.cells.lookup c ≠ none ∧ wp s k (l.take e c en.cells) Q) ∨
      ((e ∈ l.dead ∨ (l.Live e ∧ c ∈ l.dead)) ∧ wp s k l Q)
  | .despawn e k, l, Q =>
    (l.Live e ∧ ¬ l.InUse e ∧ (∀ t, l.types.lookup t ≠ some e) ∧ l.dead.length + 1 < 2 ^ 32 ∧
        wp s (k true) { l with book := l.book.remove e, dead := e :: l.dead } Q) ∨
      (e ∈ l.dead ∧ wp s (k false) l Q)
  | .isAlive e k, l, Q => (l.Live e ∧ wp s (k true) l Q) ∨ (e ∈ l.dead ∧ wp s (k false) l Q)
  | .has e t k, l, Q =>
    match l.types.lookup t with
    | none => wp s (k false) l Q
    | some c => (∃ en, l.book.lookup e = some en ∧ wp s (k (en.cells.lookup c).isSome) l Q) ∨ (e ∈ l.dead ∧ wp s (k false) l Q)
  | .look e c n k, l, Q =>
    (∀ en, l.book.lookup c = some en → n = en.info.layout.size) ∧
      ((∃ en v, l.book.lookup e = some en ∧ en.cells.lookup c = some v ∧ wp s (k (some v)) l Q) ∨
        ((e ∈ l.dead ∨ (l.Live e ∧ c ∈ l.dead)) ∧ wp s (k none) l Q))
  | .write e c v k, l, Q =>
    (∀ en, l.book.lookup c = some en → v.length = en.info.layout.size) ∧
      ((∃ en, l.book.lookup e = some en ∧ en.cells.lookup c ≠ none ∧ wp s k { l with book := l.book.update e (fun r => r.put c v) } Q) ∨
        ((e ∈ l.dead ∨ (l.Live e ∧ c ∈ l.dead)) ∧ wp s k l Q))
  | .forEach ps f k, l, Q =>
    ps ≠ [] ∧ Compatible ps ∧ FitsTypes ps f ∧ l.shapes.length < 2 ^ 32 ∧
      match l.fetches ps with
      | none => wp s (k []) l Q
      | some fs => (∀ x ∈ fs, ∀ c, x.Of c → l.InUse c) ∧
        ∀ rows : List (List AWorld.Seen), rows.Perm (l.book.rows fs) → wp s (k rows) { l with book := l.book.run fs f } Q
  | .forEachDyn fs f k, l, Q =>
    fs ≠ [] ∧ CompatibleIds fs ∧ FitsIds l.book fs f ∧ l.shapes.length < 2 ^ 32 ∧ (∀ x ∈ fs, ∀ c, x.Of c → l.Live c) ∧
      ∀ rows : List (List AWorld.Seen), rows.Perm (l.book.rows fs) → wp s (k rows) { l with book := l.book.run fs f } Q
  | .forEachCols fs ns f k, l, Q =>
    fs ≠ [] ∧ CompatibleIds fs ∧ StridesIds l.book fs ns ∧ FitsIds l.book fs f ∧ l.shapes.length < 2 ^ 32 ∧ (∀ x ∈ fs, ∀ c, x.Of c → l.Live c) ∧
      ∀ tables : List (List (List AWorld.Seen)), tables.flatten.Perm (l.book.rows fs) → wp s (k tables) { l with book := l.book.run fs f } Q
  | .lookEach ps f es k, l, Q =>
    Compatible ps ∧ FitsTypes ps f ∧ (∀ e ∈ es, l.Live e ∨ e ∈ l.dead) ∧
      match l.fetches ps with
      | none => wp s (k (es.map fun _ => none)) l Q
      | some fs => (∀ x ∈ fs, ∀ c, x.Of c → l.InUse c) ∧ wp s (k (l.book.got fs f es)) { l with book := l.book.visit fs f es } Q

end Session
end Ellecs
