import Verif.Spec.System
/-!
# Specification: several loops at the same time

Queries that are live at the same time can be iterated at the same time: the program calls `next` on one iterator, then on
another, and keeps the references of a row while it works on rows of other queries.  Here the loops of a list of jobs take
turns in any order.  One turn is one access: a call of `next`, one read through a reference, one store through a reference.
-/
namespace Ellecs

/-- A reference of a row: what reading it returns, and where a store goes if the reference is mutable. -/
structure Access where
  read : World → Except Fault AWorld.Seen
  dest : Option World.Ptr

/-- The reference in an item of a static query. -/
def Item.access : Item → Access
  | .mut t p => ⟨fun w => w.readItem (.mut t p), some p⟩
  | i => ⟨fun w => w.readItem i, none⟩

/-- The pointer of a dynamic query, used as the fetch allows. -/
def Fetch.access : Fetch → World.Ptr → Access
  | .mut c, p => ⟨fun w => w.readFetch (.mut c) p, some p⟩
  | f, p => ⟨fun w => w.readFetch f p, none⟩

/-- The iterators. -/
inductive Source
  | static (it : StaticIter)
  | dyn (fs : List Fetch) (it : DynIter)

/-- `next` of the iterators. -/
def Source.next (w : World) : Source → Except Fault (Option (List Access) × Source)
  | .static it =>
    match StaticIter.next w it with
    | .error f => .error f
    | .ok (none, it') => .ok (none, .static it')
    | .ok (some row, it') => .ok (some (row.map Item.access), .static it')
  | .dyn fs it =>
    match DynIter.next w it with
    | .error f => .error f
    | .ok (none, it') => .ok (none, .dyn fs it')
    | .ok (some row, it') => .ok (some ((fs.zip row).map (fun x => x.1.access x.2)), .dyn fs it')

/-- What a loop does next. -/
inductive Phase (τ : Type)
  /-- call `next` -/
  | next (x : τ)
  /-- read the references `todo` of the row; `seen` are the values read so far -/
  | reading (x : τ) (row todo : List Access) (seen : List AWorld.Seen)
  /-- store these values -/
  | storing (x : τ) (todo : List (World.Ptr × Bytes))
  /-- `next` has returned `None` -/
  | ended (x : τ)

/-- A running loop. -/
structure Task (τ : Type) where
  src : Source
  body : Body τ
  phase : Phase τ

/-- The stores of a row. -/
def stores : List Access → List (Option Bytes) → List (World.Ptr × Bytes)
  | d :: ds, some bs :: out =>
    match d.dest with
    | some p => (p, bs) :: stores ds out
    | none => stores ds out
  | _ :: ds, none :: out => stores ds out
  | _, _ => []

/-- One turn; a loop that has ended has no more turns. -/
def Task.turn {τ : Type} (w : World) (t : Task τ) : Option (Except Fault (World × Task τ)) :=
  match t.phase with
  | .next x =>
    match t.src.next w with
    | .error f => some (.error f)
    | .ok (none, s) => some (.ok (w, { t with src := s, phase := .ended x }))
    | .ok (some row, s) => some (.ok (w, { t with src := s, phase := .reading x row row [] }))
  | .reading x row (d :: todo) seen =>
    match d.read w with
    | .error f => some (.error f)
    | .ok s => some (.ok (w, { t with phase := .reading x row todo (seen ++ [s]) }))
  | .reading x row [] seen => some (.ok (w, { t with phase := .storing (t.body x seen).1 (stores row (t.body x seen).2) }))
  | .storing x ((p, bs) :: todo) =>
    match w.writePtr p bs with
    | .error f => some (.error f)
    | .ok w' => some (.ok (w', { t with phase := .storing x todo }))
  | .storing x [] => some (.ok (w, { t with phase := .next x }))
  | .ended _ => none

/-- `n` turns, of whichever loops. -/
inductive Turns {τ : Type} : Nat → World → List (Task τ) → World → List (Task τ) → Prop
  | refl (w : World) (ts : List (Task τ)) : Turns 0 w ts w ts
  | turn {n : Nat} {w w1 w2 : World} {ts ts1 : List (Task τ)} {t t' : Task τ} (i : Nat) : Turns n w ts w1 ts1 → ts1[i]? = some t →
      t.turn w1 = some (.ok (w2, t')) → Turns (n + 1) w ts w2 (ts1.set i t')

/-- A query and the body of the loop over it. -/
inductive Job (τ : Type)
  | static (ps : List Param) (body : Body τ) (x : τ)
  | dyn (fs : List Fetch) (body : Body τ) (x : τ)

namespace Job
variable {τ : Type}

/-- `let query = world.query::<..>(); let iter = query.iter();` -/
def start : Job τ → M (Task τ × List Guard)
  | .static ps body x => do
    let q ← World.query ps
    let w ← get
    let it ← liftE (q.iter w)
    pure (⟨.static it, body, .next x⟩, q.guards)
  | .dyn fs body x => do
    let q ← World.queryDynamic fs
    let w ← get
    let it ← liftE (q.iter w)
    pure (⟨.dyn fs it, body, .next x⟩, q.guards)

/-- One after the other; all of them stay alive. -/
def startAll : List (Job τ) → M (List (Task τ × List Guard))
  | [] => pure []
  | j :: js => do
    let t ← j.start
    let ts ← startAll js
    pure (t :: ts)

/-- The queries are dropped, in the reverse order. -/
def dropAll : List (List Guard) → M Unit
  | [] => pure ()
  | gs :: gss => do
    dropAll gss
    Ellecs.dropGuards false gs

/-- The body respects the types; a dynamic query asks for existing entities, or nothing that had a type was despawned. -/
def Ok (w : World) (a : AWorld) : Job τ → Prop
  | .static ps body _ => ps ≠ [] ∧ body.Typed ps
  | .dyn fs body _ => fs ≠ [] ∧ body.Sized a fs ∧ (w.Calm ∨ ∀ f ∈ fs, ∀ c, f.Of c → a.info c ≠ none)

/-- The row of an entity. -/
def row (a : AWorld) : Job τ → EcsId → Option (List AWorld.Seen)
  | .static ps _ _ => a.row ps
  | .dyn fs _ _ => a.rowDyn fs

/-- What the loop does when it is alone and goes through the entities in this order. -/
def alone (a : AWorld) (es : List EcsId) : Job τ → AWorld × τ
  | .static ps body x => AWorld.sweep (a.row ps) (a.cells ps) body es a x
  | .dyn fs body x => AWorld.sweep (a.rowDyn fs) (AWorld.cellsDyn fs) body es a x

/-- The same for a body that remembers nothing: the order does not matter. -/
def pass (a : AWorld) : Job Unit → AWorld
  | .static ps body _ => a.run ps (fun ss => (body () ss).2)
  | .dyn fs body _ => a.runDyn fs (fun ss => (body () ss).2)

/-- The loop can store values of component `c`.  (A static query with a type that is not yet known produces nothing.) -/
def Writes (a : AWorld) (c : EcsId) : Job τ → Prop
  | .static ps _ _ => (∀ p ∈ ps, ∀ t, p.Of t → a.types t ≠ none) ∧ ∃ t, .mut t ∈ ps ∧ a.types t = some c
  | .dyn fs _ _ => .mut c ∈ fs

end Job
end Ellecs
