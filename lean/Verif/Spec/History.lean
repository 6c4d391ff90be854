import Verif.Spec.World
/-!
# Histories of a world

The calls a program makes on one world, which worlds it can get into, and (for C34) which drop calls the program
owes for the values it handed over.  A panic may be caught (`catch_unwind`) and the program may go on with the world
the panic left, so histories contain calls that panicked.

Not in these histories: calls that panic because an allocation would exceed `isize::MAX` bytes, calls that block for
ever (`deadlock`), and the builder misuse excluded by `CallOk`.  Looking at the world (`is_alive`, `has_component`,
iterating a query, reading a component) does not change it and needs no call here.
-/
namespace Ellecs
namespace World

/-- The calls that can change a world. -/
inductive Call
  /-- obtain a builder, make the calls on it, drop it -/
  | spawn (kind : SpawnKind) (acts : List BAct)
  | addComponent (e : EcsId) (t : Ty) (v : Bytes)
  | removeComponent (e : EcsId) (t : Ty)
  | addDynamic (e c : EcsId)
  | addDynamicWithData (e c : EcsId) (src : Bytes)
  | removeDynamic (e c : EcsId)
  | despawn (e : EcsId)
  /-- `get_or_create_type_id_ecsid::<T>()` -/
  | register (t : Ty)
  /-- `get_component_mut_dynamic(e, c)` and, if there is one, a write of `bs` through the pointer -/
  | write (e c : EcsId) (bs : Bytes)
  /-- make a query and drop it, possibly while panicking -/
  | query (ps : List Param) (panicking : Bool)
  | queryDynamic (fs : List Fetch) (panicking : Bool)

/-- Make a call. -/
def Call.exec : Call → M Unit
  | .spawn kind acts => do
    let _ ← spawnWith kind acts
  | .addComponent e t v => World.addComponent e t v
  | .removeComponent e t => World.removeComponent e t
  | .addDynamic e c => addComponentDynamic e c
  | .addDynamicWithData e c src => addComponentDynamicWithData e c src
  | .removeDynamic e c => removeComponentDynamic e c
  | .despawn e => do
    let _ ← World.despawn e
  | .register t => do
    let _ ← getOrCreate t
  | .write e c bs => do
    let w ← get
    match ← liftE (w.getComponentMutDynamic e c) with
    | none => pure ()
    | some p => step (fun w => w.writePtr p bs)
  | .query ps panicking => do
    let q ← World.query ps
    dropGuards panicking q.guards
  | .queryDynamic fs panicking => do
    let q ← World.queryDynamic fs
    dropGuards panicking q.guards

/-- What the type system or the documented safety contract makes the caller guarantee. -/
def Call.Ok (w : World) : Call → Prop
  | .spawn kind acts => ChainOk w kind acts
  | .addComponent _ t v => v.length = t.size
  | .addDynamicWithData _ c src => ∀ m, w.InfoIs c m → m.layout.size ≤ src.length
  | .write _ c bs => ∀ m, w.InfoIs c m → bs.length = m.layout.size
  | _ => True

/-- No free slot has the last generation: no slot has been recycled `2^32` times (see C01). -/
def NoFullSlot (w : World) : Prop := ∀ p ∈ w.entities.generations, p.1 = false → p.2 ≠ BitVec.allOnes 32

/-- The same for the slots of the ids of types only. -/
def NoFullType (w : World) : Prop := ∀ t id, w.typeMap t = some id → w.entities.generations[id.uindex]? ≠ some (false, BitVec.allOnes 32)

/-- The worlds a program can get into. -/
inductive Reachable : World → Prop
  | new : Reachable World.new
  | ok {w w' : World} (c : Call) : Reachable w → c.Ok w → c.exec w = .ok () w' → w'.NoFullSlot → Reachable w'
  | panic {w w' : World} (c : Call) (f : Fault) : Reachable w → c.Ok w → c.exec w = .error f w' → ¬ Limit f → f ≠ .deadlock →
      w'.NoFullSlot → Reachable w'

/-- The worlds a program can get into without any panic. -/
inductive Calm : World → Prop
  | new : Calm World.new
  | ok {w w' : World} (c : Call) : Calm w → c.Ok w → c.exec w = .ok () w' → w'.NoFullSlot → Calm w'

/-- `w'` is what the program may have made of `w` some calls later. -/
inductive Later : World → World → Prop
  | refl (w : World) : Later w w
  | ok {w w1 w' : World} (c : Call) : Later w w1 → c.Ok w1 → c.exec w1 = .ok () w' → w'.NoFullSlot → Later w w'
  | panic {w w1 w' : World} (c : Call) (f : Fault) : Later w w1 → c.Ok w1 → c.exec w1 = .error f w' → ¬ Limit f → f ≠ .deadlock →
      w'.NoFullSlot → Later w w'

/-- The drop call owed for a value `bs` of a component. -/
def owed (m : ComponentMeta) (bs : Bytes) : List DropEv :=
  match m.dropFn with
  | none => []
  | some f => [⟨f, bs⟩]

/-- The drop call owed for the value supplied by one call on a builder. -/
def ActOwes (w : World) : BAct → List DropEv → Prop
  | .with t v, g => g = [⟨.generic t, v⟩]
  | .withDynamic id, g => ∃ m, w.InfoIs id m ∧ g = owed m []
  | .withDynamicWithData id v, g => ∃ m, w.InfoIs id m ∧ g = owed m (v.take m.layout.size)
  | .build, g => g = []

/-- The drop calls owed for the values supplied by a chain of calls. -/
def ActsOwe (w : World) : List BAct → List DropEv → Prop
  | [], g => g = []
  | a :: as, g => ∃ g1 g2, ActOwes w a g1 ∧ ActsOwe w as g2 ∧ g = g1 ++ g2

/-- The call supplies a value that occupies memory. -/
def Sized (w : World) : BAct → Prop
  | .with t _ => t.size ≠ 0
  | .withDynamicWithData id _ => ∃ m, w.InfoIs id m ∧ m.layout.size ≠ 0
  | _ => False

/-- The drop calls owed for the values supplied by a chain of calls, without those of size 0. -/
def ActsOweSized (w : World) : List BAct → List DropEv → Prop
  | [], g => g = []
  | a :: as, g => ∃ g1 g2, ((Sized w a ∧ ActOwes w a g1) ∨ (¬ Sized w a ∧ g1 = [])) ∧ ActsOweSized w as g2 ∧ g = g1 ++ g2

/-- Drop calls, sorted by what the program did with the values: handed over to the world; replaced by a write (the
writer is responsible for dropping them); lost inside `add_component` (see C36). -/
structure Deal where
  given : List DropEv := []
  taken : List DropEv := []
  lost : List DropEv := []

def Deal.append (d d' : Deal) : Deal := ⟨d.given ++ d'.given, d.taken ++ d'.taken, d.lost ++ d'.lost⟩

/-- `e` is a new row that is not the component entity of a type. -/
def BuiltNew (w w' : World) (e : EcsId) : Prop := w'.Row e ∧ ¬ w.Row e ∧ ∀ t, w'.typeMap t ≠ some e

/-- What a call that led from `w` to `w'` did with values; `r` is its panic, if it panicked.  A value given to a
builder counts as handed over when the entity is built. -/
def Call.deal (w w' : World) (r : Option Fault) : Call → Deal → Prop
  | .spawn _ acts, d => d.taken = [] ∧ d.lost = [] ∧
      (((¬ ∃ e, BuiltNew w w' e) ∧ d.given = []) ∨
      ((∃ e, BuiltNew w w' e) ∧ ∃ pre post, acts = pre ++ .build :: post ∧ .build ∉ pre ∧ ActsOwe w' pre d.given))
  | .addComponent _ t v, d => d.given = [⟨.generic t, v⟩] ∧ d.taken = [] ∧
      (match r with
      | none => (d.lost = [] ∧ ∃ c, w'.typeMap t = some c ∧ w'.Alive c) ∨ (d.lost = d.given ∧ ∃ c, w'.typeMap t = some c ∧ ¬ w'.Alive c)
      | some f => d.lost = if f = .notAlive ∨ f = .noGeneration ∨ f = .outOfIds then [] else d.given)
  | .addDynamic _ c, d => d.taken = [] ∧ d.lost = [] ∧
      ((r = none ∧ ∃ m, w.InfoIs c m ∧ d.given = owed m []) ∨ (r ≠ none ∧ d.given = []))
  | .addDynamicWithData e c src, d => d.taken = [] ∧ d.lost = [] ∧
      ((r = none ∧ w.Alive e ∧ w.Alive c ∧ ∃ m, w.InfoIs c m ∧ d.given = owed m (src.take m.layout.size)) ∨
      (¬ (r = none ∧ w.Alive e ∧ w.Alive c) ∧ d.given = []))
  | .write e c bs, d => d.lost = [] ∧
      ((∃ old m, w.Has e c old ∧ w.InfoIs c m ∧ d.given = owed m bs ∧ d.taken = owed m old) ∨
      (¬ w.HasComp e c ∧ d.given = [] ∧ d.taken = []))
  | _, d => d = {}

/-- A history with what was done with values. -/
inductive Hist : World → Deal → Prop
  | new : Hist World.new {}
  | ok {w w' : World} {d d' : Deal} (c : Call) : Hist w d → c.Ok w → c.exec w = .ok () w' → w'.NoFullSlot →
      c.deal w w' none d' → Hist w' (d.append d')
  | panic {w w' : World} {d d' : Deal} (c : Call) (f : Fault) : Hist w d → c.Ok w → c.exec w = .error f w' → ¬ Limit f →
      f ≠ .deadlock → w'.NoFullSlot → c.deal w w' (some f) d' → Hist w' (d.append d')

end World
end Ellecs
