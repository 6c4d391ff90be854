import Verif.Spec.World
import Verif.Spec.Iter
/-!
# Specification vocabulary for queries

Stated with the tables only, like `Has` and `Row`.
-/
namespace Ellecs

/-- The component of a fetch, if it is not `EcsId`. -/
def Fetch.Of (f : Fetch) (c : EcsId) : Prop := f = .mut c ∨ f = .immut c

/-- The type of a parameter, if it is not `EcsIds`. -/
def Param.Of (p : Param) (t : Ty) : Prop := p = .mut t ∨ p = .ref t

namespace World

/-- `e` was built and has everything the fetches ask for. -/
def HasAll (w : World) (fs : List Fetch) (e : EcsId) : Prop := w.Row e ∧ ∀ f ∈ fs, ∀ c, f.Of c → w.HasComp e c

/-- `p` points to what the fetch asks for: the component value of `e`, or the place in the list of entities of a table
where `e` itself is stored (ids have 8 bytes). -/
def FetchAt (w : World) (e : EcsId) : Fetch → Ptr → Prop
  | .ecsId, p => ∃ (k r : Nat) (a : Archetype), w.archetypes[k]? = some a ∧ a.entities[r]? = some e ∧ p = ⟨.entities k, 8 * r⟩
  | .mut c, p => w.PointsAt p e c
  | .immut c, p => w.PointsAt p e c

/-- `e` was built and has all the types the parameters ask for. -/
def HasTypes (w : World) (ps : List Param) (e : EcsId) : Prop := w.Row e ∧ ∀ p ∈ ps, ∀ t, p.Of t → ∃ bs, w.HasT e t bs

/-- The item is what the parameter asks for: `e` itself, or a reference of the right kind and type to the component value
of `e`. -/
def Denotes (w : World) (e : EcsId) : Param → Item → Prop
  | .ids, i => i = .id e
  | .mut t, i => ∃ p c, i = .mut t p ∧ w.typeMap t = some c ∧ w.PointsAt p e c
  | .ref t, i => ∃ p c, i = .ref t p ∧ w.typeMap t = some c ∧ w.PointsAt p e c

/-- The fetch is the one that corresponds to the parameter. -/
def Bound (w : World) : Param → Fetch → Prop
  | .ids, f => f = .ecsId
  | .mut t, f => ∃ c, w.typeMap t = some c ∧ f = .mut c
  | .ref t, f => ∃ c, w.typeMap t = some c ∧ f = .immut c

/-- `v` is the world `w`, seen while other queries may be live: only the state of the locks is different.  (No method
that changes anything else can be called while a query borrows the world.) -/
def SameButLocks (w v : World) : Prop := ∃ ls, ls.length = w.locks.length ∧ v = { w with locks := ls }

/-- The table with its values blanked out. -/
def Archetype.blank (a : Archetype) : Archetype :=
  { a with storages := a.storages.map (fun p => (p.1, { p.2 with mem := List.replicate p.2.mem.length none })) }

/-- The world without its values and the state of its locks. -/
def blank (w : World) : World := { w with archetypes := w.archetypes.map Archetype.blank, locks := [] }

/-- At most values and the state of the locks are different. -/
def SameShape (w v : World) : Prop := w.blank = v.blank

/-- Table `k` has a column for everything that is asked for. -/
def TableFor (w : World) (fs : List Fetch) (k : Nat) : Prop :=
  ∃ a, w.archetypes[k]? = some a ∧ ∀ f ∈ fs, ∀ c, f.Of c → c ∈ a.compIds

/-- The entities of table `k`, row by row. -/
def entitiesOf (w : World) (k : Nat) : List EcsId :=
  match w.archetypes[k]? with
  | none => []
  | some a => a.entities

/-- The number of bytes behind a pointer of a fetch. -/
def FetchSize (w : World) (f : Fetch) (n : Nat) : Prop :=
  match f with
  | .ecsId => n = 8
  | .mut c | .immut c => ∃ m, w.InfoIs c m ∧ n = m.layout.size

/-- The `n` bytes at `p` and the `n'` bytes at `p'` have no byte in common. -/
def Apart (p : Ptr) (n : Nat) (p' : Ptr) (n' : Nat) : Prop :=
  p.col = p'.col → ∀ b, ¬ (p.off ≤ b ∧ b < p.off + n ∧ p'.off ≤ b ∧ b < p'.off + n')

/-- `x` is the start and the length of the column of table `k` a fetch asks for. -/
def ColumnAt (w : World) (k : Nat) (f : Fetch) (x : Ptr × Nat) : Prop :=
  ∃ a : Archetype, w.archetypes[k]? = some a ∧ x.2 = a.entities.length ∧
    match f with
    | .ecsId => x.1 = ⟨.entities k, 0⟩
    | .mut c | .immut c => ∃ (j : Nat) (v : UVec), a.storages[j]? = some (c, v) ∧ x.1 = ⟨.storage k j, 0⟩

/-- The item of a static query denotes the same as the pointer of a dynamic query. -/
def SameItem (w : World) : Param → Ptr → Item → Prop
  | .ids, p, i => ∃ (k r : Nat) (a : Archetype) (e : EcsId), w.archetypes[k]? = some a ∧ a.entities[r]? = some e ∧ p = ⟨.entities k, 8 * r⟩ ∧ i = .id e
  | .mut t, p, i => i = .mut t p
  | .ref t, p, i => i = .ref t p

/-- The same for whole rows. -/
inductive SameRow (w : World) : List Param → List Ptr → List Item → Prop
  | nil : SameRow w [] [] []
  | cons {p : Param} {x : Ptr} {i : Item} {ps : List Param} {xs : List Ptr} {is : List Item} :
      SameItem w p x i → SameRow w ps xs is → SameRow w (p :: ps) (x :: xs) (i :: is)

end World
end Ellecs
