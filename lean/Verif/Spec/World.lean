import Verif.Spec.UntypedVec
import Verif.Model.Query
/-!
# Specification vocabulary for the world: what the tables contain

`Has`, `Row` look at the tables only (lists of entities next to columns of values).  They do not mention the
metadata, the lookups, the bitset, the caches or the locks with which the code finds things.
-/
namespace Ellecs

/-- `e` may have been handed out: its slot has reached its generation (see C01, C04: a slot is handed out
with generation 0, 1, 2, ..). -/
def Entities.Known (s : Entities) (e : EcsId) : Prop :=
  ∃ a g, s.generations[e.uindex]? = some (a, g) ∧ e.gen.toNat ≤ g.toNat

/-- The drop calls that destroy everything stored in the columns, once. -/
def stEvs (st : List (EcsId × UVec)) : List DropEv := st.flatMap (fun p => UVec.dropEvs p.2.info p.2.elems)

namespace World

/-- All drop calls still owed by the tables. -/
def storedEvs (w : World) : List DropEv := w.archetypes.flatMap (fun a => stEvs a.storages)

/-- `x` was registered for a type between `w` and `w'`. -/
def NewTy (w w' : World) (x : EcsId) : Prop := ∃ t, w.typeMap t = none ∧ w'.typeMap t = some x

/-- `e` is alive (what `is_alive` answers is specified by C02). -/
def Alive (w : World) (e : EcsId) : Prop := w.isAlive e = .ok true

/-- In some table there is a row of `e` whose column `c` holds the bytes `bs`. -/
def Has (w : World) (e c : EcsId) (bs : Bytes) : Prop :=
  ∃ (k r : Nat) (a : Archetype) (v : UVec), w.archetypes[k]? = some a ∧ a.entities[r]? = some e ∧
    (c, v) ∈ a.storages ∧ v.elems[r]? = some bs

/-- In some table there is a row of `e`. -/
def Row (w : World) (e : EcsId) : Prop := ∃ (k r : Nat) (a : Archetype), w.archetypes[k]? = some a ∧ a.entities[r]? = some e

/-- `e` has a component `c`. -/
def HasComp (w : World) (e c : EcsId) : Prop := ∃ bs, w.Has e c bs

/-- `p` points to the value of component `c` in the row of `e`: the row's element of that column. -/
def PointsAt (w : World) (p : Ptr) (e c : EcsId) : Prop :=
  ∃ (k j r : Nat) (a : Archetype) (v : UVec), w.archetypes[k]? = some a ∧ a.entities[r]? = some e ∧
    a.storages[j]? = some (c, v) ∧ p = ⟨.storage k j, r * v.size⟩

/-- The layout and drop function recorded for a live component entity. -/
def InfoIs (w : World) (c : EcsId) (m : ComponentMeta) : Prop :=
  ∃ im, w.getEntityMeta c = .ok (some ⟨im, m⟩)

/-- Some table (possibly without rows) has a column of `c`. -/
def Used (w : World) (c : EcsId) : Prop := ∃ a ∈ w.archetypes, c ∈ a.compIds

/-- No call that stores a value can exceed the limits of the allocator (`isize::MAX` bytes): neither the first
block of a new column nor the doubled block of an existing one. -/
def Roomy (w : World) : Prop :=
  (∀ a ∈ w.archetypes, ∀ p ∈ a.storages, UVec.Roomy p.2) ∧
  ∀ m, some m ∈ w.metas → m.comp.layout.size * 4 < isizeMax

/-- The value one call on a builder supplies: the component and its bytes. -/
def Gives (w : World) : BAct → EcsId → Bytes → Prop
  | .with t v, c, bs => w.typeMap t = some c ∧ bs = v
  | .withDynamic id, c, bs => c = id ∧ bs = []
  | .withDynamicWithData id v, c, bs => c = id ∧ ∃ m, w.InfoIs id m ∧ bs = v.take m.layout.size
  | .build, _, _ => False

/-- What the caller of a builder method must guarantee.  The type system guarantees that a value has the size of its
type.  The pointer given to the unsafe `with_dynamic_with_data` must be readable for the size of the component.
`build` must not be called again after it succeeded, nor with a component given twice (safe code can do both, see
C25, C27). -/
def CallOk (w : World) (b : Builder) : BAct → Prop
  | .with t v => v.length = t.size
  | .withDynamic _ => True
  | .withDynamicWithData id v => ∀ m, w.InfoIs id m → m.layout.size ≤ v.length
  | .build => ¬ w.Row b.entity ∧ b.compIds.Nodup

/-- `CallOk` at every call of the chain that is reached. -/
def CallsOk (w : World) (b : Builder) (as : List BAct) : Prop :=
  ∀ pre a post, as = pre ++ a :: post → ∀ b1 w1, b.acts pre w = .ok b1 w1 → CallOk w1 b1 a

/-- How a chain gets its builder (see `spawnWith`). -/
def mkBuilder (kind : SpawnKind) (entity : EcsId) : M Builder :=
  match kind with
  | .plain => Builder.new entity ComponentMeta.unit
  | .capacity n => Builder.withCapacity entity ComponentMeta.unit n
  | .withMeta m => Builder.new entity m

/-- What the caller of a chain `spawn().with(..)..build()` must guarantee. -/
def ChainOk (w : World) (kind : SpawnKind) (as : List BAct) : Prop :=
  ∀ e w1 b w2, spawnId w = .ok e w1 → mkBuilder kind e w1 = .ok b w2 → CallsOk w2 b as

/-! ### Chains `spawn().with(..)..build()` as they are meant to be used -/

/-- The call is not misuse in `w`: a typed value has the size of its type and the component of the type, if it has been
registered, was not despawned; a dynamic component is a built entity, and it is zero sized or data is supplied. -/
def ActValid (w : World) : BAct → Prop
  | .with t v => v.length = t.size ∧ ∀ c, w.typeMap t = some c → w.Alive c
  | .withDynamic id => ∃ m, w.InfoIs id m ∧ m.layout.size = 0
  | .withDynamicWithData id v => ∃ m, w.InfoIs id m ∧ m.layout.size ≤ v.length
  | .build => False

/-- The component a call names, if it exists in `w`. -/
def Names (w : World) : BAct → EcsId → Prop
  | .with t _, c => w.typeMap t = some c
  | .withDynamic id, c => c = id
  | .withDynamicWithData id _, c => c = id
  | .build, _ => False

/-- Two calls supply the same component. -/
def Clash (w : World) (a b : BAct) : Prop :=
  (∃ t v v', a = .with t v ∧ b = .with t v') ∨ ∃ c, Names w a c ∧ Names w b c

/-- No component is supplied twice. -/
def Distinct (w : World) (as : List BAct) : Prop := as.Pairwise (fun a b => ¬ Clash w a b)

/-- Some table has as many components as there are calls and contains all of those they name.  If no component is
supplied twice it is the table for the entity. -/
def TableFits (w : World) (as : List BAct) : Prop :=
  ∃ a ∈ w.archetypes, a.compIds.length = as.length ∧ ∀ x ∈ as, ∃ c ∈ a.compIds, Names w x c

/-- An upper bound for the bytes a call copies into the builder. -/
def actBytes : BAct → Nat
  | .with _ v => v.length
  | .withDynamicWithData _ v => v.length
  | _ => 0

/-- The chain cannot run out of ids (one for the entity, one for each new type) nor of memory (`isize::MAX` bytes). -/
structure Fits (w : World) (kind : SpawnKind) (as : List BAct) : Prop where
  ids : w.entities.generations.length + as.length + 1 ≤ 2 ^ 32
  bytes : 2 * (as.map actBytes).sum < isizeMax
  cap : ∀ n, kind = .capacity n → layoutOk n 0 = true
  roomy : w.Roomy
  sizes : ∀ t v, .with t v ∈ as → t.size * 4 < isizeMax

/-- Two worlds obtained from `w` look alike: entities of `w` have the same components; an entity `e` has the same
values for components that are alive in `w` and for types, and all its components are of one of these kinds. -/
structure AlikeFor (w w1 w2 : World) (e : EcsId) : Prop where
  others : ∀ x, x ≠ e → ∀ c bs, w1.Has x c bs ↔ w2.Has x c bs
  old : ∀ c bs, w.Alive c → (w1.Has e c bs ↔ w2.Has e c bs)
  typed : ∀ t bs, (∃ c, w1.typeMap t = some c ∧ w1.Has e c bs) ↔ ∃ c, w2.typeMap t = some c ∧ w2.Has e c bs
  all1 : ∀ c bs, w1.Has e c bs → w.Alive c ∨ ∃ t, w1.typeMap t = some c
  all2 : ∀ c bs, w2.Has e c bs → w.Alive c ∨ ∃ t, w2.typeMap t = some c
  rows : ∀ x, w.Alive x ∨ x = e → (w1.Row x ↔ w2.Row x)
  alive : ∀ x, w.Alive x ∨ x = e → (w1.Alive x ↔ w2.Alive x)
  info : ∀ m, w1.InfoIs e m ↔ w2.InfoIs e m

/-- `e` has the component of type `t` with the bytes `bs`. -/
def HasT (w : World) (e : EcsId) (t : Ty) (bs : Bytes) : Prop := ∃ c, w.typeMap t = some c ∧ w.Has e c bs

/-- The component entity of `t`, if `t` has one, is alive (it can be despawned like any entity). -/
def TypeAlive (w : World) (t : Ty) : Prop := ∀ c, w.typeMap t = some c → w.Alive c

end World
end Ellecs
