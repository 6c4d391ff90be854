import Verif.Model.Query
/-!
# The repository's own unit tests, run on the model

These are tests of the model, not theorems about the code: each test of `/repo` is written down again for the model
and evaluated.  A difference between the model and the code that the repository's tests can see would show here.
Values are written little endian; a `&str` or a pointer is modelled as an opaque value of its size.
`despawn_component_entity` (tests/world.rs:248-293) returns before doing anything and is left out.
-/
namespace Ellecs.RepoTests
open World

/-- `assert!`. -/
def check (b : Bool) : M Unit := if b then pure () else throw .fuel

/-- The test ends without a panic. -/
def passes (t : M Unit) : Bool :=
  match t World.new with
  | .ok _ _ => true
  | .error _ _ => false

/-- The test panics with this fault. -/
def panicsWith (f : Fault) (t : M Unit) : Bool :=
  match t World.new with
  | .ok _ _ => false
  | .error g _ => g == f

/-- The `n` bytes of a number. -/
def bytes : Nat → Nat → Bytes
  | 0, _ => []
  | n + 1, x => some (BitVec.ofNat 8 x) :: bytes n (x / 256)

def u32 : Ty := ⟨1, ⟨4, 2⟩⟩
def u64 : Ty := ⟨2, ⟨8, 3⟩⟩
def u128 : Ty := ⟨3, ⟨16, 4⟩⟩
def str : Ty := ⟨4, ⟨16, 3⟩⟩
def f32 : Ty := ⟨5, ⟨4, 2⟩⟩
def zero : Ty := ⟨6, ⟨0, 0⟩⟩
def tyA : Ty := ⟨7, ⟨4, 2⟩⟩
def tyB : Ty := ⟨8, ⟨4, 2⟩⟩

/-- A component value. -/
def v (t : Ty) (x : Nat) : BAct := .with t (bytes t.size x)

/-- The `spawn!` macro (lib.rs:20-33). -/
def spawn (vs : List BAct) : M EcsId := spawnWith .plain (vs ++ [.build])

/-- What the test sees of an item. -/
inductive Seen
  | id (e : EcsId)
  | val (bs : Bytes)
  deriving DecidableEq

def seeItem (w : World) : Item → Except Fault Seen
  | .id e => .ok (.id e)
  | .mut t p | .ref t p => (w.readPtr p t.size).map .val

def seeAll (w : World) : List Item → Except Fault (List Seen)
  | [] => .ok []
  | i :: is => do .ok ((← seeItem w i) :: (← seeAll w is))

/-- A number of a type. -/
def n (t : Ty) (x : Nat) : Seen := .val (bytes t.size x)

/-- `for … in query.iter()`, at most `fuel` items. -/
def drain (w : World) : Nat → StaticIter → Except Fault (List (List Seen))
  | 0, _ => .error .fuel
  | fuel + 1, it => do
    match ← it.next w with
    | (none, _) => .ok []
    | (some is, it) => .ok ((← seeAll w is) :: (← drain w fuel it))

/-- A query, all its items, and the end of the query. -/
def items (ps : List Param) : M (List (List Seen)) := do
  let q ← World.query ps
  let w ← get
  let r ← liftE (do drain w 20 (← q.iter w))
  dropGuards false q.guards
  return r

def itemOf (q : StaticQuery) (e : EcsId) : M (Option (List Seen)) := do
  let w ← get
  match ← liftE (q.get w e) with
  | none => return none
  | some is => return some (← liftE (seeAll w is))

def table (k : Nat) : M Archetype := do
  let w ← get
  liftE (idx w.archetypes k)

def columnsAre (a : Archetype) (n : Nat) : Bool := a.storages.all (fun p => match p.2.lenElems with | .ok m => m == n | _ => false)

/-- `world.get_entity_meta(e).unwrap().instance_meta` is this table and row. -/
def metaIs (e : EcsId) (k r : Nat) : M Unit := do
  let w ← get
  let m ← liftE (do unwrap (← w.getEntityMeta e))
  check (m.inst.archetype == k && m.inst.index == r)

/-! ## tests/world.rs -/

/-- `get` -/
def world_get : M Unit := do
  let e1 ← spawn [v u32 10, v u64 12, v str 1111]
  let e2 ← spawn [v u32 18, v str 2222, v f32 16]
  let q ← World.query [.mut str]
  check ((← itemOf q e1) == some [n str 1111])
  check ((← itemOf q e2) == some [n str 2222])

/-- `entity_archetype_lookup` -/
def entity_archetype_lookup : M Unit := do
  let e ← spawn [v u32 10, v u64 12]
  metaIs e 1 0

/-- `add_component` -/
def add_component : M Unit := do
  let e ← spawn [v u32 1]
  addComponent e u64 (bytes 8 2)
  check ((← get).archetypes.length == 3)
  metaIs e 2 0
  let t0 ← table 0
  check (t0.entities.length == 2 && t0.storages.length == 0 && columnsAre t0 0)
  let t1 ← table 1
  check (t1.entities.length == 0 && t1.storages.length == 1 && columnsAre t1 0)
  let t2 ← table 2
  check (t2.entities.length == 1 && t2.storages.length == 2 && columnsAre t2 1)
  check ((← items [.ref u32, .ref u64]) == [[n u32 1, n u64 2]])

/-- `add_component_then_spawn` -/
def add_component_then_spawn : M Unit := do
  let e ← spawn [v u32 1]
  addComponent e u64 (bytes 8 2)
  let e2 ← spawn [v u32 3, v u64 4]
  check ((← get).archetypes.length == 3)
  let t0 ← table 0
  check (t0.entities.length == 2 && t0.storages.length == 0)
  let t1 ← table 1
  check (t1.entities.length == 0 && t1.storages.length == 1 && columnsAre t1 0)
  let t2 ← table 2
  check (t2.entities == [e, e2] && t2.storages.length == 2 && columnsAre t2 2)
  metaIs e 2 0
  metaIs e2 2 1
  check ((← items [.ref u32, .ref u64]) == [[n u32 1, n u64 2], [n u32 3, n u64 4]])

/-- `add_two` -/
def add_two : M Unit := do
  let e1 ← spawn [v tyA 1]
  let e2 ← spawn [v tyA 1]
  let t0 ← table 0
  check (t0.entities.length == 1 && t0.storages.length == 0)
  check ((← table 1).entities == [e1, e2])
  metaIs e1 1 0
  metaIs e2 1 1
  addComponent e1 tyB (bytes 4 2)
  check ((← table 0).entities.length == 2)
  check ((← table 1).entities == [e2])
  check ((← table 2).entities == [e1])
  metaIs e1 2 0
  metaIs e2 1 0
  addComponent e2 tyB (bytes 4 2)
  check ((← table 0).entities.length == 2)
  check ((← table 1).entities.length == 0)
  check ((← table 2).entities == [e1, e2])
  metaIs e1 2 0
  metaIs e2 2 1

/-- `add_multiple` -/
def add_multiple : M Unit := do
  let es ← (List.range 10).mapM (fun _ => spawn [v tyA 1])
  es.forM (fun e => addComponent e tyB (bytes 4 1))
  es.forM (fun e => removeComponent e tyB)

/-- `despawn_meta_update` -/
def despawn_meta_update : M Unit := do
  let e1 ← spawn [v u32 10]
  let e2 ← spawn [v u32 12]
  let e3 ← spawn [v u32 14]
  check (← despawn e1)
  let w ← get
  check (!(← liftE (w.isAlive e1)))
  check ((← liftE (w.getEntityMeta e1)).isNone)
  check (← liftE (w.isAlive e2))
  check (← liftE (w.isAlive e3))
  let q ← World.query [.mut u32]
  check ((← itemOf q e2) == some [n u32 12])
  check ((← itemOf q e3) == some [n u32 14])

/-- `spawn`, `spawn_with_capacity`, `spawn_with_capacity_zero` -/
def spawn_kind (kind : SpawnKind) : M Unit := do
  let e ← spawnWith kind [.build]
  check (e == ⟨0, 0⟩)

example : passes world_get = true := by decide +kernel
example : passes entity_archetype_lookup = true := by decide +kernel
example : passes add_component = true := by decide +kernel
example : passes add_component_then_spawn = true := by decide +kernel
example : passes add_two = true := by decide +kernel
example : passes add_multiple = true := by decide +kernel
example : passes despawn_meta_update = true := by decide +kernel
example : passes (spawn_kind .plain) = true := by decide +kernel
example : passes (spawn_kind (.capacity 32)) = true := by decide +kernel
example : passes (spawn_kind (.capacity 0)) = true := by decide +kernel

/-! ## tests/query.rs -/

/-- The three entities most tests start with. -/
def three : M Unit := do
  let _ ← spawn [v u32 10, v u64 12]
  let _ ← spawn [v u32 15, v u64 14]
  let _ ← spawn [v u32 20, v u64 16]

/-- `for_each_mut`, `for_each_iterator` -/
def for_each_mut : M Unit := do
  three
  check ((← items [.mut u32, .ref u64]) == [[n u32 10, n u64 12], [n u32 15, n u64 14], [n u32 20, n u64 16]])

/-- `for_each_subset_iterator` -/
def for_each_subset_iterator : M Unit := do
  three
  check ((← items [.mut u32]) == [[n u32 10], [n u32 15], [n u32 20]])

/-- `for_each_multi_archetype_iterator` -/
def for_each_multi_archetype_iterator : M Unit := do
  three
  let _ ← spawn [v u32 11, v u64 12, v u128 99]
  let _ ← spawn [v u32 16, v u64 14, v u128 99]
  let _ ← spawn [v u32 21, v u64 16, v u128 99]
  check ((← items [.mut u32]) == [10, 15, 20, 11, 16, 21].map (fun x => [n u32 x]))

/-- `query_param_in_func` -/
def query_param_in_func : M Unit := do
  let _ ← spawn [v u32 10, v u64 12]
  check ((← items [.ref u32, .ref u64]) == [[n u32 10, n u64 12]])

/-- `entity_query` -/
def entity_query : M Unit := do
  let _ ← spawn [v u32 1, v u64 12]
  check ((← items [.ids, .ref u32, .ref u64]) == [[.id ⟨0, 0⟩, n u32 1, n u64 12]])

/-- `query_get` -/
def query_get : M Unit := do
  let a ← spawn [v u32 41, v u64 9]
  let b ← spawn [v u32 8]
  let c ← spawn [v u64 12]
  let d ← spawn [v u32 1, v u64 128, v u128 28]
  let q ← World.query [.mut u32]
  check ((← itemOf q a) == some [n u32 41])
  check ((← itemOf q b) == some [n u32 8])
  check ((← itemOf q c) == none)
  check ((← itemOf q d) == some [n u32 1])

/-- `non_present_component_query` -/
def non_present_component_query : M Unit := do
  check ((← items [.mut u32]) == [])
  check ((← items [.ref u32]) == [])

example : passes for_each_mut = true := by decide +kernel
example : passes for_each_subset_iterator = true := by decide +kernel
example : passes for_each_multi_archetype_iterator = true := by decide +kernel
example : passes query_param_in_func = true := by decide +kernel
example : passes entity_query = true := by decide +kernel
example : passes query_get = true := by decide +kernel
example : passes non_present_component_query = true := by decide +kernel

/-! ## tests/dyn_query.rs -/

/-- Read what a pointer of a dynamic query points to, as a `T` of the given size, or as an `EcsId`. -/
def seePtr (w : World) (size : Nat) (p : Ptr) : Except Fault Seen :=
  match p.col with
  | .entities k => do
    let a ← idx w.archetypes k
    return .id (← idx a.entities (p.off / 8))
  | _ => (w.readPtr p size).map .val

def seePtrs (w : World) : List Nat → List Ptr → Except Fault (List Seen)
  | s :: ss, p :: ps => do .ok ((← seePtr w s p) :: (← seePtrs w ss ps))
  | _, _ => .ok []

def drainDyn (w : World) (sizes : List Nat) : Nat → DynIter → Except Fault (List (List Seen))
  | 0, _ => .error .fuel
  | fuel + 1, it => do
    match ← it.next w with
    | (none, _) => .ok []
    | (some ps, it) => .ok ((← seePtrs w sizes ps) :: (← drainDyn w sizes fuel it))

def dynItems (fs : List Fetch) (sizes : List Nat) : M (List (List Seen)) := do
  let q ← World.queryDynamic fs
  let w ← get
  let r ← liftE (do drainDyn w sizes 20 (← q.iter w))
  dropGuards false q.guards
  return r

/-- `spawn_with_component_meta(ComponentMeta::from_generic::<T>()).build()` -/
def compEnt (t : Ty) : M EcsId := spawnWith (.withMeta (.fromGeneric t)) [.build]

/-- `with_dynamic_with_data` with a value of the size. -/
def d (c : EcsId) (t : Ty) (x : Nat) : BAct := .withDynamicWithData c (bytes t.size x)

def threeDyn (a b : EcsId) : M Unit := do
  let _ ← spawn [d a u32 10, d b u64 12]
  let _ ← spawn [d a u32 15, d b u64 14]
  let _ ← spawn [d a u32 20, d b u64 16]

/-- `for_each_mut` -/
def dyn_for_each_mut : M Unit := do
  let a ← compEnt u32
  let b ← compEnt u64
  threeDyn a b
  check ((← dynItems [.mut a, .immut b] [4, 8]) == [[n u32 10, n u64 12], [n u32 15, n u64 14], [n u32 20, n u64 16]])

/-- `for_each_subset_iterator` -/
def dyn_for_each_subset_iterator : M Unit := do
  let a ← compEnt u32
  let b ← compEnt u64
  threeDyn a b
  check ((← dynItems [.mut a] [4]) == [[n u32 10], [n u32 15], [n u32 20]])

/-- `for_each_multi_archetype_iterator` -/
def dyn_for_each_multi_archetype_iterator : M Unit := do
  let a ← compEnt u32
  let b ← compEnt u64
  let c ← compEnt u128
  threeDyn a b
  let _ ← spawn [d a u32 11, d b u64 12, d c u128 99]
  let _ ← spawn [d a u32 16, d b u64 14, d c u128 99]
  let _ ← spawn [d a u32 21, d b u64 16, d c u128 99]
  check ((← dynItems [.mut a] [4]) == [10, 15, 20, 11, 16, 21].map (fun x => [n u32 x]))

/-- `query_param_in_func` -/
def dyn_query_param_in_func : M Unit := do
  let c ← spawn []
  let _ ← spawn [.withDynamic c]
  check ((← dynItems [.immut c] [0]) != [])

/-- `entity_query` -/
def dyn_entity_query : M Unit := do
  let a ← compEnt u32
  let b ← compEnt u64
  let e ← spawn [d a u32 1, d b u64 12]
  check ((← dynItems [.ecsId, .immut a, .immut b] [8, 4, 8]) == [[.id e, n u32 1, n u64 12]])

/-- `non_present_component_query`: the id comes from another world. -/
def dyn_non_present_component_query : M Unit := do
  check ((← dynItems [.mut ⟨0, 0⟩] [0]) == [])
  check ((← dynItems [.immut ⟨0, 0⟩] [0]) == [])

example : passes dyn_for_each_mut = true := by decide +kernel
example : passes dyn_for_each_subset_iterator = true := by decide +kernel
example : passes dyn_for_each_multi_archetype_iterator = true := by decide +kernel
example : passes dyn_query_param_in_func = true := by decide +kernel
example : passes dyn_entity_query = true := by decide +kernel
example : passes dyn_non_present_component_query = true := by decide +kernel

/-! ## tests/entities.rs -/

def spawnE : M EcsId := spawnId

/-- `entities.despawn(e)` on the entity allocator alone. -/
def despawnE (e : EcsId) : M Bool := do
  let w ← get
  let (b, s) ← liftE (w.entities.despawn e)
  set { w with entities := s }
  return b

def aliveE (e : EcsId) : M Bool := do liftE ((← get).entities.isAlive e)

/-- `despawned.len()` and `generations.len()`. -/
def lens (x y : Nat) : M Unit := do
  let s := (← get).entities
  check (s.despawned.length == x && s.generations.length == y)

/-- `generations.get(i).unwrap().1 == g`. -/
def genIs (i : Nat) (g : BitVec 32) : M Unit := do
  let p ← liftE (idx (← get).entities.generations i)
  check (p.2 == g)

/-- `spawn_one`, `spawn_multiple` -/
def spawn_multiple : M Unit := do
  check ((← spawnE) == .new 0 0); lens 0 1
  check ((← spawnE) == .new 1 0); lens 0 2
  check ((← spawnE) == .new 2 0); lens 0 3
  check ((← spawnE) == .new 3 0); lens 0 4

/-- `spawn_one_despawn_one`, `reuse_despawned` -/
def reuse_despawned : M Unit := do
  let e ← spawnE
  check (e == .new 0 0); lens 0 1
  let _ ← despawnE e
  lens 1 1; genIs 0 0; check (!(← aliveE e))
  let e2 ← spawnE
  check (e2 == .new 0 1 && e != e2); lens 0 1; genIs 0 1
  check (!(← aliveE e)); check (← aliveE e2)

/-- `despawn_invalid`: panics. -/
def despawn_invalid : M Unit := do
  let _ ← aliveE (.new (-1) (-1))

/-- `double_despawn` -/
def double_despawn : M Unit := do
  let e ← spawnE
  let _ ← despawnE e
  check (!(← despawnE e))
  lens 1 1; genIs 0 0; check (!(← aliveE e))
  check ((← spawnE) == .new 0 1)

/-- `reuse_despawn2` -/
def reuse_despawn2 : M Unit := do
  let e ← spawnE
  check (e == .new 0 0); lens 0 1
  let e2 ← spawnE
  check (e2 == .new 1 0 && e != e2); lens 0 2; genIs 0 0; genIs 1 0
  check (← aliveE e); check (← aliveE e2)
  check (← despawnE e)
  check (!(← aliveE e)); check (← aliveE e2); lens 1 2; genIs 0 0; genIs 1 0
  check ((← get).entities.despawned[0]? == some 0)
  let e3 ← spawnE
  check (!(← aliveE e)); check (← aliveE e2); check (← aliveE e3)
  lens 0 2; genIs 0 1; genIs 1 0

/-- `generation_wraps` -/
def generation_wraps : M Unit := do
  modify (fun w => { w with entities := { w.entities with generations := [(false, -1)], despawned := [0] } })
  let e ← spawnE
  check (← aliveE e)
  check (e == .new 0 0)
  lens 0 1; genIs 0 0

/-- `build_with_zst` -/
def build_with_zst : M Unit := do
  let e ← spawn [v zero 0]
  check (← aliveE e)

example : passes spawn_multiple = true := by decide +kernel
example : passes reuse_despawned = true := by decide +kernel
example : passes double_despawn = true := by decide +kernel
example : passes reuse_despawn2 = true := by decide +kernel
example : panicsWith .noGeneration despawn_invalid = true := by decide +kernel
example : passes generation_wraps = true := by decide +kernel
example : passes build_with_zst = true := by decide +kernel

/-! ## tests/bitset_iterator.rs -/

/-- The next `k` results of the iterator. -/
def nexts : Nat → BitsetIter → List (Option Nat)
  | 0, _ => []
  | k + 1, it => let r := it.next; r.1 :: nexts k r.2

def ident (ws : List Word) : WordIter := ⟨ws, fun x => x⟩

/-- `empty_bitset` -/
example : nexts 1 (.new [ident []] 0) = [none] := by decide +kernel
/-- `single_bitset` -/
example : nexts 4 (.new [ident [0b00001011]] 64) = [some 0, some 1, some 3, none] := by decide +kernel
/-- `gapped_bitset` -/
example : nexts 3 (.new [ident [0, 0b101]] 128) = [some 64, some 66, none] := by decide +kernel
/-- `triple_bitset` -/
example : nexts 3 (.new [ident [0b10101011], ident [0b01101110], ident [0b11100110]] 64) = [some 1, some 5, none] := by decide +kernel
/-- `map_bitset` -/
example : nexts 4 (.new [ident [0b10101011], ⟨[0b01110110], fun x => ~~~x⟩] 64) = [some 0, some 3, some 7, none] := by decide +kernel
/-- `all_ones`, `returns_none_continuously` -/
example : nexts 73 (.new [ident [-1]] 64) = (List.range 64).map some ++ List.replicate 9 none := by decide +kernel
/-- `bit_length` -/
example : nexts 2 (.new [ident [0b101]] 2) = [some 0, none] := by decide +kernel
/-- `long_bit_length` -/
example : nexts 65 (.new [ident [0, -1]] 128) = (List.range 64).map (fun x => some (x + 64)) ++ [none] := by decide +kernel
/-- `incorrect_bit_length`, `returns_none_continuously_incorrect_bit_length` -/
example : nexts 11 (.new [ident [0b101]] 2000) = [some 0, some 2] ++ List.replicate 9 none := by decide +kernel
/-- `returns_none_continuously_bit_length` -/
example : nexts 11 (.new [ident [0b101]] 3) = [some 0, some 2] ++ List.replicate 9 none := by decide +kernel

/-! ## tests/bitsetsss.rs -/

/-- The test ends without a panic and all its assertions hold. -/
def holds (t : Except Fault Bool) : Bool :=
  match t with
  | .ok b => b
  | .error _ => false

def key1 : EcsId := .new 0 0
def key2 : EcsId := .new 1 0

/-- `insert_one` -/
example : holds (do
    let s ← Bitsets.insertBitvec [] key1
    let b ← unwrap (Bitsets.getBitvec s key1)
    return b.data.length == 0) = true := by decide +kernel
/-- `set_bit` -/
example : holds (do
    let s ← Bitsets.insertBitvec [] key1
    let s ← Bitsets.setBit s key1 0 true
    let s ← Bitsets.setBit s key1 3 true
    let b ← unwrap (Bitsets.getBitvec s key1)
    return (← idx b.data 0) == 0b1001 && b.len == 4) = true := by decide +kernel
/-- `set_bit_far` -/
example : holds (do
    let s ← Bitsets.insertBitvec [] key1
    let s ← Bitsets.setBit s key1 64 true
    let b ← unwrap (Bitsets.getBitvec s key1)
    return (← idx b.data 0) == 0 && (← idx b.data 1) == 1 && b.len == 65) = true := by decide +kernel
/-- `get_bit` -/
example : holds (do
    let s ← Bitsets.insertBitvec [] key1
    let s ← Bitsets.setBit s key1 3 true
    let b ← unwrap (Bitsets.getBitvec s key1)
    return (← b.getBit 3) == some true) = true := by decide +kernel
/-- `bitset_iterator` -/
example : holds (do
    let s ← Bitsets.insertBitvec [] key1
    let s ← Bitsets.setBit s key1 1 true
    let s ← Bitsets.setBit s key1 2 true
    let s ← Bitsets.insertBitvec s key2
    let s ← Bitsets.setBit s key2 2 true
    let s ← Bitsets.setBit s key2 3 true
    let b1 ← unwrap (Bitsets.getBitvec s key1)
    let b2 ← unwrap (Bitsets.getBitvec s key2)
    return nexts 2 (.new [ident b1.data, ident b2.data] 4) == [some 2, none]) = true := by decide +kernel
/-- `empty_push_bit` -/
example : holds (do
    let s ← Bitsets.insertBitvec [] key1
    let s ← Bitsets.pushBit s key1 true
    let b ← unwrap (Bitsets.getBitvec s key1)
    return (← b.getBit 0) == some true && (← b.getBit 1) == none) = true := by decide +kernel
/-- `push_bit` -/
example : holds (do
    let s ← Bitsets.insertBitvec [] key1
    let s ← Bitsets.setBit s key1 3 true
    let s ← Bitsets.pushBit s key1 true
    let b ← unwrap (Bitsets.getBitvec s key1)
    return (← b.getBit 4) == some true && (← b.getBit 5) == none) = true := by decide +kernel
/-- `push_bit_segmented` -/
example : holds (do
    let s ← Bitsets.insertBitvec [] key1
    let s ← Bitsets.setBit s key1 63 false
    let s ← Bitsets.pushBit s key1 true
    let b ← unwrap (Bitsets.getBitvec s key1)
    return (← b.getBit 64) == some true && (← b.getBit 65) == none) = true := by decide +kernel

/-! ## untyped_vec/src/lib.rs:380-646 -/

/-- `untyped_vec_new::<T>` -/
def vecNew (t : Ty) : UVec := .newFromRaw ⟨t.layout, some (.generic t)⟩

/-- `Wrap(u32, *mut bool)`: the pointer at offset 0, the number at offset 8, four bytes of padding. -/
def wrapTy : Ty := ⟨9, ⟨16, 3⟩⟩
def wrap (x : Nat) : Bytes := bytes 8 0 ++ bytes 4 x ++ List.replicate 4 none

/-- The number of a `Wrap`. -/
def wrapNum (bs : Bytes) : Bytes := readAt bs 8 4

/-- `create` -/
example : (vecNew u32).cap = 0 ∧ (vecNew u32).len = 0 ∧ (vecNew u32).data = none ∧ (vecNew u32).info.layout = u32.layout := by decide +kernel
/-- `grow` -/
example : holds (do
    let v ← (vecNew u32).realloc
    let v' ← v.realloc
    return v.cap == 16 && v.len == 0 && v.data.isSome && v.info.layout == u32.layout &&
      v'.cap == 32 && v'.len == 0 && v'.data.isSome && v'.info.layout == u32.layout) = true := by decide +kernel
/-- `push_raw`, `as_slice` -/
example : holds (do
    let v ← (vecNew u32).pushRaw (bytes 4 10)
    return v.len == 4 && v.cap == 16 && (← v.asSlice u32.layout) == [bytes 4 10]) = true := by decide +kernel
/-- `push_raw_realloc` -/
example : holds (do
    let v1 ← (vecNew u32).pushRaw (bytes 4 10)
    let v2 ← v1.pushRaw (bytes 4 10)
    let v3 ← v2.pushRaw (bytes 4 10)
    let v4 ← v3.pushRaw (bytes 4 10)
    let v5 ← v4.pushRaw (bytes 4 10)
    return [v1, v2, v3, v4].map (fun v => (v.len, v.cap)) == [(4, 16), (8, 16), (12, 16), (16, 16)] &&
      v5.len == 20 && v5.cap == 32 && (← v5.asSlice u32.layout) == List.replicate 5 (bytes 4 10)) = true := by decide +kernel
/-- `pop` -/
example : holds (do
    let v ← (vecNew u32).pushRaw (bytes 4 10)
    let (b, v, _) ← v.pop
    let (b', v', _) ← v.pop
    return b && v.len == 0 && !b' && v'.len == 0) = true := by decide +kernel
/-- `pop_drop_impl` -/
example : holds (do
    let v ← (vecNew wrapTy).pushRaw (wrap 10)
    let (b, v, evs) ← v.pop
    return b && v.len == 0 && evs == [⟨.generic wrapTy, wrap 10⟩]) = true := by decide +kernel
/-- `drop_impl` -/
example : holds (do
    let v ← (vecNew wrapTy).pushRaw (wrap 10)
    let (evs, _) ← v.drop
    return evs == [⟨.generic wrapTy, wrap 10⟩]) = true := by decide +kernel
/-- `move_element_to_other_vec`: nothing is dropped, `swapMove` has no drop calls to report. -/
example : holds (do
    let v ← (vecNew wrapTy).pushRaw (wrap 10)
    let (v, o) ← v.swapMove (vecNew wrapTy) 0
    return v.len == 0 && o.len == 16 && o.cap == 64 &&
      ((← o.asSlice wrapTy.layout).map wrapNum) == [bytes 4 10]) = true := by decide +kernel
/-- `move_element_to_other_vec_2` -/
example : holds (do
    let v ← (vecNew wrapTy).pushRaw (wrap 10)
    let v ← v.pushRaw (wrap 12)
    let (v, o) ← v.swapMove (vecNew wrapTy) 1
    return v.len == 16 && v.cap == 64 && ((← v.asSlice wrapTy.layout).map wrapNum) == [bytes 4 10] &&
      o.len == 16 && o.cap == 64 && ((← o.asSlice wrapTy.layout).map wrapNum) == [bytes 4 12]) = true := by decide +kernel
/-- `remove` -/
example : holds (do
    let v ← (vecNew wrapTy).pushRaw (wrap 10)
    let (v, evs) ← v.swapRemove 0
    return v.len == 0 && evs == [⟨.generic wrapTy, wrap 10⟩]) = true := by decide +kernel

end Ellecs.RepoTests
