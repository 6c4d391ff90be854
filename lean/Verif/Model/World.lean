import Verif.Model.Bitset
import Verif.Model.ArrayVec
import Verif.Model.UntypedVec
/-!
# `arche_tape/src/world.rs`: archetypes and the world

`HashMap`s are partial functions.  Equality of `EcsId`s is structural equality; `C05` proves that the code's
`PartialEq` (comparison of `as_u64`) is the same relation.
-/
namespace Ellecs

/-- `CACHE_SIZE` (world.rs:28). -/
def CACHE_SIZE : Nat := 4

/-- `AddRemoveCache` (world.rs:29-32). -/
structure AddRemoveCache where
  cache : ArrayVec (EcsId × Nat)
  lookup : EcsId → Option Nat

namespace AddRemoveCache

/-- `AddRemoveCache::new` (world.rs:35-40). -/
def new : AddRemoveCache := ⟨ArrayVec.new CACHE_SIZE, fun _ => none⟩

/-- `AddRemoveCache::lookup_id` (world.rs:42-55). -/
def lookupId (c : AddRemoveCache) (id : EcsId) : Except Fault (Option Nat × AddRemoveCache) :=
  match c.cache.asSlice with
  | .error f => .error f
  | .ok l =>
    match l.find? (fun p => p.1 = id) with
    | some p => .ok (some p.2, c)
    | none =>
      match c.lookup id with
      | some idx =>
        match c.cache.pushStart (id, idx) with
        | .error f => .error f
        | .ok (_, cache') => .ok (some idx, { c with cache := cache' })
      | none => .ok (none, c)

/-- `AddRemoveCache::insert_id` (world.rs:57-60). -/
def insertId (c : AddRemoveCache) (id : EcsId) (archetype : Nat) : Except Fault AddRemoveCache :=
  match c.cache.pushStart (id, archetype) with
  | .error f => .error f
  | .ok (_, cache') => .ok ⟨cache', mapInsert c.lookup id archetype⟩

end AddRemoveCache

/-- `Archetype` (world.rs:62-79). -/
structure Archetype where
  compLookup : EcsId → Option Nat
  entities : List EcsId
  storages : List (EcsId × UVec)
  compIds : List EcsId
  cache : AddRemoveCache

/-- `InstanceMeta` (world.rs:221-224), with `ArchIndex` (world.rs:219) unwrapped. -/
structure InstanceMeta where
  archetype : Nat
  index : Nat
  deriving DecidableEq, Repr

/-- `ComponentMeta` (world.rs:227-230). -/
structure ComponentMeta where
  dropFn : Option DropFn
  layout : Layout
  deriving DecidableEq, Repr

namespace ComponentMeta
/-- `ComponentMeta::from_size_align` (world.rs:237-242): `Layout::from_size_align(..).unwrap()` panics unless the
alignment is a power of two and the size passes the overflow check. -/
def fromSizeAlign (size align : Nat) : Except Fault ComponentMeta :=
  match (List.finRange 64).find? (fun a => align == 2 ^ a.val) with
  | none => .error .layoutErr
  | some a => if layoutOk size a then .ok ⟨none, ⟨size, a⟩⟩ else .error .layoutErr
/-- `ComponentMeta::from_generic` (world.rs:245-250). -/
def fromGeneric (t : Ty) : ComponentMeta := ⟨some (.generic t), t.layout⟩
/-- `ComponentMeta::unit` (world.rs:253-258). -/
def unit : ComponentMeta := ⟨none, ⟨0, 0⟩⟩
/-- `TypeInfo::new(meta.layout, meta.drop_fn)` (world.rs:650, entity_builder.rs:315-318). -/
def info (m : ComponentMeta) : TypeInfo := ⟨m.layout, m.dropFn⟩
end ComponentMeta

/-- `EntityMeta` (world.rs:211-216). -/
structure EntityMeta where
  inst : InstanceMeta
  comp : ComponentMeta
  deriving DecidableEq, Repr

/-- Strict order of storages by id (the comparator of the `sort_by` calls) (world.rs:124, 155,
entity_builder.rs:327). -/
def storageLt (a b : EcsId × UVec) : Bool := EcsId.lt a.1 b.1

/-- The loop that fills `comp_lookup` with `(id, n)` for `(n, id)` in `comp_ids.iter().enumerate()`
(world.rs:134-137, 165-168; entity_builder.rs:329-339 inserts the same pairs). -/
def lookupOf (ids : List EcsId) : EcsId → Option Nat :=
  ids.zipIdx.foldl (fun m p => mapInsert m p.1 p.2) (fun _ => none)

/-- `a.iter().zip(b.iter().map(|(id, _)| id)).all(|(id1, id2)| id1 == id2)` (world.rs:126-132 etc.). -/
def idsAgree (ids : List EcsId) (st : List (EcsId × UVec)) : Bool :=
  (ids.zip (st.map Prod.fst)).all (fun p => p.1 = p.2)

/-- `for storage in .. { storage.swap_remove(entity_idx) }` (world.rs:181-187). -/
def swapRemoveAll (row : Nat) : List (EcsId × UVec) → Except Fault (List (EcsId × UVec) × List DropEv)
  | [] => .ok ([], [])
  | (id, v) :: rest =>
    match v.swapRemove row with
    | .error f => .error f
    | .ok (v', evs) =>
      match swapRemoveAll row rest with
      | .error f => .error f
      | .ok (rest', evs') => .ok ((id, v') :: rest', evs ++ evs')

/-- `metas[i].as_mut().unwrap().instance_meta = im` (world.rs:715-721, 834-840). -/
def setInst (metas : List (Option EntityMeta)) (i : Nat) (im : InstanceMeta) :
    Except Fault (List (Option EntityMeta)) :=
  match metas[i]? with
  | none => .error .indexOob
  | some none => .error .unwrapNone
  | some (some m) => .ok (metas.set i (some { m with inst := im }))

/-- `metas[i].as_mut().unwrap().instance_meta.index = row` (world.rs:191-195, 725-729, 844-848). -/
def setInstIndex (metas : List (Option EntityMeta)) (i : Nat) (row : Nat) :
    Except Fault (List (Option EntityMeta)) :=
  match metas[i]? with
  | none => .error .indexOob
  | some none => .error .unwrapNone
  | some (some m) => .ok (metas.set i (some { m with inst := { m.inst with index := row } }))

namespace Archetype

/-- `Archetype::from_archetype` (world.rs:82-99). -/
def fromArchetype (a : Archetype) : Archetype where
  compLookup := a.compLookup
  compIds := a.compIds
  entities := []
  storages := a.storages.map (fun s => (s.1, s.2.newFromUntypedVec))
  cache := AddRemoveCache.new

/-- `Archetype::from_archetype_with` (world.rs:105-140). -/
def fromArchetypeWith (a : Archetype) (info : TypeInfo) (id : EcsId) : Except Fault Archetype :=
  let n := fromArchetype a
  if (n.compLookup id).isSome then .error .withAssert
  else
    let ids := stableSort EcsId.lt (n.compIds ++ [id])
    let st := stableSort storageLt (n.storages ++ [(id, UVec.newFromRaw info)])
    if idsAgree ids st then
      .ok { n with compIds := ids, storages := st, compLookup := lookupOf ids }
    else .error .orderAssert

/-- `Archetype::from_archetype_without` (world.rs:142-171).  `Vec::remove` panics when out of range. -/
def fromArchetypeWithout (a : Archetype) (id : EcsId) : Except Fault Archetype :=
  let n := fromArchetype a
  match n.compLookup id with
  | none => .error .withoutAssert
  | some i =>
    if i < n.compIds.length ∧ i < n.storages.length then
      let ids := stableSort EcsId.lt (n.compIds.eraseIdx i)
      let st := stableSort storageLt (n.storages.eraseIdx i)
      if idsAgree ids st then
        .ok { n with compIds := ids, storages := st, compLookup := lookupOf ids }
      else .error .orderAssert
    else .error .indexOob

/-- `Archetype::despawn` (world.rs:173-199). -/
def despawn (a : Archetype) (entity : EcsId) (row : Nat) (metas : List (Option EntityMeta)) :
    Except Fault (Archetype × List (Option EntityMeta) × List DropEv) :=
  match a.entities[row]? with
  | none => .error .indexOob
  | some e =>
    if e ≠ entity then .error .despawnAssert
    else
      let entities := Ellecs.swapRemove a.entities row
      match swapRemoveAll row a.storages with
      | .error f => .error f
      | .ok (st, evs) =>
        if entity.uindex < metas.length then
          let metas := metas.set entity.uindex none
          let a' := { a with entities := entities, storages := st }
          match entities[row]? with
          | none => .ok (a', metas, evs)
          | some swapped =>
            match setInstIndex metas swapped.uindex row with
            | .error f => .error f
            | .ok metas => .ok (a', metas, evs)
        else .error .indexOob

end Archetype

/-- A `std::sync::RwLock<()>`: current guards and the poison flag (world.rs:272). -/
structure RwLock where
  readers : Nat
  writer : Bool
  poisoned : Bool
  deriving DecidableEq, Repr

/-- `RwLock::new(())` (world.rs:635, entity_builder.rs:278). -/
def RwLock.new : RwLock := ⟨0, false, false⟩

/-- `World` (world.rs:261-276) and the ghost log of drop calls.  `reuse` is `entity_builder_reuse`: the
component ids, the buffer contents and its capacity. -/
structure World where
  archetypes : List Archetype
  bitset : Bitsets
  entBits : Bitvec
  entities : Entities
  metas : List (Option EntityMeta)
  typeMap : Ty → Option EcsId
  lockLookup : EcsId → Option Nat
  locks : List RwLock
  reuse : Option (List EcsId × Bytes × Nat)
  /-- ghost: calls of drop functions so far, oldest first -/
  log : List DropEv

/-- State and faults of world operations; the state is kept on a fault. All methods of `World` take `&mut self` or
`&self` (world.rs:297-860). -/
abbrev M := EStateM Fault World

/-- Lift a pure fallible computation. For computations that do not change the world, e.g. world.rs:338-369. -/
def liftE {α : Type} (x : Except Fault α) : M α := fun w =>
  match x with
  | .ok a => .ok a w
  | .error f => .error f w

/-- `v[i]`. E.g. world.rs:607, 618. -/
def idx {α : Type} (l : List α) (i : Nat) : Except Fault α :=
  match l[i]? with
  | some a => .ok a
  | none => .error .indexOob

/-- `.unwrap()`. E.g. world.rs:601, 640-641. -/
def unwrap {α : Type} : Option α → Except Fault α
  | some a => .ok a
  | none => .error .unwrapNone

namespace World

/-- `World::new` (world.rs:298-317). -/
def new : World where
  archetypes := []
  bitset := []
  entBits := Bitvec.new
  entities := Entities.new
  metas := []
  typeMap := fun _ => none
  lockLookup := fun _ => none
  locks := []
  reuse := none
  log := []

/-- `World::is_alive` (world.rs:359-361). -/
def isAlive (w : World) (e : EcsId) : Except Fault Bool := w.entities.isAlive e

/-- `World::get_entity_meta` (world.rs:457-463). -/
def getEntityMeta (w : World) (e : EcsId) : Except Fault (Option EntityMeta) :=
  match w.entities.isAlive e with
  | .error f => .error f
  | .ok false => .ok none
  | .ok true =>
    match w.metas[e.uindex]? with
    | none => .ok none
    | some m => .ok m

/-- `World::set_entity_meta` (world.rs:465-476). -/
def setEntityMeta (w : World) (e : EcsId) (m : EntityMeta) : Except Fault World :=
  match w.entities.isAlive e with
  | .error f => .error f
  | .ok false => .ok w
  | .ok true =>
    if e.uindex < w.metas.length then .ok { w with metas := w.metas.set e.uindex (some m) }
    else
      -- `resize_with(uindex, || None)` then `push`
      .ok { w with metas := w.metas ++ List.replicate (e.uindex - w.metas.length) none ++ [some m] }

/-- The `bit_length` loops (world.rs:498-503, 525-530, 564-569): `None` is the `?` on a missing bit vector. -/
def minLen (bs : Bitsets) : List EcsId → Nat → Option Nat
  | [], acc => some acc
  | id :: ids, acc =>
    match Bitsets.getBitvec bs id with
    | none => none
    | some bv => minLen bs ids (if bv.len < acc then bv.len else acc)

/-- Slice iterators with the identity map over the bit vectors of the ids (world.rs:505-509 etc.). -/
def idIters (bs : Bitsets) : List EcsId → Except Fault (List WordIter)
  | [] => .ok []
  | id :: ids =>
    match Bitsets.getBitvec bs id with
    | none => .error .unwrapNone
    | some bv =>
      match idIters bs ids with
      | .error f => .error f
      | .ok its => .ok (⟨bv.data, fun x => x⟩ :: its)

/-- `BitsetIterator::new(..).filter(|idx| archetypes[*idx].comp_ids.len() == n).next()`, with fuel
(world.rs:511-514, 546-549, 578-581). -/
def findFirst (archs : List Archetype) (n : Nat) : Nat → BitsetIter → Except Fault (Option Nat)
  | 0, _ => .error .fuel
  | fuel + 1, it =>
    match it.next with
    | (none, _) => .ok none
    | (some k, it') =>
      match archs[k]? with
      | none => .error .indexOob
      | some a => if a.compIds.length = n then .ok (some k) else findFirst archs n fuel it'

/-- An upper bound for the number of items of a bitset iterator, plus one. It bounds the iteration of
bitset_iterator.rs:43-85. -/
def yieldFuel (it : BitsetIter) : Nat :=
  match it.iters with
  | [] => 1
  | i :: _ => 64 * i.words.length + 65

/-- The common part of the three `find_archetype_dynamic*` functions: the first archetype that has the bits of
all `ids` and exactly `n` components (world.rs:489-582). -/
def findByBits (w : World) (ids : List EcsId) (n : Nat) : Except Fault (Option Nat) :=
  match minLen w.bitset ids (2 ^ 32 - 1) with
  | none => .ok none
  | some bitLength =>
    match idIters w.bitset ids with
    | .error f => .error f
    | .ok its =>
      let it := BitsetIter.new its bitLength
      findFirst w.archetypes n (yieldFuel it) it

/-- `World::find_archetype_dynamic` (world.rs:489-515). -/
def findArchetype (w : World) (ids : List EcsId) : Except Fault (Option Nat) :=
  if w.archetypes.length > 0 ∧ ids.length = 0 then
    match w.archetypes[0]? with
    | none => .error .indexOob
    | some a => if a.compIds.length = 0 then .ok (some 0) else .error .archZeroAssert
  else findByBits w ids ids.length

/-- `World::find_archetype_dynamic_plus_id` (world.rs:517-549). -/
def findArchetypePlus (w : World) (ids : List EcsId) (extra : EcsId) : Except Fault (Option Nat) :=
  findByBits w (ids ++ [extra]) (ids.length + 1)

/-- `World::find_archetype_dynamic_minus_id` (world.rs:551-581). -/
def findArchetypeMinus (w : World) (ids : List EcsId) (without : EcsId) : Except Fault (Option Nat) :=
  if w.archetypes.length > 0 ∧ ids.length = 1 then
    match w.archetypes[0]? with
    | none => .error .indexOob
    | some a => if a.compIds.length = 0 then .ok (some 0) else .error .archZeroAssert
  else findByBits w (ids.filter (fun id => id ≠ without)) (ids.length - 1)

/-- `for id in archetype.comp_ids.iter() { archetype_bitset.set_bit(*id, k, true) }` (world.rs:655-659,
entity_builder.rs:284-288). -/
def setBits (bs : Bitsets) (k : Nat) : List EcsId → Except Fault Bitsets
  | [] => .ok bs
  | id :: ids =>
    match Bitsets.setBit bs id k true with
    | .error f => .error f
    | .ok bs => setBits bs k ids

/-- Append a new archetype: set its bits, push the all-entities bit, push the archetype
(world.rs:655-661, 778-784; entity_builder.rs:284-291). -/
def pushArchetype (w : World) (a : Archetype) : Except Fault World :=
  match setBits w.bitset w.archetypes.length a.compIds with
  | .error f => .error f
  | .ok bs =>
    match w.entBits.pushBit true with
    | .error f => .error f
    | .ok eb => .ok { w with bitset := bs, entBits := eb, archetypes := w.archetypes ++ [a] }

/-- `lock_lookup.entry(id)`: create a lock if the id has none (world.rs:632-636, entity_builder.rs:273-280). -/
def ensureLock (w : World) (id : EcsId) : World :=
  match w.lockLookup id with
  | some _ => w
  | none => { w with
      lockLookup := mapInsert w.lockLookup id w.locks.length
      locks := w.locks ++ [RwLock.new] }

/-- `archetypes[k].insert_archetype_cache(id, target)` (world.rs:205-207). -/
def insertCache (w : World) (k : Nat) (id : EcsId) (target : Nat) : Except Fault World :=
  match w.archetypes[k]? with
  | none => .error .indexOob
  | some a =>
    match a.cache.insertId id target with
    | .error f => .error f
    | .ok c => .ok { w with archetypes := w.archetypes.set k { a with cache := c } }

/-- `archetypes[k].try_find_next_archetype(id)` (world.rs:201-203). -/
def tryFindNext (w : World) (k : Nat) (id : EcsId) : Except Fault (Option Nat × World) :=
  match w.archetypes[k]? with
  | none => .error .indexOob
  | some a =>
    match a.cache.lookupId id with
    | .error f => .error f
    | .ok (r, c) => .ok (r, { w with archetypes := w.archetypes.set k { a with cache := c } })

/-- Read the state, compute, store the new state (the state is unchanged if the computation faults). Used for the
single assignments in world.rs:338-860. -/
def step (f : World → Except Fault World) : M Unit := fun w =>
  match f w with
  | .ok w' => .ok () w'
  | .error e => .error e w

/-- The `unwrap_or_else` closure of `add_component_dynamic_with_data` (world.rs:629-667). -/
def createPlus (cur : Nat) (compId : EcsId) : M Nat := do
  modify (fun w => ensureLock w compId)
  let w ← get
  let m ← liftE (w.getEntityMeta compId)
  let m ← liftE (unwrap m)
  let a ← liftE (idx w.archetypes cur)
  let n ← liftE (a.fromArchetypeWith m.comp.info compId)
  step (fun w => pushArchetype w n)
  let len := (← get).archetypes.length
  step (fun w => insertCache w cur compId (len - 1))
  return len - 1

/-- Which archetype an entity in `cur` moves to when `compId` is added (world.rs:607-667). -/
def resolveAdd (cur : Nat) (compId : EcsId) : M Nat := do
  let w ← get
  let a ← liftE (idx w.archetypes cur)
  if a.compIds.contains compId then throw .alreadyPresent
  let (r, w') ← liftE (tryFindNext w cur compId)
  set w'
  match r with
  | some k => return k
  | none =>
    let found ← liftE (w'.findArchetypePlus a.compIds compId)
    match found with
    | some k =>
      step (fun w => insertCache w cur compId k)
      return k
    | none => createPlus cur compId

/-- The `unwrap_or_else` closure of `remove_component_dynamic` (world.rs:771-790). -/
def createMinus (cur : Nat) (compId : EcsId) : M Nat := do
  let w ← get
  let a ← liftE (idx w.archetypes cur)
  let n ← liftE (a.fromArchetypeWithout compId)
  step (fun w => pushArchetype w n)
  let len := (← get).archetypes.length
  step (fun w => insertCache w cur compId (len - 1))
  return len - 1

/-- Which archetype an entity in `cur` moves to when `compId` is removed (world.rs:748-790). -/
def resolveRemove (cur : Nat) (compId : EcsId) : M Nat := do
  let w ← get
  let a ← liftE (idx w.archetypes cur)
  if !a.compIds.contains compId then throw .notPresent
  let (r, w') ← liftE (tryFindNext w cur compId)
  set w'
  match r with
  | some k => return k
  | none =>
    let found ← liftE (w'.findArchetypeMinus a.compIds compId)
    match found with
    | some k =>
      step (fun w => insertCache w cur compId k)
      return k
    | none => createMinus cur compId

/-- The zipped `for_each` of `add_component_dynamic_with_data` (world.rs:675-700): the current storages against
the target storages filtered by `id != comp_id`.  `n` is the position in the target (`enumerate`), `sk` is
`skipped_idx`.  `zip` asks the current side first, so target storages after the last current one are not looked
at.  Returns the new storages of both sides and `skipped_idx`. -/
def moveAdd (compId : EcsId) (row : Nat) : (n : Nat) → (sk : Option Nat) →
    (cur tar : List (EcsId × UVec)) →
    Except Fault (List (EcsId × UVec) × List (EcsId × UVec) × Option Nat)
  | _, sk, [], tar => .ok ([], tar, sk)
  | _, sk, cur, [] => .ok (cur, [], sk)
  | n, sk, c :: cs, t :: ts =>
    if t.1 = compId then
      if sk.isSome then .error .skippedTwice
      else
        match moveAdd compId row (n + 1) (some n) (c :: cs) ts with
        | .error f => .error f
        | .ok (cur', tar', sk') => .ok (cur', t :: tar', sk')
    else
      match c.2.swapMove t.2 row with
      | .error f => .error f
      | .ok (cv, tv) =>
        match moveAdd compId row (n + 1) sk cs ts with
        | .error f => .error f
        | .ok (cur', tar', sk') => .ok ((c.1, cv) :: cur', (t.1, tv) :: tar', sk')

/-- The zipped `for_each` of `remove_component_dynamic` (world.rs:798-821): the current storages filtered by
`id != comp_id` against the target storages.  The filtered side is asked first, so it is driven to its end. -/
def moveRemove (compId : EcsId) (row : Nat) : (n : Nat) → (sk : Option Nat) →
    (cur tar : List (EcsId × UVec)) →
    Except Fault (List (EcsId × UVec) × List (EcsId × UVec) × Option Nat)
  | _, sk, [], tar => .ok ([], tar, sk)
  | n, sk, c :: cs, tar =>
    if c.1 = compId then
      if sk.isSome then .error .skippedTwice
      else
        match moveRemove compId row (n + 1) (some n) cs tar with
        | .error f => .error f
        | .ok (cur', tar', sk') => .ok (c :: cur', tar', sk')
    else
      match tar with
      | [] => .ok (c :: cs, [], sk)
      | t :: ts =>
        match c.2.swapMove t.2 row with
        | .error f => .error f
        | .ok (cv, tv) =>
          match moveRemove compId row (n + 1) sk cs ts with
          | .error f => .error f
          | .ok (cur', tar', sk') => .ok ((c.1, cv) :: cur', (t.1, tv) :: tar', sk')

/-- The identical tails of add and remove (world.rs:714-730, 833-849): push the entity to the target, update its
metadata, swap-remove it from the current archetype and update the metadata of the entity that took its row. -/
def finishMove (w : World) (cur tar : Nat) (curA tarA : Archetype) (entity : EcsId) (row : Nat) :
    Except Fault World :=
  let tarEntities := tarA.entities ++ [entity]
  match setInst w.metas entity.uindex ⟨tar, tarEntities.length - 1⟩ with
  | .error f => .error f
  | .ok metas =>
    if row < curA.entities.length then
      let curEntities := Ellecs.swapRemove curA.entities row
      let archs := (w.archetypes.set cur { curA with entities := curEntities }).set tar
        { tarA with entities := tarEntities }
      match curEntities[row]? with
      | none => .ok { w with metas := metas, archetypes := archs }
      | some swapped =>
        match setInstIndex metas swapped.uindex row with
        | .error f => .error f
        | .ok metas => .ok { w with metas := metas, archetypes := archs }
    else .error .indexOob

/-- The column that receives the new value (world.rs:702-705): the one skipped by the move loop, else the last one,
which is asserted to belong to the component. -/
def addSlot (sk : Option Nat) (compIds : List EcsId) (len : Nat) (compId : EcsId) : Except Fault Nat :=
  match sk with
  | some n => .ok n
  | none =>
    match compIds.getLast? with
    | none => .error .unwrapNone
    | some l => if l = compId then .ok (len - 1) else .error .lastAssert

/-- The move part of `add_component_dynamic_with_data` (world.rs:669-730).  Simplification: a fault inside this
part leaves the state as it was before the part (the storages already moved are not recorded); no theorem is
stated about that state. -/
def moveAddRow (cur tar : Nat) (entity : EcsId) (row : Nat) (compId : EcsId) (src : Bytes) (w : World) :
    Except Fault World :=
  match indexTwice cur tar w.archetypes with
  | .error f => .error f
  | .ok (curA, tarA) =>
    match moveAdd compId row 0 none curA.storages tarA.storages with
    | .error f => .error f
    | .ok (curSt, tarSt, sk) =>
      match addSlot sk tarA.compIds tarSt.length compId with
      | .error f => .error f
      | .ok n =>
        -- lines 707-712
        match tarSt[n]? with
        | none => .error .indexOob
        | some s =>
          match s.2.pushRaw src with
          | .error f => .error f
          | .ok v =>
            finishMove w cur tar { curA with storages := curSt }
              { tarA with storages := tarSt.set n (s.1, v) } entity row

/-- The move part of `remove_component_dynamic` (world.rs:792-849), with the same simplification. -/
def moveRemoveRow (cur tar : Nat) (entity : EcsId) (row : Nat) (compId : EcsId) (w : World) :
    Except Fault World :=
  match indexTwice cur tar w.archetypes with
  | .error f => .error f
  | .ok (curA, tarA) =>
    match moveRemove compId row 0 none curA.storages tarA.storages with
    | .error f => .error f
    | .ok (curSt, tarSt, sk) =>
      -- lines 823-826
      let skr : Except Fault Nat :=
        match sk with
        | some n => .ok n
        | none =>
          match curA.compIds.getLast? with
          | none => .error .unwrapNone
          | some l => if l = compId then .ok (curSt.length - 1) else .error .lastAssert
      match skr with
      | .error f => .error f
      | .ok n =>
        -- lines 828-831
        match curSt[n]? with
        | none => .error .indexOob
        | some s =>
          match s.2.swapRemove row with
          | .error f => .error f
          | .ok (v, evs) =>
            match finishMove w cur tar { curA with storages := curSt.set n (s.1, v) }
              { tarA with storages := tarSt } entity row with
            | .error f => .error f
            | .ok w' => .ok { w' with log := w'.log ++ evs }

/-- `World::add_component_dynamic_with_data` (world.rs:587-731).  `src` are the bytes behind `component_ptr`. -/
def addComponentDynamicWithData (entity compId : EcsId) (src : Bytes) : M Unit := do
  let w ← get
  let aliveE ← liftE (w.isAlive entity)
  if !aliveE then return ()
  let aliveC ← liftE (w.isAlive compId)
  if !aliveC then return ()
  let m ← liftE (w.getEntityMeta entity)
  let m ← liftE (unwrap m)
  let tar ← resolveAdd m.inst.archetype compId
  step (moveAddRow m.inst.archetype tar entity m.inst.index compId src)

/-- `World::remove_component_dynamic` (world.rs:733-850). -/
def removeComponentDynamic (entity compId : EcsId) : M Unit := do
  let w ← get
  let aliveE ← liftE (w.isAlive entity)
  if !aliveE then return ()
  let aliveC ← liftE (w.isAlive compId)
  if !aliveC then return ()
  let m ← liftE (w.getEntityMeta entity)
  let m ← liftE (unwrap m)
  let tar ← resolveRemove m.inst.archetype compId
  step (moveRemoveRow m.inst.archetype tar entity m.inst.index compId)

/-- `World::add_component_dynamic` (world.rs:403-423). -/
def addComponentDynamic (entity compId : EcsId) : M Unit := do
  let w ← get
  let aliveE ← liftE (w.isAlive entity)
  if !aliveE then throw .notAlive
  let aliveC ← liftE (w.isAlive compId)
  if !aliveC then throw .notAlive
  let m ← liftE (w.getEntityMeta compId)
  let m ← liftE (unwrap m)
  if m.comp.layout.size ≠ 0 then throw .componentHasData
  addComponentDynamicWithData entity compId []

/-- `World::despawn` (world.rs:339-357). -/
def despawn (entity : EcsId) : M Bool := do
  let w ← get
  let alive ← liftE (w.isAlive entity)
  if !alive then return false
  if w.archetypes.any (fun a => (a.compLookup entity).isSome) then throw .despawnTodo
  let m ← liftE (w.getEntityMeta entity)
  let m ← liftE (unwrap m)
  step (fun w =>
    match w.archetypes[m.inst.archetype]? with
    | none => .error .indexOob
    | some a =>
      match a.despawn entity m.inst.index w.metas with
      | .error f => .error f
      | .ok (a', metas, evs) =>
        .ok { w with
          archetypes := w.archetypes.set m.inst.archetype a'
          metas := metas
          log := w.log ++ evs })
  step (fun w =>
    match w.entities.despawn entity with
    | .error f => .error f
    | .ok (_, es) => .ok { w with entities := es })
  return true

/-- `World::has_component::<T>` (world.rs:390-398). -/
def hasComponent (w : World) (t : Ty) (entity : EcsId) : Except Fault Bool :=
  match w.typeMap t with
  | none => .ok false
  | some compId =>
    match w.getEntityMeta entity with
    | .error f => .error f
    | .ok none => .ok false
    | .ok (some m) =>
      match w.archetypes[m.inst.archetype]? with
      | none => .error .indexOob
      | some a => .ok (a.compLookup compId).isSome

/-- What a pointer points into: nothing, the list of entities or a column (static_query.rs:246, 289,
dyn_query.rs:127-144). -/
inductive Col
  | null
  | entities (arch : Nat)
  | storage (arch slot : Nat)
  deriving DecidableEq, Repr

/-- A pointer: which column, and the byte offset from its start (static_query.rs:246, dyn_query.rs:127-144). -/
structure Ptr where
  col : Col
  off : Nat
  deriving DecidableEq, Repr

/-- `World::get_component_mut_dynamic` (world.rs:852-878). -/
def getComponentMutDynamic (w : World) (entity compId : EcsId) : Except Fault (Option Ptr) :=
  match w.isAlive entity with
  | .error f => .error f
  | .ok false => .ok none
  | .ok true =>
    match w.isAlive compId with
    | .error f => .error f
    | .ok false => .ok none
    | .ok true =>
      match w.getEntityMeta entity with
      | .error f => .error f
      | .ok none => .ok none
      | .ok (some m) =>
        match w.archetypes[m.inst.archetype]? with
        | none => .error .indexOob
        | some a =>
          match a.compLookup compId with
          | none => .error .indexOob   -- `comp_lookup[&comp_id]` panics on a missing key
          | some n =>
            match a.storages[n]? with
            | none => .error .indexOob
            | some s =>
              match s.2.getRaw m.inst.index with
              | .error f => .error f
              | .ok none => .error .unwrapNone
              | .ok (some off) => .ok (some ⟨.storage m.inst.archetype n, off⟩)

end World
end Ellecs
