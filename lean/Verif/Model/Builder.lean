import Verif.Model.World
/-!
# `arche_tape/src/entity_builder.rs`, and the world operations that spawn entities

A builder holds `&mut World`; here it is a value next to the world.  Every method that can panic drops the builder
while unwinding, see `act`.
-/
namespace Ellecs

/-- `EntityBuilder` (entity_builder.rs:14-26).  `data` is the content of the buffer: its length is the size of the
allocated block, `cap` is the variable the code keeps. -/
structure Builder where
  data : Bytes
  cap : Nat
  len : Nat
  compIds : List EcsId
  entity : EcsId
  cmeta : ComponentMeta
  num : Nat

namespace Builder

/-- `Drop for EntityBuilder` (entity_builder.rs:28-59).  The values in the buffer are not dropped. -/
def drop (b : Builder) : M Unit := fun w =>
  if b.cap ≠ 0 then
    match w.reuse with
    | none => .ok () { w with reuse := some ([], b.data, b.cap) }
    | some _ => if b.data.length = b.cap then .ok () w else .error (.ub .badDealloc) w
  else .ok () w

/-- `EntityBuilder::new` (entity_builder.rs:81-100) with `new_from_world_cache` (62-79). -/
def new (entity : EcsId) (cmeta : ComponentMeta) : M Builder := fun w =>
  match w.reuse with
  | some (ids, data, cap) => .ok ⟨data, cap, 0, ids, entity, cmeta, 0⟩ { w with reuse := none }
  | none => .ok ⟨[], 0, 0, [], entity, cmeta, 0⟩ w

/-- `EntityBuilder::with_capacity` (entity_builder.rs:102-135). -/
def withCapacity (entity : EcsId) (cmeta : ComponentMeta) (cap : Nat) : M Builder := fun w =>
  match w.reuse with
  | some (ids, data, cap) => .ok ⟨data, cap, 0, ids, entity, cmeta, 0⟩ { w with reuse := none }
  | none =>
    if cap = 0 then .ok ⟨[], 0, 0, [], entity, cmeta, 0⟩ w
    else if layoutOk cap 0 then .ok ⟨List.replicate cap none, cap, 0, [], entity, cmeta, 0⟩ w
    else .error .layoutErr w

/-- `EntityBuilder::realloc` (entity_builder.rs:137-161). -/
def realloc (b : Builder) (newSize : Nat) : Except Fault Builder :=
  if ¬ newSize < isizeMax then .error .builderCapacity
  else if ¬ newSize > 0 then .error .builderCapacity
  else if b.cap = 0 then .ok { b with data := List.replicate newSize none, cap := newSize }
  else if b.data.length = b.cap then
    .ok { b with
      data := b.data.take newSize ++ List.replicate (newSize - b.data.length) none
      cap := newSize }
  else .error (.ub .badDealloc)

/-- `EntityBuilder::with_dynamic` (entity_builder.rs:167-182). -/
def withDynamic (b : Builder) (id : EcsId) (w : World) : Except Fault Builder :=
  match w.getEntityMeta id with
  | .error f => .error f
  | .ok none => .error .unwrapNone
  | .ok (some m) =>
    if m.comp.layout.size ≠ 0 then .error .componentHasData
    else .ok { b with compIds := b.compIds ++ [id], num := b.num + 1 }

/-- `EntityBuilder::with_dynamic_with_data` (entity_builder.rs:189-220). -/
def withDynamicWithData (b : Builder) (src : Bytes) (id : EcsId) (w : World) : Except Fault Builder :=
  match w.getEntityMeta id with
  | .error f => .error f
  | .ok none => .error .deadComponent
  | .ok (some m) =>
    let size := m.comp.layout.size
    let required := b.len + size
    let r := if required > b.cap then b.realloc (max required (b.cap * 2)) else .ok b
    match r with
    | .error f => .error f
    | .ok b =>
      if src.length < size then .error (.ub .srcTooShort)
      else if b.len + size > b.data.length then .error (.ub .writeOob)
      else .ok { b with
        data := writeAt b.data b.len (src.take size)
        len := b.len + size
        compIds := b.compIds ++ [id]
        num := b.num + 1 }

/-- The bytes behind `data_ptr` when it is at offset `off`: the initialised part of the buffer from there on
(entity_builder.rs:236, 252, 311, 323). -/
def dataFrom (b : Builder) (off : Nat) : Bytes := (b.data.take b.len).drop off

/-- The loop of `build` for an existing archetype (entity_builder.rs:236-262). -/
def pushComps (b : Builder) (k : Nat) : (off : Nat) → List EcsId → M Unit
  | _, [] => pure ()
  | off, id :: ids => do
    let w ← get
    let m ← liftE (w.getEntityMeta id)
    let m ← liftE (unwrap m)
    World.step (fun w =>
      match w.archetypes[k]? with
      | none => .error .indexOob
      | some a =>
        match a.compLookup id with
        | none => .error .indexOob   -- `comp_lookup[&comp_id]`
        | some n =>
          match a.storages[n]? with
          | none => .error .indexOob
          | some s =>
            match s.2.pushRaw (b.dataFrom off) with
            | .error f => .error f
            | .ok v =>
              .ok { w with archetypes := w.archetypes.set k { a with storages := a.storages.set n (s.1, v) } })
    let w ← get
    -- lines 255-261
    liftE (
      match w.archetypes[k]? with
      | none => .error .indexOob
      | some a =>
        match a.compLookup id with
        | none => .error .indexOob
        | some n =>
          match a.storages[n]? with
          | none => .error .indexOob
          | some s =>
            match s.2.lenElems with
            | .error f => .error f
            | .ok l => if l = a.entities.length then .ok () else .error .buildLenAssert)
    pushComps b k (off + m.comp.layout.size) ids

/-- The loop that creates the storages in `create_archetype` (entity_builder.rs:311-324).  On a panic the storages
created so far are returned: they are dropped by unwinding. -/
def createStorages (b : Builder) (w : World) : (off : Nat) → List EcsId → List (EcsId × UVec) →
    Except (Fault × List (EcsId × UVec)) (List (EcsId × UVec))
  | _, [], acc => .ok acc
  | off, id :: ids, acc =>
    match w.getEntityMeta id with
    | .error f => .error (f, acc)
    | .ok none => .error (.unwrapNone, acc)
    | .ok (some m) =>
      match (UVec.newFromRaw m.comp.info).pushRaw (b.dataFrom off) with
      | .error f => .error (f, acc)
      | .ok v => createStorages b w (off + m.comp.layout.size) ids (acc ++ [(id, v)])

/-- The checked insertions into `lookup` (entity_builder.rs:333-339). -/
def checkedLookup : List (EcsId × Nat) → (EcsId → Option Nat) → Except Fault (EcsId → Option Nat)
  | [], m => .ok m
  | (id, n) :: rest, m =>
    match m id with
    | some _ => .error .duplicateComponent
    | none => checkedLookup rest (mapInsert m id n)

end Builder

/-- Dropping a list of storages: all the drop calls, in order. `component_storages` of entity_builder.rs:309,
`Archetype` of world.rs:62-80; each one is untyped_vec/src/lib.rs:363-377. -/
def dropStorages : List (EcsId × UVec) → Except Fault (List DropEv)
  | [] => .ok []
  | (_, v) :: rest =>
    match v.drop with
    | .error f => .error f
    | .ok (evs, dealloc) =>
      -- the block must be deallocated with the layout it was allocated with
      if dealloc = v.data then
        match dropStorages rest with
        | .error f => .error f
        | .ok evs' => .ok (evs ++ evs')
      else .error (.ub .badDealloc)

/-- A panic that drops local storages while unwinding. The panics of entity_builder.rs:313-346. -/
def failDropping {α : Type} (f : Fault) (st : List (EcsId × UVec)) : M α := fun w =>
  match dropStorages st with
  | .error f' => .error f' w
  | .ok evs => .error f { w with log := w.log ++ evs }

namespace Builder

/-- `EntityBuilder::create_archetype` (entity_builder.rs:308-355).  `comp_ids` is left empty. -/
def createArchetype (b : Builder) : M (Builder × Archetype) := do
  let w ← get
  match createStorages b w 0 b.compIds [] with
  | .error (f, st) => failDropping f st
  | .ok st =>
    let ids := stableSort EcsId.lt b.compIds
    let st := stableSort storageLt st
    match checkedLookup ids.zipIdx (fun _ => none) with
    | .error f => failDropping f st
    | .ok lookup =>
      if idsAgree ids st then
        return ({ b with compIds := [] }, ⟨lookup, [b.entity], st, ids, AddRemoveCache.new⟩)
      else failDropping .orderAssert st

/-- `EntityBuilder::build` (entity_builder.rs:229-305). -/
def build (b : Builder) : M Builder := do
  let w ← get
  let found ← liftE (w.findArchetype b.compIds)
  match found with
  | some k =>
    World.step (fun w =>
      match w.archetypes[k]? with
      | none => .error .indexOob
      | some a => .ok { w with archetypes := w.archetypes.set k { a with entities := a.entities ++ [b.entity] } })
    pushComps b k 0 b.compIds
    let w ← get
    let a ← liftE (idx w.archetypes k)
    World.step (fun w => w.setEntityMeta b.entity ⟨⟨k, a.entities.length - 1⟩, b.cmeta⟩)
    return b
  | none =>
    modify (fun w => b.compIds.foldl World.ensureLock w)
    let (b, a) ← b.createArchetype
    World.step (fun w => w.pushArchetype a)
    let w ← get
    World.step (fun w' => w'.setEntityMeta b.entity ⟨⟨w.archetypes.length - 1, 0⟩, b.cmeta⟩)
    return b

/-- If `x` panics, the builder is dropped while unwinding.  No method changes `data`, `cap` before it panics, and
`comp_ids` is cleared by the drop, so dropping the builder the method was called on has the same effect
(entity_builder.rs:28-59). -/
def orDrop {α : Type} (b : Builder) (x : M α) : M α := fun w =>
  match x w with
  | .ok a w' => .ok a w'
  | .error f w' =>
    match b.drop w' with
    | .ok _ w'' => .error f w''
    | .error f' w'' => .error f' w''

end Builder

namespace World

/-- `self.entities.spawn()` (world.rs:322, 329, 435). -/
def spawnId : M EcsId := fun w =>
  match w.entities.spawn with
  | (.ok e, s) => .ok e { w with entities := s }
  | (.error f, s) => .error f { w with entities := s }

/-- `World::get_or_create_type_id_ecsid::<T>` (world.rs:440-455). -/
def getOrCreate (t : Ty) : M EcsId := do
  let w ← get
  match w.typeMap t with
  | some id => return id
  | none =>
    let entity ← spawnId
    let b ← Builder.new entity ComponentMeta.unit
    let b ← b.orDrop b.build
    b.drop
    step (fun w =>
      match w.metas[entity.uindex]? with
      | none => .error .indexOob
      | some none => .error .unwrapNone
      | some (some m) =>
        .ok { w with metas := w.metas.set entity.uindex (some { m with comp := ComponentMeta.fromGeneric t }) })
    modify (fun w => { w with typeMap := mapInsert w.typeMap t entity })
    return entity

end World

/-- The calls a user makes on a builder (entity_builder.rs:167-229). -/
inductive BAct
  /-- `.with(value)` for a value of type `t` with the given bytes -/
  | with (t : Ty) (v : Bytes)
  /-- `.with_dynamic(id)` -/
  | withDynamic (id : EcsId)
  /-- `.with_dynamic_with_data(ptr, id)` -/
  | withDynamicWithData (id : EcsId) (v : Bytes)
  /-- `.build()` -/
  | build

namespace Builder

/-- One call on a builder. `with` is entity_builder.rs:223-227. -/
def act (b : Builder) (a : BAct) : M Builder :=
  b.orDrop <|
    match a with
    | .with t v => do
      let id ← World.getOrCreate t
      let w ← get
      liftE (b.withDynamicWithData v id w)
    | .withDynamic id => do
      let w ← get
      liftE (b.withDynamic id w)
    | .withDynamicWithData id v => do
      let w ← get
      liftE (b.withDynamicWithData v id w)
    | .build => b.build

/-- A chain of calls. Each method takes and returns the builder (entity_builder.rs:167, 189, 223; `build` takes
`&mut self`, 229). -/
def acts (b : Builder) : List BAct → M Builder
  | [] => pure b
  | a :: as => do
    let b ← b.act a
    b.acts as

end Builder

namespace World

/-- How a builder is obtained: `World::spawn` (world.rs:321-324), `spawn_with_capacity` (328-336),
`spawn_with_component_meta` (431-438). -/
inductive SpawnKind
  | plain
  | capacity (n : Nat)
  | withMeta (m : ComponentMeta)

/-- Obtain a builder, make the calls, drop the builder; returns the entity of the builder (world.rs:321-336,
431-438, then entity_builder.rs:167-305 and 28-59). -/
def spawnWith (kind : SpawnKind) (acts : List BAct) : M EcsId := do
  let entity ← spawnId
  let b ← (match kind with
    | .plain => Builder.new entity ComponentMeta.unit
    | .capacity n => Builder.withCapacity entity ComponentMeta.unit n
    | .withMeta m => Builder.new entity m)
  let b ← b.acts acts
  b.drop
  return entity

/-- A panic that drops the value `v` of type `t` that was passed by value. `component` of `add_component`
(world.rs:371-374) before it is in the `ManuallyDrop`. -/
def orDropValue {α : Type} (t : Ty) (v : Bytes) (x : M α) : M α := fun w =>
  match x w with
  | .ok a w' => .ok a w'
  | .error f w' => .error f { w' with log := w'.log ++ [⟨.generic t, v⟩] }

/-- `World::add_component::<T>` (world.rs:371-382). -/
def addComponent (entity : EcsId) (t : Ty) (v : Bytes) : M Unit := do
  let compId ← orDropValue t v (do
    let w ← get
    let alive ← liftE (w.isAlive entity)
    if !alive then throw .notAlive
    getOrCreate t)
  addComponentDynamicWithData entity compId v

/-- `World::remove_component::<T>` (world.rs:384-388). -/
def removeComponent (entity : EcsId) (t : Ty) : M Unit := do
  let w ← get
  let alive ← liftE (w.isAlive entity)
  if !alive then throw .notAlive
  let compId ← getOrCreate t
  removeComponentDynamic entity compId

/-- `Drop for World` (world.rs:278-289) and the drop glue of its fields: the buffer is deallocated, then the
archetypes are dropped in order.  Returns the drop calls. -/
def dropWorld (w : World) : Except Fault (List DropEv) :=
  let r : Except Fault Unit := match w.reuse with
    | none => .ok ()
    | some (_, data, cap) => if 0 < cap ∧ data.length = cap then .ok () else .error (.ub .badDealloc)
  match r with
  | .error f => .error f
  | .ok () => dropStorages (w.archetypes.map Archetype.storages).flatten

end World
end Ellecs
