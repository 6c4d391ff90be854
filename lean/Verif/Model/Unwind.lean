import Verif.Model.Builder
/-!
# Destructors that panic

`drop_fn` is code of the user and may unwind.  The functions below are the calls of world.rs and
untyped_vec/lib.rs that run destructors, with the state the world is left in when one of them unwinds: `pop` lowers the
length before it calls `drop_fn` (lib.rs:202, 211), so the value that was being dropped is no longer stored, and
everything after the panicking call is skipped.  Which drop calls unwind (after having dropped the value) is given by a
`Panics`, which may depend on the drop calls made before, so that the same destructor may unwind for one value and return
for an equal one.
-/
namespace Ellecs

/-- Which calls of `drop_fn` (untyped_vec/lib.rs:211-214) unwind: `pan past ev` says that the call `ev` does when the
calls made before it, since the beginning of the call of the library, are `past`. -/
abbrev Panics := List DropEv → DropEv → Bool

/-- What is left of `pan` when the drop calls `l` (lib.rs:211-214) have been made. -/
def Panics.after (pan : Panics) (l : List DropEv) : Panics := fun past => pan (l ++ past)

/-- Does one of the drop calls `l` (lib.rs:211-214), made in this order, unwind? -/
def Panics.fires : Panics → List DropEv → Bool
  | _, [] => false
  | pan, ev :: l => pan [] ev || Panics.fires (pan.after [ev]) l

/-- `for storage in .. { storage.swap_remove(entity_idx) }` (world.rs:181-187): the storages, the drop calls made, and
whether the loop was left by unwinding. -/
def swapRemoveAllU (row : Nat) :
    Panics → List (EcsId × UVec) → Except Fault (List (EcsId × UVec) × List DropEv × Bool)
  | _, [] => .ok ([], [], false)
  | pan, (id, v) :: rest =>
    match v.swapRemove row with
    | .error f => .error f
    | .ok (v', evs) =>
      if pan.fires evs then .ok ((id, v') :: rest, evs, true)
      else
        match swapRemoveAllU row (pan.after evs) rest with
        | .error f => .error f
        | .ok (rest', evs', u) => .ok ((id, v') :: rest', evs ++ evs', u)

/-- `Archetype::despawn` (world.rs:173-199): the row has left `entities` before the first destructor runs, the metadata
is only updated after the last one. -/
def Archetype.despawnU (pan : Panics) (a : Archetype) (entity : EcsId) (row : Nat)
    (metas : List (Option EntityMeta)) :
    Except Fault (Archetype × List (Option EntityMeta) × List DropEv × Bool) :=
  match a.entities[row]? with
  | none => .error .indexOob
  | some e =>
    if e ≠ entity then .error .despawnAssert
    else
      let entities := Ellecs.swapRemove a.entities row
      match swapRemoveAllU row pan a.storages with
      | .error f => .error f
      | .ok (st, evs, u) =>
        let a' := { a with entities := entities, storages := st }
        if u then .ok (a', metas, evs, true)
        else if entity.uindex < metas.length then
          let metas := metas.set entity.uindex none
          match entities[row]? with
          | none => .ok (a', metas, evs, false)
          | some swapped =>
            match setInstIndex metas swapped.uindex row with
            | .error f => .error f
            | .ok metas => .ok (a', metas, evs, false)
        else .error .indexOob

namespace World

/-- Run a step that may unwind: the changes made before the panic stay. For the steps of Model/World that reach
lib.rs:200-224 of untyped_vec. -/
def stepU (f : World → Except Fault (World × Bool)) : M Unit := fun w =>
  match f w with
  | .error e => .error e w
  | .ok (w', true) => .error .dropPanic w'
  | .ok (w', false) => .ok () w'

/-- `World::despawn` (world.rs:339-357). -/
def despawnU (pan : Panics) (entity : EcsId) : M Bool := do
  let w ← get
  let alive ← liftE (w.isAlive entity)
  if !alive then return false
  if w.archetypes.any (fun a => (a.compLookup entity).isSome) then throw .despawnTodo
  let m ← liftE (w.getEntityMeta entity)
  let m ← liftE (unwrap m)
  stepU (fun w =>
    match w.archetypes[m.inst.archetype]? with
    | none => .error .indexOob
    | some a =>
      match a.despawnU pan entity m.inst.index w.metas with
      | .error f => .error f
      | .ok (a', metas, evs, u) =>
        .ok ({ w with
          archetypes := w.archetypes.set m.inst.archetype a'
          metas := metas
          log := w.log ++ evs }, u))
  step (fun w =>
    match w.entities.despawn entity with
    | .error f => .error f
    | .ok (_, es) => .ok { w with entities := es })
  return true

/-- The move part of `remove_component_dynamic` (world.rs:792-849): when the destructor of the removed value unwinds
the columns have been moved, the entity lists and the metadata have not. -/
def moveRemoveRowU (pan : Panics) (cur tar : Nat) (entity : EcsId) (row : Nat) (compId : EcsId) (w : World) :
    Except Fault (World × Bool) :=
  match indexTwice cur tar w.archetypes with
  | .error f => .error f
  | .ok (curA, tarA) =>
    match moveRemove compId row 0 none curA.storages tarA.storages with
    | .error f => .error f
    | .ok (curSt, tarSt, sk) =>
      -- lines 823-826
      let skr : Except Fault Nat :=
        match sk with
        | some n => .ok n
        | none =>
          match curA.compIds.getLast? with
          | none => .error .unwrapNone
          | some l => if l = compId then .ok (curSt.length - 1) else .error .lastAssert
      match skr with
      | .error f => .error f
      | .ok n =>
        -- lines 828-831
        match curSt[n]? with
        | none => .error .indexOob
        | some s =>
          match s.2.swapRemove row with
          | .error f => .error f
          | .ok (v, evs) =>
            if pan.fires evs then
              .ok ({ w with
                archetypes := (w.archetypes.set cur { curA with storages := curSt.set n (s.1, v) }).set tar
                  { tarA with storages := tarSt }
                log := w.log ++ evs }, true)
            else
              match finishMove w cur tar { curA with storages := curSt.set n (s.1, v) }
                { tarA with storages := tarSt } entity row with
              | .error f => .error f
              | .ok w' => .ok ({ w' with log := w'.log ++ evs }, false)

/-- `World::remove_component_dynamic` (world.rs:733-850). -/
def removeComponentDynamicU (pan : Panics) (entity compId : EcsId) : M Unit := do
  let w ← get
  let aliveE ← liftE (w.isAlive entity)
  if !aliveE then return ()
  let aliveC ← liftE (w.isAlive compId)
  if !aliveC then return ()
  let m ← liftE (w.getEntityMeta entity)
  let m ← liftE (unwrap m)
  let tar ← resolveRemove m.inst.archetype compId
  stepU (moveRemoveRowU pan m.inst.archetype tar entity m.inst.index compId)

/-- `World::remove_component::<T>` (world.rs:384-388). -/
def removeComponentU (pan : Panics) (entity : EcsId) (t : Ty) : M Unit := do
  let w ← get
  let alive ← liftE (w.isAlive entity)
  if !alive then throw .notAlive
  let compId ← getOrCreate t
  removeComponentDynamicU pan entity compId

end World

/-- `while self.pop() {}` (lib.rs:366), left by unwinding when a drop call panics. -/
def UVec.popAllU : Panics → Nat → UVec → Except Fault (UVec × List DropEv × Bool)
  | _, 0, _ => .error .fuel
  | pan, fuel + 1, v =>
    match v.pop with
    | .error e => .error e
    | .ok (b, v, evs) =>
      if pan.fires evs then .ok (v, evs, true)
      else if b then
        match popAllU (pan.after evs) fuel v with
        | .error e => .error e
        | .ok (v, evs', u) => .ok (v, evs ++ evs', u)
      else .ok (v, evs, false)

/-- `Drop for UntypedVec` (lib.rs:363-377): when a drop call panics the block is not deallocated. -/
def UVec.dropU (pan : Panics) (v : UVec) : Except Fault (List DropEv × Option Layout × Bool) :=
  if v.cap > 0 then
    match popAllU pan (v.len + 1) v with
    | .error e => .error e
    | .ok (_, evs, true) => .ok (evs, none, true)
    | .ok (_, evs, false) =>
      if layoutOk v.cap v.alignLog then .ok (evs, some ⟨v.cap, v.alignLog⟩, false) else .error .layoutErr
  else .ok ([], none, false)

/-- How a run of drop glue ends. The glue drops the fields of world.rs:62-80, 261-276. -/
inductive DropEnd
  | done      -- normally
  | unwound   -- by unwinding, everything else has been dropped nevertheless
  | aborted   -- a second destructor panicked while unwinding: the process is aborted
  deriving DecidableEq, Repr

/-- Dropping the storages of a list one after the other.  When one unwinds, the drop glue of `Vec` goes on with the
others; when another one unwinds then, the process is aborted.  `unw`: already unwinding (world.rs:72). -/
def dropStoragesU : Panics → (unw : Bool) → List (EcsId × UVec) → Except Fault (List DropEv × DropEnd)
  | _, unw, [] => .ok ([], if unw then .unwound else .done)
  | pan, unw, (_, v) :: rest =>
    match v.dropU pan with
    | .error f => .error f
    | .ok (evs, dealloc, u) =>
      if u then
        if unw then .ok (evs, .aborted)
        else
          match dropStoragesU (pan.after evs) true rest with
          | .error f => .error f
          | .ok (evs', r) => .ok (evs ++ evs', r)
      else if dealloc = v.data then
        match dropStoragesU (pan.after evs) unw rest with
        | .error f => .error f
        | .ok (evs', r) => .ok (evs ++ evs', r)
      else .error (.ub .badDealloc)

/-- `Drop for World` (world.rs:278-289) and the drop glue of its fields. -/
def World.dropWorldU (pan : Panics) (w : World) : Except Fault (List DropEv × DropEnd) :=
  let r : Except Fault Unit := match w.reuse with
    | none => .ok ()
    | some (_, data, cap) => if 0 < cap ∧ data.length = cap then .ok () else .error (.ub .badDealloc)
  match r with
  | .error f => .error f
  | .ok () => dropStoragesU pan false (w.archetypes.map Archetype.storages).flatten

end Ellecs
