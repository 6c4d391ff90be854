/-!
# Basic vocabulary of the model

Faults (panics, undefined behaviour, deadlock), bytes, layouts, and the few `std` functions the code uses.
-/
namespace Ellecs

/-- Where the code would perform an illegal memory access.  The Rust code contains no such check:
these constructors make undefined behaviour an observable result of the model. The unsafe blocks are those of
untyped_vec/src/lib.rs:86-376, array_vec.rs:14-101, entity_builder.rs:49-252, static_query.rs:245-297 and dyn_query.rs:46. -/
inductive Ub
  | readOob        -- read outside the initialised part of a block
  | writeOob       -- write outside the allocated block
  | srcTooShort    -- `copy_nonoverlapping` from a source shorter than the component
  | uninit         -- reading a `MaybeUninit` slot that was never written
  | typeConfusion  -- a typed reference to a column of another type
  | nullDeref      -- dereferencing the null pointers of an empty intra-archetype iterator
  | ptrOob         -- pointer arithmetic leaving its block
  | overlap        -- `swap_nonoverlapping` of ranges that overlap
  | badDealloc     -- `dealloc` or `realloc` with a layout other than the one of the block
  deriving DecidableEq, Repr

/-- Every way an operation can fail to return normally.  One constructor per panic site of the code. E.g.
untyped_vec/src/lib.rs:82, lib.rs:93, entities.rs:133, world.rs:342-369; each use cites its site. -/
inductive Fault
  | noGeneration        -- entities.rs:133   `could not get generation for ..`
  | spawnAssert         -- entities.rs:98   `assert!(*alive == false)`
  | outOfIds            -- entities.rs:110  `todo!("Handle running out of entity ids")`
  | indexOob            -- any `v[i]` with `i` out of range
  | unwrapNone          -- any `.unwrap()` on `None`
  | deadComponent       -- entity_builder.rs:198 `Dead entity may not be used as a component`
  | componentHasData    -- entity_builder.rs:168 / world.rs:406 size assertion of the dataless calls
  | builderCapacity     -- entity_builder.rs:138/142 realloc assertions
  | buildLenAssert      -- entity_builder.rs:255 `storage.len() == entities.len()`
  | duplicateComponent  -- entity_builder.rs:335 `Attempted to add the same component twice`
  | orderAssert         -- the `zip(..).all(id1 == id2)` assertions
  | archZeroAssert      -- world.rs:491/557 `archetypes[0].comp_ids.len() == 0`
  | despawnTodo         -- world.rs:347 `todo!()`
  | despawnAssert       -- world.rs:179 `entities[entity_idx] == entity`
  | notAlive            -- world.rs:372/385/404/405 `assert!(is_alive(..))`
  | alreadyPresent      -- world.rs:609 `assert!(!contains)`
  | notPresent          -- world.rs:750 `assert!(contains)`
  | withAssert          -- world.rs:112 `comp_lookup.get(&with_id).is_none()`
  | withoutAssert       -- world.rs:145 `comp_lookup.get(&without_comp_id).is_some()`
  | sameIndex           -- lib.rs:93 `index_twice_mut` with equal indices
  | skippedTwice        -- world.rs:689/806
  | lastAssert          -- world.rs:703/824
  | bitvecExists        -- bitset_iterator.rs:171
  | reallocZst          -- untyped_vec/lib.rs:82
  | layoutErr           -- `Layout::from_size_align(..).unwrap()`
  | capAssert           -- untyped_vec/lib.rs:96
  | arith               -- arithmetic overflow / remainder by zero
  | vecAssert           -- the assertions inside `UntypedVec` methods
  | getAssert           -- static_query.rs:94
  | poisoned            -- `.read().unwrap()` / `.write().unwrap()` on a poisoned lock
  | deadlock            -- acquiring a lock this thread already holds in a conflicting mode
  | dropPanic           -- a destructor of a component unwound, see Model/Unwind.lean
  | fuel                -- loop fuel of the model exhausted; proved unreachable
  | ub (u : Ub)
  deriving DecidableEq, Repr

/-- A byte of memory; `none` is an uninitialised byte (`MaybeUninit<u8>`), e.g. padding (untyped_vec/src/lib.rs:120,
143). -/
abbrev Byte := Option (BitVec 8)

/-- The bytes of a value. What `push_raw` copies (untyped_vec/src/lib.rs:120-146). -/
abbrev Bytes := List Byte

/-- `isize::MAX` on a 64-bit target. Used in untyped_vec/src/lib.rs:96, entity_builder.rs:139, array_vec.rs:11. -/
def isizeMax : Nat := 2 ^ 63 - 1
/-- `usize::MAX` on a 64-bit target. The arithmetic of untyped_vec/src/lib.rs:86, 95, 131. -/
def usizeMax : Nat := 2 ^ 64 - 1

/-- `core::alloc::Layout`.  The alignment of a `Layout` is always a power of two that fits a `usize`; it is
represented by its exponent (untyped_vec/src/lib.rs:13, world.rs:226-230). -/
structure Layout where
  size : Nat
  alignLog : Fin 64
  deriving DecidableEq, Repr

/-- `Layout::align`. Used in untyped_vec/src/lib.rs:88, 98, 368. -/
def Layout.align (l : Layout) : Nat := 2 ^ l.alignLog.val

/-- The size check of `Layout::from_size_align`: the size rounded up to the alignment `2 ^ a` must not overflow.
Used in untyped_vec/src/lib.rs:88, 98, 368, entity_builder.rs:52, 116, 145, 152. -/
def layoutOk (size : Nat) (a : Fin 64) : Bool := size + (2 ^ a.val - 1) ≤ usizeMax

/-- A Rust type used as a component: its `TypeId` (`name`) together with its layout. `TypeId::of::<T>()` and
`Layout::new::<T>()` (world.rs:245-250, 440-455). -/
structure Ty where
  name : Nat
  layout : Layout
  deriving DecidableEq, Repr

/-- `size_of::<T>()` (world.rs:245-250). -/
abbrev Ty.size (t : Ty) : Nat := t.layout.size

/-- A drop function: `component_meta_drop_fn::<T>` (world.rs:232-234) or any other function pointer supplied by hand. -/
inductive DropFn
  | generic (t : Ty)
  | custom (n : Nat)
  deriving DecidableEq, Repr

/-- One call of a drop function on the given bytes (ghost log entry). The calls are in
untyped_vec/src/lib.rs:206-208, 217-219. -/
structure DropEv where
  fn : DropFn
  bytes : Bytes
  deriving DecidableEq, Repr

/-- `<[u8]>::copy_from`: overwrite `bs.length` bytes of `m` from offset `off`. Used for untyped_vec/src/lib.rs:143,
entity_builder.rs:210-214. -/
def writeAt (m : Bytes) (off : Nat) (bs : Bytes) : Bytes :=
  m.take off ++ bs ++ m.drop (off + bs.length)

/-- `n` bytes of `m` from offset `off`. What `ptr.offset(off)` points to (untyped_vec/src/lib.rs:135, 159-163). -/
def readAt (m : Bytes) (off n : Nat) : Bytes := (m.drop off).take n

/-- `Vec::swap_remove` for an in-range index: the last element replaces element `i`. Used in world.rs:180, 723, 842. -/
def swapRemove {α : Type} (l : List α) (i : Nat) : List α :=
  match l.getLast? with
  | none => []
  | some x => (l.set i x).dropLast

/-- `HashMap::insert` on a map modelled as a partial function. Used in world.rs:59, 450-452, entity_builder.rs:277,
336. -/
def mapInsert {κ ν : Type} [DecidableEq κ] (m : κ → Option ν) (k : κ) (v : ν) : κ → Option ν :=
  fun k' => if k' = k then some v else m k'

/-- Stable insertion of `x` into a sorted list: after all elements that are not greater. Part of `stableSort`
(world.rs:121-124, entity_builder.rs:326-327). -/
def sortedInsert {α : Type} (lt : α → α → Bool) (x : α) : List α → List α
  | [] => [x]
  | y :: ys => if lt x y then x :: y :: ys else y :: sortedInsert lt x ys

/-- `slice::sort` / `sort_by`: a stable sort.  Simplification: Rust uses a merge sort; the result of a stable
sort is unique, so any stable sort computes the same list. Used in world.rs:121-124, 152-155,
entity_builder.rs:326-327. -/
def stableSort {α : Type} (lt : α → α → Bool) (l : List α) : List α :=
  l.foldl (fun acc x => sortedInsert lt x acc) []

/-- `utils::index_twice_mut` (lib.rs:78-95): read both elements; `Err` models the panics.
The two `&mut` are modelled by returning the two elements. -/
def indexTwice {α : Type} (i j : Nat) (l : List α) : Except Fault (α × α) :=
  if i < j then
    -- `split_at_mut(j)` panics if `j > len`
    if j ≤ l.length then
      match (l.take j)[i]?, (l.drop j)[0]? with
      | some a, some b => .ok (a, b)
      | _, _ => .error .unwrapNone
    else .error .indexOob
  else if j < i then
    if i ≤ l.length then
      match (l.drop i)[0]?, (l.take i)[j]? with
      | some a, some b => .ok (a, b)
      | _, _ => .error .unwrapNone
    else .error .indexOob
  else .error .sameIndex

end Ellecs
