import Verif.Model.Basic
/-!
# `untyped_vec/src/lib.rs`, at byte level

Lengths are `Nat`: the byte length is bounded by the capacity, which the code keeps below `isize::MAX`; the
element counter of a zero sized vec would need 2^64 pushes to overflow.
-/
namespace Ellecs

/-- `TypeInfo` (lib.rs:12-15). -/
structure TypeInfo where
  layout : Layout
  dropFn : Option DropFn
  deriving DecidableEq, Repr

/-- `UntypedVec` (lib.rs:31-36).  `data` is the provenance of the pointer: `none` is `NonNull::dangling()`
(address 1), `some l` is a block obtained from the global allocator with layout `l`.  `mem` is the content of
the block. -/
structure UVec where
  info : TypeInfo
  data : Option Layout
  mem : Bytes
  cap : Nat
  len : Nat
  deriving DecidableEq, Repr

namespace UVec

/-- `self.type_info.layout.size()` (lib.rs:62-63). -/
abbrev size (v : UVec) : Nat := v.info.layout.size
/-- `self.type_info.layout.align()` (lib.rs:88). -/
abbrev alignLog (v : UVec) : Fin 64 := v.info.layout.alignLog

/-- `UntypedVec::new_from_raw` (lib.rs:49-56). -/
def newFromRaw (info : TypeInfo) : UVec := ⟨info, none, [], 0, 0⟩

/-- `UntypedVec::new_from_untyped_vec` (lib.rs:39-42). -/
def newFromUntypedVec (v : UVec) : UVec := newFromRaw v.info

/-- `UntypedVec::len` (lib.rs:62-69). -/
def lenElems (v : UVec) : Except Fault Nat :=
  if v.size = 0 then .ok v.len
  else if v.len % v.size = 0 then .ok (v.len / v.size)
  else .error .vecAssert

/-- `UntypedVec::is_empty` (lib.rs:76-78). -/
def isEmpty (v : UVec) : Bool := v.len == 0

/-- `UntypedVec::realloc` (lib.rs:80-109).  `size * 4` and `cap * 2` panic on overflow as in a debug build; the
allocator never fails (otherwise the process aborts in `handle_alloc_error`). -/
def realloc (v : UVec) : Except Fault UVec :=
  if v.size = 0 then .error .reallocZst
  else if v.cap = 0 then
    let newCap := v.size * 4
    if newCap > usizeMax then .error .arith
    else if layoutOk newCap v.alignLog then
      .ok { v with data := some ⟨newCap, v.alignLog⟩, mem := List.replicate newCap none, cap := newCap }
    else .error .layoutErr
  else
    let newCap := v.cap * 2
    if newCap > usizeMax then .error .arith
    else if newCap < isizeMax then
      if layoutOk v.cap v.alignLog then
        if v.data = some ⟨v.cap, v.alignLog⟩ then
          .ok { v with
            data := some ⟨newCap, v.alignLog⟩
            mem := v.mem ++ List.replicate (newCap - v.cap) none
            cap := newCap }
        else .error (.ub .badDealloc)
      else .error .layoutErr
    else .error .capAssert

/-- `UntypedVec::push_raw` (lib.rs:119-143).  `src` are the bytes behind the (non-null) pointer. -/
def pushRaw (v : UVec) (src : Bytes) : Except Fault UVec :=
  if v.size = 0 then .ok { v with len := v.len + 1 }
  else
    let r := if v.len + v.size > v.cap then v.realloc else .ok v
    match r with
    | .error f => .error f
    | .ok v =>
      if src.length < v.size then .error (.ub .srcTooShort)
      else if v.len + v.size > v.mem.length then .error (.ub .writeOob)
      else .ok { v with mem := writeAt v.mem v.len (src.take v.size), len := v.len + v.size }

/-- `UntypedVec::get_raw`, `get_mut_raw` (lib.rs:145-197): the byte offset of the element from `data`. -/
def getRaw (v : UVec) (element : Nat) : Except Fault (Option Nat) :=
  if v.len = 0 then .ok none
  else if v.size = 0 then .ok (if element < v.len then some 0 else none)
  else if v.len % v.size = 0 then
    .ok (if element < v.len / v.size then some (element * v.size) else none)
  else .error .vecAssert

/-- Read `n` bytes of the block at `off`; undefined behaviour outside the block. Used for lib.rs:207, 218, 247, 264. -/
def read (v : UVec) (off n : Nat) : Except Fault Bytes :=
  if off + n ≤ v.mem.length then .ok (readAt v.mem off n)
  else .error (.ub .readOob)

/-- The call `drop_fn(ptr)` on the element at byte offset `off`, if there is a drop function (lib.rs:206-208,
217-219). -/
def callDrop (v : UVec) (off : Nat) : Except Fault (List DropEv) :=
  match v.info.dropFn with
  | none => .ok []
  | some f =>
    match v.read off v.size with
    | .error e => .error e
    | .ok bs => .ok [⟨f, bs⟩]

/-- `UntypedVec::pop` (lib.rs:200-224). -/
def pop (v : UVec) : Except Fault (Bool × UVec × List DropEv) :=
  if v.size = 0 ∧ v.len > 0 then
    let v := { v with len := v.len - 1 }
    match v.callDrop 0 with
    | .error e => .error e
    | .ok evs => .ok (true, v, evs)
  else if v.len ≥ v.size then
    let v := { v with len := v.len - v.size }
    match v.callDrop v.len with
    | .error e => .error e
    | .ok evs => .ok (true, v, evs)
  else .ok (false, v, [])

/-- Two ranges of `n` bytes do not overlap. Needed by `swap_nonoverlapping` (lib.rs:264, 298). -/
abbrev Apart (a b n : Nat) : Prop := a + n ≤ b ∨ b + n ≤ a

/-- `ptr::swap_nonoverlapping(a, b, n)` on two ranges of the block (lib.rs:264, 298). -/
def swapRanges (m : Bytes) (a b n : Nat) : Bytes :=
  writeAt (writeAt m a (readAt m b n)) b (readAt m a n)

/-- `UntypedVec::swap_move_element_to_other_vec` (lib.rs:229-273): the new `self` and the new `other`. -/
def swapMove (v other : UVec) (element : Nat) : Except Fault (UVec × UVec) :=
  -- `PartialEq for TypeInfo` (lib.rs:17-21) compares the layouts only
  if v.info.layout ≠ other.info.layout then .error .vecAssert
  else if ¬ v.len > 0 then .error .vecAssert
  else if ¬ (v.size = 0 ∨ element < v.len / v.size) then .error .vecAssert
  else if v.size = 0 then
    .ok ({ v with len := v.len - 1 }, { other with len := other.len + 1 })
  else if element = v.len / v.size - 1 then
    match v.read (element * v.size) v.size with
    | .error e => .error e
    | .ok bs =>
      match other.pushRaw bs with
      | .error e => .error e
      | .ok other' => .ok ({ v with len := v.len - v.size }, other')
  else if ¬ Apart (element * v.size) (v.len - v.size) v.size then .error (.ub .overlap)
  else
    let toMove := element * v.size
    let toSwap := v.len - v.size
    if toMove + v.size ≤ v.mem.length ∧ toSwap + v.size ≤ v.mem.length then
      let v := { v with mem := swapRanges v.mem toMove toSwap v.size }
      match v.read toSwap v.size with
      | .error e => .error e
      | .ok bs =>
        match other.pushRaw bs with
        | .error e => .error e
        | .ok other' => .ok ({ v with len := v.len - v.size }, other')
    else .error (.ub .readOob)

/-- `UntypedVec::swap_remove` (lib.rs:275-304). -/
def swapRemove (v : UVec) (element : Nat) : Except Fault (UVec × List DropEv) :=
  if ¬ v.len > 0 then .error .vecAssert
  else if ¬ (v.size = 0 ∨ element < v.len / v.size) then .error .vecAssert
  else if v.size = 0 ∨ element = v.len / v.size - 1 then
    if v.len > element then
      match v.pop with
      | .error e => .error e
      | .ok (_, v, evs) => .ok (v, evs)
    else .error .vecAssert
  else if ¬ Apart (element * v.size) (v.len - v.size) v.size then .error (.ub .overlap)
  else
    let toMove := element * v.size
    let toSwap := v.len - v.size
    if toMove + v.size ≤ v.mem.length ∧ toSwap + v.size ≤ v.mem.length then
      let v := { v with mem := swapRanges v.mem toMove toSwap v.size }
      match v.pop with
      | .error e => .error e
      | .ok (_, v, evs) => .ok (v, evs)
    else .error (.ub .readOob)

/-- `UntypedVec::as_slice::<T>` / `as_slice_mut::<T>` (lib.rs:310-346): the bytes of the elements. -/
def asSlice (v : UVec) (t : Layout) : Except Fault (List Bytes) :=
  if v.info.layout ≠ t then .error .vecAssert
  else if v.size = 0 then .error .arith   -- `self.len % 0` panics
  else if v.len % v.size ≠ 0 then .error .vecAssert
  else
    let n := if v.size = 0 then v.len else v.len / v.size
    if n * v.size ≤ v.mem.length then
      .ok ((List.range n).map (fun i => readAt v.mem (i * v.size) v.size))
    else .error (.ub .readOob)

/-- `while self.pop() {}` with fuel (lib.rs:366). -/
def popAll : Nat → UVec → Except Fault (UVec × List DropEv)
  | 0, _ => .error .fuel
  | fuel + 1, v =>
    match v.pop with
    | .error e => .error e
    | .ok (false, v, evs) => .ok (v, evs)
    | .ok (true, v, evs) =>
      match popAll fuel v with
      | .error e => .error e
      | .ok (v, evs') => .ok (v, evs ++ evs')

/-- `Drop for UntypedVec` (lib.rs:363-377): the drop calls, and the layout handed to `dealloc` (if called). -/
def drop (v : UVec) : Except Fault (List DropEv × Option Layout) :=
  if v.cap > 0 then
    match popAll (v.len + 1) v with
    | .error e => .error e
    | .ok (_, evs) =>
      if layoutOk v.cap v.alignLog then .ok (evs, some ⟨v.cap, v.alignLog⟩) else .error .layoutErr
  else .ok ([], none)

end UVec
end Ellecs
