import Verif.Model.Basic
/-!
# `arche_tape/src/array_vec.rs`
-/
namespace Ellecs

/-- `ArrayVec<T, LEN>` (array_vec.rs:3-6): `array` has `LEN` slots, `none` is an uninitialised slot. -/
structure ArrayVec (α : Type) where
  array : List (Option α)
  len : Nat

namespace ArrayVec
variable {α : Type}

/-- The const parameter `LEN` (array_vec.rs:3). -/
def LEN (v : ArrayVec α) : Nat := v.array.length

/-- `ArrayVec::new` (array_vec.rs:10-17).  Simplification: the assertion `LEN < isize::MAX` is left out (the only `LEN`
in use is `CACHE_SIZE`, 4). -/
def new (n : Nat) : ArrayVec α := ⟨List.replicate n none, 0⟩

/-- `ArrayVec::push` (array_vec.rs:19-27); the boolean is `Result::is_ok`. -/
def push (v : ArrayVec α) (data : α) : Bool × ArrayVec α :=
  if v.len < v.LEN then (true, ⟨v.array.set v.len (some data), v.len + 1⟩) else (false, v)

/-- Read a list of slots as initialised values. `as_slice` casts `[MaybeUninit<T>]` to `[T]` (array_vec.rs:82-92). -/
def allInit : List (Option α) → Except Fault (List α)
  | [] => .ok []
  | none :: _ => .error (.ub .uninit)
  | some x :: xs =>
    match allInit xs with
    | .ok l => .ok (x :: l)
    | .error f => .error f

/-- `ArrayVec::as_slice`, `as_slice_mut` (array_vec.rs:82-92): `&self.array[0..self.len]` reinterpreted as `[T]`. -/
def asSlice (v : ArrayVec α) : Except Fault (List α) :=
  if v.len ≤ v.LEN then allInit (v.array.take v.len) else .error .indexOob

/-- `ArrayVec::push_start` (array_vec.rs:29-48).  Also returns the element that was dropped in place, if any. -/
def pushStart (v : ArrayVec α) (data : α) : Except Fault (Option α × ArrayVec α) :=
  -- lines 30-36: when full, drop the last element
  let r : Except Fault (Option α × Nat) :=
    if v.len = v.LEN then
      match v.asSlice with
      | .error f => .error f
      | .ok l =>
        match l.getLast? with
        | none => .error .unwrapNone
        | some x => .ok (some x, v.len - 1)
    else .ok (none, v.len)
  match r with
  | .error f => .error f
  | .ok (dropped, n) =>
    -- lines 38-42: `ptr::copy(src, src + 1, n)` on the slots
    if n + 1 ≤ v.LEN then
      let moved := v.array.take 1 ++ v.array.take n ++ v.array.drop (n + 1)
      -- line 44-45: `self.array[0] = data`
      .ok (dropped, ⟨moved.set 0 (some data), n + 1⟩)
    else .error (.ub .writeOob)

/-- `ArrayVec::pop` (array_vec.rs:50-58): reads slot `self.len` (one past the last element) before decrementing. -/
def pop (v : ArrayVec α) : Except Fault (Option α × ArrayVec α) :=
  if v.len > 0 then
    match v.array[v.len]? with
    | none => .error .indexOob
    | some none => .error (.ub .uninit)
    | some (some x) => .ok (some x, { v with len := v.len - 1 })
  else .ok (none, v)

/-- `ArrayVec::get`, `get_mut` (array_vec.rs:60-76). -/
def get (v : ArrayVec α) (i : Nat) : Except Fault (Option α) :=
  if i < v.len then
    match v.array[i]? with
    | none => .error .indexOob
    | some none => .error (.ub .uninit)
    | some (some x) => .ok (some x)
  else .ok none

/-- `Drop for ArrayVec` (array_vec.rs:95-104): the values dropped, in order. -/
def drop (v : ArrayVec α) : Except Fault (List α) := v.asSlice

end ArrayVec
end Ellecs
