import Verif.Model.ArrayVec
/-!
# Destructors of the elements of an `ArrayVec`

The functions of array_vec.rs that run destructors of elements, with the destructors they run, for element types whose
destructor may unwind.  `pan past x` says that the destructor of `x` unwinds (after having run) when the destructors that
have run before it, since the beginning of the call, were those of `past`: the same destructor may unwind for one value
and return for an equal one.
-/
namespace Ellecs.ArrayVec
variable {α : Type}

/-- How a call ends. For the functions that run destructors: array_vec.rs:29-48, 95-104. -/
inductive End (β : Type)
  /-- it returns -/
  | done (r : β)
  /-- it unwinds -/
  | unwound
  /-- a destructor unwinds while the call is unwinding already: the process is aborted -/
  | aborted
  deriving DecidableEq, Repr

/-- `ArrayVec::push` (array_vec.rs:19-27): the array, the values whose destructor ran, and the end.  When the array is
full, `data` is dropped at the end of the body. -/
def pushU (pan : List α → α → Bool) (v : ArrayVec α) (data : α) : ArrayVec α × List α × End Bool :=
  if v.len < v.LEN then (⟨v.array.set v.len (some data), v.len + 1⟩, [], .done true)
  else (v, [data], if pan [] data then .unwound else .done false)

/-- `ArrayVec::push_start` (array_vec.rs:29-48).  Unwinding out of `unwrap` (line 31) or out of `drop_in_place`
(line 33) drops `data`; line 35 is not reached then. -/
def pushStartU (pan : List α → α → Bool) (v : ArrayVec α) (data : α) : Except Fault (ArrayVec α × List α × End Unit) :=
  let r : Except Fault (Option α × Bool × Nat) :=
    if v.len = v.LEN then
      match v.asSlice with
      | .error f => .error f
      | .ok l =>
        match l.getLast? with
        | none => .ok (none, true, v.len)
        | some x => .ok (some x, pan [] x, v.len - 1)
    else .ok (none, false, v.len)
  match r with
  | .error f => .error f
  | .ok (dropped, true, _) => .ok (v, dropped.toList ++ [data], if pan dropped.toList data then .aborted else .unwound)
  | .ok (dropped, false, n) =>
    if n + 1 ≤ v.LEN then
      let moved := v.array.take 1 ++ v.array.take n ++ v.array.drop (n + 1)
      .ok (⟨moved.set 0 (some data), n + 1⟩, dropped.toList, .done ())
    else .error (.ub .writeOob)

/-- The loop of `Drop for ArrayVec` (array_vec.rs:98-102). -/
def dropLoop : (pan : List α → α → Bool) → List α → List α × End Unit
  | _, [] => ([], .done ())
  | pan, x :: xs =>
    if pan [] x then ([x], .unwound)
    else
      let (ys, e) := dropLoop (fun past => pan (x :: past)) xs
      (x :: ys, e)

/-- `Drop for ArrayVec` (array_vec.rs:95-104): the values whose destructor ran, and the end.  The fields have no drop
glue. -/
def dropU (pan : List α → α → Bool) (v : ArrayVec α) : Except Fault (List α × End Unit) :=
  match v.asSlice with
  | .error f => .error f
  | .ok l => .ok (dropLoop pan l)

end Ellecs.ArrayVec
