import Verif.Model.UntypedVec
/-! # Specification of `UntypedVec`: lists of values -/
namespace Ellecs
namespace UVec

/-- The drop calls expected for a list of values: one per value, none without a drop function. -/
def dropEvs (info : TypeInfo) (l : List Bytes) : List DropEv :=
  match info.dropFn with
  | none => []
  | some f => l.map (DropEv.mk f)

/-- Number of elements. -/
def count (v : UVec) : Nat := if v.size = 0 then v.len else v.len / v.size

/-- The bytes of element `i`. -/
def elem (v : UVec) (i : Nat) : Bytes := readAt v.mem (i * v.size) v.size

/-- The elements. -/
def elems (v : UVec) : List Bytes := (List.range v.count).map v.elem

/-- Pushing onto `v` cannot exceed the limits of the allocator: neither the first block nor a doubled one. -/
def Roomy (v : UVec) : Prop := v.size * 4 < isizeMax ∧ v.cap * 2 < isizeMax

end UVec

namespace VecSpec

/-- Element `i` is replaced by the last element, and the list is shortened by one. -/
def removeAt (l : List Bytes) (i : Nat) : List Bytes := (l.set i (l.getLast?.getD [])).take (l.length - 1)

/-- `v` results from calls whose effect on a list of values is `l`; `peak` is the largest number of elements it
ever held, or had room for when the user called `realloc`.  `push` follows the safety contract of `push_raw` (the source holds a whole element) and moving an
element follows the one of `swap_move_element_to_other_vec` (an element that exists). -/
inductive Hist : UVec → List Bytes → Nat → Prop
  | new (info : TypeInfo) : Hist (.newFromRaw info) [] 0
  | newFrom {v l p} : Hist v l p → Hist (.newFromUntypedVec v) [] 0
  | push {v v' l p} (src : Bytes) : Hist v l p → v.size ≤ src.length → v.pushRaw src = .ok v' →
      Hist v' (l ++ [src.take v.size]) (max p (l.length + 1))
  | pop {v v' l p b evs} : Hist v l p → v.pop = .ok (b, v', evs) → Hist v' l.dropLast p
  | swapRemove {v v' l p evs} (i : Nat) : Hist v l p → v.swapRemove i = .ok (v', evs) → Hist v' (removeAt l i) p
  | moveOut {v v' o o' l lo p po} (i : Nat) : Hist v l p → Hist o lo po → i < l.length →
      v.swapMove o i = .ok (v', o') → Hist v' (removeAt l i) p
  | moveIn {v v' o o' l lo p po} (i : Nat) (x : Bytes) : Hist v l p → Hist o lo po → l[i]? = some x →
      v.swapMove o i = .ok (v', o') → Hist o' (lo ++ [x]) (max po (lo.length + 1))
  | write {v l p} (i off : Nat) (bs : Bytes) : Hist v l p → v.getRaw i = .ok (some off) → bs.length = v.size →
      Hist { v with mem := writeAt v.mem off bs } (l.set i bs) p
  | realloc {v v' l p} : Hist v l p → v.realloc = .ok v' → Hist v' l (max p (v.cap / v.size))

/-- The address of a byte offset: `NonNull::<u8>::dangling()` is address 1, an allocated block starts at `base`. -/
def addr (base : Nat) (v : UVec) (off : Nat) : Nat :=
  match v.data with
  | none => 1 + off
  | some _ => base + off

/-- The allocator returned a block aligned for the layout it was asked for. -/
def Aligned (base : Nat) (v : UVec) : Prop :=
  match v.data with
  | none => True
  | some l => l.align ∣ base

end VecSpec

/-- A panic caused by the limits of the allocator or by a `usize` overflow. -/
def Limit (f : Fault) : Prop := f = .arith ∨ f = .layoutErr ∨ f = .capAssert

end Ellecs
