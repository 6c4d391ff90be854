import Verif.Spec.UntypedVec
import Verif.Model.Unwind
/-! # Who owns the values in a family of `UntypedVec`s -/
namespace Ellecs
namespace VecSpec

/-- A value together with the type information of the vec it was handed to or taken from. -/
abbrev Item := TypeInfo × Bytes

/-- What the user did with a family of vecs of types in `T`, and what the vecs did: `vs` are the vecs (`none` where one has been
dropped), `hs` the values handed in by `push_raw` or stored through a pointer, `ts` the values the user read
out before overwriting them (`mem::replace` through the pointer of `get_mut_raw`), `us` the values that a vec had
not come to when a drop function panicked while the vec was being dropped, `ds` the calls of drop functions so far, in
order.  A drop function that panics in `pop` or `swap_remove` leaves the same vec as one that returns: the length is lowered
before the call (lib.rs:202, 211) and nothing is left to do after it.  `push` follows the safety contract of `push_raw`, `move` the one
of `swap_move_element_to_other_vec` as far as its assertion checks it (two vecs, an element that exists). -/
inductive Owner (T : TypeInfo → Prop) : List (Option UVec) → List Item → List Item → List Item → List DropEv → Prop
  | start : Owner T [] [] [] [] []
  | new {vs hs ts us ds} (info : TypeInfo) : T info → Owner T vs hs ts us ds →
      Owner T (vs ++ [some (.newFromRaw info)]) hs ts us ds
  | newFrom {vs hs ts us ds v} (i : Nat) : Owner T vs hs ts us ds → vs[i]? = some (some v) →
      Owner T (vs ++ [some (.newFromUntypedVec v)]) hs ts us ds
  | push {vs hs ts us ds v v'} (i : Nat) (x : Bytes) : Owner T vs hs ts us ds → vs[i]? = some (some v) →
      x.length = v.size → v.pushRaw x = .ok v' → Owner T (vs.set i (some v')) (hs ++ [(v.info, x)]) ts us ds
  | pop {vs hs ts us ds v v' b evs} (i : Nat) : Owner T vs hs ts us ds → vs[i]? = some (some v) →
      v.pop = .ok (b, v', evs) → Owner T (vs.set i (some v')) hs ts us (ds ++ evs)
  | swapRemove {vs hs ts us ds v v' evs} (i k : Nat) : Owner T vs hs ts us ds → vs[i]? = some (some v) →
      v.swapRemove k = .ok (v', evs) → Owner T (vs.set i (some v')) hs ts us (ds ++ evs)
  | move {vs hs ts us ds v v' o o'} (i j k : Nat) : Owner T vs hs ts us ds → i ≠ j → vs[i]? = some (some v) →
      vs[j]? = some (some o) → k < v.count → v.swapMove o k = .ok (v', o') →
      Owner T ((vs.set i (some v')).set j (some o')) hs ts us ds
  | replace {vs hs ts us ds v} (i k off : Nat) (x : Bytes) : Owner T vs hs ts us ds → vs[i]? = some (some v) →
      v.getRaw k = .ok (some off) → x.length = v.size →
      Owner T (vs.set i (some { v with mem := writeAt v.mem off x })) (hs ++ [(v.info, x)])
        (ts ++ [(v.info, v.elem k)]) us ds
  | realloc {vs hs ts us ds v v'} (i : Nat) : Owner T vs hs ts us ds → vs[i]? = some (some v) → v.realloc = .ok v' →
      Owner T (vs.set i (some v')) hs ts us ds
  | drop {vs hs ts us ds v evs blk} (i : Nat) : Owner T vs hs ts us ds → vs[i]? = some (some v) →
      v.drop = .ok (evs, blk) → Owner T (vs.set i none) hs ts us (ds ++ evs)
  | unwind {vs hs ts us ds v evs blk} (i : Nat) (pan : Panics) : Owner T vs hs ts us ds → vs[i]? = some (some v) →
      v.dropU pan = .ok (evs, blk, true) →
      Owner T (vs.set i none) hs ts (us ++ (v.elems.take (v.count - evs.length)).map (v.info, ·)) (ds ++ evs)

/-- The values stored in the vecs that still exist, each with the type information of its vec. -/
def stored (vs : List (Option UVec)) : List Item :=
  vs.flatMap fun o => match o with
    | some v => v.elems.map (v.info, ·)
    | none => []

/-- The drop call that ends a value of a type. -/
def dueOne (x : Item) : List DropEv := UVec.dropEvs x.1 [x.2]

/-- The drop calls that end each of the values once, by the function of its type. -/
def due (l : List Item) : List DropEv := l.flatMap dueOne

/-- No two of the types have the same layout: the assertion of `swap_move_element_to_other_vec`, which compares the
layouts only, tells them apart. -/
def Distinct (T : TypeInfo → Prop) : Prop := ∀ a b, T a → T b → a.layout = b.layout → a = b

/-- A value without bytes. -/
def Item.Void (x : Item) : Prop := x.1.layout.size = 0

end VecSpec
end Ellecs
