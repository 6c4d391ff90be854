import Verif.Model.Bitset
/-! # Specification of bit vectors: lists of booleans -/
namespace Ellecs.BitSpec

/-- Setting position `i` of a list of bits, extending the list with zeros when `i` is beyond its end. -/
def set (l : List Bool) (i : Nat) (v : Bool) : List Bool :=
  (List.range (max l.length (i + 1))).map (fun j => if j = i then v else l.getD j false)

/-- `b` was built by a sequence of calls whose effect on a list of bits is `l`. -/
inductive Built : Bitvec → List Bool → Prop
  | new : Built Bitvec.new []
  | set {b b' l} (i : Nat) (v : Bool) : Built b l → b.setBit i v = .ok b' → Built b' (set l i v)
  | push {b b' l} (v : Bool) : Built b l → b.pushBit v = .ok b' → Built b' (l ++ [v])

/-- A family of bit vectors built by a sequence of calls whose effect on a family of lists (indexed by the
index part of an id) is `m`. -/
inductive BuiltFamily : Bitsets → (Nat → List Bool) → Prop
  | new : BuiltFamily [] (fun _ => [])
  | set {s s' m} (id : EcsId) (i : Nat) (v : Bool) : BuiltFamily s m → Bitsets.setBit s id i v = .ok s' →
      BuiltFamily s' (fun k => if k = id.uindex then set (m k) i v else m k)
  | push {s s' m} (id : EcsId) (v : Bool) : BuiltFamily s m → Bitsets.pushBit s id v = .ok s' →
      BuiltFamily s' (fun k => if k = id.uindex then m k ++ [v] else m k)

/-- Position `i` is common to all the mapped word lists. -/
def Common (iters : List WordIter) (i : Nat) : Prop :=
  iters ≠ [] ∧ ∀ it ∈ iters, ∃ w, it.words[i / 64]? = some w ∧ (it.map w).getLsbD (i % 64) = true

end Ellecs.BitSpec
