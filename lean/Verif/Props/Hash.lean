import Verif.Model.Hash
import Verif.Props.Entities
/-! # C54: hashing of ids -/
namespace Ellecs
namespace HashSpec

theorem toNeBytes_length (x : BitVec 64) : (toNeBytes x).length = 8 := rfl

theorem fromNe_toNe (x : BitVec 64) : fromNeBytes (toNeBytes x) = x := by
  apply BitVec.eq_of_toNat_eq
  have := x.isLt
  simp only [fromNeBytes, toNeBytes, List.range, List.range.loop, List.map_cons, List.map_nil, List.foldr_cons, List.foldr_nil, BitVec.toNat_ofNat]
  omega

theorem writeU64_ok (h : TypeIdHasher) (x : BitVec 64) : h.writeU64 x = .ok ⟨x⟩ := by
  simp [TypeIdHasher.writeU64, TypeIdHasher.write, toNeBytes_length, fromNe_toNe]

/-- **C54**: hashing an id never panics, and two ids have the same hash exactly when they are the same entity of the
same generation. -/
theorem C54_hash_ids (a b : EcsId) : ∃ x y, a.hash = .ok x ∧ b.hash = .ok y ∧ (x = y ↔ a.idx = b.idx ∧ a.gen = b.gen) := by
  refine ⟨a.asU64, b.asU64, ?_, ?_, ?_⟩
  · simp [EcsId.hash, EcsId.hashInto, writeU64_ok, Except.map, TypeIdHasher.finish]
  · simp [EcsId.hash, EcsId.hashInto, writeU64_ok, Except.map, TypeIdHasher.finish]
  · rw [(Alloc.C05_eq_iff a b).2, EcsId.mk.injEq, and_comm]

/-- **C54** for the keys of the type map. -/
theorem C54_hash_types (s t : BitVec 64) : ∃ x y, hashTypeId s = .ok x ∧ hashTypeId t = .ok y ∧ (x = y ↔ s = t) :=
  ⟨s, t, by simp [hashTypeId, writeU64_ok, Except.map, TypeIdHasher.finish], by simp [hashTypeId, writeU64_ok, Except.map, TypeIdHasher.finish], Iff.rfl⟩

/-- **C54**: the hash does not depend on what the hasher was fed before, and anything but a `u64` is rejected. -/
theorem C54_hasher (h : TypeIdHasher) (bytes : List (BitVec 8)) :
    (bytes.length ≠ 8 → h.write bytes = .error .unwrapNone) ∧
    (bytes.length = 8 → ∃ h', h.write bytes = .ok h' ∧ toNeBytes h'.finish = bytes) := by
  constructor
  · intro hb
    simp [TypeIdHasher.write, hb]
  · intro hb
    refine ⟨⟨fromNeBytes bytes⟩, by simp [TypeIdHasher.write, hb], ?_⟩
    match bytes, hb with
    | [b0, b1, b2, b3, b4, b5, b6, b7], _ =>
      have := b0.isLt; have := b1.isLt; have := b2.isLt; have := b3.isLt
      have := b4.isLt; have := b5.isLt; have := b6.isLt; have := b7.isLt
      simp only [TypeIdHasher.finish, fromNeBytes, toNeBytes, List.range, List.range.loop, List.map_cons, List.map_nil, List.foldr_cons, List.foldr_nil, BitVec.toNat_ofNat, List.cons.injEq, and_true]
      refine ⟨?_, ?_, ?_, ?_, ?_, ?_, ?_, ?_⟩ <;> apply BitVec.eq_of_toNat_eq <;> simp only [BitVec.toNat_ofNat] <;> omega

/-- Two generations of one slot, and two slots of one generation. -/
example : EcsId.hash ⟨1, 7⟩ = .ok 0x100000007 ∧ EcsId.hash ⟨2, 7⟩ = .ok 0x200000007 ∧ EcsId.hash ⟨1, 8⟩ = .ok 0x100000008 :=
  ⟨rfl, rfl, rfl⟩

/-- Both branches of `C54_hasher`. -/
example : TypeIdHasher.write ⟨5⟩ [1, 0, 0] = .error .unwrapNone ∧ TypeIdHasher.write ⟨5⟩ [1, 2, 0, 0, 0, 0, 0, 0] = .ok ⟨0x201⟩ :=
  ⟨rfl, rfl⟩

end HashSpec

example := HashSpec.C54_hash_ids ⟨1, 7⟩ ⟨2, 7⟩
example := HashSpec.C54_hash_types 5 6
example := HashSpec.C54_hasher ⟨5⟩ [1, 2, 0, 0, 0, 0, 0, 0]

end Ellecs
