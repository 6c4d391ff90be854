import Verif.Model.Entities
/-!
# Hashing of ids

`TypeIdHasher` (lib.rs:55-76) is the hasher of every `HashMap` of the world, with keys `EcsId` and `TypeId`.
-/
namespace Ellecs

/-- `u64::to_ne_bytes` on a little-endian target. Used by `write_u64` (entities.rs:46-50). -/
def toNeBytes (x : BitVec 64) : List (BitVec 8) :=
  (List.range 8).map (fun k => BitVec.ofNat 8 (x.toNat / 256 ^ k))

/-- `u64::from_ne_bytes` on a little-endian target. Used in lib.rs:60. -/
def fromNeBytes (bs : List (BitVec 8)) : BitVec 64 := BitVec.ofNat 64 (bs.foldr (fun b n => b.toNat + 256 * n) 0)

/-- `TypeIdHasher` (lib.rs:55-56). -/
structure TypeIdHasher where
  state : BitVec 64
  deriving DecidableEq, Repr

namespace TypeIdHasher

/-- `TypeIdHasherBuilder::build_hasher` (lib.rs:70-75). -/
def build : TypeIdHasher := ⟨0⟩

/-- `Hasher::write` (lib.rs:59-61): `bytes.try_into().unwrap()` panics unless there are eight bytes. -/
def write (_ : TypeIdHasher) (bytes : List (BitVec 8)) : Except Fault TypeIdHasher :=
  if bytes.length = 8 then .ok ⟨fromNeBytes bytes⟩ else .error .unwrapNone

/-- `Hasher::finish` (lib.rs:62-64). -/
def finish (h : TypeIdHasher) : BitVec 64 := h.state

/-- `Hasher::write_u64`, which is not overridden: `self.write(&i.to_ne_bytes())` (lib.rs:58-65). -/
def writeU64 (h : TypeIdHasher) (x : BitVec 64) : Except Fault TypeIdHasher := h.write (toNeBytes x)

end TypeIdHasher

/-- `Hash for EcsId` (entities.rs:46-50): `u64::hash`, i.e. `state.write_u64(self.as_u64())`. -/
def EcsId.hashInto (e : EcsId) (h : TypeIdHasher) : Except Fault TypeIdHasher := h.writeU64 e.asU64

/-- The hash of a key of `lock_lookup`, `comp_lookup` or an edge cache. The maps are world.rs:31, 64, 271. -/
def EcsId.hash (e : EcsId) : Except Fault (BitVec 64) := (e.hashInto .build).map TypeIdHasher.finish

/-- The hash of a key of `type_id_to_ecs_id`.  Simplification: `TypeId` is the `u64` it was when the code was written,
with a derived `Hash`. The map is world.rs:269. -/
def hashTypeId (t : BitVec 64) : Except Fault (BitVec 64) := (TypeIdHasher.writeU64 .build t).map TypeIdHasher.finish

end Ellecs
