import Verif.Model.Basic
/-!
# `arche_tape/src/entities.rs`
-/
namespace Ellecs

/-- `EcsId(EcsIdGen, EcsIdIndex)` (entities.rs:31). -/
structure EcsId where
  gen : BitVec 32
  idx : BitVec 32
  deriving DecidableEq, Repr

namespace EcsId

/-- `EcsId::uindex` (entities.rs:61-63). -/
def uindex (e : EcsId) : Nat := e.idx.toNat

/-- `EcsId::new` (entities.rs:65-67): index first, generation second. -/
abbrev new (index generation : BitVec 32) : EcsId := ⟨generation, index⟩

/-- `EcsId::as_u64` (entities.rs:69-76): `(gen as u64) << 32 | idx as u64`. -/
def asU64 (e : EcsId) : BitVec 64 := (e.gen.zeroExtend 64 <<< 32) ||| e.idx.zeroExtend 64

/-- `PartialEq for EcsId` (entities.rs:39-43). -/
def eq (a b : EcsId) : Bool := a.asU64 == b.asU64

/-- `derive(Ord)` on `EcsId(EcsIdGen, EcsIdIndex)` (entities.rs:30-31): lexicographic, generation first. -/
def lt (a b : EcsId) : Bool := a.gen < b.gen || (a.gen == b.gen && a.idx < b.idx)

end EcsId

/-- `Entities` (entities.rs:79-84): `generations[i] = (alive, generation)`; `despawned` is a stack, its top is the
head of the list (the `Vec` pushes and pops at its end). -/
structure Entities where
  generations : List (Bool × BitVec 32)
  despawned : List Nat
  deriving DecidableEq, Repr

namespace Entities

/-- `Entities::new` (entities.rs:87-92). -/
def new : Entities := ⟨[], []⟩

/-- `Entities::is_alive` (entities.rs:129-136). -/
def isAlive (s : Entities) (e : EcsId) : Except Fault Bool :=
  match s.generations[e.uindex]? with
  | none => .error .noGeneration
  | some (alive, stored) => .ok (alive && e.gen == stored)

/-- `Entities::spawn` (entities.rs:94-115).  The second component is the state even when the call panics:
the slot has then already been pushed. -/
def spawn (s : Entities) : Except Fault EcsId × Entities :=
  match s.despawned with
  | i :: rest =>
    match s.generations[i]? with
    | none => (.error .indexOob, { s with despawned := rest })
    | some (alive, gen) =>
      if alive then (.error .spawnAssert, { s with despawned := rest })
      else
        let s' : Entities := ⟨s.generations.set i (true, gen + 1), rest⟩
        if i > 2 ^ 32 - 1 then (.error .outOfIds, s')
        else (.ok (EcsId.new (BitVec.ofNat 32 i) (gen + 1)), s')
  | [] =>
    let i := s.generations.length
    let s' : Entities := ⟨s.generations ++ [(true, 0)], []⟩
    if i > 2 ^ 32 - 1 then (.error .outOfIds, s')
    else (.ok (EcsId.new (BitVec.ofNat 32 i) 0), s')

/-- `Entities::despawn` (entities.rs:118-127). -/
def despawn (s : Entities) (e : EcsId) : Except Fault (Bool × Entities) :=
  match s.isAlive e with
  | .error f => .error f
  | .ok false => .ok (false, s)
  | .ok true =>
    match s.generations[e.uindex]? with
    | none => .error .indexOob
    | some (_, gen) =>
      .ok (true, ⟨s.generations.set e.uindex (false, gen), e.uindex :: s.despawned⟩)

end Entities
end Ellecs
