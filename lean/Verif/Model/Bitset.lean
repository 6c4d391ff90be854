import Verif.Model.Entities
/-!
# `arche_tape/src/bitset_iterator.rs`
-/
namespace Ellecs

/-- A `usize` word of a bit vector on a 64-bit target (bitset_iterator.rs:17, 90). -/
abbrev Word := BitVec 64

/-- `usize::trailing_zeros`: the number of trailing zero bits, 64 for zero. Used in bitset_iterator.rs:59. -/
def trailingZeros (x : Word) : Nat := ((List.range 64).find? (fun i => x.getLsbD i)).getD 64

/-- `Bitvec` (bitset_iterator.rs:89-93). -/
structure Bitvec where
  data : List Word
  len : Nat
  deriving DecidableEq, Repr

namespace Bitvec

/-- `Bitvec::new`, `Bitvec::with_capacity` (bitset_iterator.rs:96-108); capacity is not observable. -/
def new : Bitvec := ⟨[], 0⟩

/-- `Bitvec::get_bit` (bitset_iterator.rs:111-120). -/
def getBit (b : Bitvec) (index : Nat) : Except Fault (Option Bool) :=
  if index ≥ b.len then .ok none
  else
    match b.data[index / 64]? with
    | none => .error .indexOob
    | some bits => .ok (some (((bits >>> (index % 64)) &&& 1#64) == 1#64))

/-- `Bitvec::set_bit` (bitset_iterator.rs:122-138). -/
def setBit (b : Bitvec) (index : Nat) (value : Bool) : Except Fault Bitvec :=
  let dataIdx := index / 64
  let bitIdx := index % 64
  let len' := if index ≥ b.len then index + 1 else b.len
  let data' :=
    if index ≥ b.len ∧ b.data.length < dataIdx + 1 then
      b.data ++ List.replicate (dataIdx + 1 - b.data.length) 0#64
    else b.data
  match data'[dataIdx]? with
  | none => .error .indexOob
  | some bits =>
    let mask := 1#64 <<< bitIdx
    let bits := bits &&& ~~~mask
    let bits := bits ||| ((if value then 1#64 else 0#64) <<< bitIdx)
    .ok ⟨data'.set dataIdx bits, len'⟩

/-- `Bitvec::push_bit` (bitset_iterator.rs:140-142). -/
def pushBit (b : Bitvec) (value : Bool) : Except Fault Bitvec := b.setBit b.len value

end Bitvec

/-- `Bitsetsss` (bitset_iterator.rs:145-147). -/
abbrev Bitsets := List Bitvec

namespace Bitsets

/-- `Bitsetsss::insert_bitvec` (bitset_iterator.rs:164-172). -/
def insertBitvec (s : Bitsets) (id : EcsId) : Except Fault Bitsets :=
  match s[id.uindex]? with
  | none => .ok (s ++ List.replicate (id.uindex + 1 - s.length) Bitvec.new)
  | some _ => .error .bitvecExists

/-- `Bitsetsss::get_bitvec` (bitset_iterator.rs:174-176): keyed by the index only, not by the generation. -/
def getBitvec (s : Bitsets) (id : EcsId) : Option Bitvec := s[id.uindex]?

/-- `Bitsetsss::set_bit` (bitset_iterator.rs:178-185). -/
def setBit (s : Bitsets) (id : EcsId) (index : Nat) (value : Bool) : Except Fault Bitsets :=
  (if id.uindex ≥ s.length then insertBitvec s id else .ok s) >>= fun s =>
    match s[id.uindex]? with
    | none => .error .indexOob
    | some bv => bv.setBit index value >>= fun bv' => .ok (s.set id.uindex bv')

/-- `Bitsetsss::push_bit` (bitset_iterator.rs:188-195). -/
def pushBit (s : Bitsets) (id : EcsId) (value : Bool) : Except Fault Bitsets :=
  (if id.uindex ≥ s.length then insertBitvec s id else .ok s) >>= fun s =>
    match s[id.uindex]? with
    | none => .error .indexOob
    | some bv => bv.pushBit value >>= fun bv' => .ok (s.set id.uindex bv')

end Bitsets

/-- A slice iterator over words together with the map applied to each word (bitset_iterator.rs:8). -/
structure WordIter where
  words : List Word
  map : Word → Word

/-- `BitsetIterator` (bitset_iterator.rs:6-18). -/
structure BitsetIter where
  iters : List WordIter
  bitLength : Nat
  index : Nat
  bitsRemaining : Nat
  currentBits : Word

namespace BitsetIter

/-- `BitsetIterator::new` (bitset_iterator.rs:24-35). -/
def new (iters : List WordIter) (bitLength : Nat) : BitsetIter := ⟨iters, bitLength, 0, 0, 0⟩

/-- The `for (iter, map) in iter { filtered &= map(*iter.next()?); }` loop (bitset_iterator.rs:51-53): the
iterators before an exhausted one have already been advanced. -/
def andRest (filtered : Word) : List WordIter → Option Word × List WordIter
  | [] => (some filtered, [])
  | it :: its =>
    match it.words with
    | [] => (none, it :: its)
    | x :: xs =>
      let r := andRest (filtered &&& it.map x) its
      (r.1, { it with words := xs } :: r.2)

/-- The refill of `current_bits` (bitset_iterator.rs:47-53). -/
def refill : List WordIter → Option Word × List WordIter
  | [] => (none, [])
  | it :: its =>
    match it.words with
    | [] => (none, it :: its)
    | x :: xs =>
      let r := andRest (it.map x) its
      (r.1, { it with words := xs } :: r.2)

/-- The body after the refill (bitset_iterator.rs:59-83): `none` is `continue`. -/
def body (s : BitsetIter) : Option (Option Nat) × BitsetIter :=
  let zeros := trailingZeros s.currentBits
  if zeros = 64 then
    (none, { s with index := s.index + s.bitsRemaining, bitsRemaining := 0 })
  else
    let s := { s with
      bitsRemaining := s.bitsRemaining - (zeros + 1)
      currentBits := (s.currentBits >>> 1) >>> zeros
      index := s.index + (zeros + 1) }
    if s.index > s.bitLength then
      (some none, { s with
        currentBits := 0
        iters := match s.iters with
          | [] => []   -- unreachable: indexing by 0 (the comment at line 78)
          | it :: its => { it with words := [] } :: its })
    else (some (some (s.index - 1)), s)

/-- The `loop` of `next` (bitset_iterator.rs:43-85), with fuel. -/
def loop : Nat → BitsetIter → Option Nat × BitsetIter
  | 0, s => (none, s)
  | fuel + 1, s =>
    if s.bitsRemaining = 0 then
      match refill s.iters with
      | (none, its) => (none, { s with iters := its })
      | (some filtered, its) =>
        match body { s with iters := its, bitsRemaining := 64, currentBits := filtered } with
        | (none, s') => loop fuel s'
        | (some r, s') => (r, s')
    else
      match body s with
      | (none, s') => loop fuel s'
      | (some r, s') => (r, s')

/-- Words left in the first slice iterator: every turn of the loop but the first consumes one of them. It bounds the
`loop` of bitset_iterator.rs:44-84. -/
def fuelFor (s : BitsetIter) : Nat :=
  match s.iters with
  | [] => 2
  | it :: _ => it.words.length + 2

/-- `BitsetIterator::next` (bitset_iterator.rs:43-85).  The fuel is proved sufficient by the correctness theorem. -/
def next (s : BitsetIter) : Option Nat × BitsetIter := loop s.fuelFor s

end BitsetIter
end Ellecs
