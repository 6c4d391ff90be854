import Verif.Model.Builder
/-!
# `static_query.rs` and `dyn_query.rs`
-/
namespace Ellecs
open World (Col Ptr)

/-- `QueryParam` implementors (static_query.rs:235-299): `EcsIds`, `&'static mut T`, `&'static T`. -/
inductive Param
  | ids
  | mut (t : Ty)
  | ref (t : Ty)
  deriving DecidableEq, Repr

/-- `FetchType` (dyn_query.rs:111-115). -/
inductive Fetch
  | ecsId
  | mut (id : EcsId)
  | immut (id : EcsId)
  deriving DecidableEq, Repr

/-- `FetchType::get_id` (dyn_query.rs:118-123). -/
def Fetch.getId : Fetch → Option EcsId
  | .mut id => some id
  | .immut id => some id
  | .ecsId => none

/-- `EitherGuard` (lib.rs:49-53): which lock is held and how. -/
inductive Guard
  | none
  | read (lock : Nat)
  | write (lock : Nat)
  deriving DecidableEq, Repr

/-- `lock.read()`: would block for ever while this thread holds the write guard (`deadlock`); with a poisoned lock
`.unwrap()` panics, and the guard inside the error is released again. Used in static_query.rs:66, dyn_query.rs:175. -/
def RwLock.read (l : RwLock) : Except Fault RwLock :=
  if l.writer then .error .deadlock
  else if l.poisoned then .error .poisoned
  else .ok { l with readers := l.readers + 1 }

/-- `lock.write()`, see `RwLock.read`. Used in static_query.rs:65, dyn_query.rs:174. -/
def RwLock.write (l : RwLock) : Except Fault RwLock :=
  if l.writer ∨ l.readers > 0 then .error .deadlock
  else if l.poisoned then .error .poisoned
  else .ok { l with writer := true }

/-- Dropping a guard; a write guard dropped while panicking poisons its lock. `EitherGuard` is lib.rs:49-53. -/
def Guard.release (panicking : Bool) (ls : List RwLock) : Guard → List RwLock
  | .none => ls
  | .read i =>
    match ls[i]? with
    | Option.none => ls
    | some l => ls.set i { l with readers := l.readers - 1 }
  | .write i =>
    match ls[i]? with
    | Option.none => ls
    | some l => ls.set i { l with writer := false, poisoned := l.poisoned || panicking }

/-- Dropping a list of guards. The arrays of static_query.rs:8, dyn_query.rs:151. -/
def releaseAll (panicking : Bool) (ls : List RwLock) (gs : List Guard) : List RwLock :=
  gs.foldl (fun ls g => g.release panicking ls) ls

/-- `world.locks[i].read().unwrap()` / `.write().unwrap()` (static_query.rs:65-66, dyn_query.rs:172-175). -/
def acquireAt (ls : List RwLock) (write : Bool) (i : Nat) : Except Fault (Guard × List RwLock) :=
  match ls[i]? with
  | none => .error .indexOob
  | some l =>
    match (if write then l.write else l.read) with
    | .error f => .error f
    | .ok l' => .ok (if write then .write i else .read i, ls.set i l')

/-- The guard of one fetch of a static query (static_query.rs:64-68): `lock_lookup[id]` panics on a missing key. -/
def Fetch.acquireStatic (w : World) (ls : List RwLock) : Fetch → Except Fault (Guard × List RwLock)
  | .ecsId => .ok (.none, ls)
  | .mut id =>
    match w.lockLookup id with
    | none => .error .indexOob
    | some i => acquireAt ls true i
  | .immut id =>
    match w.lockLookup id with
    | none => .error .indexOob
    | some i => acquireAt ls false i

/-- The array of guards is filled left to right; if one panics the previous ones are dropped while panicking
(static_query.rs:61-75). -/
def acquireAllStatic (w : World) : (done : List Guard) → List RwLock → List Fetch →
    Except (Fault × List RwLock) (List Guard × List RwLock)
  | done, ls, [] => .ok (done, ls)
  | done, ls, f :: fs =>
    match f.acquireStatic w ls with
    | .error e => .error (e, releaseAll true ls done)
    | .ok (g, ls') => acquireAllStatic w (done ++ [g]) ls' fs

/-- `StaticQuery` (static_query.rs:6-11); `params` is the type parameter `Q`. -/
structure StaticQuery where
  params : List Param
  guards : List Guard
  fetches : Option (List Fetch)

/-- `QueryParam::fetch_type` (static_query.rs:238-241, 260-263, 284-286). -/
def Param.fetchType (w : World) : Param → Option Fetch
  | .ids => some .ecsId
  | .mut t =>
    match w.typeMap t with
    | none => none
    | some id => some (.mut id)
  | .ref t =>
    match w.typeMap t with
    | none => none
    | some id => some (.immut id)

/-- All fetches, `None` as soon as one is missing (static_query.rs:55-59). -/
def allFetches (w : World) : List Param → Option (List Fetch)
  | [] => some []
  | p :: ps =>
    match p.fetchType w with
    | none => none
    | some f =>
      match allFetches w ps with
      | none => none
      | some fs => some (f :: fs)

/-- `StaticQuery::new` (static_query.rs:54-84), i.e. `World::query` (world.rs:367-369). -/
def World.query (ps : List Param) : M StaticQuery := fun w =>
  match allFetches w ps with
  | none => .ok ⟨ps, ps.map (fun _ => .none), none⟩ w
  | some fs =>
    match acquireAllStatic w [] w.locks fs with
    | .error (f, ls) => .error f { w with locks := ls }
    | .ok (gs, ls) => .ok ⟨ps, gs, some fs⟩ { w with locks := ls }

/-- Dropping a query drops its guards; `panicking` when this happens while unwinding (static_query.rs:8,
dyn_query.rs:151). -/
def dropGuards (panicking : Bool) (gs : List Guard) : M Unit := fun w =>
  .ok () { w with locks := releaseAll panicking w.locks gs }

/-- The size of the block behind a column, in bytes. For components the capacity of the column
(untyped_vec/src/lib.rs:34), for ids that of `entities` (world.rs:67). -/
def World.blockLen (w : World) : Col → Option Nat
  | .null => none
  | .entities k =>
    match w.archetypes[k]? with
    | none => none
    | some a => some (8 * a.entities.length)
  | .storage k j =>
    match w.archetypes[k]? with
    | none => none
    | some a =>
      match a.storages[j]? with
      | none => none
      | some s => some s.2.mem.length

/-- Pointer arithmetic `ptr.add(n)` in bytes: must stay inside the block (or one past its end).  Adding zero to a
dangling or null pointer is allowed. Used in static_query.rs:250, 272, 293, dyn_query.rs:46. -/
def World.ptrAdd (w : World) (p : Ptr) (n : Nat) : Except Fault Ptr :=
  if n = 0 then .ok p
  else
    match w.blockLen p.col with
    | none => .error (.ub .ptrOob)
    | some l => if p.off + n ≤ l then .ok { p with off := p.off + n } else .error (.ub .ptrOob)

/-- `size_of` of what a static parameter points to. The stride of `add` in static_query.rs:250, 272, 293. -/
def Param.size : Param → Nat
  | .ids => 8
  | .mut t => t.size
  | .ref t => t.size

/-- `QueryParam::create_ptr` (static_query.rs:243-247, 265-269, 288-290) on archetype number `k`. -/
def Param.createPtr (k : Nat) (a : Archetype) (p : Param) (f : Fetch) : Except Fault (Option Ptr) :=
  match p with
  | .ids => .ok (some ⟨.entities k, 0⟩)
  | .mut _ | .ref _ =>
    match f.getId with
    | none => .error .unwrapNone
    | some id =>
      match a.compLookup id with
      | none => .ok none
      | some j => if j < a.storages.length then .ok (some ⟨.storage k j, 0⟩) else .error .indexOob

/-- What a static query yields for one parameter: an `EcsId`, or a reference to a value of type `t`.
`QueryParam::Returns` (static_query.rs:236, 258, 282). -/
inductive Item
  | id (e : EcsId)
  | mut (t : Ty) (p : Ptr)
  | ref (t : Ty) (p : Ptr)
  deriving DecidableEq, Repr

/-- A reference to a `T` must point to an initialised element of a column that holds `T`s.  `k j` is the column. The
references are made in static_query.rs:253-255, 275-277. -/
def World.checkRef (w : World) (t : Ty) (p : Ptr) : Except Fault Unit :=
  match p.col with
  | .null => .error (.ub .nullDeref)
  | .entities _ => .error (.ub .typeConfusion)
  | .storage k j =>
    match w.archetypes[k]? with
    | none => .error (.ub .readOob)
    | some a =>
      match a.storages[j]? with
      | none => .error (.ub .readOob)
      | some s =>
        if s.2.info ≠ ⟨t.layout, some (.generic t)⟩ then .error (.ub .typeConfusion)
        else if t.size = 0 then
          if 0 < s.2.len then .ok () else .error (.ub .readOob)
        else if p.off % t.size = 0 ∧ p.off + t.size ≤ s.2.len then .ok ()
        else .error (.ub .readOob)

/-- `QueryParam::cast_ptr` (static_query.rs:253-255, 275-277, 296-298). -/
def Param.castPtr (w : World) (p : Ptr) : Param → Except Fault Item
  | .ids =>
    match p.col with
    | .entities k =>
      match w.archetypes[k]? with
      | none => .error (.ub .readOob)
      | some a =>
        if p.off % 8 = 0 then
          match a.entities[p.off / 8]? with
          | none => .error (.ub .readOob)
          | some e => .ok (.id e)
        else .error (.ub .readOob)
    | .null => .error (.ub .nullDeref)
    | .storage _ _ => .error (.ub .typeConfusion)
  | .mut t =>
    match w.checkRef t p with
    | .error f => .error f
    | .ok () => .ok (.mut t p)
  | .ref t =>
    match w.checkRef t p with
    | .error f => .error f
    | .ok () => .ok (.ref t p)

/-- `[$($T::create_ptr(archetype, $T)?,)*]` (static_query.rs:97, 163-168). -/
def createPtrs (k : Nat) (a : Archetype) : List Param → List Fetch → Except Fault (Option (List Ptr))
  | p :: ps, f :: fs =>
    match p.createPtr k a f with
    | .error e => .error e
    | .ok none => .ok none
    | .ok (some ptr) =>
      match createPtrs k a ps fs with
      | .error e => .error e
      | .ok none => .ok none
      | .ok (some ptrs) => .ok (some (ptr :: ptrs))
  | _, _ => .ok (some [])

/-- `$T::offset_ptr(&mut $T, n)` for every parameter (static_query.rs:98-100, 203-207). -/
def offsetPtrs (w : World) (n : Nat) : List Param → List Ptr → Except Fault (List Ptr)
  | p :: ps, x :: xs =>
    match w.ptrAdd x (n * p.size) with
    | .error e => .error e
    | .ok x' =>
      match offsetPtrs w n ps xs with
      | .error e => .error e
      | .ok xs' => .ok (x' :: xs')
  | _, _ => .ok []

/-- `$T::cast_ptr($T)` for every parameter (static_query.rs:101, 154). -/
def castPtrs (w : World) : List Param → List Ptr → Except Fault (List Item)
  | p :: ps, x :: xs =>
    match p.castPtr w x with
    | .error e => .error e
    | .ok i =>
      match castPtrs w ps xs with
      | .error e => .error e
      | .ok is => .ok (i :: is)
  | _, _ => .ok []

namespace StaticQuery

/-- `StaticQuery::get` (static_query.rs:87-102). -/
def get (q : StaticQuery) (w : World) (entity : EcsId) : Except Fault (Option (List Item)) :=
  match w.isAlive entity with
  | .error f => .error f
  | .ok false => .ok none
  | .ok true =>
    match w.getEntityMeta entity with
    | .error f => .error f
    | .ok none => .ok none
    | .ok (some m) =>
      match w.archetypes[m.inst.archetype]? with
      | none => .error .indexOob
      | some a =>
        if m.inst.index < a.entities.length then
          match q.fetches with
          | none => .ok none
          | some fs =>
            match createPtrs m.inst.archetype a q.params fs with
            | .error f => .error f
            | .ok none => .ok none
            | .ok (some ptrs) =>
              match offsetPtrs w m.inst.index q.params ptrs with
              | .error f => .error f
              | .ok ptrs =>
                match castPtrs w q.params ptrs with
                | .error f => .error f
                | .ok items => .ok (some items)
        else .error .getAssert

end StaticQuery

/-- The iterators and `bitlength` of a query whose fetches are all known (static_query.rs:109-122; the same code in
dyn_query.rs:221-240, 280-299).  `as u32` truncates. -/
def queryIters (w : World) : List Fetch → Nat → Except Fault (List WordIter × Nat)
  | [], bl => .ok ([], bl)
  | f :: fs, bl =>
    match f.getId with
    | none =>
      match queryIters w fs bl with
      | .error e => .error e
      | .ok (its, bl) => .ok (⟨w.entBits.data, fun x => x⟩ :: its, bl)
    | some id =>
      match Bitsets.getBitvec w.bitset id with
      | none => .error .unwrapNone
      | some bv =>
        match queryIters w fs (min bl (bv.len % 2 ^ 32)) with
        | .error e => .error e
        | .ok (its, bl) => .ok (⟨bv.data, fun x => x⟩ :: its, bl)

/-- `ArchetypeIter::next` (world.rs:23-25): the index of the archetype and the archetype. -/
def archNext (w : World) (it : BitsetIter) : Except Fault (Option (Nat × Archetype) × BitsetIter) :=
  match it.next with
  | (none, it') => .ok (none, it')
  | (some k, it') =>
    match w.archetypes[k]? with
    | none => .error .indexOob
    | some a => .ok (some (k, a), it')

/-- `StaticQueryIter` (static_query.rs:13-17) with its `IntraArchetypeIter` (19-23). -/
structure StaticIter where
  params : List Param
  fetches : Option (List Fetch)
  archs : BitsetIter
  remaining : Nat
  ptrs : List Ptr

/-- `StaticQuery::iter` (static_query.rs:105-141). -/
def StaticQuery.iter (q : StaticQuery) (w : World) : Except Fault StaticIter :=
  match q.fetches with
  | some fs =>
    match queryIters w fs (w.entBits.len % 2 ^ 32) with
    | .error f => .error f
    | .ok (its, bl) =>
      .ok ⟨q.params, q.fetches, BitsetIter.new its bl, 0, q.params.map (fun _ => ⟨.null, 0⟩)⟩
  | none =>
    .ok ⟨q.params, q.fetches,
      BitsetIter.new (q.params.map (fun _ => ⟨w.entBits.data, fun x => x⟩)) 0, 0,
      q.params.map (fun _ => ⟨.null, 0⟩)⟩

namespace StaticIter

/-- The loop of `StaticQueryIter::next` (static_query.rs:149-178), with fuel; the intra iterator is 195-210. -/
def loop (w : World) : Nat → StaticIter → Except Fault (Option (List Item) × StaticIter)
  | 0, _ => .error .fuel
  | fuel + 1, s =>
    if s.remaining ≠ 0 then
      match offsetPtrs w 1 s.params s.ptrs with
      | .error f => .error f
      | .ok ptrs' =>
        match castPtrs w s.params s.ptrs with
        | .error f => .error f
        | .ok items => .ok (some items, { s with remaining := s.remaining - 1, ptrs := ptrs' })
    else
      match archNext w s.archs with
      | .error f => .error f
      | .ok (none, it) => .ok (none, { s with archs := it })
      | .ok (some (k, a), it) =>
        match s.fetches with
        | none => .error .unwrapNone
        | some fs =>
          match createPtrs k a s.params fs with
          | .error f => .error f
          | .ok none => .error .unwrapNone
          | .ok (some ptrs) =>
            loop w fuel { s with archs := it, remaining := a.entities.length, ptrs := ptrs }

/-- `StaticQueryIter::next` (static_query.rs:149-178). -/
def next (w : World) (s : StaticIter) : Except Fault (Option (List Item) × StaticIter) :=
  loop w (World.yieldFuel s.archs + 1) s

end StaticIter

/-- `DynQuery` (dyn_query.rs:149-156). -/
structure DynQuery where
  guards : List Guard
  fetches : List Fetch
  incomplete : Bool

/-- The guard of one fetch of a dynamic query (dyn_query.rs:165-181); the boolean is `incomplete = true`. -/
def Fetch.acquireDyn (w : World) (ls : List RwLock) : Fetch → Except Fault (Guard × List RwLock × Bool)
  | .ecsId => .ok (.none, ls, false)
  | .mut id =>
    match w.lockLookup id with
    | none => .ok (.none, ls, true)
    | some i =>
      match acquireAt ls true i with
      | .error f => .error f
      | .ok (g, ls) => .ok (g, ls, false)
  | .immut id =>
    match w.lockLookup id with
    | none => .ok (.none, ls, true)
    | some i =>
      match acquireAt ls false i with
      | .error f => .error f
      | .ok (g, ls) => .ok (g, ls, false)

/-- The loop over the fetches (dyn_query.rs:165-181). -/
def acquireAllDyn (w : World) : (done : List Guard) → Bool → List RwLock → List Fetch →
    Except (Fault × List RwLock) (List Guard × Bool × List RwLock)
  | done, inc, ls, [] => .ok (done, inc, ls)
  | done, inc, ls, f :: fs =>
    match f.acquireDyn w ls with
    | .error e => .error (e, releaseAll true ls done)
    | .ok (g, ls', i) => acquireAllDyn w (done ++ [g]) (inc || i) ls' fs

/-- `DynQuery::new` (dyn_query.rs:159-189), i.e. `World::query_dynamic` (world.rs:363-365). -/
def World.queryDynamic (fs : List Fetch) : M DynQuery := fun w =>
  match acquireAllDyn w [] false w.locks fs with
  | .error (f, ls) => .error f { w with locks := ls }
  | .ok (gs, inc, ls) => .ok ⟨gs, fs, inc⟩ { w with locks := ls }

/-- `make_create_ptr_fn` (dyn_query.rs:125-146): the pointer and the stride. -/
def Fetch.createPtr (k : Nat) (a : Archetype) (f : Fetch) : Except Fault (Ptr × Nat) :=
  match f with
  | .ecsId => .ok (⟨.entities k, 0⟩, 8)
  | .mut id | .immut id =>
    match a.compLookup id with
    | none => .error .indexOob
    | some j =>
      match a.storages[j]? with
      | none => .error .indexOob
      | some s => .ok (⟨.storage k j, 0⟩, s.2.size)

/-- The pointers and strides of all fetches (dyn_query.rs:70-73, 96-100). -/
def dynPtrs (k : Nat) (a : Archetype) : List Fetch → Except Fault (List (Ptr × Nat))
  | [] => .ok []
  | f :: fs =>
    match f.createPtr k a with
    | .error e => .error e
    | .ok x =>
      match dynPtrs k a fs with
      | .error e => .error e
      | .ok xs => .ok (x :: xs)

/-- `ptr.add(offset)` for every pointer (dyn_query.rs:45-47). -/
def advancePtrs (w : World) : List (Ptr × Nat) → Except Fault (List (Ptr × Nat))
  | [] => .ok []
  | (p, n) :: rest =>
    match w.ptrAdd p n with
    | .error e => .error e
    | .ok p' =>
      match advancePtrs w rest with
      | .error e => .error e
      | .ok rest' => .ok ((p', n) :: rest')

/-- The archetype iterator of `iter` and `column_iter` (dyn_query.rs:206-241, 265-300). -/
def DynQuery.archIter (q : DynQuery) (w : World) : Except Fault BitsetIter :=
  if q.incomplete then
    .ok (BitsetIter.new (q.fetches.map (fun _ => ⟨w.entBits.data, fun x => ~~~x⟩)) 0)
  else
    match queryIters w q.fetches (w.entBits.len % 2 ^ 32) with
    | .error f => .error f
    | .ok (its, bl) => .ok (BitsetIter.new its bl)

/-- `DynQueryIter` (dyn_query.rs:78-83) with its `IntraArchetypeIter` (5-12). -/
structure DynIter where
  fetches : List Fetch
  archs : BitsetIter
  remaining : Nat
  ptrs : List (Ptr × Nat)

/-- `DynQuery::iter` (dyn_query.rs:250-308). -/
def DynQuery.iter (q : DynQuery) (w : World) : Except Fault DynIter :=
  match q.archIter w with
  | .error f => .error f
  | .ok it => .ok ⟨q.fetches, it, 0, q.fetches.map (fun _ => (⟨.null, 0⟩, 0))⟩

namespace DynIter

/-- The loop of `DynQueryIter::next` (dyn_query.rs:88-108), with fuel; the intra iterator is 38-51. -/
def loop (w : World) : Nat → DynIter → Except Fault (Option (List Ptr) × DynIter)
  | 0, _ => .error .fuel
  | fuel + 1, s =>
    if s.remaining ≠ 0 then
      match advancePtrs w s.ptrs with
      | .error f => .error f
      | .ok ptrs' => .ok (some (s.ptrs.map Prod.fst), { s with remaining := s.remaining - 1, ptrs := ptrs' })
    else
      match archNext w s.archs with
      | .error f => .error f
      | .ok (none, it) => .ok (none, { s with archs := it })
      | .ok (some (k, a), it) =>
        match dynPtrs k a s.fetches with
        | .error f => .error f
        | .ok ptrs => loop w fuel { s with archs := it, remaining := a.entities.length, ptrs := ptrs }

/-- `DynQueryIter::next` (dyn_query.rs:88-108). -/
def next (w : World) (s : DynIter) : Except Fault (Option (List Ptr) × DynIter) :=
  loop w (World.yieldFuel s.archs + 1) s

end DynIter

/-- `DynQueryColumnIter` (dyn_query.rs:58-62). -/
structure ColumnIter where
  fetches : List Fetch
  archs : BitsetIter

/-- `DynQuery::column_iter` (dyn_query.rs:191-248). -/
def DynQuery.columnIter (q : DynQuery) (w : World) : Except Fault ColumnIter :=
  match q.archIter w with
  | .error f => .error f
  | .ok it => .ok ⟨q.fetches, it⟩

/-- `DynQueryColumnIter::next` (dyn_query.rs:67-75): the start of each column and the common length (`PtrLen`). -/
def ColumnIter.next (w : World) (s : ColumnIter) : Except Fault (Option (List (Ptr × Nat)) × ColumnIter) :=
  match archNext w s.archs with
  | .error f => .error f
  | .ok (none, it) => .ok (none, { s with archs := it })
  | .ok (some (k, a), it) =>
    match dynPtrs k a s.fetches with
    | .error f => .error f
    | .ok ptrs => .ok (some (ptrs.map (fun p => (p.1, a.entities.length))), { s with archs := it })

/-- Reading `n` bytes through a pointer into a component column: they must be in the initialised part of the block.
The pointers are those of dyn_query.rs:35-109 and world.rs: get_component_mut_dynamic. -/
def World.readPtr (w : World) (p : Ptr) (n : Nat) : Except Fault Bytes :=
  match p.col with
  | .storage k j =>
    match w.archetypes[k]? with
    | none => .error (.ub .readOob)
    | some a =>
      match a.storages[j]? with
      | none => .error (.ub .readOob)
      | some s =>
        if n = 0 then .ok []
        else if p.off + n ≤ s.2.len ∧ p.off + n ≤ s.2.mem.length then .ok (readAt s.2.mem p.off n) else .error (.ub .readOob)
  | _ => .error (.ub .readOob)

/-- Writing bytes through a pointer into a component column. See `readPtr` (dyn_query.rs:35-109). -/
def World.writePtr (w : World) (p : Ptr) (bs : Bytes) : Except Fault World :=
  match p.col with
  | .storage k j =>
    match w.archetypes[k]? with
    | none => .error (.ub .writeOob)
    | some a =>
      match a.storages[j]? with
      | none => .error (.ub .writeOob)
      | some s =>
        if bs.length = 0 then .ok w
        else if p.off + bs.length ≤ s.2.len ∧ p.off + bs.length ≤ s.2.mem.length then
          let a' := { a with storages := a.storages.set j (s.1, { s.2 with mem := writeAt s.2.mem p.off bs }) }
          .ok { w with archetypes := w.archetypes.set k a' }
        else .error (.ub .writeOob)
  | _ => .error (.ub .writeOob)

end Ellecs
