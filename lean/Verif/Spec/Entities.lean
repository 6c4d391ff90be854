import Verif.Model.Entities
/-!
# Specification vocabulary for the id allocator (C01-C05)

A history is the list of calls made on one allocator with what each call returned.  The specification functions
look at the history only, never at the state of the allocator.
-/
namespace Ellecs.Alloc

/-- A call on the allocator. -/
inductive Op
  | spawn
  | despawn (e : EcsId)
  deriving DecidableEq, Repr

/-- What a call returned. -/
inductive Out
  | spawned (e : EcsId)
  | ret (b : Bool)
  | panic (f : Fault)
  deriving DecidableEq, Repr

/-- Make one call; after a (caught) panic the allocator is used in the state the panic left. -/
def step (s : Entities) : Op → Out × Entities
  | .spawn =>
    match s.spawn with
    | (.ok e, s') => (.spawned e, s')
    | (.error f, s') => (.panic f, s')
  | .despawn e =>
    match s.despawn e with
    | .ok (b, s') => (.ret b, s')
    | .error f => (.panic f, s)

/-- Every history of a new allocator, with the state it leads to. -/
inductive Hist : List (Op × Out) → Entities → Prop
  | nil : Hist [] Entities.new
  | snoc {h s} (op : Op) : Hist h s → Hist (h ++ [(op, (step s op).1)]) (step s op).2

/-- The id a call handed out. -/
def idOf : Op × Out → Option EcsId
  | (_, .spawned e) => some e
  | _ => none

/-- The ids handed out, in order. -/
def handedOut (h : List (Op × Out)) : List EcsId := h.filterMap idOf

/-- Effect of one call on the liveness of `e`, as a user understands it. -/
def liveUpd (e : EcsId) (a : Bool) : Op × Out → Bool
  | (_, .spawned e') => if e' = e then true else a
  | (.despawn e', .ret _) => if e' = e then false else a
  | _ => a

/-- `e` was handed out, and not despawned since (it was last). -/
def liveSpec (h : List (Op × Out)) (e : EcsId) : Bool := h.foldl (liveUpd e) false

/-- How often slot `i` has been handed out. -/
def uses (h : List (Op × Out)) (i : BitVec 32) : Nat := ((handedOut h).filter (fun e => e.idx = i)).length

/-- No slot was recycled `2^32` times (it was handed out at most `2^32` times). -/
def NoWrap (h : List (Op × Out)) : Prop := ∀ i, uses h i ≤ 2 ^ 32

/-- Slots freed and not handed out again, most recent first. -/
def freeSpec (h : List (Op × Out)) : List (BitVec 32) :=
  h.foldl (fun free ev =>
    match ev with
    | (_, .spawned e) => free.filter (fun i => i ≠ e.idx)
    | (.despawn e, .ret true) => e.idx :: free
    | _ => free) []

end Ellecs.Alloc
