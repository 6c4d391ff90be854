import Verif.Spec.Query
import Verif.Spec.History
/-!
# Specification: queries that are alive at the same time

Any number of queries of one world can be created, used and dropped in any order, as long as nobody changes the world.
The steps below are single acquisitions and single releases of locks, so runs also cover what several threads
would do (although `World` is not `Sync`, and on one thread a creation that has to wait waits for ever).
-/
namespace Ellecs

/-- A query between the start of its creation and the end of its drop. -/
structure LiveQuery where
  /-- what it still has to get a guard for -/
  todo : List Fetch
  /-- what it has got a guard for, and the guard -/
  held : List (Fetch × Guard)
  /-- whether it is being dropped, and if so whether this happens while panicking -/
  closing : Option Bool

/-- One step of one of the queries. `ls` is the state of the locks, `qs` are the queries. -/
inductive LockStep (w : World) : List RwLock → List LiveQuery → List RwLock → List LiveQuery → Prop
  /-- somebody starts to create a query -/
  | create {ls : List RwLock} {qs : List LiveQuery} (fs : List Fetch) : LockStep w ls qs ls (qs ++ [⟨fs, [], none⟩])
  /-- a query gets its next guard (static_query.rs:64-68, dyn_query.rs:165-181) -/
  | acquire {ls ls' : List RwLock} {pre post : List LiveQuery} {f : Fetch} {todo : List Fetch} {held : List (Fetch × Guard)} {g : Guard}
      (h : f.acquireStatic w ls = .ok (g, ls') ∨ ∃ inc, f.acquireDyn w ls = .ok (g, ls', inc)) :
      LockStep w ls (pre ++ ⟨f :: todo, held, none⟩ :: post) ls' (pre ++ ⟨todo, held ++ [(f, g)], none⟩ :: post)
  /-- a query cannot get its next guard and panics -/
  | fail {ls : List RwLock} {pre post : List LiveQuery} {f : Fetch} {todo : List Fetch} {held : List (Fetch × Guard)} {e : Fault}
      (h : f.acquireStatic w ls = .error e ∨ f.acquireDyn w ls = .error e) (he : e ≠ .deadlock) :
      LockStep w ls (pre ++ ⟨f :: todo, held, none⟩ :: post) ls (pre ++ ⟨f :: todo, held, some true⟩ :: post)
  /-- the drop of a complete query begins, possibly because its owner panics -/
  | close {ls : List RwLock} {pre post : List LiveQuery} {held : List (Fetch × Guard)} (panicking : Bool) :
      LockStep w ls (pre ++ ⟨[], held, none⟩ :: post) ls (pre ++ ⟨[], held, some panicking⟩ :: post)
  /-- one guard is dropped -/
  | release {ls : List RwLock} {pre post : List LiveQuery} {todo : List Fetch} {f : Fetch} {g : Guard} {held : List (Fetch × Guard)} {p : Bool} :
      LockStep w ls (pre ++ ⟨todo, (f, g) :: held, some p⟩ :: post) (g.release p ls) (pre ++ ⟨todo, held, some p⟩ :: post)
  /-- the query is gone -/
  | gone {ls : List RwLock} {pre post : List LiveQuery} {todo : List Fetch} {p : Bool} :
      LockStep w ls (pre ++ ⟨todo, [], some p⟩ :: post) ls (pre ++ post)

/-- Any number of steps. -/
inductive LockSteps (w : World) : List RwLock → List LiveQuery → List RwLock → List LiveQuery → Prop
  | refl (ls : List RwLock) (qs : List LiveQuery) : LockSteps w ls qs ls qs
  | step {ls ls' ls2 : List RwLock} {qs qs' qs2 : List LiveQuery} : LockSteps w ls qs ls' qs' → LockStep w ls' qs' ls2 qs2 → LockSteps w ls qs ls2 qs2

/-- The locks are `ls` and the queries `qs` are alive, some time after the world was in state `w` without queries. -/
def LockRun (w : World) (ls : List RwLock) (qs : List LiveQuery) : Prop := LockSteps w w.locks [] ls qs

/-- All accesses of all live queries, query by query and position by position. -/
def accesses (qs : List LiveQuery) : List Fetch := qs.flatMap (fun q => q.held.map Prod.fst)

/-- Two accesses to the same component, at least one of them mutable. -/
def Clash (f f' : Fetch) : Prop := ∃ c, f.Of c ∧ f'.Of c ∧ (f = .mut c ∨ f' = .mut c)

/-- Two positions of a list clash. -/
def SelfClash (fs : List Fetch) : Prop := ∃ (i j : Nat) (f f' : Fetch), i ≠ j ∧ fs[i]? = some f ∧ fs[j]? = some f' ∧ Clash f f'

namespace World

/-- The lock of `c` is poisoned. -/
def Poisoned (w : World) (c : EcsId) : Prop := ∃ (i : Nat) (l : RwLock), w.lockLookup c = some i ∧ w.locks[i]? = some l ∧ l.poisoned = true

/-- A call makes a query with mutable access to the component `x`. -/
def Call.Mutates (w : World) : Call → EcsId → Prop
  | .query ps _, x => ∃ t, .mut t ∈ ps ∧ w.typeMap t = some x
  | .queryDynamic fs _, x => .mut x ∈ fs
  | _, _ => False

/-- A call makes a query with access to the component `x`. -/
def Call.Asks (w : World) : Call → EcsId → Prop
  | .query ps _, x => ∃ p ∈ ps, ∃ t, p.Of t ∧ w.typeMap t = some x
  | .queryDynamic fs _, x => ∃ f ∈ fs, f.Of x
  | _, _ => False

/-- The owner of the query panics while it is alive. -/
def Call.Panics : Call → Prop
  | .query _ p | .queryDynamic _ p => p = true
  | _ => False

/-- All types a call asks for are known (else a static query has nothing to iterate and takes no locks at all). -/
def Call.Known (w : World) : Call → Prop
  | .query ps _ => ∀ p ∈ ps, ∀ t, p.Of t → w.typeMap t ≠ none
  | _ => True

/-- Nobody holds a lock. -/
def Unlocked (w : World) : Prop := ∀ l ∈ w.locks, l.readers = 0 ∧ l.writer = false

end World
end Ellecs
