import Verif.Spec.Columns
import Verif.Spec.Limits
/-!
# Specification: whole programs

`Prog` are programs that use one world: they make calls, loop over the rows and columns of queries, look entities up in queries, and choose what
to do next by what they have seen.  Panics are caught and handed to the program.  `Exec` runs such a program on the tables.
`Prog.wp` is a program logic that knows nothing about tables: it speaks about `AWorld`, the plain maps of
`Spec/Abstract.lean`.  C65 states that what is derived in this logic is true of the real execution.
-/
namespace Ellecs
open World

/-- What a look-up in a query shows: nothing, or a row. -/
abbrev Found := Option (List AWorld.Seen)

/-- A program that uses a world and returns an `α`. -/
inductive Prog (α : Type) : Type
  | done (x : α)
  /-- a call; the program goes on with the result or the panic -/
  | ask (q : Ask) (k : Except Fault Answer → Prog α)
  /-- `for row in query.iter()`: the body chooses the values to store by the rows seen so far, the latest one first -/
  | loop (ps : List Param) (body : List (List AWorld.Seen) → List (Option Bytes)) (k : Except Fault (List (List AWorld.Seen)) → Prog α)
  /-- the same with a dynamic query -/
  | loopDyn (fs : List Fetch) (body : List (List AWorld.Seen) → List (Option Bytes)) (k : Except Fault (List (List AWorld.Seen)) → Prog α)
  /-- `for columns in query.column_iter()`, walked with the strides `ns`: the body chooses what to store, as (row, column, value), by
  the tables seen so far, the latest one first -/
  | loopCols (fs : List Fetch) (ns : List Nat) (body : List (List (List AWorld.Seen)) → List (Nat × Nat × Bytes))
      (k : Except Fault (List (List (List AWorld.Seen))) → Prog α)
  /-- make a query, call `get` for each of the entities, store through what it returned -/
  | visit (ps : List Param) (es : List EcsId) (body : List Found → List (Option Bytes)) (k : Except Fault (List Found) → Prog α)

namespace Prog

/-- One program after the other. -/
def bind {α β : Type} : Prog α → (α → Prog β) → Prog β
  | .done x, f => f x
  | .ask q k, f => .ask q (fun r => (k r).bind f)
  | .loop ps b k, f => .loop ps b (fun r => (k r).bind f)
  | .loopDyn fs b k, f => .loopDyn fs b (fun r => (k r).bind f)
  | .loopCols fs ns b k, f => .loopCols fs ns b (fun r => (k r).bind f)
  | .visit ps es b k, f => .visit ps es b (fun r => (k r).bind f)

instance : Monad Prog where
  pure := .done
  bind := bind

end Prog

/-- The body of a loop that remembers all rows. -/
def Body.log (f : List (List AWorld.Seen) → List (Option Bytes)) : Body (List (List AWorld.Seen)) := fun h ss => (ss :: h, f (ss :: h))

namespace World

/-- A panic the program can catch.  The others end the program (the allocator gives up), never return (a deadlock), or
are no panics at all. -/
def Caught (f : Fault) : Prop := (∀ u, f ≠ .ub u) ∧ f ≠ .fuel ∧ f ≠ .deadlock ∧ ¬ OutOfMemory f

/-- `get` for one entity after the other; `h`: what was found so far. -/
inductive Visit (q : StaticQuery) (body : List Found → List (Option Bytes)) : List EcsId → World → List Found → World → Except Fault (List Found) → Prop
  | done {w : World} {h : List Found} : Visit q body [] w h w (.ok h)
  | miss {w w' : World} {h : List Found} {e : EcsId} {es : List EcsId} {r : Except Fault (List Found)} : q.get w e = .ok none →
      Visit q body es w (none :: h) w' r → Visit q body (e :: es) w h w' r
  | hit {w w1 w' : World} {h : List Found} {e : EcsId} {es : List EcsId} {items : List Item} {ss : List AWorld.Seen} {r : Except Fault (List Found)} :
      q.get w e = .ok (some items) → items.mapM w.readItem = .ok ss → w.storeAll (targets items (body (some ss :: h))) = .ok w1 →
      Visit q body es w1 (some ss :: h) w' r → Visit q body (e :: es) w h w' r
  | panic {w : World} {h : List Found} {e : EcsId} {es : List EcsId} {f : Fault} : q.get w e = .error f → Caught f →
      Visit q body (e :: es) w h w (.error f)

/-- Whether it is a panic. -/
def isPanic {α : Type} : Except Fault α → Bool
  | .ok _ => false
  | .error _ => true

/-- Started in `w`, the program returns `x` and leaves `w'`.  There is no case for programs that touch memory they may
not touch, do not terminate, or exhaust the memory. -/
inductive Exec {α : Type} : Prog α → World → α → World → Prop
  | done {x : α} {w : World} : Exec (.done x) w x w
  | ask {q : Ask} {k : Except Fault Answer → Prog α} {w w1 w' : World} {y : Answer} {x : α} : q.exec w = .ok y w1 → Exec (k (.ok y)) w1 x w' →
      Exec (.ask q k) w x w'
  | askPanic {q : Ask} {k : Except Fault Answer → Prog α} {w w1 w' : World} {f : Fault} {x : α} : q.exec w = .error f w1 → Caught f →
      Exec (k (.error f)) w1 x w' → Exec (.ask q k) w x w'
  | loop {ps : List Param} {body : List (List AWorld.Seen) → List (Option Bytes)} {k : Except Fault (List (List AWorld.Seen)) → Prog α}
      {w w1 w2 w3 w' : World} {q : StaticQuery} {it : StaticIter} {h : List (List AWorld.Seen)} {x : α} :
      query ps w = .ok q w1 → q.iter w1 = .ok it → ForEachStatic (Body.log body) w1 it [] w2 h → dropGuards false q.guards w2 = .ok () w3 →
      Exec (k (.ok h)) w3 x w' → Exec (.loop ps body k) w x w'
  | loopPanic {ps : List Param} {body : List (List AWorld.Seen) → List (Option Bytes)} {k : Except Fault (List (List AWorld.Seen)) → Prog α}
      {w w1 w' : World} {f : Fault} {x : α} : query ps w = .error f w1 → Caught f → Exec (k (.error f)) w1 x w' → Exec (.loop ps body k) w x w'
  | loopDyn {fs : List Fetch} {body : List (List AWorld.Seen) → List (Option Bytes)} {k : Except Fault (List (List AWorld.Seen)) → Prog α}
      {w w1 w2 w3 w' : World} {q : DynQuery} {it : DynIter} {h : List (List AWorld.Seen)} {x : α} :
      queryDynamic fs w = .ok q w1 → q.iter w1 = .ok it → ForEachDyn fs (Body.log body) w1 it [] w2 h → dropGuards false q.guards w2 = .ok () w3 →
      Exec (k (.ok h)) w3 x w' → Exec (.loopDyn fs body k) w x w'
  | loopDynPanic {fs : List Fetch} {body : List (List AWorld.Seen) → List (Option Bytes)} {k : Except Fault (List (List AWorld.Seen)) → Prog α}
      {w w1 w' : World} {f : Fault} {x : α} : queryDynamic fs w = .error f w1 → Caught f → Exec (k (.error f)) w1 x w' →
      Exec (.loopDyn fs body k) w x w'
  | loopCols {fs : List Fetch} {ns : List Nat} {body : List (List (List AWorld.Seen)) → List (Nat × Nat × Bytes)}
      {k : Except Fault (List (List (List AWorld.Seen))) → Prog α} {w w1 w2 w3 w' : World} {q : DynQuery} {it : ColumnIter} {h : List (List (List AWorld.Seen))} {x : α} :
      queryDynamic fs w = .ok q w1 → q.columnIter w1 = .ok it → ForEachColumn fs ns (ColBody.log body) w1 it [] w2 h → dropGuards false q.guards w2 = .ok () w3 →
      Exec (k (.ok h)) w3 x w' → Exec (.loopCols fs ns body k) w x w'
  | loopColsPanic {fs : List Fetch} {ns : List Nat} {body : List (List (List AWorld.Seen)) → List (Nat × Nat × Bytes)}
      {k : Except Fault (List (List (List AWorld.Seen))) → Prog α} {w w1 w' : World} {f : Fault} {x : α} : queryDynamic fs w = .error f w1 → Caught f →
      Exec (k (.error f)) w1 x w' → Exec (.loopCols fs ns body k) w x w'
  | visit {ps : List Param} {es : List EcsId} {body : List Found → List (Option Bytes)} {k : Except Fault (List Found) → Prog α}
      {w w1 w2 w3 w' : World} {q : StaticQuery} {r : Except Fault (List Found)} {x : α} :
      query ps w = .ok q w1 → Visit q body es w1 [] w2 r → dropGuards (isPanic r) q.guards w2 = .ok () w3 → Exec (k r) w3 x w' →
      Exec (.visit ps es body k) w x w'
  | visitPanic {ps : List Param} {es : List EcsId} {body : List Found → List (Option Bytes)} {k : Except Fault (List Found) → Prog α}
      {w w1 w' : World} {f : Fault} {x : α} : query ps w = .error f w1 → Caught f → Exec (k (.error f)) w1 x w' →
      Exec (.visit ps es body k) w x w'

/-- The number of tables a call may create. -/
def Call.tables : Call → Nat
  | .spawn _ acts => acts.length
  | .addComponent _ _ _ | .removeComponent _ _ => 2
  | .addDynamic _ _ | .addDynamicWithData _ _ _ | .removeDynamic _ _ | .register _ => 1
  | _ => 0

/-- The call that changes the world like the question does. -/
def Ask.asCall : Ask → Option Call
  | .call c => some c
  | .spawn kind acts => some (.spawn kind acts)
  | .despawn e => some (.despawn e)
  | .register t => some (.register t)
  | _ => none

end World

namespace AWorld

/-! ### what the caller must guarantee, in terms of the maps -/

/-- For one call on a builder: sizes are right; `build` is called once and no component was given twice (see `CallOk`). -/
def ActOk (a : AWorld) (b : Draft) : BAct → Prop
  | .with t v => v.length = t.size
  | .withDynamic _ => True
  | .withDynamicWithData c v => ∀ m, a.info c = some m → m.layout.size ≤ v.length
  | .build => a.info b.entity = none ∧ (b.vals.map Prod.fst).Nodup

/-- For all the calls of a chain that are reached. -/
def ActsOk (b : Draft) : List BAct → AWorld → Prop
  | [], _ => True
  | x :: xs, a => a.ActOk b x ∧
    match a.act b x with
    | (.ok b, a) => ActsOk b xs a
    | (.error _, _) => True

/-- For a chain that ends with `build` or not: sizes; the chain fits into memory. -/
structure ChainOk (s : Nat) (a : AWorld) (kind : SpawnKind) (xs : List BAct) : Prop where
  acts : ∀ e a', a.spawnId = (.ok e, a') → ActsOk ⟨e, metaOf kind, []⟩ xs a'
  bytes : 2 * (xs.map actBytes).sum < isizeMax
  small : (Call.spawn kind xs).Within s

/-- For a call. -/
def CallOk (s : Nat) (a : AWorld) : Call → Prop
  | .spawn kind xs => a.ChainOk s kind xs
  | .addComponent _ t v => v.length = t.size ∧ t.size ≤ s
  | .removeComponent _ t => t.size ≤ s
  | .register t => t.size ≤ s
  | .addDynamicWithData _ c src => ∀ m, a.info c = some m → m.layout.size ≤ src.length
  | .write _ c bs => ∀ m, a.info c = some m → bs.length = m.layout.size
  | _ => True

/-- For a question. -/
def AskOk (s : Nat) (a : AWorld) : Ask → Prop
  | .call c => a.CallOk s c
  | .spawn kind xs => a.ChainOk s kind xs
  | .register t => t.size ≤ s
  | .look _ c n => ∀ m, a.info c = some m → n = m.layout.size
  | _ => True

/-- No slot was recycled `2^32` times (see `NoFullSlot`). -/
def NoFull (a : AWorld) : Prop := ∀ p ∈ a.ents.generations, p.1 = false → p.2 ≠ BitVec.allOnes 32

/-- Every entity has one of these combinations of components. -/
def Shaped (S : List (List EcsId)) (a : AWorld) : Prop := ∀ e, a.info e ≠ none → ∃ l ∈ S, ∀ c, c ∈ l ↔ a.cell e c ≠ none

/-- What looking up the entities in a query finds and stores, one after the other. -/
def visit (ps : List Param) (body : List Found → List (Option Bytes)) : List EcsId → AWorld → List Found → Except Fault (List Found) × AWorld
  | [], a, h => (.ok h, a)
  | e :: es, a, h =>
    match a.isAlive e with
    | .error f => (.error f, a)
    | .ok _ =>
      match a.row ps e with
      | none => visit ps body es a (none :: h)
      | some ss => visit ps body es (a.storeAll e (a.cells ps (body (some ss :: h)))) (some ss :: h)

end AWorld

namespace Prog

/-- The values a visit stores have the sizes of the types. -/
def VisitTyped (ps : List Param) (body : List Found → List (Option Bytes)) : Prop :=
  ∀ (h : List Found) (i : Nat) (t : Ty) (bs : Bytes), ps[i]? = some (.mut t) → (body h)[i]? = some (some bs) → bs.length = t.size

/-- The program logic.  `S` are the combinations of components entities had so far.  If the program starts with maps `a`, it
meets the obligations of callers, returns, and `Q` holds of what it returns, of the maps it leaves, and of the combinations
of components there were.  Components have at most `s` bytes.  Loops need fewer than `2^32` tables (C30).  Nothing is assumed
about the order of the rows of a loop: the postcondition must hold for all orders.  A loop over columns is shown the entities in
groups with the same components; some groups may be empty. -/
def wp {α : Type} (s : Nat) : List (List EcsId) → Prog α → AWorld → (List (List EcsId) → α → AWorld → Prop) → Prop
  | S, .done x, a, Q => Q S x a
  | S, .ask q k, a, Q =>
    a.AskOk s q ∧ (a.ask q).1 ≠ .error .deadlock ∧ (a.ask q).2.NoFull ∧
      ∃ T, (a.ask q).2.Shaped (T ++ S) ∧ wp s (T ++ S) (k (a.ask q).1) (a.ask q).2 Q
  | S, .loop ps body k, a, Q =>
    match a.query ps false with
    | (.error f, a') => f ≠ .deadlock ∧ wp s S (k (.error f)) a' Q
    | (.ok _, _) => S.length < 2 ^ 32 ∧ ps ≠ [] ∧ (Body.log body).Typed ps ∧
      ∀ es : List EcsId, es.Nodup → (∀ e, e ∈ es ↔ (a.row ps e).isSome = true) →
        wp s S (k (.ok (AWorld.sweep (a.row ps) (a.cells ps) (Body.log body) es a []).2)) (AWorld.sweep (a.row ps) (a.cells ps) (Body.log body) es a []).1 Q
  | S, .loopDyn fs body k, a, Q =>
    match a.lockAll false fs false with
    | (.error f, a') => f ≠ .deadlock ∧ wp s S (k (.error f)) a' Q
    | (.ok _, _) => S.length < 2 ^ 32 ∧ fs ≠ [] ∧ (∀ f ∈ fs, ∀ c, f.Of c → a.info c ≠ none) ∧ (Body.log body).Sized a fs ∧
      ∀ es : List EcsId, es.Nodup → (∀ e, e ∈ es ↔ (a.rowDyn fs e).isSome = true) →
        wp s S (k (.ok (AWorld.sweep (a.rowDyn fs) (AWorld.cellsDyn fs) (Body.log body) es a []).2))
          (AWorld.sweep (a.rowDyn fs) (AWorld.cellsDyn fs) (Body.log body) es a []).1 Q
  | S, .loopCols fs ns body k, a, Q =>
    match a.lockAll false fs false with
    | (.error f, a') => f ≠ .deadlock ∧ wp s S (k (.error f)) a' Q
    | (.ok _, _) => S.length < 2 ^ 32 ∧ fs ≠ [] ∧ (∀ f ∈ fs, ∀ c, f.Of c → a.info c ≠ none) ∧ a.Strides fs ns ∧ (ColBody.log body).Sized a fs ∧
      ∀ ess : List (List EcsId), ess.flatten.Nodup → (∀ e, e ∈ ess.flatten ↔ (a.rowDyn fs e).isSome = true) → a.Grouped ess →
        wp s S (k (.ok (AWorld.sweepLines fs (a.rowDyn fs) (ColBody.log body) ess a []).2)) (AWorld.sweepLines fs (a.rowDyn fs) (ColBody.log body) ess a []).1 Q
  | S, .visit ps es body k, a, Q =>
    match a.query ps false with
    | (.error f, a') => f ≠ .deadlock ∧ wp s S (k (.error f)) a' Q
    | (.ok _, _) => VisitTyped ps body ∧
      match a.visit ps body es [] with
      | (.ok h, a') => wp s S (k (.ok h)) a' Q
      | (.error f, a') => wp s S (k (.error f)) (a'.query ps true).2 Q

end Prog
end Ellecs
