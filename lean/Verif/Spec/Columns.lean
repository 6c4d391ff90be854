import Verif.Spec.System
import Verif.Spec.Order
/-!
# Specification: loops over columns

`for columns in query.column_iter() { .. }`: the body gets the starts of the columns of a table and their length
(`PtrLen`, dyn_query.rs:54-56) and walks them itself, with the size of the elements as stride.  (The fields of
`PtrLen` are private, but it is `repr(C)`: outside of the module a body has to reinterpret it.)  `ForEachColumn` runs such
a loop on the tables, pointer by pointer; `AWorld.sweepLines` says what it is meant to do.
-/
namespace Ellecs

/-- What a loop body does with the columns of a table, given what it remembers from earlier tables (`τ`): shown all rows
of the columns, it chooses what to store, as (row, column, value), in the order of storing. -/
abbrev ColBody (τ : Type) := τ → List (List AWorld.Seen) → τ × List (Nat × Nat × Bytes)

namespace World

/-- The strides with which the columns of a query are to be walked: the sizes of the elements.  (If nothing is known of a
component there is no column for it.) -/
def Strides (w : World) : List Fetch → List Nat → Prop :=
  Pairs (fun f n => (f = .ecsId → n = 8) ∧ ∀ c m, f.Of c → w.InfoIs c m → n = m.layout.size)

/-- The length of the columns. -/
def height : List (Ptr × Nat) → Nat
  | [] => 0
  | x :: _ => x.2

/-- The pointers to row `i` of columns. -/
def rowAt (ns : List Nat) (cols : List (Ptr × Nat)) (i : Nat) : List Ptr := List.zipWith (fun x n => ⟨x.1.col, x.1.off + i * n⟩) cols ns

/-- The pointers to the rows of columns. -/
def rowsAt (ns : List Nat) (cols : List (Ptr × Nat)) : List (List Ptr) := (List.range (height cols)).map (rowAt ns cols)

/-- Where the body stores: through the columns of the mutable fetches, inside the columns. -/
def targetsCol (fs : List Fetch) (ns : List Nat) (cols : List (Ptr × Nat)) : List (Nat × Nat × Bytes) → List (Ptr × Bytes)
  | [] => []
  | (i, j, bs) :: out =>
    match fs[j]?, (rowsAt ns cols)[i]?.bind (·[j]?) with
    | some (.mut _), some p => (p, bs) :: targetsCol fs ns cols out
    | _, _ => targetsCol fs ns cols out

/-- The loop: call `next`, look at all rows of the columns, run the body, store, until `next` returns `None`. -/
inductive ForEachColumn {τ : Type} (fs : List Fetch) (ns : List Nat) (body : ColBody τ) : World → ColumnIter → τ → World → τ → Prop
  | done {w : World} {s s' : ColumnIter} {x : τ} : ColumnIter.next w s = .ok (none, s') → ForEachColumn fs ns body w s x w x
  | table {w w1 w2 : World} {s s' : ColumnIter} {cols : List (Ptr × Nat)} {sss : List (List AWorld.Seen)} {x z : τ} : ColumnIter.next w s = .ok (some cols, s') →
      (rowsAt ns cols).mapM (fun r => (fs.zip r).mapM (fun x => w.readFetch x.1 x.2)) = .ok sss →
      w.storeAll (targetsCol fs ns cols (body x sss).2) = .ok w1 → ForEachColumn fs ns body w1 s' (body x sss).1 w2 z →
      ForEachColumn fs ns body w s x w2 z

end World

/-- The values stored have the sizes recorded for the components (the caller of the unsafe cast guarantees this). -/
def ColBody.Sized {τ : Type} (a : AWorld) (fs : List Fetch) (body : ColBody τ) : Prop :=
  ∀ (x : τ) (sss : List (List AWorld.Seen)) (i j : Nat) (c : EcsId) (m : ComponentMeta) (bs : Bytes), (i, j, bs) ∈ (body x sss).2 → fs[j]? = some (.mut c) →
    a.info c = some m → bs.length = m.layout.size

/-- The body of a loop over columns that remembers all tables. -/
def ColBody.log (f : List (List (List AWorld.Seen)) → List (Nat × Nat × Bytes)) : ColBody (List (List (List AWorld.Seen))) := fun h sss => (sss :: h, f (sss :: h))

/-- What to store in row `i`, from column `j` on. -/
def rowStores (i : Nat) : Nat → List (Option Bytes) → List (Nat × Nat × Bytes)
  | _, [] => []
  | j, none :: out => rowStores i (j + 1) out
  | j, some bs :: out => (i, j, bs) :: rowStores i (j + 1) out

/-- The body of a loop over rows, run on row after row of a table, from row `i` on. -/
def ColBody.ofRows {τ : Type} (body : Body τ) (i : Nat) : ColBody τ
  | x, [] => (x, [])
  | x, ss :: sss => ((ofRows body (i + 1) (body x ss).1 sss).1, rowStores i 0 (body x ss).2 ++ (ofRows body (i + 1) (body x ss).1 sss).2)

namespace AWorld

/-- The new values of the entities `es`: row `i` is the `i`-th of them, column `j` the component of the `j`-th fetch. -/
def storeLine (fs : List Fetch) (es : List EcsId) : List (Nat × Nat × Bytes) → AWorld → AWorld
  | [], a => a
  | (i, j, bs) :: out, a =>
    match fs[j]?, es[i]? with
    | some (.mut c), some e => storeLine fs es out { a with cell := fun x y => if x = e ∧ y = c then some bs else a.cell x y }
    | _, _ => storeLine fs es out a

/-- Each group that is not empty consists of all the entities with certain components. -/
def Grouped (a : AWorld) (ess : List (List EcsId)) : Prop :=
  ∀ es ∈ ess, ∀ e ∈ es, ∀ e', e' ∈ es ↔ a.info e' ≠ none ∧ ∀ c, a.cell e' c = none ↔ a.cell e c = none

/-- `World.Strides` in terms of the maps. -/
def Strides (a : AWorld) : List Fetch → List Nat → Prop :=
  Pairs (fun f n => (f = .ecsId → n = 8) ∧ ∀ c m, f.Of c → a.info c = some m → n = m.layout.size)

/-- The body runs once for each of the lines, in this order; it is shown the rows of the entities of the line. -/
def sweepLines {τ : Type} (fs : List Fetch) (row : EcsId → Option (List Seen)) (body : ColBody τ) : List (List EcsId) → AWorld → τ → AWorld × τ
  | [], a, x => (a, x)
  | es :: ess, a, x =>
    match es.mapM row with
    | none => sweepLines fs row body ess a x
    | some sss => sweepLines fs row body ess (storeLine fs es (body x sss).2 a) (body x sss).1

end AWorld
end Ellecs
