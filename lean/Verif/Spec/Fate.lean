import Verif.Spec.Session
import Verif.Spec.Order
/-!
# Specification: which destructors run, and in which order

In terms of the maps of `Spec/Abstract.lean` (and, for the end of a world, the lines of `Spec/Order.lean`): the drop calls
each call makes.  The order of the components is that of their ids (C05).
-/
namespace Ellecs
open World

namespace AWorld

/-- The drop calls for the value of `c` that `e` has: one if there is a value and `c` has a drop function. -/
def due (a : AWorld) (e c : EcsId) : List DropEv :=
  match a.cell e c, a.info c with
  | some v, some m => owed m v
  | _, _ => []

/-- The elements of a set of ids in ascending order. -/
structure Ascending (s : EcsId → Prop) (cs : List EcsId) : Prop where
  order : cs.Pairwise (fun c d => EcsId.lt c d = true)
  all : ∀ c, c ∈ cs ↔ s c

/-- `evs` are the drop calls a call makes.  The values handed to a builder, to the dynamic calls and through pointers are
not dropped by these; the value handed to `add_component` is dropped if it panics before it looked for a table. -/
def Drops (a : AWorld) : Call → List DropEv → Prop
  | .addComponent e t v, evs =>
    (a.isAlive e = .ok true ∧ ∃ c, (a.register t).1 = .ok c) ∧ evs = [] ∨
      ¬ (a.isAlive e = .ok true ∧ ∃ c, (a.register t).1 = .ok c) ∧ evs = [⟨.generic t, v⟩]
  | .removeComponent e t, evs => evs = (a.types t).toList.flatMap (a.due e)
  | .removeDynamic e c, evs => evs = a.due e c
  | .despawn e, evs =>
    (a.despawn e).1 = .ok true ∧ (∃ cs, Ascending (fun c => a.cell e c ≠ none) cs ∧ evs = cs.flatMap (a.due e)) ∨
      (a.despawn e).1 ≠ .ok true ∧ evs = []
  | _, evs => evs = []

/-- The same for a question; looking at the world drops nothing. -/
def AskDrops (a : AWorld) (q : Ask) (evs : List DropEv) : Prop :=
  match q.asCall with
  | some c => a.Drops c evs
  | none => evs = []

/-- The drop calls of a conversation. -/
def Fates : AWorld → List Ask → List DropEv → Prop
  | _, [], evs => evs = []
  | a, q :: qs, evs => ∃ now later, evs = now ++ later ∧ a.AskDrops q now ∧ Fates (a.ask q).2 qs later

/-- The drop calls at the end of a world: one line after the other; in a line one component after the other; for a component
the entity at the end of the line first.  Values without bytes are not dropped (C35). -/
def Burial (a : AWorld) : List WorldSpec.Line → List DropEv → Prop
  | [], evs => evs = []
  | (s, es) :: L, evs => ∃ cs rest, Ascending s cs ∧ Burial a L rest ∧
      evs = cs.flatMap (fun c => es.reverse.flatMap (fun e => (a.due e c).filter (fun ev => !ev.bytes.isEmpty))) ++ rest

end AWorld

namespace Ledger

/-- The drop call for a value. -/
def due (l : Ledger) (x : EcsId × Bytes) : List DropEv :=
  match l.book.lookup x.1 with
  | some en => owed en.info x.2
  | none => []

/-- The drop calls for all values that have bytes. -/
def estate (l : Ledger) : List DropEv := (l.book.flatMap (fun x => x.2.cells.flatMap l.due)).filter (fun ev => !ev.bytes.isEmpty)

end Ledger
end Ellecs
