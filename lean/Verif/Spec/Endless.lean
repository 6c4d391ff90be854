import Verif.Spec.Abstract
import Verif.Spec.Lasting
/-!
# Specification: conversations without a bound on recycling

The histories of `Reachable` and the conversations of `Talk` end when a slot was recycled `2^32` times.  These do not;
instead they despawn no type.
-/
namespace Ellecs
namespace World

/-- The worlds a program can be in that despawns no type, however often slots were recycled. -/
inductive Endless : World → Prop
  | new : Endless World.new
  | ok {w w' : World} (c : Call) : Endless w → c.Ok w → w.Spares c → c.exec w = .ok () w' → Endless w'
  | panic {w w' : World} (c : Call) (f : Fault) : Endless w → c.Ok w → w.Spares c → c.exec w = .error f w' → ¬ Limit f → f ≠ .deadlock → Endless w'

/-- The question does not despawn the id of a type. -/
def SparesAsk (w : World) (q : Ask) : Prop := ∀ t id, w.typeMap t = some id → q ≠ .despawn id ∧ q ≠ .call (.despawn id)

/-- A conversation that despawns no type.  It ends if the memory is exhausted or the program hangs. -/
inductive LongTalk : World → List (Ask × Except Fault Answer) → World → Prop
  | done (w : World) : LongTalk w [] w
  | ok {w w1 w2 : World} {q : Ask} {x : Answer} {rest : List (Ask × Except Fault Answer)} : q.Ok w → w.SparesAsk q → q.exec w = .ok x w1 →
      LongTalk w1 rest w2 → LongTalk w ((q, .ok x) :: rest) w2
  | panic {w w1 w2 : World} {q : Ask} {f : Fault} {rest : List (Ask × Except Fault Answer)} : q.Ok w → w.SparesAsk q → q.exec w = .error f w1 →
      ¬ OutOfMemory f → f ≠ .deadlock → LongTalk w1 rest w2 → LongTalk w ((q, .error f) :: rest) w2

end World
end Ellecs
