import Verif.Spec.Endless
/-!
# Specification: when an id comes back

Ids are 32 bits of generation and 32 bits of slot, so they cannot be unique for ever.
-/
namespace Ellecs
namespace World

/-- A conversation that does not use up the slot of a type.  Types may be despawned and other slots may be recycled any
number of times.  It ends if the memory is exhausted or the program hangs. -/
inductive FreeTalk : World → List (Ask × Except Fault Answer) → World → Prop
  | done (w : World) : FreeTalk w [] w
  | ok {w w1 w2 : World} {q : Ask} {x : Answer} {rest : List (Ask × Except Fault Answer)} : q.Ok w → q.exec w = .ok x w1 → w1.NoFullType →
      FreeTalk w1 rest w2 → FreeTalk w ((q, .ok x) :: rest) w2
  | panic {w w1 w2 : World} {q : Ask} {f : Fault} {rest : List (Ask × Except Fault Answer)} : q.Ok w → q.exec w = .error f w1 →
      ¬ OutOfMemory f → f ≠ .deadlock → w1.NoFullType → FreeTalk w1 rest w2 → FreeTalk w ((q, .error f) :: rest) w2

/-- The question was to despawn `e`, and that was done. -/
def Kills (p : Ask × Except Fault Answer) (e : EcsId) : Prop :=
  p = (.despawn e, .ok (.bool true)) ∨ p = (.call (.despawn e), .ok .unit)

/-- In this conversation `e` was despawned. -/
def Despawned (tr : List (Ask × Except Fault Answer)) (e : EcsId) : Prop := ∃ p ∈ tr, Kills p e

/-- A question that hands out the id `e`: a builder, or the first registration of a type. -/
def HandsOut (w : World) (q : Ask) (e : EcsId) (w' : World) : Prop :=
  q.exec w = .ok (.id e) w' ∧ ((∃ kind acts, q = .spawn kind acts) ∨ ∃ t, q = .register t ∧ w.typeMap t = none)

end World
end Ellecs
