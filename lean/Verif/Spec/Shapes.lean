import Verif.Spec.Tables
/-! # For which combinations of components there are tables -/
namespace Ellecs
open World

/-- The table has exactly the components the entity has. -/
def TableOf (w : World) (x : EcsId) (t : Archetype) : Prop := w.Row x ∧ ∀ c, w.HasComp x c ↔ c ∈ t.compIds

/-- Every table of `w'` was there in `w` already, or is the table of an entity that exists in `w'`. -/
def TablesNeeded (w w' : World) : Prop :=
  ∀ t ∈ w'.archetypes, (∃ t0 ∈ w.archetypes, ∀ c, c ∈ t0.compIds ↔ c ∈ t.compIds) ∨ ∃ x, TableOf w' x t

/-- Every entity has one of these combinations of components. -/
def Shaped (S : List (List EcsId)) (w : World) : Prop := ∀ x, w.Row x → ∃ l ∈ S, ∀ c, c ∈ l ↔ w.HasComp x c

/-- The worlds a program can get into whose entities never have other combinations of components than these. -/
inductive ReachableIn (S : List (List EcsId)) : World → Prop
  | new : ReachableIn S World.new
  | ok {w w' : World} (c : Call) : ReachableIn S w → c.Ok w → c.exec w = .ok () w' → w'.NoFullSlot → Shaped S w' → ReachableIn S w'
  | panic {w w' : World} (c : Call) (f : Fault) : ReachableIn S w → c.Ok w → c.exec w = .error f w' → ¬ Limit f → f ≠ .deadlock →
      w'.NoFullSlot → Shaped S w' → ReachableIn S w'

/-- Every table has one of these combinations of components. -/
def Covers (S : List (List EcsId)) (w : World) : Prop := ∀ t ∈ w.archetypes, ∃ l ∈ S, ∀ c, c ∈ l ↔ c ∈ t.compIds

end Ellecs
