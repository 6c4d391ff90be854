import Verif.Spec.History
/-! # What stays of the tables of a world -/
namespace Ellecs

/-- `q` is what became of the column `p`: the same component with the same layout and drop function.  Its block only
grows, from nothing to four elements and then by doubling, and it is replaced only to grow. -/
structure ColumnStays (p q : EcsId × UVec) : Prop where
  id : q.1 = p.1
  info : q.2.info = p.2.info
  cap : p.2.cap ≤ q.2.cap
  grow : q.2.cap = p.2.cap ∨ ∃ n, q.2.cap = (if p.2.cap = 0 then 4 * p.2.size else p.2.cap) * 2 ^ n
  block : q.2.cap = p.2.cap → q.2.data = p.2.data

/-- `a'` is what became of the table `a`: the same components, with their columns at the same positions. -/
structure TableStays (a a' : Archetype) : Prop where
  ids : a'.compIds = a.compIds
  look : a'.compLookup = a.compLookup
  len : a'.storages.length = a.storages.length
  col : ∀ (j : Nat) (p q : EcsId × UVec), a.storages[j]? = some p → a'.storages[j]? = some q → ColumnStays p q

/-- The capacities a column can have, in bytes: none, or room for `4 * 2 ^ n` elements. -/
def CapOk (v : UVec) : Prop := v.cap = 0 ∨ ∃ n, v.cap = 4 * v.size * 2 ^ n

/-- All tables of `w` are still there, at the same positions; new ones come after them. -/
structure TablesStay (w w' : World) : Prop where
  tab : ∀ (k : Nat) (a : Archetype), w.archetypes[k]? = some a → ∃ a', w'.archetypes[k]? = some a' ∧ TableStays a a'
  new : ∀ (k : Nat) (a : Archetype), w.archetypes.length ≤ k → w'.archetypes[k]? = some a → ∀ p ∈ a.storages, CapOk p.2

end Ellecs
