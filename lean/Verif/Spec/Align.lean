import Verif.Spec.Query
/-! # Addresses of component values -/
namespace Ellecs
namespace World

/-- The address of a pointer into a column, when the block of column `j` of table `k` is at `base k j`. -/
def addressOf (w : World) (base : Nat → Nat → Nat) (p : Ptr) : Option Nat :=
  match p.col with
  | .storage k j =>
    match w.archetypes[k]? with
    | some a =>
      match a.storages[j]? with
      | some x => some (VecSpec.addr (base k j) x.2 p.off)
      | none => none
    | none => none
  | _ => none

/-- The allocator returned blocks aligned for the layouts it was asked for. -/
def BasesAligned (w : World) (base : Nat → Nat → Nat) : Prop :=
  ∀ (k j : Nat) (a : Archetype) (x : EcsId × UVec), w.archetypes[k]? = some a → a.storages[j]? = some x → VecSpec.Aligned (base k j) x.2

/-- `p` is aligned for `l`. -/
def PtrAligned (w : World) (base : Nat → Nat → Nat) (p : Ptr) (l : Layout) : Prop := ∃ n, w.addressOf base p = some n ∧ l.align ∣ n

end World
end Ellecs
