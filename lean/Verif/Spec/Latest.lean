import Verif.Spec.Rebirth
/-!
# Specification: the latest value of a component

What a component of an entity holds, read off the conversation.
-/
namespace Ellecs
namespace World

/-- What one question and its answer do to component `c` of entity `e`; `ty` are the ids of the types and `n` is the size of
the component.  Panics do nothing. -/
def touch (ty : Ty → Option EcsId) (e c : EcsId) (n : Nat) : Ask × Except Fault Answer → Option Bytes → Option Bytes
  | (.call (.addComponent x t v), .ok _), old => if x = e ∧ ty t = some c then some v else old
  | (.call (.removeComponent x t), .ok _), old => if x = e ∧ ty t = some c then none else old
  | (.call (.addDynamic x y), .ok _), old => if x = e ∧ y = c then some [] else old
  | (.call (.addDynamicWithData x y src), .ok _), old => if x = e ∧ y = c then some (src.take n) else old
  | (.call (.removeDynamic x y), .ok _), old => if x = e ∧ y = c then none else old
  | (.call (.write x y bs), .ok _), old => if x = e ∧ y = c then old.map (fun _ => bs) else old
  | _, old => old

/-- What the conversation leaves in component `c` of entity `e`, if it held `old` before. -/
def latest (ty : Ty → Option EcsId) (e c : EcsId) (n : Nat) (tr : List (Ask × Except Fault Answer)) (old : Option Bytes) : Option Bytes :=
  tr.foldl (fun x p => touch ty e c n p x) old

/-- The question is about what entity `e` has. -/
def Involves (e : EcsId) : Ask → Prop
  | .call (.addComponent x _ _) | .call (.removeComponent x _) | .call (.addDynamic x _) | .call (.addDynamicWithData x _ _)
  | .call (.removeDynamic x _) | .call (.write x _ _) | .call (.despawn x) | .despawn x => x = e
  | _ => False

end World
end Ellecs
