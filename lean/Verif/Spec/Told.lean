import Verif.Spec.Latest
/-!
# Specification: what a typed program must expect

What an entity has of a type, read off the whole conversation: no ids of components, no states.
-/
namespace Ellecs
namespace World

/-- The value of type `t` a call gives to a builder. -/
def gives (t : Ty) : BAct → Option Bytes
  | .with t' v => if t' = t then some (v.take t.size) else none
  | _ => none

/-- The value of type `t` an entity is built with. -/
def born (t : Ty) (as : List BAct) : Option Bytes :=
  if as.any (fun | .build => true | _ => false) then as.findSome? (gives t) else none

/-- What one question and its answer do to the value of type `t` of entity `e`.  Panics do nothing. -/
def tell (e : EcsId) (t : Ty) : Ask × Except Fault Answer → Option Bytes → Option Bytes
  | (.spawn _ as, .ok (.id x)), old => if x = e then born t as else old
  | (.call (.addComponent x t' v), .ok _), old => if x = e ∧ t' = t then some v else old
  | (.call (.removeComponent x t'), .ok _), old => if x = e ∧ t' = t then none else old
  | (.call (.despawn x), .ok _), old => if x = e then none else old
  | (.despawn x, .ok _), old => if x = e then none else old
  | _, old => old

/-- What the conversation leaves of type `t` in entity `e`, if it had `old` before. -/
def told (e : EcsId) (t : Ty) (tr : List (Ask × Except Fault Answer)) (old : Option Bytes) : Option Bytes :=
  tr.foldl (fun x p => tell e t p x) old

/-- Builders are asked for their ids, and nothing is done with them after `build`. -/
def Neat : Ask → Prop
  | .spawn _ as => .build ∉ as.dropLast
  | .call (.spawn _ _) => False
  | _ => True

/-- The question does not use the id `c` as a component. -/
def TypedOnly (c : EcsId) : Ask → Prop
  | .spawn _ as => ∀ a ∈ as, (∀ v, a ≠ .withDynamicWithData c v) ∧ a ≠ .withDynamic c
  | .call (.addDynamic _ y) | .call (.addDynamicWithData _ y _) | .call (.removeDynamic _ y) | .call (.write _ y _) => y ≠ c
  | _ => True

/-- Entity `e` has the value `bs` of type `t`. -/
def HasTy (w : World) (e : EcsId) (t : Ty) (bs : Bytes) : Prop := ∃ c, w.typeMap t = some c ∧ w.Has e c bs

/-- What a static query shows of entity `e` after the conversation, if it shows it. -/
def toldRow (tr : List (Ask × Except Fault Answer)) (ps : List Param) (e : EcsId) : Option (List AWorld.Seen) :=
  ps.mapM (fun | .ids => some (.id e) | .mut t | .ref t => (told e t tr none).map .value)

end World
end Ellecs
