import Verif.Spec.Told
/-!
# Specification: a component through the lives of an entity

What an entity has of a component while ids are handed out, despawned and handed out again, read off the conversation.
-/
namespace Ellecs
namespace World

/-- The value of component `c`, of size `n`, a call gives to a builder; `ty` are the ids of the types. -/
def offers (ty : Ty → Option EcsId) (c : EcsId) (n : Nat) : BAct → Option Bytes
  | .with t v => if ty t = some c then some (v.take n) else none
  | .withDynamic y => if y = c then some [] else none
  | .withDynamicWithData y v => if y = c then some (v.take n) else none
  | .build => none

/-- The chain of calls on a builder ends with `build`. -/
def builds (as : List BAct) : Bool := as.any (fun | .build => true | _ => false)

/-- What a chain of calls on a builder makes of its entity: nothing if it is not built, else what it has of component
`c`, if it has it. -/
def makes (ty : Ty → Option EcsId) (c : EcsId) (n : Nat) (as : List BAct) : Option (Option Bytes) :=
  if builds as then some (as.findSome? (offers ty c n)) else none

/-- What one question and its answer do to entity `e` and its component `c`: `none` if `e` is not in the world, `some o`
if it is, and has `o` of the component. -/
def pass (ty : Ty → Option EcsId) (e c : EcsId) (n : Nat) : Ask × Except Fault Answer → Option (Option Bytes) → Option (Option Bytes)
  | (.spawn _ as, .ok (.id x)), old => if x = e then makes ty c n as else old
  | (.call (.despawn x), .ok _), old => if x = e then none else old
  | (.despawn x, .ok _), old => if x = e then none else old
  | p, old => old.map (touch ty e c n p)

/-- What the conversation leaves. -/
def course (ty : Ty → Option EcsId) (e c : EcsId) (n : Nat) (tr : List (Ask × Except Fault Answer)) (old : Option (Option Bytes)) : Option (Option Bytes) :=
  tr.foldl (fun x p => pass ty e c n p x) old

/-- `e` is not in the world, or it is and has `o` of the component `c`. -/
def Stands (w : World) (e c : EcsId) : Option (Option Bytes) → Prop
  | none => ∀ m, ¬ w.InfoIs e m
  | some o => (∃ m, w.InfoIs e m) ∧ ∀ bs, w.Has e c bs ↔ o = some bs

/-- Whether entity `e` is in the world after one question and its answer. -/
def there (e : EcsId) : Ask × Except Fault Answer → Bool → Bool
  | (.spawn _ as, .ok (.id x)), old => if x = e then builds as else old
  | (.call (.despawn x), .ok _), old => if x = e then false else old
  | (.despawn x, .ok _), old => if x = e then false else old
  | _, old => old

/-- Whether entity `e` is in the world at the end of a conversation with a new world. -/
def stays (e : EcsId) (tr : List (Ask × Except Fault Answer)) : Bool := tr.foldl (fun x p => there e p x) false

/-- One question and its answer for entity `e` and component `c`, which may itself be born by it; the number is the size of
the component. -/
def live (e c : EcsId) (p : Ask × Except Fault Answer) (s : Nat × Option (Option Bytes)) : Nat × Option (Option Bytes) :=
  match p with
  | (.spawn kind as, .ok (.id x)) =>
    if x = c then ((AWorld.metaOf kind).layout.size, if there e (.spawn kind as, .ok (.id x)) s.2.isSome then some none else none)
    else (s.1, pass (fun _ => none) e c s.1 (.spawn kind as, .ok (.id x)) s.2)
  | p => (s.1, pass (fun _ => none) e c s.1 p s.2)

/-- What a conversation with a new world leaves of component `c` in entity `e`. -/
def life (e c : EcsId) (tr : List (Ask × Except Fault Answer)) : Option (Option Bytes) := (tr.foldl (fun s p => live e c p s) (0, none)).2

/-- The component was built, and neither despawned nor its id handed out again since. -/
def Born (tr : List (Ask × Except Fault Answer)) (c : EcsId) : Prop :=
  ∃ tr1 kind as tr2, tr = tr1 ++ (.spawn kind as, .ok (.id c)) :: tr2 ∧ BAct.build ∈ as ∧ ¬ Despawned tr2 c ∧
    ∀ p ∈ tr2, ∀ k xs, p ≠ (.spawn k xs, .ok (.id c))

/-- What a dynamic query shows of entity `e` after the conversation, if it shows it. -/
def lifeRow (tr : List (Ask × Except Fault Answer)) (fs : List Fetch) (e : EcsId) : Option (List AWorld.Seen) :=
  if stays e tr then fs.mapM (fun | .ecsId => some (.id e) | .mut c | .immut c => (life e c tr).join.map .value) else none

end World
end Ellecs
