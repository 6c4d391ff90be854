import Verif.Spec.History
import Verif.Spec.Query
/-!
# Specification: the order in which queries visit entities

A world seen as a list of lines: one line for each combination of components that has occurred, in the order in which they
first occurred.  Entities queue up at the end of the line for their components.  When one leaves, the last entity of the line
takes its place.
-/
namespace Ellecs.WorldSpec
open World

/-- The entities that have exactly the components in the set, in order. -/
abbrev Line := (EcsId → Prop) × List EcsId

/-- The lines of a world. -/
def lines (w : World) : List Line := w.archetypes.map (fun a => ((fun c => c ∈ a.compIds), a.entities))

/-- `x` enters at the end of the line for the components `s`.  If there is none, a line is opened behind all others. -/
inductive Enters (s : EcsId → Prop) (x : EcsId) : List Line → List Line → Prop
  | queue {L : List Line} {k : Nat} {es : List EcsId} : L[k]? = some (s, es) → Enters s x L (L.set k (s, es ++ [x]))
  | opens {L : List Line} : (∀ es, (s, es) ∉ L) → Enters s x L (L ++ [(s, [x])])

/-- `ys` is `xs` without its element `x`: the last one takes its place. -/
inductive FillsGap (x : EcsId) : List EcsId → List EcsId → Prop
  | last (l : List EcsId) : FillsGap x (l ++ [x]) l
  | inside (l m : List EcsId) (z : EcsId) : FillsGap x (l ++ x :: (m ++ [z])) (l ++ z :: m)

/-- `x` leaves the line for the components `s`. -/
inductive Exits (s : EcsId → Prop) (x : EcsId) : List Line → List Line → Prop
  | exit {L : List Line} {k : Nat} {es es' : List EcsId} : L[k]? = some (s, es) → FillsGap x es es' → Exits s x L (L.set k (s, es'))

/-- The entities enter one after the other, each the line of its components. -/
inductive Arrive (comps : EcsId → EcsId → Prop) : List EcsId → List Line → List Line → Prop
  | nil {L : List Line} : Arrive comps [] L L
  | cons {x : EcsId} {xs : List EcsId} {L L1 L2 : List Line} : Enters (comps x) x L L1 → Arrive comps xs L1 L2 → Arrive comps (x :: xs) L L2

/-- The entity of a type that was seen for the first time between `w` and `w'`. -/
def firstSeen (w w' : World) (t : Ty) : List EcsId := if w.typeMap t = none then (w'.typeMap t).toList else []

/-- The entities that a chain of calls on the builder of `e` creates, in order: those of new types, each when it is first
named (entity_builder.rs:223-227), and `e` when it is built.  `seen`: the types already named. -/
def comers (w w' : World) (e : EcsId) : List Ty → List BAct → List EcsId
  | _, [] => []
  | seen, .with t _ :: as => (if t ∈ seen then [] else firstSeen w w' t) ++ comers w w' e (t :: seen) as
  | seen, .build :: as => e :: comers w w' e seen as
  | seen, _ :: as => comers w w' e seen as

open Classical in
/-- The entities of all lines whose components satisfy the condition, one line after the other. -/
noncomputable def walk (L : List Line) (want : (EcsId → Prop) → Prop) : List EcsId := (L.filter (fun l => decide (want l.1))).flatMap Prod.snd

open Classical in
/-- The lines whose components satisfy the condition. -/
noncomputable def visits (L : List Line) (want : (EcsId → Prop) → Prop) : List (List EcsId) := (L.filter (fun l => decide (want l.1))).map Prod.snd

/-- `x` is the start and the length of a column with what the fetch asks for of these entities, in their order, each as large
as the type says. -/
def ColumnFor (w : World) (es : List EcsId) (f : Fetch) (x : Ptr × Nat) : Prop :=
  x.2 = es.length ∧ ∃ n, FetchSize w f n ∧ ∀ (i : Nat) (e : EcsId), es[i]? = some e → FetchAt w e f ⟨x.1.col, x.1.off + i * n⟩

/-- The components have all the types the parameters ask for. -/
def WantsTypes (w : World) (ps : List Param) (s : EcsId → Prop) : Prop := ∀ p ∈ ps, ∀ t, p.Of t → ∃ c, w.typeMap t = some c ∧ s c

/-- The components include all the fetches ask for. -/
def WantsIds (fs : List Fetch) (s : EcsId → Prop) : Prop := ∀ f ∈ fs, ∀ c, f.Of c → s c

/-- `e` leaves the line for its old components and enters the one for its new components. -/
def Moves (w w' : World) (e : EcsId) (L L' : List Line) : Prop := ∃ M, Exits (w.HasComp e) e L M ∧ Enters (w'.HasComp e) e M L'

/-- What a call that returns does to the lines. -/
def Lines (w w' : World) : Call → Prop
  | .spawn kind acts => ∃ e u, spawnWith kind acts w = .ok e u ∧ Arrive w'.HasComp (comers w w' e [] acts) (lines w) (lines w')
  | .register t => Arrive w'.HasComp (firstSeen w w' t) (lines w) (lines w')
  | .addComponent e t _ | .removeComponent e t => ∃ L, Arrive w'.HasComp (firstSeen w w' t) (lines w) L ∧
      ((∃ c, w'.typeMap t = some c ∧ w'.Alive c) ∧ Moves w w' e L (lines w') ∨ (∃ c, w'.typeMap t = some c ∧ ¬ w'.Alive c) ∧ lines w' = L)
  | .addDynamic e c | .addDynamicWithData e c _ | .removeDynamic e c =>
      (w.Alive e ∧ w.Alive c) ∧ Moves w w' e (lines w) (lines w') ∨ ¬ (w.Alive e ∧ w.Alive c) ∧ lines w' = lines w
  | .despawn e => w.Alive e ∧ Exits (w.HasComp e) e (lines w) (lines w') ∨ ¬ w.Alive e ∧ lines w' = lines w
  | .write _ _ _ | .query _ _ | .queryDynamic _ _ => lines w' = lines w

/-- What a call that panics does to the lines.  Types may have been registered before the panic, and a builder that was built
may have been used further. -/
def PanicLines (w w' : World) : Call → Prop
  | .spawn kind acts => lines w' = lines w ∨ ∃ (pre : List BAct) (a : BAct) (post : List BAct) (e : EcsId) (u : World), acts = pre ++ a :: post ∧ a ≠ .build ∧
      spawnWith kind pre w = .ok e u ∧ Arrive w'.HasComp (comers w w' e [] (pre ++ [a])) (lines w) (lines w')
  | .addComponent _ t _ | .removeComponent _ t => Arrive w'.HasComp (firstSeen w w' t) (lines w) (lines w')
  | _ => lines w' = lines w

/-- No two lines are for the same components, and no entity is in two places. -/
structure Proper (L : List Line) : Prop where
  lines : (L.map Prod.fst).Nodup
  entities : (L.flatMap Prod.snd).Nodup

end Ellecs.WorldSpec
