import Verif.Spec.Abstract
import Verif.Spec.Iter
/-!
# Specification: two programs that differ only in their data

A `Recoding` says which byte, type and drop function of one program corresponds to which of the other.  Two programs are
alike if they ask the same questions, with corresponding data in them.
-/
namespace Ellecs

/-- Which bytes, types and drop functions correspond. -/
structure Recoding where
  byte : Byte → Byte → Prop
  type : Ty → Ty → Prop
  fn : DropFn → DropFn → Prop
  /-- different types correspond to different types -/
  same : ∀ {t t' u u'}, type t u → type t' u' → (t = t' ↔ u = u')
  /-- of the same size (alignments may differ) -/
  size : ∀ {t u}, type t u → t.size = u.size
  /-- their destructors correspond -/
  generic : ∀ {t u}, type t u → fn (.generic t) (.generic u)

namespace Recoding
variable (R : Recoding)

/-- Values: byte by byte. -/
def Vals (v v' : Bytes) : Prop := Pairs R.byte v v'

/-- Metadata of components: the same size, corresponding drop functions. -/
def Metas (m m' : ComponentMeta) : Prop := m.layout.size = m'.layout.size ∧ Option.Rel R.fn m.dropFn m'.dropFn

/-- Calls on a builder. -/
inductive Acts : BAct → BAct → Prop
  | with {t u : Ty} {v v' : Bytes} : R.type t u → R.Vals v v' → Acts (.with t v) (.with u v')
  | withDynamic (c : EcsId) : Acts (.withDynamic c) (.withDynamic c)
  | withDynamicWithData (c : EcsId) {v v' : Bytes} : R.Vals v v' → Acts (.withDynamicWithData c v) (.withDynamicWithData c v')
  | build : Acts .build .build

/-- Parameters of static queries. -/
inductive Params : Param → Param → Prop
  | ids : Params .ids .ids
  | mut {t u : Ty} : R.type t u → Params (.mut t) (.mut u)
  | ref {t u : Ty} : R.type t u → Params (.ref t) (.ref u)

/-- Calls: the same call, for the same entities. -/
inductive Calls : World.Call → World.Call → Prop
  | spawn {k k' : World.SpawnKind} {xs xs' : List BAct} : R.Metas (AWorld.metaOf k) (AWorld.metaOf k') → Pairs R.Acts xs xs' → Calls (.spawn k xs) (.spawn k' xs')
  | addComponent (e : EcsId) {t u : Ty} {v v' : Bytes} : R.type t u → R.Vals v v' → Calls (.addComponent e t v) (.addComponent e u v')
  | removeComponent (e : EcsId) {t u : Ty} : R.type t u → Calls (.removeComponent e t) (.removeComponent e u)
  | addDynamic (e c : EcsId) : Calls (.addDynamic e c) (.addDynamic e c)
  | addDynamicWithData (e c : EcsId) {v v' : Bytes} : R.Vals v v' → Calls (.addDynamicWithData e c v) (.addDynamicWithData e c v')
  | removeDynamic (e c : EcsId) : Calls (.removeDynamic e c) (.removeDynamic e c)
  | despawn (e : EcsId) : Calls (.despawn e) (.despawn e)
  | register {t u : Ty} : R.type t u → Calls (.register t) (.register u)
  | write (e c : EcsId) {v v' : Bytes} : R.Vals v v' → Calls (.write e c v) (.write e c v')
  | query {ps ps' : List Param} (p : Bool) : Pairs R.Params ps ps' → Calls (.query ps p) (.query ps' p)
  | queryDynamic (fs : List Fetch) (p : Bool) : Calls (.queryDynamic fs p) (.queryDynamic fs p)

/-- Questions. -/
inductive Asks : World.Ask → World.Ask → Prop
  | call {c c' : World.Call} : R.Calls c c' → Asks (.call c) (.call c')
  | spawn {k k' : World.SpawnKind} {xs xs' : List BAct} : R.Metas (AWorld.metaOf k) (AWorld.metaOf k') → Pairs R.Acts xs xs' → Asks (.spawn k xs) (.spawn k' xs')
  | despawn (e : EcsId) : Asks (.despawn e) (.despawn e)
  | register {t u : Ty} : R.type t u → Asks (.register t) (.register u)
  | isAlive (e : EcsId) : Asks (.isAlive e) (.isAlive e)
  | has {t u : Ty} (e : EcsId) : R.type t u → Asks (.has t e) (.has u e)
  | look (e c : EcsId) (n : Nat) : Asks (.look e c n) (.look e c n)

/-- Answers: the same id, the same boolean, corresponding values, the same panic. -/
inductive Answers : Except Fault World.Answer → Except Fault World.Answer → Prop
  | unit : Answers (.ok .unit) (.ok .unit)
  | id (e : EcsId) : Answers (.ok (.id e)) (.ok (.id e))
  | bool (b : Bool) : Answers (.ok (.bool b)) (.ok (.bool b))
  | value {v v' : Option Bytes} : Option.Rel R.Vals v v' → Answers (.ok (.value v)) (.ok (.value v'))
  | panic (f : Fault) : Answers (.error f) (.error f)

/-- What is seen in the rows of queries. -/
inductive Seens : AWorld.Seen → AWorld.Seen → Prop
  | id (e : EcsId) : Seens (.id e) (.id e)
  | value {v v' : Bytes} : R.Vals v v' → Seens (.value v) (.value v')

/-- Drop calls. -/
def Evs (x y : DropEv) : Prop := R.fn x.fn y.fn ∧ R.Vals x.bytes y.bytes

/-- The maps of two worlds. -/
structure Maps (a b : AWorld) : Prop where
  ents : a.ents = b.ents
  types : ∀ {t u}, R.type t u → a.types t = b.types u
  info : ∀ x, Option.Rel R.Metas (a.info x) (b.info x)
  cell : ∀ e c, Option.Rel R.Vals (a.cell e c) (b.cell e c)
  used : a.used = b.used
  lock : a.lock = b.lock

/-- What two worlds show. -/
def Worlds (w v : World) : Prop := ∃ a b, w.Shows a ∧ v.Shows b ∧ R.Maps a b

end Recoding

/-- A program: what it asks next, given what it asked and what the answers were.  `none`: it ends. -/
abbrev Asker := List (World.Ask × Except Fault World.Answer) → Option World.Ask

/-- The conversation is one the program has: it asks what the program wants to ask after `past`. -/
def Asker.Leads (p : Asker) : (past : List (World.Ask × Except Fault World.Answer)) → List (World.Ask × Except Fault World.Answer) → Prop
  | _, [] => True
  | past, x :: tr => p past = some x.1 ∧ p.Leads (past ++ [x]) tr

end Ellecs
