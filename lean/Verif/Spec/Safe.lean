import Verif.Spec.History
import Verif.Spec.Query
/-!
# Programs that also leak

`Safe w gs`: a program can get a world into the state `w` while the guards `gs` are alive, and the misuse of the builder
that is known to break the world did not happen.  More programs are covered than by `Reachable`: queries that are still
alive or were leaked (`mem::forget`), builders that were leaked, and chains that supply a component twice and are
rejected before a row is added.
-/
namespace Ellecs
namespace World

inductive Safe : World → List Guard → Prop
  | new : Safe World.new []
  /-- a call returned -/
  | ok {w w' : World} {gs : List Guard} (c : Call) : Safe w gs → c.Ok w → c.exec w = .ok () w' → w'.NoFullType → Safe w' gs
  /-- a call panicked and the panic was caught -/
  | panic {w w' : World} {gs : List Guard} (c : Call) (f : Fault) : Safe w gs → c.Ok w → c.exec w = .error f w' → ¬ Limit f →
      f ≠ .deadlock → w'.NoFullType → Safe w' gs
  /-- a static query is made and never dropped -/
  | keep {w w' : World} {gs : List Guard} (ps : List Param) (q : StaticQuery) : Safe w gs → query ps w = .ok q w' → Safe w' (gs ++ q.guards)
  /-- a dynamic query is made and never dropped -/
  | keepDynamic {w w' : World} {gs : List Guard} (fs : List Fetch) (q : DynQuery) : Safe w gs → queryDynamic fs w = .ok q w' →
      Safe w' (gs ++ q.guards)
  /-- a query with the guards `ds` is dropped, possibly while panicking; queries may be dropped in any order -/
  | release {w w' : World} {gs gs' ds : List Guard} (panicking : Bool) : Safe w gs → gs.Perm (gs' ++ ds) →
      dropGuards panicking ds w = .ok () w' → Safe w' gs'
  /-- a builder is made and used, and never dropped -/
  | forget {w w1 w2 w' : World} {gs : List Guard} (kind : SpawnKind) (as : List BAct) (e : EcsId) (b b' : Builder) : Safe w gs →
      ChainOk w kind as → spawnId w = .ok e w1 → mkBuilder kind e w1 = .ok b w2 → b.acts as w2 = .ok b' w' → w'.NoFullType → Safe w' gs
  /-- a component is supplied twice, `build` panics, and no table has that many components and all those supplied; `u`
  is the world before `build` (once the builder is dropped) -/
  | rejected {w u w' : World} {gs : List Guard} (kind : SpawnKind) (as : List BAct) (e : EcsId) (f : Fault) : Safe w gs →
      (∀ a ∈ as, ActValid w a) → ¬ Distinct w as → spawnWith kind as w = .ok e u → ¬ TableFits u as →
      spawnWith kind (as ++ [.build]) w = .error f w' → ¬ Limit f → w'.NoFullType → Safe w' gs

/-- `s'` is the state of an iterator after some calls of `next`, starting in the state `s`. -/
inductive Steps {σ α : Type} (next : σ → Except Fault (Option α × σ)) : σ → σ → Prop
  | refl (s : σ) : Steps next s s
  | step {s s1 s' : σ} {x : Option α} : Steps next s s1 → next s1 = .ok (x, s') → Steps next s s'

/-- Of these guards none conflicts with another: a lock that is held for writing is held once. -/
def Exclusive (gs : List Guard) : Prop :=
  ∀ i, gs.count (.write i) ≤ 1 ∧ (gs.count (.write i) = 1 → gs.count (.read i) = 0)

end World
end Ellecs
