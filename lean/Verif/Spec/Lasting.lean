import Verif.Spec.Safe
/-!
# Specification: programs that despawn no type

The id of a type is the id of an entity, and safe code can despawn it.  These programs do not.  There is no bound on how
often they recycle a slot.
-/
namespace Ellecs
namespace World

/-- The call does not despawn the id of a type. -/
def Spares (w : World) (c : Call) : Prop := ∀ t id, w.typeMap t = some id → c ≠ .despawn id

/-- The programs of `Safe` (`Spec/Safe.lean`), without the bound but without despawning types. -/
inductive Lasting : World → List Guard → Prop
  | new : Lasting World.new []
  | ok {w w' : World} {gs : List Guard} (c : Call) : Lasting w gs → c.Ok w → w.Spares c → c.exec w = .ok () w' → Lasting w' gs
  | panic {w w' : World} {gs : List Guard} (c : Call) (f : Fault) : Lasting w gs → c.Ok w → w.Spares c → c.exec w = .error f w' → ¬ Limit f →
      f ≠ .deadlock → Lasting w' gs
  | keep {w w' : World} {gs : List Guard} (ps : List Param) (q : StaticQuery) : Lasting w gs → query ps w = .ok q w' → Lasting w' (gs ++ q.guards)
  | keepDynamic {w w' : World} {gs : List Guard} (fs : List Fetch) (q : DynQuery) : Lasting w gs → queryDynamic fs w = .ok q w' →
      Lasting w' (gs ++ q.guards)
  | release {w w' : World} {gs gs' ds : List Guard} (panicking : Bool) : Lasting w gs → gs.Perm (gs' ++ ds) →
      dropGuards panicking ds w = .ok () w' → Lasting w' gs'
  | forget {w w1 w2 w' : World} {gs : List Guard} (kind : SpawnKind) (as : List BAct) (e : EcsId) (b b' : Builder) : Lasting w gs →
      ChainOk w kind as → spawnId w = .ok e w1 → mkBuilder kind e w1 = .ok b w2 → b.acts as w2 = .ok b' w' → Lasting w' gs
  | rejected {w u w' : World} {gs : List Guard} (kind : SpawnKind) (as : List BAct) (e : EcsId) (f : Fault) : Lasting w gs →
      (∀ a ∈ as, ActValid w a) → ¬ Distinct w as → spawnWith kind as w = .ok e u → ¬ TableFits u as →
      spawnWith kind (as ++ [.build]) w = .error f w' → ¬ Limit f → Lasting w' gs

end World
end Ellecs
