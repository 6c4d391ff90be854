import Verif.Spec.Abstract
/-!
# Specification: the component a call adds
-/
namespace Ellecs.World

/-- The call adds component `c` to an entity. -/
def Adds (w : World) : Call → EcsId → Prop
  | .addComponent _ t _, c => w.typeMap t = some c
  | .addDynamic _ c', c => c' = c
  | .addDynamicWithData _ c' _, c => c' = c
  | _, _ => False

end Ellecs.World
