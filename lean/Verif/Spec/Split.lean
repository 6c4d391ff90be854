import Verif.Spec.Abstract
/-!
# Specification: the calls that do one by one what a builder does at once
-/
namespace Ellecs.World

/-- The call on an entity that exists which corresponds to a call on its builder. -/
def asAdd (e : EcsId) : BAct → Option Call
  | .with t v => some (.addComponent e t v)
  | .withDynamic c => some (.addDynamic e c)
  | .withDynamicWithData c v => some (.addDynamicWithData e c v)
  | .build => none

end Ellecs.World
