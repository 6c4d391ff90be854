import Verif.Model.Query
import Verif.Model.Unwind
/-! # Going on after a panic, with nothing but queries and despawns -/
namespace Ellecs.World

/-- `u` is a world a program makes of `w` by making, using and dropping queries and by despawning, whatever panics on the way (and
is caught): in the call that makes a query, or in destructors. -/
inductive Drained (w : World) : World → Prop
  | refl : Drained w w
  | query {u u' : World} (ps : List Param) (q : StaticQuery) : Drained w u → query ps u = .ok q u' → Drained w u'
  | queryPanic {u u' : World} (ps : List Param) (f : Fault) : Drained w u → query ps u = .error f u' → Drained w u'
  | queryDynamic {u u' : World} (fs : List Fetch) (q : DynQuery) : Drained w u → queryDynamic fs u = .ok q u' → Drained w u'
  | queryDynamicPanic {u u' : World} (fs : List Fetch) (f : Fault) : Drained w u → queryDynamic fs u = .error f u' → Drained w u'
  | release {u u' : World} (panicking : Bool) (gs : List Guard) : Drained w u → dropGuards panicking gs u = .ok () u' → Drained w u'
  | write {u u' : World} (p : Ptr) (bs : Bytes) : Drained w u → writePtr u p bs = .ok u' → Drained w u'
  | despawn {u u' : World} (pan : Panics) (e : EcsId) (b : Bool) : Drained w u → despawnU pan e u = .ok b u' → Drained w u'
  | despawnPanic {u u' : World} (pan : Panics) (e : EcsId) (f : Fault) : Drained w u → despawnU pan e u = .error f u' → Drained w u'

end Ellecs.World
