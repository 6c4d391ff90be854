import Verif.Model.Builder
/-! # Plain accessors and shorthands -/
namespace Ellecs

namespace UVec

/-- `UntypedVec::raw_len` (untyped_vec/src/lib.rs:71-74). -/
def rawLen (v : UVec) : Nat := v.len

/-- `UntypedVec::get_type_info` (untyped_vec/src/lib.rs:58-60). -/
def getTypeInfo (v : UVec) : TypeInfo := v.info

end UVec

namespace World

/-- `spawn!(&mut world, c1, …, cn)` (arche_tape/src/lib.rs:5-15), for values with their types. -/
def spawnMacro (vs : List (Ty × Bytes)) : M EcsId :=
  spawnWith .plain (vs.map (fun p => .with p.1 p.2) ++ [.build])

end World
end Ellecs
