import Verif.Spec.Safe
/-!
# Ordinary programs

`Reachable` (Spec/History) assumes of every call that it did not exceed the limits of the allocator and that no slot
was recycled `2^32` times.  `Ordinary` assumes neither: it bounds the size of component types and counts the calls of
`despawn`.
-/
namespace Ellecs
namespace World

/-- Component types named in the call, and layouts given to it, have at most `s` bytes; `spawn_with_capacity` asks for
a block that exists. -/
def Call.Within (s : Nat) : Call → Prop
  | .spawn kind as => (∀ m, kind = .withMeta m → m.layout.size ≤ s) ∧ (∀ n, kind = .capacity n → n ≤ isizeMax) ∧
      ∀ t v, .with t v ∈ as → t.size ≤ s
  | .addComponent _ t _ | .removeComponent _ t | .register t => t.size ≤ s
  | _ => True

/-- Number of calls of `despawn`. -/
def Call.despawns : Call → Nat
  | .despawn _ => 1
  | _ => 0

/-- A program can get into `w` with components of at most `s` bytes and `d` calls of `despawn`.  Panics, whatever their
cause, are caught (one whose cause is a deadlock does not return). -/
inductive Ordinary (s : Nat) : World → Nat → Prop
  | new : Ordinary s World.new 0
  | ok {w w' : World} {d : Nat} (c : Call) : Ordinary s w d → c.Ok w → c.Within s → c.exec w = .ok () w' → Ordinary s w' (d + c.despawns)
  | panic {w w' : World} {d : Nat} (c : Call) (f : Fault) : Ordinary s w d → c.Ok w → c.Within s → c.exec w = .error f w' → f ≠ .deadlock →
      Ordinary s w' (d + c.despawns)

/-- `Safe` (Spec/Safe) without assumptions about limits. -/
inductive OrdinarySafe (s : Nat) : World → List Guard → Nat → Prop
  | new : OrdinarySafe s World.new [] 0
  | ok {w w' : World} {gs : List Guard} {d : Nat} (c : Call) : OrdinarySafe s w gs d → c.Ok w → c.Within s → c.exec w = .ok () w' →
      OrdinarySafe s w' gs (d + c.despawns)
  | panic {w w' : World} {gs : List Guard} {d : Nat} (c : Call) (f : Fault) : OrdinarySafe s w gs d → c.Ok w → c.Within s → c.exec w = .error f w' →
      f ≠ .deadlock → OrdinarySafe s w' gs (d + c.despawns)
  | keep {w w' : World} {gs : List Guard} {d : Nat} (ps : List Param) (q : StaticQuery) : OrdinarySafe s w gs d → query ps w = .ok q w' →
      OrdinarySafe s w' (gs ++ q.guards) d
  | keepDynamic {w w' : World} {gs : List Guard} {d : Nat} (fs : List Fetch) (q : DynQuery) : OrdinarySafe s w gs d → queryDynamic fs w = .ok q w' →
      OrdinarySafe s w' (gs ++ q.guards) d
  | release {w w' : World} {gs gs' ds : List Guard} {d : Nat} (panicking : Bool) : OrdinarySafe s w gs d → gs.Perm (gs' ++ ds) →
      dropGuards panicking ds w = .ok () w' → OrdinarySafe s w' gs' d
  | forget {w w1 w2 w' : World} {gs : List Guard} {d : Nat} (kind : SpawnKind) (as : List BAct) (e : EcsId) (b b' : Builder) : OrdinarySafe s w gs d →
      ChainOk w kind as → Call.Within s (.spawn kind as) → spawnId w = .ok e w1 → mkBuilder kind e w1 = .ok b w2 → b.acts as w2 = .ok b' w' →
      OrdinarySafe s w' gs d
  | rejected {w u w' : World} {gs : List Guard} {d : Nat} (kind : SpawnKind) (as : List BAct) (e : EcsId) (f : Fault) : OrdinarySafe s w gs d →
      (∀ a ∈ as, ActValid w a) → Call.Within s (.spawn kind as) → ¬ Distinct w as → spawnWith kind as w = .ok e u → ¬ TableFits u as →
      spawnWith kind (as ++ [.build]) w = .error f w' → OrdinarySafe s w' gs d

/-- Number of slots for entities, used or free. -/
def slots (w : World) : Nat := w.entities.generations.length

end World
end Ellecs
