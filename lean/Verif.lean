import Verif.Model.Basic
import Verif.Model.Entities
import Verif.Model.Bitset
import Verif.Model.ArrayVec
import Verif.Model.UntypedVec
import Verif.Model.World
import Verif.Model.Builder
import Verif.Model.Query
import Verif.Spec.Entities
import Verif.Spec.Iter
import Verif.Spec.Bitset
import Verif.Proofs.Entities
import Verif.Proofs.Bitset
import Verif.Props.Entities
import Verif.Props.Bitset
import Verif.Spec.UntypedVec
import Verif.Spec.ArrayVec
import Verif.Proofs.Bytes
import Verif.Proofs.UntypedVec
import Verif.Props.UntypedVec
import Verif.Props.ArrayVec
import Verif.Proofs.Sort
import Verif.Proofs.Alloc
import Verif.Proofs.Loc
import Verif.Proofs.Cols
import Verif.Proofs.Find
import Verif.Spec.World
import Verif.Proofs.WorldInv
import Verif.Proofs.Struct
import Verif.Proofs.Resolve
import Verif.Proofs.Move
import Verif.Proofs.Ops
import Verif.Proofs.Despawn
import Verif.Proofs.Build
import Verif.Proofs.BuildNew
import Verif.Proofs.Spawn
import Verif.Proofs.Acts
import Verif.Proofs.SpawnWith
import Verif.Proofs.Typed
import Verif.Proofs.Access
import Verif.Spec.History
import Verif.Proofs.Locks
import Verif.Proofs.History
import Verif.Proofs.Chain
import Verif.Proofs.Demo
import Verif.Proofs.Duplicates
import Verif.Proofs.DupExact
import Verif.Props.Build
import Verif.Proofs.Effect
import Verif.Props.Components
import Verif.Props.Entity
import Verif.Props.Drops
import Verif.Spec.Query
import Verif.Spec.Population
import Verif.Proofs.Query
import Verif.Proofs.Frame
import Verif.Proofs.Population
import Verif.Props.Query
import Verif.Props.Population
import Verif.Spec.Locks
import Verif.Proofs.LockTrace
import Verif.Proofs.LockRun
import Verif.Props.Locks
import Verif.Props.Safety
import Verif.Model.Unwind
import Verif.Spec.Unwind
import Verif.Proofs.Unwind
import Verif.Props.Unwind
import Verif.Model.Hash
import Verif.Props.Hash
import Verif.Proofs.Meta
import Verif.Props.Meta
import Verif.Spec.Align
import Verif.Props.Align
import Verif.Spec.Abstract
import Verif.Proofs.Refine
import Verif.Proofs.Laws
import Verif.Props.Refine
import Verif.Spec.Tables
import Verif.Proofs.TableTrace
import Verif.Props.Tables
import Verif.Spec.Safe
import Verif.Proofs.Safe
import Verif.Props.Safe
import Verif.Spec.Limits
import Verif.Proofs.GenTrace
import Verif.Proofs.MemTrace
import Verif.Proofs.Limits
import Verif.Props.Limits
import Verif.Spec.System
import Verif.Proofs.System
import Verif.Props.System
import Verif.Spec.Interleave
import Verif.Proofs.Interleave
import Verif.Props.Interleave
import Verif.Proofs.Count
import Verif.Spec.Program
import Verif.Proofs.Program
import Verif.Props.Program
import Verif.Proofs.Tidy
import Verif.Spec.Database
import Verif.Proofs.Database
import Verif.Proofs.Script
import Verif.Props.Script
import Verif.Spec.Clients
import Verif.Proofs.Clients
import Verif.Props.Clients
import Verif.Spec.Shapes
import Verif.Proofs.Shapes
import Verif.Props.Shapes
import Verif.Spec.Session
import Verif.Proofs.Session
import Verif.Props.Session
import Verif.Spec.DynClients
import Verif.Proofs.DynClients
import Verif.Props.DynClients
import Verif.Spec.Order
import Verif.Proofs.Order
import Verif.Props.Order
import Verif.Spec.Split
import Verif.Proofs.Split
import Verif.Props.Split
import Verif.Spec.Undo
import Verif.Proofs.Undo
import Verif.Props.Undo
import Verif.Spec.Fate
import Verif.Proofs.Fate
import Verif.Proofs.Estate
import Verif.Props.Fate
import Verif.Spec.Edges
import Verif.Proofs.Edges
import Verif.Props.Edges
import Verif.Spec.Opaque
import Verif.Proofs.Opaque
import Verif.Proofs.Panics
import Verif.Proofs.OpaqueOrder
import Verif.Props.Opaque
import Verif.Model.ArrayVecDrop
import Verif.Spec.ArrayVecDrop
import Verif.Proofs.ArrayVecDrop
import Verif.Props.ArrayVecDrop
import Verif.Model.Text
import Verif.Spec.Text
import Verif.Proofs.Text
import Verif.Props.Text
import Verif.Spec.Columns
import Verif.Proofs.Columns
import Verif.Props.Columns
import Verif.Props.Exact
import Verif.Proofs.BuildRows
import Verif.Proofs.DemoFacts
import Verif.Proofs.Cases
import Verif.Check.RepoTests
import Verif.Spec.VecOwner
import Verif.Proofs.VecOwner
import Verif.Props.VecOwner
import Verif.Model.Accessors
import Verif.Props.Accessors
import Verif.Spec.Torn
import Verif.Proofs.Torn
import Verif.Props.Torn
import Verif.Spec.Drained
import Verif.Proofs.Drained
import Verif.Props.Drained
import Verif.Spec.Peak
import Verif.Proofs.Peak
import Verif.Props.Peak
import Verif.Proofs.Stray
import Verif.Props.Stray
import Verif.Spec.Wrap
import Verif.Proofs.Wrap
import Verif.Props.Wrap
import Verif.Spec.Endless
import Verif.Spec.Lasting
import Verif.Proofs.Endless
import Verif.Proofs.Lasting
import Verif.Props.Endless
import Verif.Props.Lasting
import Verif.Spec.Rebirth
import Verif.Proofs.Rebirth
import Verif.Props.Rebirth
import Verif.Spec.Latest
import Verif.Proofs.Latest
import Verif.Props.Latest
import Verif.Props.Told
import Verif.Props.Lives
