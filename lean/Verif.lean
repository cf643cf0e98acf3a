import Verif.Spec.Linear
import Verif.Spec.Cell
import Verif.Model.Log
import Verif.Model.RwLock
import Verif.Model.Lazy
import Verif.Model.Sync
import Verif.Model.Async
import Verif.Proof.LogLin
import Verif.Proof.SyncInv
import Verif.Proof.SyncLog
import Verif.Proof.SyncBuild
import Verif.Proof.SyncRuns
import Verif.Proof.SyncGuard
import Verif.Proof.SyncLive
import Verif.Proof.CellLaws
import Verif.Proof.LogThms
import Verif.Proof.AsyncSim
import Verif.Proof.AsyncThms
import Verif.Props.Sync
import Verif.Props.Async
import Verif.Spec.Prec
import Verif.Spec.ArgRead
import Verif.Model.Args
import Verif.Model.Exclusive
import Verif.Model.Emit
import Verif.Proof.Exclusive
import Verif.Props.Args
import Verif.Props.Exclusive
import Verif.Model.Names
import Verif.Model.Tokens
import Verif.Proof.Names
import Verif.Props.Names
import Verif.Props.Tokens
import Verif.Model.Init
import Verif.Spec.InitTy
import Verif.Proof.InitTy
import Verif.Props.Init
import Verif.Model.Builder
import Verif.Proof.BuilderField
import Verif.Proof.Builder
import Verif.Props.Builder
import Verif.Model.Method
import Verif.Spec.MethodTy
import Verif.Spec.Helper
import Verif.Proof.MethodTy
import Verif.Proof.Method
import Verif.Props.MethodTy
import Verif.Proof.MethodLaws
import Verif.Props.Method
import Verif.Spec.Program
import Verif.Props.Program
import Verif.Spec.Borrow
import Verif.Props.Borrow
import Verif.Model.Serde
import Verif.Spec.Serde
import Verif.Proof.Serde
import Verif.Props.Serde
import Verif.Spec.Fields
import Verif.Model.Multi
import Verif.Proof.Multi
import Verif.Proof.Fields
import Verif.Proof.FieldsTerm
import Verif.Props.Multi
import Verif.Props.Fields
import Verif.Model.Rc
import Verif.Proof.Rc
import Verif.Props.Rc
import Verif.Model.Default
import Verif.Props.Default
import Verif.Spec.Signature
import Verif.Props.Signature
import Verif.Spec.Memory
import Verif.Model.Locks
import Verif.Proof.Locks
import Verif.Props.Locks
import Verif.Model.Parse
import Verif.Spec.Grammar
import Verif.Spec.Spelling
import Verif.Spec.Reading
import Verif.Spec.Documented
import Verif.Proof.ParseOrder
import Verif.Proof.ParseIff
import Verif.Proof.ParseGrammar
import Verif.Proof.ParseRound
import Verif.Proof.ParseReading
import Verif.Proof.ParseDocumented
import Verif.Props.Parse
import Verif.Model.Generics
import Verif.Spec.Generics
import Verif.Proof.Generics
import Verif.Props.Generics
import Verif.Model.Structs
import Verif.Spec.Structs
import Verif.Proof.Structs
import Verif.Props.Structs
import Verif.Model.AsyncMulti
import Verif.Proof.AsyncMulti
import Verif.Props.AsyncMulti
import Verif.Proof.AsyncFields
import Verif.Proof.AsyncFieldsTerm
import Verif.Props.AsyncFields
import Verif.Model.Build
import Verif.Spec.BuildTy
import Verif.Props.Build
import Verif.Model.Attrs
import Verif.Spec.Placement
import Verif.Props.Attrs
import Verif.Model.Features
import Verif.Spec.Gated
import Verif.Props.Features
import Verif.Model.Expand
import Verif.Spec.Expansion
import Verif.Proof.Expand
import Verif.Props.Expand
import Verif.Spec.Fallible
import Verif.Model.Fallible
import Verif.Proof.Fallible
import Verif.Proof.FallibleFields
import Verif.Props.Fallible
import Verif.Model.AsyncFallible
import Verif.Proof.AsyncFallible
import Verif.Proof.AsyncFallibleFields
import Verif.Props.AsyncFallible
import Verif.Suite.Run
import Verif.Suite.Sources
import Verif.Suite.Tests
import Verif.Suite.Documents
import Verif.Suite.Refused
import Verif.Props.Mixed
import Verif.Props.Cycles
import Verif.Props.AsyncCycles
import Verif.Props.Weak
import Verif.Model.AsyncLocks
import Verif.Proof.AsyncLocks
import Verif.Proof.AsyncLocksCycle
import Verif.Props.AsyncLocks
import Verif.Model.AsyncMixed
import Verif.Proof.AsyncMixed
import Verif.Proof.AsyncMixedCycle
import Verif.Proof.AsyncMixedQueue
import Verif.Props.AsyncMixed
import Verif.Spec.Lexical
import Verif.Model.Idents
import Verif.Proof.Idents
import Verif.Props.Idents
import Verif.Props.Sound
import Verif.Props.NameClash
import Verif.Spec.Reach
import Verif.Model.Visibility
import Verif.Props.Visibility
import Verif.Spec.Calls
import Verif.Model.Calls
import Verif.Proof.CallsEff
import Verif.Proof.Calls
import Verif.Proof.CallsLive
import Verif.Props.Calls
import Verif.Spec.LockCalls
import Verif.Model.LockCalls
import Verif.Proof.LockCalls
import Verif.Proof.LockCallsLive
import Verif.Props.LockCalls
import Verif.Spec.Cancel
import Verif.Model.AsyncCalls
import Verif.Proof.Cancel
import Verif.Proof.AsyncCallsEff
import Verif.Proof.AsyncCalls
import Verif.Proof.AsyncCallsLive
import Verif.Props.AsyncCalls
import Verif.Model.AsyncLockCalls
import Verif.Proof.AsyncLockCalls
import Verif.Proof.AsyncLockCallsLive
import Verif.Props.AsyncLockCalls
import Verif.Spec.Whole
import Verif.Model.Whole
import Verif.Proof.Weave
import Verif.Proof.Whole
import Verif.Props.Whole
import Verif.Model.Threads
import Verif.Proof.ThreadsField
import Verif.Proof.Threads
import Verif.Props.Threads
import Verif.Model.Conditional
import Verif.Spec.Conditional
import Verif.Proof.Conditional
import Verif.Props.Conditional
import Verif.Model.Tasks
import Verif.Proof.TasksField
import Verif.Proof.Tasks
import Verif.Proof.TasksLive
import Verif.Props.Tasks
import Verif.Spec.SerdeDerive
import Verif.Model.SerdeDerive
import Verif.Props.SerdeDerive
import Verif.Props.Receptive
import Verif.Props.AsyncReceptive
import Verif.Spec.Guards
import Verif.Proof.Guards
import Verif.Props.Guards
import Verif.Spec.Traits
import Verif.Model.Traits
import Verif.Props.Traits
import Verif.Spec.Snapshot
import Verif.Props.Snapshot
import Verif.Model.Context
import Verif.Spec.Context
import Verif.Proof.Context
import Verif.Props.Context
import Verif.Model.Derived
import Verif.Spec.Derived
import Verif.Props.Derived
import Verif.Model.User
import Verif.Spec.User
import Verif.Proof.User
import Verif.Props.User
import Verif.Model.Plain
import Verif.Proof.Plain
import Verif.Props.Plain
import Verif.Model.AuxArgs
import Verif.Spec.AuxArgs
import Verif.Props.AuxArgs
import Verif.Model.FxHelper
import Verif.Spec.FxHelper
import Verif.Proof.FxHelper
import Verif.Props.FxHelper
import Verif.Props.Waits
import Verif.Props.Overtaking
import Verif.Spec.Scope
import Verif.Model.Hygiene
import Verif.Props.Hygiene
import Verif.Spec.Resolve
import Verif.Model.Words
import Verif.Props.Words
import Verif.Model.Captures
import Verif.Props.Captures
import Verif.Spec.Assoc
import Verif.Model.SelfCalls
import Verif.Props.SelfCalls
import Verif.Spec.DefaultMeaning
import Verif.Model.DefaultText
import Verif.Props.DefaultText
import Verif.Spec.Skip
import Verif.Props.Skip
import Verif.Spec.Lower
import Verif.Proof.Lower
import Verif.Props.Lower
import Verif.Spec.LockOnly
import Verif.Proof.LockOnly
import Verif.Props.LockOnly
import Verif.Spec.ModeArg
import Verif.Props.ModeArg
import Verif.Model.ErrorType
import Verif.Spec.ErrorType
import Verif.Props.ErrorType
import Verif.Spec.AutoOptional
import Verif.Props.AutoOptional
import Verif.Spec.IntoArg
import Verif.Props.IntoArg
import Verif.Spec.CloneArg
import Verif.Props.CloneArg
import Verif.Spec.OptIn
import Verif.Props.OptIn
import Verif.Spec.AutoGet
import Verif.Props.AutoGet
import Verif.Axioms
