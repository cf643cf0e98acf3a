import Verif.Model.Features
/-
What the features of fieldx provide: /repo/fieldx/src/lib.rs 479-483 (modules `sync` and `r#async` exist with the features
of that name) and /repo/README.md 266-276 ("Support for sync-safe mode of operation", "Support for async mode of
operation"); which crates besides fieldx a user's crate depends on is given.
-/
namespace Verif.Spec.Gated
open Verif.Model.Features Verif.Model.Args

/-- The crate in which the macro is used: features of fieldx, and its own dependencies. -/
structure Site where
  feat       : Features
  parkingLot : Bool
  tokio      : Bool
deriving DecidableEq

/-- Does the path exist there? -/
def Resolves (s : Site) : Path → Prop
  | .fxSync => s.feat.sync = true
  | .fxAsync => s.feat.async = true
  | .parkingLot => s.parkingLot = true
  | .tokio => s.tokio = true

/-- Does the module of fieldx exist with the features? (Paths of other crates do not count.) -/
def Provided (F : Features) : Path → Prop
  | .fxSync => F.sync = true
  | .fxAsync => F.async = true
  | .parkingLot | .tokio => True

/-- The field is kept in a container of fieldx that waits: one of the locks or lazy containers of README 411-417. A
skipped field has none of its own, but its default is wrapped all the same. -/
def Contained (lazy locked skipped hasDefault : Bool) : Prop :=
  (skipped = false ∧ (lazy = true ∨ locked = true)) ∨ (skipped = true ∧ hasDefault = true ∧ locked = true)

/-- Some helper returns a guard of the lock crate: readers; writers of fields that are not lazy (the others return fieldx's
own guard); accessors that are not by value, and `get_mut`, of fields in a container. -/
def Guarded (emits : Kind → Bool) (lazy locked byValue : Bool) : Prop :=
  emits .reader = true ∨ (emits .writer = true ∧ lazy = false) ∨
  (emits .accessor = true ∧ byValue = false ∧ (lazy = true ∨ locked = true)) ∨
  (emits .accessorMut = true ∧ (lazy = true ∨ locked = true))

/-- Concurrency is asked for by the keywords `sync` and `r#async` only. -/
def KeywordsOnly (mode : Option SyncMode) (lock : Option Bool) (reader writer : Option Helper) : Prop :=
  mode = none ∧ lock = none ∧ reader = none ∧ writer = none

end Verif.Spec.Gated
