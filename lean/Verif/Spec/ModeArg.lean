import Verif.Spec.Lower
/-
The argument `mode` of a struct. Written down from /repo/fieldx_derive/src/lib.rs 127-154: `mode` is "another way to specify the
default concurrency mode for struct", by one of the keywords `sync`, `async`, `plain`; the first two exist as arguments `sync` and
`r#async` too, and `plain` is "an explicit marker".
-/
namespace Verif.Spec.ModeArg
open Verif.Model.Args

/-- The struct says nothing of its mode by these three arguments. -/
def Silent (s : StructArgs) : Prop := s.modeSync = none ∧ s.modeAsync = none ∧ s.mode = none

/-- With `mode(m)`. -/
def byMode (s : StructArgs) (m : SyncMode) : StructArgs := { s with mode := some m }

/-- With the keyword, or without any for `plain`. -/
def byKeyword (s : StructArgs) : SyncMode → StructArgs
  | .sync => { s with modeSync := some true }
  | .async => { s with modeAsync := some true }
  | .plain => s

end Verif.Spec.ModeArg
