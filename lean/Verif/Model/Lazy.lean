import Verif.Spec.Cell
import Verif.Model.Log
/-!
# Names shared by the models of the sync and the async lazy container
-/

namespace Verif.Model
open Verif.Spec

/-- Calls which take the lock exclusively: `write()` (/repo/fieldx/src/sync/fxproxy.rs 204-206, async/fxproxy.rs 212-214),
and the generated setter (`self.f.write().store(v)`, /repo/fieldx_derive/src/codegen/sync.rs 523-528, target `some v`) and
clearer (`clear()`, sync/fxproxy.rs 214-217, async/fxproxy.rs 222-225, target `none`). -/
inductive XKind (V : Type) where
  | writer
  | put (t : Option V)
deriving DecidableEq, Repr

/-- The user-level call behind an exclusive section. -/
def XKind.op {V : Type} : XKind V → Op V
  | .writer => .writer
  | .put (some v) => .set v
  | .put none => .clear

/-- The user-level call behind an update through the write guard: `store` (sync/fxproxy.rs 232-235, async/fxproxy.rs
240-243) or `clear` (238-240, 246-248). -/
def guardOp {V : Type} : Option V → Op V
  | some v => .store v
  | none => .take

/-- Further events: builder runs and the end of a guard. -/
inductive BEv (V E : Type) where
  | bstart (i : CallId)
  | bend (i : CallId) (o : Outcome V E)
  /-- the running builder was dropped together with the call (async only) -/
  | abort (i : CallId)
  | drop (g : CallId)
deriving DecidableEq, Repr

/-- Log event. -/
abbrev Ev (V E : Type) := LEv (Op V) (Res V E) (BEv V E)

/-- The builder events of call `i`, in order. -/
def builderEvents {V E : Type} (i : CallId) (l : List (Ev V E)) : List (BEv V E) :=
  l.filterMap fun
    | .other (.bstart j) => if j = i then some (.bstart j) else none
    | .other (.bend j o) => if j = i then some (.bend j o) else none
    | .other (.abort j) => if j = i then some (.abort j) else none
    | _ => none

end Verif.Model
