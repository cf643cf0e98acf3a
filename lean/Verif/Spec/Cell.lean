import Verif.Spec.Linear
/-!
# The sequential specification of a lazy field

An optional cell with build-on-read.  This is what the documentation promises about a lazy field
(/repo/fieldx_derive/src/lib.rs, sections on `lazy`, `clearer`, `predicate`, `set`, `get_mut`, `writer`); it does not
refer to the implementation.
-/

namespace Verif.Spec

/-- What a run of the user's builder method ends with. -/
inductive Outcome (V E : Type) where
  | ok (v : V)
  | err (e : E)
  | panic
deriving DecidableEq, Repr

/-- The value a finished builder run contributes to the field. -/
def Outcome.value? {V E : Type} : Outcome V E → Option V
  | .ok v => some v
  | _ => none

/-- The five entry points that initialise on demand. -/
inductive GetKind where
  | read | readMut | tryRead | tryReadMut | lazyInit
deriving DecidableEq, Repr

/-- Does the call leave the caller with exclusive access? -/
def GetKind.mutable : GetKind → Bool
  | .readMut | .tryReadMut => true
  | _ => false

/-- Calls on a lazy field, as seen by the user. -/
inductive Op (V : Type) where
  /-- accessor, `get_mut` accessor, their fallible forms, and initialisation without access -/
  | get (k : GetKind)
  /-- the generated setter -/
  | set (v : V)
  /-- the generated clearer -/
  | clear
  /-- the generated predicate -/
  | isSet
  /-- `clone`, comparison, debug printing: look at the content and at the predicate -/
  | snapshot
  /-- the generated writer: obtain the write guard -/
  | writer
  /-- `store` on the write guard -/
  | store (v : V)
  /-- `clear` on the write guard -/
  | take
  /-- dereference the guard which call `g` returned -/
  | deref (g : CallId)
  /-- overwrite the value through the mutable guard which call `g` returned -/
  | assign (g : CallId) (v : V)
deriving DecidableEq, Repr

/-- What the caller gets. -/
inductive Ret (V E : Type) where
  | value (v : V)
  | error (e : E)
  | panicked
  | unit
  | old (o : Option V)
  | bool (b : Bool)
  | snap (o : Option V) (b : Bool)
deriving DecidableEq, Repr

/-- Result of a call: the builder run it made, if any, and what the caller got. -/
structure Res (V E : Type) where
  ran : Option (Outcome V E)
  ret : Ret V E
deriving DecidableEq, Repr

/-- What each entry point answers when the field content or the builder run is `o`: the fallible ones hand over the
error, the others panic on it, initialisation without access discards it. -/
def getRet {V E : Type} : GetKind → Outcome V E → Ret V E
  | .lazyInit, .ok _     => .unit
  | _,         .ok v     => .value v
  | .tryRead,    .err e  => .error e
  | .tryReadMut, .err e  => .error e
  | .lazyInit,   .err _  => .unit
  | _,           .err _  => .panicked
  | _,           .panic  => .panicked

/-- The sequential object: an optional cell. `CellStep c op r c'`: with content `c`, the call `op` may give `r` and leave
content `c'`. -/
inductive CellStep {V E : Type} : Option V → Op V → Res V E → Option V → Prop where
  /-- present: no builder run -/
  | hit (k v)      : CellStep (some v) (.get k) ⟨none, getRet k (.ok v)⟩ (some v)
  /-- absent: exactly one builder run; its value, if any, stays -/
  | build (k o)    : CellStep none (.get k) ⟨some o, getRet k o⟩ o.value?
  | set (c v)      : CellStep c (.set v) ⟨none, .old c⟩ (some v)
  | clear (c)      : CellStep c .clear ⟨none, .old c⟩ none
  | isSet (c)      : CellStep c .isSet ⟨none, .bool c.isSome⟩ c
  | snapshot (c)   : CellStep c .snapshot ⟨none, .snap c c.isSome⟩ c
  | writer (c)     : CellStep c .writer ⟨none, .unit⟩ c
  | store (c v)    : CellStep c (.store v) ⟨none, .old c⟩ (some v)
  | take (c)       : CellStep c .take ⟨none, .old c⟩ none
  | deref (g v)    : CellStep (some v) (.deref g) ⟨none, .value v⟩ (some v)
  | assign (g v w) : CellStep (some w) (.assign g v) ⟨none, .value w⟩ (some v)

/-- Values which a call puts into the cell. -/
def entered {V E : Type} (d : Done (Op V) (Res V E)) : List V :=
  match d.op, d.ret.ran with
  | .get _, some (.ok v) => [v]
  | .set v, _ => [v]
  | .store v, _ => [v]
  | .assign _ v, _ => [v]
  | _, _ => []

/-- Values which a call hands out of the cell (moved to the caller, no longer in the cell). -/
def handedOut {V E : Type} (d : Done (Op V) (Res V E)) : List V :=
  match d.op, d.ret.ret with
  | .set _, .old (some v) => [v]
  | .store _, .old (some v) => [v]
  | .clear, .old (some v) => [v]
  | .take, .old (some v) => [v]
  | .assign _ _, .value v => [v]
  | _, _ => []

end Verif.Spec
