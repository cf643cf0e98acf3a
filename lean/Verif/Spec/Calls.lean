import Verif.Spec.Cell
import Verif.Model.Args
/-!
# What the helpers of a lazy field promise when several threads use them (specification)

The calls a user makes on a lazy field: the generated helpers, and the use of a guard which a helper returned. Every one
is a single operation of the optional cell with build-on-read (`CellStep`): /repo/fieldx_derive/src/lib.rs, sections on
`get`, `get_mut`, `reader`, `writer`, `set`, `clearer`, `predicate`, `fallible`. Only the kinds of helpers are taken from
the model.
-/

namespace Verif.Spec.Calls
open Verif.Spec Verif.Model.Args

/-- Calls of the user. -/
inductive Call (V : Type) where
  /-- a generated helper; `v` is the argument of the setter, the other helpers ignore it. `boom`: code of the user which
  the helper calls is going to panic, the `clone` of the value or the conversion of the argument -/
  | helper (k : Kind) (v : V) (boom : Bool)
  /-- look at the value through the guard kept -/
  | deref
  /-- overwrite the value through the guard of `get_mut` -/
  | assign (v : V)
  /-- `store` and `clear` on the guard of the writer -/
  | store (v : V)
  | take
deriving DecidableEq, Repr

/-- The operation of the cell which a helper performs. -/
def helperOp {V : Type} (fallible : Bool) (v : V) : Kind → Option (Op V)
  | .accessor | .reader => some (.get (if fallible then .tryRead else .read))
  | .accessorMut => some (.get (if fallible then .tryReadMut else .readMut))
  | .writer => some .writer
  | .setter => some (.set v)
  | .clearer => some .clear
  | .predicate => some .isSet
  | .builder | .lazy => none

/-- The operation of the cell which a call performs. -/
inductive Means {V : Type} (fallible : Bool) : Call V → Op V → Prop where
  | helper {k v b op} : helperOp fallible v k = some op → Means fallible (.helper k v b) op
  | deref (g) : Means fallible .deref (.deref g)
  | assign (g v) : Means fallible (.assign v) (.assign g v)
  | store (v) : Means fallible (.store v) (.store v)
  | take : Means fallible .take .take

/-- No code of the user panics in this call with this result. `cloning`: the accessor returns a clone. -/
def Calm {V E : Type} (cloning : Bool) : Call V → Res V E → Prop
  | .helper .accessor _ true, r => cloning = true → ∀ v, r.ret ≠ .value v
  | .helper .setter _ true, _ => False
  | _, _ => True

/-- The sequential object. Code of the user which a helper calls may panic: the `clone` of an accessor, which is over what
the access did to the cell, and the conversion of the argument of a setter, in which case nothing happens to the cell. -/
inductive CallStep {V E : Type} (fallible cloning : Bool) : Option V → Call V → Res V E → Option V → Prop where
  | plain {c call op r c'} : Means fallible call op → Calm cloning call r → CellStep c op r c' →
      CallStep fallible cloning c call r c'
  | clonePanics {c v op ran w c'} : cloning = true → helperOp fallible v .accessor = some op →
      CellStep c op ⟨ran, .value w⟩ c' → CallStep fallible cloning c (.helper .accessor v true) ⟨ran, .panicked⟩ c'
  | intoPanics {c v} : CallStep fallible cloning c (.helper .setter v true) ⟨none, .panicked⟩ c

end Verif.Spec.Calls
