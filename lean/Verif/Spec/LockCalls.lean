import Verif.Spec.Memory
import Verif.Model.Args
/-!
# What the helpers of lock-protected fields promise when several threads use them (specification)

The calls a user makes on the fields: the generated helpers, the use of guards which helpers returned, cloning and comparing.
Every field is a place of plain memory and every call happens at once (`Verif.Spec.Memory`):
/repo/fieldx_derive/src/lib.rs, sections on `get`, `get_mut`, `reader`, `writer`, `set`, `clearer`, `predicate`, `lock`.
The content of a field is `some v`, or `none` for an optional field without a value. Only the kinds of helpers are taken
from the model.
-/

namespace Verif.Spec.LockCalls
open Verif.Spec Verif.Spec.Memory Verif.Model.Args

/-- Calls of the user. -/
inductive Call (L V : Type) where
  /-- a generated helper of field `i`; `v` is the argument of the setter, the other helpers ignore it. `boom`: code of the
  user which the helper calls is going to panic, the `clone` of the value or the conversion of the argument -/
  | helper (i : L) (k : Kind) (v : V) (boom : Bool)
  /-- look through a guard kept -/
  | deref (i : L)
  /-- overwrite the content through a writing guard kept -/
  | assign (i : L) (o : Option V)
  /-- `clone()` of the field -/
  | clone (i : L)
  /-- comparison of two fields -/
  | eq (i j : L)
deriving DecidableEq, Repr

/-- What a helper returns and leaves behind, the content being `c`. `own`: the accessor returns a copy or a clone. -/
inductive Does {V : Type} (own : Bool) (v : V) (c : Option V) : Kind → Memory.Ret (Option V) → Option V → Prop where
  | value : own = true → Does own v c .accessor (.value c) c
  | guard : own = false → Does own v c .accessor .unit c
  | reader : Does own v c .reader .unit c
  | getMut : Does own v c .accessorMut .unit c
  | writer : Does own v c .writer .unit c
  | set : Does own v c .setter (.value c) (some v)
  | clear : Does own v c .clearer (.value c) none
  | ask : Does own v c .predicate (.bool c.isSome) c

/-- Does the helper panic? The clone of a value does, and so does the conversion of the argument of a setter, if code of
the user does (`boom`). `clones`: the accessor clones. -/
def Panics {V : Type} (clones : Bool) (c : Option V) (k : Kind) (boom : Bool) : Prop :=
  boom = true ∧ ((k = .accessor ∧ clones = true ∧ c ≠ none) ∨ k = .setter)

/-- The guard which a helper gives, `some true` for one which allows writing. -/
def gives (own : Bool) : Kind → Option Bool
  | .accessor => if own then none else some false
  | .reader => some false
  | .accessorMut | .writer => some true
  | _ => none

/-- The other calls, as operations of the memory. -/
inductive Means {L V : Type} : Call L V → Memory.Op L (Option V) → Prop where
  | deref (i) : Means (.deref i) (.deref i)
  | assign (i o) : Means (.assign i o) (.assign i o)
  | clone (i) : Means (.clone i) (.get i)
  | eq (i j) : Means (.eq i j) (.eq i j)

/-- The sequential object. A helper which panics does nothing. -/
inductive CallStep {L V : Type} [DecidableEq L] (own clones : L → Bool) (eqv : Option V → Option V → Bool) :
    (L → Option V) → Call L V → Memory.Ret (Option V) → (L → Option V) → Prop where
  | helper {σ i k v b r c} : ¬ Panics (clones i) (σ i) k b → Does (own i) v (σ i) k r c →
      CallStep own clones eqv σ (.helper i k v b) r (write σ i c)
  | panics {σ i k v b} : Panics (clones i) (σ i) k b → CallStep own clones eqv σ (.helper i k v b) .panicked σ
  | other {σ call op r σ'} : Means call op → Memory.Step eqv σ op r σ' → CallStep own clones eqv σ call r σ'

end Verif.Spec.LockCalls
