import Verif.Spec.Linear
/-!
# Instrumented logs

The concurrent models record what happens in a log: calls beginning and returning, the moment a call takes effect, and
further events. The user-visible history is the log without the latter two.
This is bookkeeping of the model and has no counterpart in /repo.
-/

namespace Verif.Model
open Verif.Spec

/-- Events of an instrumented execution. -/
inductive LEv (Op R X : Type) where
  | inv (i : CallId) (op : Op)
  | lin (i : CallId) (op : Op) (r : R)
  | res (i : CallId) (r : R)
  /-- the call was abandoned before it took effect -/
  | cancel (i : CallId)
  | other (x : X)
deriving DecidableEq, Repr

/-- The history a user sees: invocations and responses. -/
def hist {Op R X : Type} (l : List (LEv Op R X)) : List (HEv Op R) :=
  l.filterMap fun
    | .inv i op => some (.inv i op)
    | .res i r => some (.res i r)
    | _ => none

/-- The linearized sequential history. -/
def lins {Op R X : Type} (l : List (LEv Op R X)) : List (Done Op R) :=
  l.filterMap fun
    | .lin i op r => some ⟨i, op, r⟩
    | _ => none

/-- Table update. -/
def upd {A B : Type} [DecidableEq A] (t : A → B) (i : A) (b : B) : A → B := fun j => if j = i then b else t j

end Verif.Model
