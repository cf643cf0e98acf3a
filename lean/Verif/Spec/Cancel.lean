import Verif.Model.Log
/-!
# Calls which were never made (specification)

Dropping a future before it is ready promises that, but for the guards the task keeps from earlier calls, everything is as
if the call had not been made. Only the shape of logs is taken from the model.
-/

namespace Verif.Spec
open Verif.Model

/-- The history without the calls of `gone`. -/
def without {Op R : Type} (gone : List CallId) (h : List (HEv Op R)) : List (HEv Op R) :=
  h.filter fun e => !gone.contains e.key.1

/-- The calls which were abandoned. -/
def abandoned {Op R X : Type} (l : List (LEv Op R X)) : List CallId :=
  l.filterMap fun
    | .cancel i => some i
    | _ => none

end Verif.Spec
