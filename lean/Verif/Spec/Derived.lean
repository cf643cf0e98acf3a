import Verif.Spec.Traits
import Verif.Model.Derived
/-
When cloning, printing and comparing objects stops, by what the fields were asked to be.
-/
namespace Verif.Spec.Derived
open Verif.Model.Args Verif.Model.Derived Verif.Spec.Traits

/-- The lock of the field is taken: guarded fields are locked to be copied or compared, and lazy ones to be printed as well. -/
def Locks (x : FCtx) (op : Act) : Prop := wrap x = .guarded ∧ (op = .debug → x.isLazy = true)

/-- The call waits for others: for a lock which is held for writing, if the call may wait here. -/
def Waits (rt : Bool) (op : Act) (x : FCtx) (g : Alive) : Prop :=
  Locks x op ∧ ¬ (x.isAsync = true ∧ rt = true) ∧ g = .exclusive

/-- The call panics: for any async lock in async code, or for a cell borrowed for writing. -/
def Panics (rt : Bool) (op : Act) (x : FCtx) (g : Alive) : Prop :=
  (Locks x op ∧ x.isAsync = true ∧ rt = true) ∨
    (wrap x = .celled ∧ x.isLazy = false ∧ op ≠ .debug ∧ g = .exclusive)

/-- Nothing is in the way at this field. -/
def Clear (rt : Bool) (op : Act) (x : FCtx) (g : Alive) : Prop := ¬ Waits rt op x g ∧ ¬ Panics rt op x g

/-- How a call stops here. -/
def Stops (rt : Bool) (op : Act) (x : FCtx) (g : Alive) : Stop → Prop
  | .waits => Waits rt op x g
  | .panics => Panics rt op x g

end Verif.Spec.Derived
