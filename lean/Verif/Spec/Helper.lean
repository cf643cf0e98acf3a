import Verif.Model.Method
import Verif.Spec.InitTy
/-
What is observed of a field through the results of its helpers.
-/
namespace Verif.Spec.Helper
open Verif.Model.Init Verif.Model.Method Verif.Spec.InitTy

/-- The user's value reached through a result: a value, a reference, a guard, an optional reference. -/
def seen {V E : Type} (f : Field V) : CV V E → Option V
  | .own a => content a
  | .place d | .guard _ d => (sub d f.val).bind content
  | .optPlace o => o.bind (fun d => (sub d f.val).bind content)
  | .ok a => seen f a
  | _ => none

/-- Overwriting the user's value through a mutable reference or guard: `*r = v` if it refers to a `T`, `*r = Some(v)` if it
refers to an `Option<T>`. -/
def overwrite {V E : Type} (f : Field V) (v : V) : CV V E → Field V
  | .place d | .guard true d =>
    match sub d f.val with
    | some (.val _) => { f with val := put (.val v) d f.val }
    | some _ => { f with val := put (.some (.val v)) d f.val }
    | none => f
  | .ok a => overwrite f v a
  | _ => f

/-- Nobody keeps a guard on the field. -/
def Free {V : Type} (f : Field V) : Prop := f.rd = 0 ∧ f.wr = false

/-- Is the result an exclusive guard (`true`), a shared one (`false`), or none. -/
def keptGuard {V E : Type} : CV V E → Option Bool
  | .guard ex _ => some ex
  | .optGuard (some (ex, _)) => some ex
  | .ok a => keptGuard a
  | _ => none

/-- After the result has been dropped. -/
def dropped {V E : Type} (f : Field V) (a : CV V E) : Field V :=
  match keptGuard a with
  | none => f
  | some true => { f with wr := false }
  | some false => { f with rd := f.rd - 1 }

end Verif.Spec.Helper
