import Verif.Model.User
import Verif.Spec.InitTy
/-
Which code of the user a helper calls, and with which guards, by what the field was asked to be.
-/
namespace Verif.Spec.User
open Verif.Model.Args Verif.Model.Init Verif.Model.Method Verif.Model.User Verif.Spec.InitTy
open Verif.Spec (Outcome)

/-- The field is behind a lock. -/
def locked (x : FCtx) : Bool := x.isSync && (x.isLazy || x.needsLock)

/-- The accessor clones. -/
def clones (x : FCtx) : Bool := if x.isSync then x.isClone && !x.isCopy else x.accessorMode == .clone

/-- The builder is called: the field is lazy and empty. -/
def builds {V : Type} (x : FCtx) (content : Option V) : Bool := x.isLazy && content.isNone

/-- There is something to clone in the end. -/
def filled {V E : Type} (x : FCtx) (content : Option V) (bld : Outcome V E) : Bool :=
  content.isSome || (x.isLazy && match bld with | .ok _ => true | _ => false)

/-- The user's code a helper calls. -/
def expected {V E : Type} (x : FCtx) (k : Kind) (content : Option V) (bld : Outcome V E) : List Code :=
  match k with
  | .setter => if x.isSetterInto then [.convert] else []
  | .accessor =>
    (if builds x content then [.build] else []) ++ (if clones x && filled x content bld then [.clone] else [])
  | .reader | .accessorMut => if builds x content then [.build] else []
  | _ => []

/-- Guards of the field while the user's code runs: builders and conversions run under the write lock if there is one, `clone` under a
shared guard. -/
def guards (x : FCtx) : Code → Nat × Bool
  | .build | .convert => (0, locked x)
  | .clone => (if locked x || (!x.isSync && !x.isLazy && x.isInnerMut) then 1 else 0, false)

end Verif.Spec.User
