import Verif.Model.Method
/-
What a helper waits for while guards are alive on its field, said by kind of field and helper.
-/
namespace Verif.Spec.Guards
open Verif.Model.Args Verif.Model.Method

/-- What a call needs of the lock of its field before it can go on. -/
inductive Need
  | nothing
  /-- that nobody keeps an exclusive guard -/
  | shared
  /-- that nobody keeps any guard -/
  | alone
deriving DecidableEq, Repr

/-- Lazy fields in a proxy. The predicate looks at a flag; reading shares the lock if the value is there, except that async
proxies take the write lock for every read; everything else is exclusive. -/
def lazyNeed (async set : Bool) : Kind → Need
  | .predicate => .nothing
  | .accessor | .reader => if async || !set then .alone else .shared
  | _ => .alone

/-- Fields in a lock of their own. `tries`: the predicate uses `try_read()`. -/
def lockNeed (tries : Bool) : Kind → Need
  | .predicate => if tries then .nothing else .shared
  | .accessor | .reader => .shared
  | _ => .alone

/-- What a helper of a sync or async field needs. -/
def need (lazy locked async fallible set : Bool) (k : Kind) : Need :=
  if lazy then lazyNeed async set k else if locked then lockNeed fallible k else .nothing

/-- Is one of the guards alive on the field in the way? -/
def inTheWay {V : Type} (f : Field V) : Need → Bool
  | .nothing => false
  | .shared => f.wr
  | .alone => f.wr || f.rd != 0

/-- The same field with no guard alive. -/
def alone {V : Type} (f : Field V) : Field V := { val := f.val }

/-- A result, with the guards which were alive on the field before the call added to those the call leaves. -/
def beside {V E : Type} (f : Field V) (r : Got V E × Field V × Option (Verif.Spec.Outcome V E)) :
    Got V E × Field V × Option (Verif.Spec.Outcome V E) :=
  (r.1, { val := r.2.1.val, rd := f.rd + r.2.1.rd, wr := f.wr || r.2.1.wr }, r.2.2)

end Verif.Spec.Guards
