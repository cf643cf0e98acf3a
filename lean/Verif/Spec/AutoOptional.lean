import Verif.Spec.Lower
/-
Fields which are optional without saying so. Written down from /repo/fieldx_derive/src/lib.rs 351-378: using `clearer` or `predicate`
"automatically make fields optional unless lazy", and `optional` is "useful when neither predicate nor clearer helpers are needed".
-/
namespace Verif.Spec.AutoOptional
open Verif.Model.Args

/-- A helper is asked for, by the field or else by the struct. -/
def asked (own whole : Option Helper) : Bool := (own.or whole).elim false (fun h => !h.off)

/-- The field should be optional by itself. -/
def automatic (s : StructArgs) (f : FieldArgs) : Bool :=
  !f.skip && !asked f.lazy s.lazy && (asked f.clearer s.clearer || asked f.predicate s.predicate)

/-- `optional` written at the field if it is optional by itself, and nothing is said of it. -/
def marked (s : StructArgs) (f : FieldArgs) : FieldArgs :=
  { f with optional := if automatic s f && f.optional.isNone && s.optional.isNone then some true else f.optional }

end Verif.Spec.AutoOptional
