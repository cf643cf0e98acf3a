import Verif.Spec.AutoOptional
/-
Fields which have an accessor without saying so. For lazy fields written down from the example /repo/README.md 12-41, where they are read by
accessors nobody asked for; for `clearer`, `predicate` and `inner_mut` the documentation is silent, and the rule is that of
/repo/fieldx_derive/src/ctx/field.rs 105-111. /repo/fieldx_derive/src/lib.rs 255: `get` is "for all fields, unless a field is marked otherwise".
-/
namespace Verif.Spec.AutoGet
open Verif.Model.Args Verif.Spec.AutoOptional

/-- The field has an accessor by itself. -/
def unasked (s : StructArgs) (f : FieldArgs) : Bool :=
  asked f.clearer s.clearer || asked f.predicate s.predicate || (!f.skip && asked f.lazy s.lazy) || (f.innerMut.or s.innerMut).getD false

/-- `get`, or `get(off)`, written at the field if nothing is said of it. -/
def spelled (s : StructArgs) (f : FieldArgs) : FieldArgs :=
  { f with accessor := f.accessor.or (if s.accessor.isNone then some { off := !unasked s f } else none) }

end Verif.Spec.AutoGet
