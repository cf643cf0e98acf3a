import Verif.Spec.Lower
/-
The argument `opt_in` of `builder`. Written down from /repo/fieldx_derive/src/lib.rs 212: "with it only fields with explicit `builder` can be
set by builder", and from /repo/fieldx_derive/src/ctx/codegen.rs 258-275, where a field with `builder` in a struct without is taken as `opt_in`.
-/
namespace Verif.Spec.OptIn
open Verif.Model.Args

/-- The struct says `builder(opt_in, …)`. -/
def OptsIn (s : StructArgs) : Prop := ∃ b, s.builder = some b ∧ b.optIn = some true

/-- The struct without `opt_in`. -/
def plainStruct (s : StructArgs) : StructArgs := { s with builder := s.builder.map fun b => { b with optIn := none } }

/-- The field with `builder(off)` if it says nothing of `builder`. -/
def markField (f : FieldArgs) : FieldArgs := { f with builder := f.builder.or (some { off := true }) }

/-- The struct with `builder(opt_in)`. -/
def optingIn (s : StructArgs) : StructArgs := { s with builder := some { optIn := some true } }

/-- The field says `builder`, not switched off or with the name of the setter (for the latter see C20). -/
def Explicit (f : FieldArgs) : Prop := ∃ b, f.builder = some b ∧ (b.off = false ∨ b.name.isSome)

end Verif.Spec.OptIn
