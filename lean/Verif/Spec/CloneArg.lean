import Verif.Spec.Lower
/-
The arguments `clone` and `copy`. Written down from /repo/fieldx_derive/src/lib.rs 382-384: "Specify defaults for accessor helpers", which
have sub-arguments of these names (257-262).
-/
namespace Verif.Spec.CloneArg
open Verif.Model.Args

/-- At most one of `clone` and `copy`, as a keyword. -/
def Said (clone copy : Option Bool) : Prop :=
  clone = none ∧ copy = none ∨ clone = some true ∧ copy = none ∨ clone = none ∧ copy = some true

/-- `get` with the keywords inside, unless it says itself how to return the value. -/
def withMode (clone copy : Option Bool) (h : Accessor) : Accessor :=
  if h.clone || h.copy || h.asRef then h else { h with clone := clone.isSome, copy := copy.isSome }

/-- The field with `clone` or `copy` written in `get` instead. -/
def spreadField (f : FieldArgs) : FieldArgs :=
  { f with clone := none, copy := none, accessor := f.accessor.map (withMode f.clone f.copy) }

/-- The struct with `clone` or `copy` written in `get` instead. -/
def spreadStruct (s : StructArgs) : StructArgs :=
  { s with clone := none, copy := none, accessor := s.accessor.map (withMode s.clone s.copy) }

/-- A field with one of the keywords has `get` too. -/
def Complete (f : FieldArgs) : Prop := Said f.clone f.copy ∧ (f.clone ≠ none ∨ f.copy ≠ none → f.accessor ≠ none)

/-- The same of a struct. -/
def CompleteStruct (s : StructArgs) : Prop := Said s.clone s.copy ∧ (s.clone ≠ none ∨ s.copy ≠ none → s.accessor ≠ none)

end Verif.Spec.CloneArg
