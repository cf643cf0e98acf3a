import Verif.Spec.Lower
/-
An error type for the whole struct. Written down from /repo/fieldx_derive/src/lib.rs 166-171 and 505-516: "`fallible(off, error(MyError))`
simply sets default error type for all fallible lazy fields".
-/
namespace Verif.Spec.ErrorType
open Verif.Model.Args

/-- `fallible(off, error(e))` of the struct. -/
def common (s : StructArgs) (e : String) : StructArgs := { s with fallible := some { off := true, error := some e } }

/-- `fallible` of a field which has no error type, with this one. -/
def own (e : String) : Option Fallible → Option Fallible
  | some ⟨false, none⟩ => some ⟨false, some e⟩
  | h => h

/-- The field with the error type written at it, if it is fallible and has none. -/
def apart (e : String) (f : FieldArgs) : FieldArgs := { f with fallible := own e f.fallible }

/-- The error type a field names itself. -/
def named (f : FieldArgs) : Option String := f.fallible.bind (·.error)

end Verif.Spec.ErrorType
