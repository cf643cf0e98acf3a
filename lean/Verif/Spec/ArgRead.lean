import Verif.Model.Args
/-
Reading the argument records: which helper argument stands for which kind of method. Used by specifications; the model
has its own look-up functions (`getHelper`), which the specifications do not call.
-/
namespace Verif.Spec.ArgRead
open Verif.Model.Args

/-- The helper argument of a field, by kind, read off the record. -/
def fieldArg (f : FieldArgs) : Kind → Option Helper
  | .accessor => f.accessor.map Accessor.toHelper
  | .accessorMut => f.accessorMut
  | .builder => f.builder.map Builder.toHelper
  | .clearer => f.clearer
  | .lazy => f.lazy
  | .predicate => f.predicate
  | .reader => f.reader
  | .setter => f.setter.map Setter.toHelper
  | .writer => f.writer

/-- The helper argument of a struct, by kind, read off the record. -/
def structRaw (s : StructArgs) : Kind → Option Helper
  | .accessor => s.accessor.map Accessor.toHelper
  | .accessorMut => s.accessorMut
  | .builder => s.builder.map Builder.toHelper
  | .clearer => s.clearer
  | .lazy => s.lazy
  | .predicate => s.predicate
  | .reader => s.reader
  | .setter => s.setter.map Setter.toHelper
  | .writer => s.writer

/-- The base of generated names: the explicit one, or the identifier. -/
def base (f : FieldArgs) : String := f.baseName.getD f.ident

theorem getHelper_field : FieldArgs.getHelper = fieldArg := by
  funext f k; cases k <;> rfl

theorem getHelper_struct : StructArgs.getHelper = structRaw := by
  funext f k; cases k <;> rfl

end Verif.Spec.ArgRead
