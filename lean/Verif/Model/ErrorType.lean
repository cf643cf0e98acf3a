import Verif.Model.Init
/-
Model of the error type of a fallible field.
-/
namespace Verif.Model.ErrorType
open Verif.Model.Args

/-- fieldx_derive/src/ctx/field.rs 449-462 `fallible_error`, without its error: that of the field (fieldx_derive/src/fields.rs 391-394),
or that of the struct (fieldx_derive/src/util/args.rs 293-296). The path stands for its text. -/
def errorType (x : FCtx) : Option String := (x.field.fallible.bind (·.error)).or (x.ctx.args.fallible.bind (·.error))

/-- The error type in the result of an accessor and in the builder wrapper of the field, where there is one: fieldx_derive/src/codegen/
codegen_trait.rs 554-568 `fallible_return_type`, fieldx_derive/src/codegen/sync.rs 144-163 `builder_wrapper_type`. -/
def writtenError (x : FCtx) : Option String := if x.isFallible then errorType x else none

end Verif.Model.ErrorType
