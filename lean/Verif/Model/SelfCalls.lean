import Verif.Model.Names
import Verif.Model.Expand
import Verif.Spec.Assoc
/-
The calls of `Self::default()` in generated code.

Sources: /repo/fieldx_derive/src/codegen.rs 226-251 (`struct_extras`: `..Self::default()` in `new`), 282-306 (`default_impl`);
/repo/fieldx_derive/src/codegen/serde.rs 371-384 (`.. Self::default()` in the conversion from the shadow).

The code of `build` has `::std::default::Default::default()` instead (codegen.rs 376).

Simplification: functions which the macro makes for serde defaults are left out; their names begin with two underscores
(ctx/field.rs 374-379, ctx/codegen.rs 374-384).
-/
namespace Verif.Model.SelfCalls
open Verif.Model.Args Verif.Model.Names Verif.Model.Expand Verif.Spec.Assoc

/-- Does the piece call `Self::default()`? -/
def callsDefault (c : Ctx) : Piece → Bool
  /- codegen.rs 242 -/
  | .newFn => true
  /- serde.rs 371-376 -/
  | .fromImpl => c.needsDefault
  | _ => false

/-- What `Self::default` leads to in the struct's code: `user` are the functions the user gives the struct besides. -/
def selfDefault (c : Ctx) (user : List String) : Option Target :=
  assoc (user ++ structMethods c) [("default", "::std::default::Default")] "default"

end Verif.Model.SelfCalls
