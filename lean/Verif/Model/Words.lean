import Verif.Model.Expand
import Verif.Spec.Resolve
/-
The names which generated code writes without a path.

Sources: /repo/fieldx_derive/src/codegen.rs 282-306 (`impl Default`), 346-349 (`None`), 409-420 (`Ok` in `build`), 489-501
(`?Sized + Copy`), 504-515 (`use ::fieldx::traits::*` and `impl FXStruct`); /repo/fieldx_derive/src/codegen/serde.rs 236-252
(derives); /repo/fieldx_derive/src/codegen/plain.rs 103, 166 (`Ok`), 266 (`Some`), 338-357 (`bool`);
/repo/fieldx_derive/src/codegen/sync.rs 252 (`Ok`), 613-640 (`bool`); /repo/fieldx_derive/src/codegen/sync/impl_async.rs 42
(`Send`); /repo/fieldx_derive/src/ctx/field.rs 473-480 (`Ok`).

All other items are named by paths from the root, `::std::..` and `::fieldx::..`.

Simplifications: names of the user's own, such as types, the error type and defaults, are not counted, nor are names of methods,
built-in attributes, type parameters, and items which the macro itself makes.
-/
namespace Verif.Model.Words
open Verif.Model.Args Verif.Model.Init Verif.Model.Expand Verif.Spec.Resolve

/-- Words of a step of a body: ctx/field.rs 475, plain.rs 166, 266. -/
def opWords : Method.MOp → List Word
  | .okWrap => [⟨.value, "Ok"⟩]
  | .replaceSomeV => [⟨.value, "Some"⟩]
  | _ => []

/-- Words of a method; of the return types only `bool` is written without a path: plain.rs 341, 356, sync.rs 616, 629, 638. -/
def bodyWords (b : Method.Body) : List Word :=
  (if b.ret = .bool then [⟨.type, "bool"⟩] else []) ++ (b.pre.getD [] ++ b.main).flatMap opWords

/-- serde.rs 236-252 `serde_derive_traits`. -/
def deriveWords (s : StructArgs) : List Word :=
  (if s.needsSerialize then [⟨.mac, "Serialize"⟩] else []) ++ (if s.needsDeserialize then [⟨.mac, "Deserialize"⟩] else [])

/-- Words of a piece. -/
def pieceWords (c : Ctx) : Piece → List Word
  | .method n k => (c.allFields.filter fun f => f.ident == n).flatMap fun f =>
      match Method.body ⟨c, f⟩ k with
      | .ok b => bodyWords b
      | _ => []
  /- impl_async.rs 42 -/
  | .wrapper _ => [⟨.type, "Send"⟩]
  /- codegen.rs 495 -/
  | .copy _ => [⟨.type, "Sized"⟩, ⟨.type, "Copy"⟩]
  /- codegen.rs 349 -/
  | .slot _ => [⟨.value, "None"⟩]
  /- codegen.rs 294 -/
  | .defaultImpl => [⟨.type, "Default"⟩]
  /- codegen.rs 418 -/
  | .builderStruct => [⟨.value, "Ok"⟩]
  /- the shadow derives what the struct does: serde.rs 300-305, 443-449 -/
  | .shadowStruct => deriveWords c.args
  | _ => []

/-- Words of the whole expansion; codegen.rs 515. -/
def words (c : Ctx) (out : List Piece) : List Word := ⟨.type, "FXStruct"⟩ :: out.flatMap (pieceWords c)

/-- codegen.rs 504-505 with fieldx/src/traits.rs: of the traits imported only `FXStruct` is named. -/
def glob : Scope := fun w => if w = ⟨.type, "FXStruct"⟩ then some "::fieldx::traits::FXStruct" else none

end Verif.Model.Words
