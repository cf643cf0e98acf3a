import Verif.Model.Expand
import Verif.Spec.SerdeDerive
/-
The derives and `#[serde(..)]` attributes fieldx writes on the struct, on the shadow struct, and on the fields of the
shadow.

Sources: /repo/fieldx_derive/src/codegen/serde.rs 31-118, 225-336, 443-534; /repo/fieldx_derive/src/util.rs 8-15.

Simplifications: an argument stands for its tokens: `from`, `into` name the shadow (263, 268), `dfltFn` the function made for
the default.
-/
namespace Verif.Model.SerdeDerive
open Verif.Model.Args Verif.Model.Serde Verif.Spec.SerdeDerive

/-- serde.rs 225-243 `serde_derive_traits`. -/
def traits (s : StructArgs) : List Tr :=
  if s.isSerde then
    (if (s.serde.bind (·.needsSerialize)).getD true then [.ser] else []) ++
      (if (s.serde.bind (·.needsDeserialize)).getD true then [.de] else [])
  else []

/-- serde.rs 245-282 `serde_struct_attribute`. -/
def structArgs (s : StructArgs) : List CArg :=
  if s.isSerde then
    (if (s.serde.bind (·.needsDeserialize)).getD true then [.from] else []) ++
      (if (s.serde.bind (·.needsSerialize)).getD true then [.into] else [])
  else []

/-- serde.rs 473-534 `serde_shadow_default_fn`: the argument it gives for the shadow. -/
def shadowArgs (s : StructArgs) : List CArg :=
  match s.serde with
  | some h => if h.hasDefault then (if h.defaultValue.isSome then [.dfltFn] else [.dflt]) else []
  | none => []

/-- serde.rs 31-53 `serde_skip_toks`, as an argument. -/
def skipArgs (x : FCtx) : List FArg :=
  match skipAttr x with
  | .no => []
  | .all => [.skip]
  | .ser => [.skipSer]
  | .de => [.skipDe]

/-- serde.rs 64-96: the argument `default`. -/
def defaultArgs (isPath : String → Bool) (x : FCtx) : List FArg :=
  match x.field.serde with
  | some h =>
    if h.hasDefault then
      if h.defaultValue.isSome then (if isPath x.field.ident then [.dfltPath] else [.dfltFn]) else [.dflt]
    else []
  | none => []

/-- serde.rs 55-118 `serde_field_attribute`; nothing is written if there are no arguments. -/
def fieldArgs (isPath : String → Bool) (x : FCtx) : List FArg :=
  if x.ctx.args.isSerde then
    skipArgs x ++ defaultArgs isPath x ++ x.field.baseName.toList.map .rename
  else []

/-- The struct as serde sees it: serde.rs 462-464. Its fields do not matter to it, since the shadow stands in. -/
def ofStruct (c : Ctx) : Item := { derives := traits c.args, args := structArgs c.args, fields := [] }

/-- The shadow: serde.rs 288-331, its fields 139-157. -/
def ofShadow (isPath : String → Bool) (c : Ctx) : Item :=
  { derives := traits c.args, args := shadowArgs c.args
    fields := (shadowFields c).map fun f => (f.ident, fieldArgs isPath ⟨c, f⟩) }

end Verif.Model.SerdeDerive
