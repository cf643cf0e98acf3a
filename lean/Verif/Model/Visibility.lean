import Verif.Model.Names
/-
The visibility written on the items of an expansion.

Sources: /repo/fieldx_aux/src/lib.rs 122-132 (`ToTokens for FXPubMode`); /repo/fieldx_derive/src/ctx/field.rs 305-326
(`vis_tok`); /repo/fieldx_derive/src/codegen.rs 210-220 (`builder()`), 240-248 (`new()`), 252-280 (`myself_methods`),
308-316 (`builder_struct_visibility`), 385-421 (`new()` and `build()` of the builder), 430-460 (`builder_struct`),
505-511 (the struct itself); /repo/fieldx_derive/src/codegen/codegen_trait.rs 357-378 (`field_builder`);
/repo/fieldx_derive/src/codegen/serde.rs 290-335 (`serde_shadow_struct`).

Simplifications: a path inside `pub(in path)` is one token. What the user wrote before `struct` is a list of tokens. Items
are listed whether or not they are written; that is `Verif.Model.Expand`. The wrapper around asynchronous builders and
`__fieldx_copy_validation` are written without any visibility and left out.
-/
namespace Verif.Model.Visibility
open Verif.Model.Args Verif.Model.Names

/-- fieldx_aux/src/lib.rs 122-132 `to_tokens`. -/
def modeTokens : PubMode → List String
  | .priv => []
  | .all => ["pub"]
  | .super => ["pub", "(", "super", ")"]
  | .crate => ["pub", "(", "crate", ")"]
  | .inMod p => ["pub", "(", "in", p, ")"]

/-- ctx/field.rs 318-325: what `vis_tok` writes for the mode found; `decl` is the visibility of the struct. -/
def helperTokens (decl : List String) : Option PubMode → List String
  | none => decl
  | some .priv => []
  | some .all => ["pub"]
  | some .super => ["pub", "(", "super", ")"]
  | some .crate => ["pub", "(", "crate", ")"]
  | some (.inMod p) => ["pub", "(", "in", p, ")"]

/-- codegen.rs 308-316 `builder_struct_visibility`. -/
def builderStructTokens (s : StructArgs) (decl : List String) : List String :=
  (((s.getHelper .builder).bind (·.publicMode)).map modeTokens).getD decl

/-- An item of the expansion. -/
inductive Item
  /-- the struct, codegen.rs 509 -/
  | struct
  /-- its builder, codegen.rs 452 -/
  | builderStruct
  /-- `builder()`, codegen.rs 213-219 -/
  | builderFn
  /-- `new()` of the builder, codegen.rs 386 -/
  | builderNew
  /-- a method of the builder that takes a value, codegen_trait.rs 369 -/
  | builderSet (f : FieldArgs)
  /-- `build()`, codegen.rs 416 -/
  | build
  /-- `new()` or `__fieldx_new()`, codegen.rs 243 -/
  | new
  /-- the method that gives a strong pointer, codegen.rs 268 -/
  | myself
  /-- the method that gives a weak pointer, codegen.rs 275 -/
  | downgrade
  /-- the shadow struct, codegen/serde.rs 328 -/
  | shadow
  /-- a method for a field -/
  | helper (f : FieldArgs) (k : Kind)
deriving DecidableEq, Repr

/-- The visibility written before an item; lines with the constructors of `Item`. -/
def written (c : Ctx) (decl : List String) : Item → List String
  | .struct => decl
  | .builderStruct => builderStructTokens c.args decl
  | .builderFn => decl
  | .builderNew => builderStructTokens c.args decl
  | .builderSet _ => ["pub"]
  | .build => builderStructTokens c.args decl
  | .new => ["pub"]
  | .myself => ((c.args.rc.bind (·.publicMode)).map modeTokens).getD []
  | .downgrade => ((c.args.rc.bind (·.publicMode)).map modeTokens).getD []
  | .shadow => ((c.args.serde.bind (fun h => Args.publicMode h.pub h.priv)).map modeTokens).getD []
  | .helper f k => helperTokens decl (emittedVis ⟨c, f⟩ k)

end Verif.Model.Visibility
