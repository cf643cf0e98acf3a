import Verif.Model.Builder
import Verif.Model.Default
import Verif.Model.Serde
/-
The generated structs, their fields, and the struct expressions in the generated code.

Sources: /repo/fieldx_derive/src/codegen.rs 133-163 (`prepare_ref_counted`), 186-203 (`prepare_field`), 226-251
(`struct_extras`), 282-306 (`default_impl`), 327-422 (`builder_impl`), 424-462 (`builder_struct`), 508-513;
/repo/fieldx_derive/src/codegen/serde.rs 139-188, 288-336, 338-389, 391-441, 443-458;
/repo/fieldx_derive/src/codegen/codegen_trait.rs 232-276, 303-329; /repo/fieldx_derive/src/ctx/codegen.rs 182-184, 420-433.

Simplifications: the feature `serde` of the crate is on; what the user's field types mention is given by a function from
field names.
-/
namespace Verif.Model.Structs
open Verif.Model.Args Verif.Model.Init

/-- Name of the hidden self reference: ctx/codegen.rs 420-433 `myself_field`, `myself_names`. It only asks whether there
is an argument `rc`, on or off. -/
def myselfField (s : StructArgs) : Option String := s.rc.map (fun h => "__weak_" ++ h.name.getD "myself")

/-- The hidden field: codegen.rs 137-155, `#[fieldx(skip, builder(off), serde(off))] __weak_myself: Weak<Self>`. -/
def hidden (n : String) : FieldArgs :=
  { ident := n, skip := true, builder := some { off := true }, serde := some { off := true } }

/-- codegen.rs 133-163 `prepare_ref_counted`. -/
def prepare (s : StructArgs) (fs : List FieldArgs) : Ctx :=
  { args := s, fields := fs
    extra := if s.isRefCounted then (myselfField s).toList.map hidden else [] }

/-- The structs: the user's, the builder, the shadow. -/
inductive Owner
  | own
  | builder
  | shadow
deriving DecidableEq, Repr

/-- Type of a field of a generated struct: made around the type of the user's field, or `Weak` of the user's struct. -/
inductive FieldTy
  | around (f : String)
  | weak
deriving DecidableEq, Repr

/-- A field as declared in the user's struct: codegen_trait.rs 278-300 with codegen.rs 156-159 for the hidden one. -/
def ownField (c : Ctx) (f : FieldArgs) : String × FieldTy :=
  (f.ident, if (c.extra.map (·.ident)).contains f.ident then .weak else .around f.ident)

/-- The fields of each struct. The user's: codegen.rs 508-513. The builder: codegen.rs 439-457, codegen_trait.rs 314-318,
380-391. The shadow: codegen/serde.rs 139-157, 443-458. -/
def fieldsOf (c : Ctx) : Owner → List (String × FieldTy)
  | .own => c.allFields.map (ownField c)
  | .builder =>
    (if c.args.isRefCounted then (myselfField c.args).toList.map (fun n => (n, .weak)) else []) ++
      (Builder.builderFields c).map (fun f => (f.ident, .around f.ident))
  | .shadow => (Serde.shadowFields c).map (fun f => (f.ident, .around f.ident))

/-- Is the struct written at all: codegen.rs 427, codegen/serde.rs 291. -/
def declared (c : Ctx) : Owner → Bool
  | .own => true
  | .builder => c.needsBuilderStruct
  | .shadow => c.args.isSerde

/-- Is there an `impl Default` for it: codegen.rs 282-306, codegen/serde.rs 308-322. -/
def hasDefault (c : Ctx) : Owner → Bool
  | .own => Default.hasDefaultImpl c
  | .builder => false
  | .shadow => c.args.isSerde && c.needsDefault

/-- A struct expression: fields named, and whether `..Default::default()` follows. -/
structure Expr where
  of    : Owner
  names : List String
  rest  : Bool := false
deriving DecidableEq, Repr

/-- `Default::default()`: codegen.rs 293-300, codegen_trait.rs 324-329. -/
def defaultExpr (c : Ctx) : List Expr :=
  if Default.hasDefaultImpl c then [{ of := .own, names := c.allFields.map (·.ident) }] else []

/-- `new()`: codegen.rs 231-250 with codegen_trait.rs 253-275. -/
def newExpr (c : Ctx) : List Expr :=
  if c.needsDefault then
    [{ of := .own, names := if c.args.isRefCounted then (myselfField c.args).toList else [], rest := true }]
  else []

/-- `Builder::new()`: codegen.rs 340-348, 381-387. -/
def builderNewExpr (c : Ctx) : List Expr :=
  if c.needsBuilderStruct then
    [{ of := .builder, names := (myselfField c.args).toList ++ (Builder.builderFields c).map (·.ident) }]
  else []

/-- `build()`: codegen.rs 357-370, 389-397 with codegen_trait.rs 253-275; `use_default` is only set next to an error. -/
def buildExpr (c : Ctx) : List Expr :=
  if c.needsBuilderStruct then
    [{ of := .own
       names := (if c.args.isRefCounted then (myselfField c.args).toList else []) ++ (Builder.builderFields c).map (·.ident) }]
  else []

/-- `Default` of the shadow: codegen/serde.rs 159-188, 308-322. -/
def shadowDefaultExpr (c : Ctx) : List Expr :=
  if c.args.isSerde && c.needsDefault then [{ of := .shadow, names := (Serde.shadowFields c).map (·.ident) }] else []

/-- From the shadow: codegen/serde.rs 351-386. -/
def fromExpr (c : Ctx) : List Expr :=
  if c.args.isSerde && c.args.needsDeserialize then
    [{ of := .own, names := (c.allFields.filter (fun f => Serde.deserialised ⟨c, f⟩)).map (·.ident), rest := c.needsDefault }]
  else []

/-- Into the shadow: codegen/serde.rs 402-438. -/
def intoExpr (c : Ctx) : List Expr :=
  if c.args.isSerde && c.args.needsSerialize then [{ of := .shadow, names := (Serde.serFields c).map (·.ident) }] else []

/-- All struct expressions of the expansion: codegen.rs 134-138 `rewrite`. -/
def exprs (c : Ctx) : List Expr :=
  defaultExpr c ++ newExpr c ++ builderNewExpr c ++ buildExpr c ++ shadowDefaultExpr c ++ fromExpr c ++ intoExpr c

/-- Fields whose type `__fieldx_copy_validation` asks to be `Copy`: codegen.rs 189-191, 489-502, ctx/codegen.rs 182-184. -/
def copyChecked (c : Ctx) : List FieldArgs :=
  c.allFields.filter (fun f => (FCtx.mk c f).needsAccessor && (FCtx.mk c f).isCopy)

end Verif.Model.Structs
