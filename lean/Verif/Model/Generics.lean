import Verif.Model.Init
import Verif.Model.Default
/-
The generic parameters of the struct in the headers of the generated items.

Sources: /repo/fieldx_derive/src/codegen.rs 207-221, 282-306, 327-529; /repo/fieldx_derive/src/codegen/serde.rs 55-119,
254-286, 288-336, 338-389, 391-441, 476-534; /repo/fieldx_derive/src/codegen/sync.rs 136-162;
/repo/fieldx_derive/src/codegen/codegen_trait.rs 210-219, 546-552; /repo/fieldx_derive/src/input_receiver.rs 23-33;
/repo/fieldx_derive/src/ctx/codegen.rs 495-498. How `syn` prints `Generics`, `ImplGenerics` and `TypeGenerics` is taken
from its documentation and source (lifetimes always come first).

Simplifications: a bound, the type of a const parameter and a default are one token each; attributes on parameters are
left out; the `where` clause is one opaque value. The rewriting of `Self` in default expressions is in
`Verif.Model.Tokens`.
-/
namespace Verif.Model.Generics
open Verif.Model.Args Verif.Model.Init

/-- Tokens in angle brackets. -/
inductive GTok
  | open
  | close
  | comma
  | colon
  | plus
  | eq
  | const
  | life (s : String)
  | name (s : String)
  /-- a bound, a type, a default -/
  | other (s : String)
deriving DecidableEq, Repr

/-- `syn::GenericParam`. -/
inductive Param
  | life (n : String) (bounds : List String)
  | type (n : String) (bounds : List String) (dflt : Option String)
  | const (n : String) (ty : String) (dflt : Option String)
deriving DecidableEq, Repr

/-- The parameter's own name: input_receiver.rs 26-30. -/
def Param.tok : Param → GTok
  | .life n _ => .life n
  | .type n _ _ => .name n
  | .const n _ _ => .name n

/-- syn `GenericParam::Lifetime`, told apart in input_receiver.rs 27. -/
def Param.isLife : Param → Bool
  | .life _ _ => true
  | _ => false

/-- `a + b + c` (syn `Punctuated`, as all bounds printed by codegen.rs 432). -/
def plusSep : List String → List GTok
  | [] => []
  | [b] => [.other b]
  | b :: bs => .other b :: .plus :: plusSep bs

/-- `: a + b`, nothing without bounds (syn `LifetimeParam`, `TypeParam`). -/
def boundToks : List String → List GTok
  | [] => []
  | bs => .colon :: plusSep bs

/-- `= d` (syn `TypeParam`, `ConstParam`, printed by codegen.rs 432). -/
def dfltToks : Option String → List GTok
  | none => []
  | some d => [.eq, .other d]

/-- syn `impl ToTokens for GenericParam`: everything that was written. -/
def Param.full : Param → List GTok
  | .life n bs => .life n :: boundToks bs
  | .type n bs d => .name n :: (boundToks bs ++ dfltToks d)
  | .const n t d => .const :: .name n :: .colon :: .other t :: dfltToks d

/-- syn `ImplGenerics`: without the default. -/
def Param.forImpl : Param → List GTok
  | .life n bs => .life n :: boundToks bs
  | .type n bs _ => .name n :: boundToks bs
  | .const n t _ => [.const, .name n, .colon, .other t]

/-- `a, b, c` (syn `Punctuated`; codegen_trait.rs 210-219). -/
def commaSep : List (List GTok) → List GTok
  | [] => []
  | [a] => a
  | a :: as => a ++ .comma :: commaSep as

/-- `<a, b>`, nothing for an empty list (syn `Generics`; codegen_trait.rs 210-219). -/
def angle : List (List GTok) → List GTok
  | [] => []
  | as => .open :: (commaSep as ++ [.close])

/-- Generics of the struct as written (input_receiver.rs 15), with the `where` clause. -/
structure Generics where
  params : List Param := []
  wh     : Option String := none
deriving DecidableEq, Repr

/-- The order in which syn prints: lifetimes first. -/
def Generics.sorted (g : Generics) : List Param :=
  g.params.filter (·.isLife) ++ g.params.filter (!·.isLife)

/-- `#generics`: syn `impl ToTokens for Generics`. -/
def Generics.full (g : Generics) : List GTok := angle (g.sorted.map Param.full)

/-- `#impl_generics`: `split_for_impl().0`. -/
def Generics.impl (g : Generics) : List GTok := angle (g.sorted.map Param.forImpl)

/-- `#type_generics`: `split_for_impl().1`, also ctx/codegen.rs 496-498 `struct_generic_params`. -/
def Generics.type (g : Generics) : List GTok := angle (g.sorted.map (fun p => [p.tok]))

/-- codegen_trait.rs 210-219 `generic_params`, input_receiver.rs 23-33: in the order written. -/
def Generics.idents (g : Generics) : List GTok := angle (g.params.map (fun p => [p.tok]))

/-- A header: parameters declared after `struct Name` (`dfltOk`) or `impl`, the `where` clause, and what follows each
mention of the struct, its builder or its shadow. -/
structure Header where
  dfltOk : Bool := false
  decl   : List GTok
  wh     : Option String
  uses   : List (List GTok) := []
deriving DecidableEq, Repr

/-- The container of the field mentions the struct: codegen/sync.rs 136-162, 179-197. -/
def mentionsStruct (c : Ctx) (f : FieldArgs) : Bool :=
  match declType ⟨c, f⟩ with
  | .ok (.proxy _ _) => true
  | _ => false

/-- A function for the serde default of a field is called by name: codegen/serde.rs 66-88. A string literal is used as
it stands instead. -/
def serdeDefaultFn (isStr : String → Bool) (c : Ctx) (f : FieldArgs) : Bool :=
  c.args.isSerde && (FCtx.mk c f).isSerde && f.serde.elim false (fun s => s.defaultValue.isSome) && !isStr f.ident

/-- The struct with its fields: codegen.rs 508-513, with codegen/sync.rs 136-141 inside the types of lazy fields. -/
def structHeader (c : Ctx) (g : Generics) : Header :=
  { dfltOk := true, decl := g.full, wh := g.wh,
    uses := (c.allFields.filter (mentionsStruct c)).map (fun _ => g.idents) }

/-- Inherent functions that mention the builder or the shadow: `builder()` (codegen.rs 210-220), the function for the
struct-level serde default (codegen/serde.rs 514-521), names of serde default functions (codegen/serde.rs 77-87). -/
def inherentUses (isStr : String → Bool) (c : Ctx) (g : Generics) : List (List GTok) :=
  (if c.needsBuilderStruct then [g.type] else []) ++
    (if c.args.isSerde && c.args.serde.elim false (fun s => s.defaultValue.isSome) then [g.full] else []) ++
    ((c.allFields.filter (serdeDefaultFn isStr c)).map (fun _ => g.type))

/-- `impl FXStruct`, the inherent `impl`, `impl Default`: codegen.rs 515-518, 295, with 291 and 487. -/
def implHeaders (isStr : String → Bool) (c : Ctx) (g : Generics) : List Header :=
  [{ decl := g.impl, wh := g.wh, uses := [g.type] },
   { decl := g.impl, wh := g.wh, uses := g.type :: inherentUses isStr c g }] ++
    (if Default.hasDefaultImpl c then [{ decl := g.impl, wh := g.wh, uses := [g.type] }] else [])

/-- The builder struct (codegen.rs 432-433, 440-457; the weak reference 443) and its `impl` (codegen.rs 333-335,
409-419; the result of `build()` codegen_trait.rs 546-552). -/
def builderHeaders (c : Ctx) (g : Generics) : List Header :=
  if c.needsBuilderStruct then
    [{ dfltOk := true, decl := g.full, wh := g.wh, uses := if c.args.isRefCounted then [g.full] else [] },
     { decl := g.full, wh := g.wh, uses := [g.type, g.type] }]
  else []

/-- The shadow struct, its `Default` (codegen/serde.rs 298-334), and the conversions (379-380, 431-432). The attribute
`#[serde(from = "..", into = "..")]` mentions the shadow as well (261-274). -/
def serdeHeaders (c : Ctx) (g : Generics) : List Header :=
  if c.args.isSerde then
    [{ dfltOk := true, decl := g.full, wh := g.wh,
       uses := (if c.args.needsDeserialize then [g.full] else []) ++ (if c.args.needsSerialize then [g.full] else []) }] ++
      (if c.needsDefault then [{ decl := g.full, wh := g.wh, uses := [g.full] }] else []) ++
      (if c.args.needsDeserialize then [{ decl := g.full, wh := g.wh, uses := [g.full, g.full, g.full] }] else []) ++
      (if c.args.needsSerialize then [{ decl := g.full, wh := g.wh, uses := [g.full, g.full, g.full] }] else [])
  else []

/-- All headers of the expansion: codegen.rs 467-528 `finalize`, 207-224 `rewrite_struct`. -/
def headers (isStr : String → Bool) (c : Ctx) (g : Generics) : List Header :=
  structHeader c g :: (implHeaders isStr c g ++ builderHeaders c g ++ serdeHeaders c g)

end Verif.Model.Generics
