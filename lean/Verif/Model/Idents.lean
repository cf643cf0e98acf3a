import Verif.Model.Names
import Verif.Model.Expand
import Verif.Spec.Lexical
/-
Identifiers as tokens: what becomes of the names in `Verif.Model.Names` when they are made into tokens.

`syn::Ident::new` and `format_ident!` panic on strings which spell no identifier; a panic ends the macro. Sources:
/repo/fieldx_derive/src/codegen/codegen_trait.rs 102-145 (`helper_name`), 357-378; /repo/fieldx_derive/src/fields.rs 196-203
(`base_name`); /repo/fieldx_derive/src/ctx/field.rs 364-388; /repo/fieldx_derive/src/ctx/codegen.rs 81-90 (`builder_ident`),
277-300, 374-384, 419-433; /repo/fieldx_derive/src/codegen/sync/impl_async.rs 12-16, 36-56; codegen/sync/impl_sync.rs 29-34;
codegen/plain.rs 67-107, 150-195; codegen/serde.rs 60-110, 190-222, 288-300, 339-441, 515-516.

The strings `FieldArgs.ident` are the names of fields as `to_string` gives them, with `r#` if they have it.
-/
namespace Verif.Model.Idents
open Verif.Spec.Lexical Verif.Model.Args Verif.Model.Emit Verif.Model.Names

/-- The checks of `proc_macro::Ident::new`: a word; keywords and `_` are let through. -/
def validWord (L : Letters) : List Char → Bool
  | [] => false
  | c :: t => L.begins c && t.all L.goes

/-- `syn::Ident::new`; `none`: panic. -/
def newIdent (L : Letters) (s : String) : Option Ident := if validWord L s.toList then some ⟨false, s⟩ else none

/-- `proc_macro2::Ident::new_raw`; `none`: panic. -/
def newRaw (L : Letters) (s : String) : Option Ident :=
  if validWord L s.toList && !neverRaw.contains s then some ⟨true, s⟩ else none

/-- `quote::format_ident!` once the string is put together: `r#` at the beginning makes a raw identifier. -/
def mkIdent (L : Letters) (s : String) : Option Ident :=
  match s.toList with
  | 'r' :: '#' :: w => newRaw L (String.ofList w)
  | _ => newIdent L s

/-- `Display` of an identifier. -/
def display (i : Ident) : String := String.ofList i.spelling

/-- An identifier as an argument of `format_ident!`: without `r#` (`quote::IdentFragment`). -/
def fragment (i : Ident) : String := i.text

/-- The token that `to_string` shows as `s`. -/
def ofDisplay (s : String) : Ident :=
  match s.toList with
  | 'r' :: '#' :: w => ⟨true, String.ofList w⟩
  | _ => ⟨false, s⟩

/-- ctx/field.rs 381-388 `helper_base_name`, fields.rs 196-203 `base_name`. -/
def baseIdent (L : Letters) (f : FieldArgs) : Option Ident :=
  match f.baseName with
  | some n => newIdent L n
  | none => some (ofDisplay f.ident)

/-- codegen_trait.rs 116-144: prefix, base name, suffix. -/
def affixed (L : Letters) (x : FCtx) (k : Kind) : Option Ident :=
  (baseIdent L x.field).bind fun b => mkIdent L (namePrefix x.ctx.args k ++ fragment b ++ nameSuffix k)

/-- codegen_trait.rs 102-145 `helper_name`. -/
def helperIdent (L : Letters) (x : FCtx) (k : Kind) : Option Ident :=
  match (x.field.getHelper k).bind (·.name) with
  | some n => if !n.isEmpty then mkIdent L n else affixed L x k
  | none => affixed L x k

/-- codegen/sync/impl_async.rs 12-16 `lazy_wrapper_name`. -/
def wrapperIdent (L : Letters) (x : FCtx) : Option Ident :=
  (helperIdent L x .lazy).bind fun i => mkIdent L ("__fx_async_wrap_for_" ++ fragment i)

/-- ctx/codegen.rs 81-90 `builder_ident`; `name` is the struct. -/
def builderIdent (L : Letters) (name : Ident) : Option Ident := mkIdent L (fragment name ++ "Builder")

/-- ctx/codegen.rs 277-286 `shadow_ident`. -/
def shadowIdent (L : Letters) (name : Ident) (s : StructArgs) : Option Ident :=
  match s.serde.bind (·.shadowName) with
  | some n => mkIdent L n
  | none => mkIdent L ("__" ++ fragment name ++ "Shadow")

/-- ctx/codegen.rs 425-433 `myself_names`: the argument is a string. -/
def myselfName (s : StructArgs) : String := (s.rc.bind (·.name)).getD "myself"

/-- ctx/codegen.rs 419-433 `myself_field`, `myself_names`; `myself_field` goes through the token. -/
def rcIdents (L : Letters) (s : StructArgs) : List (Option Ident) :=
  if s.isRefCounted then
    [mkIdent L (myselfName s), mkIdent L (myselfName s ++ "_downgrade"),
      (mkIdent L (myselfName s)).bind fun i => mkIdent L ("__weak_" ++ fragment i)]
  else []

/-- ctx/field.rs 364-379 `default_fn_ident` with ctx/codegen.rs 374-378 `unique_ident_pfx`: the prefix is made with `format!`,
so identifiers are written with their `r#`. -/
def serdeFnIdent (L : Letters) (name : Ident) (f : FieldArgs) (n : Nat) : Option Ident :=
  mkIdent L ("__" ++ display name ++ "_" ++ display (ofDisplay f.ident) ++ "_default" ++ "_" ++ n.repr)

/-- codegen/serde.rs 515-516 with ctx/codegen.rs 374-378. -/
def wholeFnIdent (L : Letters) (name : Ident) (s : StructArgs) (n : Nat) : Option Ident :=
  (shadowIdent L name s).bind fun i => mkIdent L (display i ++ "_default" ++ "_" ++ n.repr)

/-- Identifiers made for one piece of the expansion about field `f`:
- `Default`, `build()` and the conversion from the shadow of a sync lazy field name its builder method, those of an async one
  the wrapper (sync.rs 649-690, impl_sync.rs 29-34, impl_async.rs 50-56);
- accessors of a plain lazy field name its builder method (plain.rs 67-107, 150-195), and so does the initialisation ahead of
  the conversion into the shadow (codegen/serde.rs 411-414);
- a shadow field looks at the `rename` of its field (codegen/serde.rs 102-106).
`n`: the counter of ctx/codegen.rs 374-378. -/
def fieldIdents (L : Letters) (name : Ident) (n : Nat) (x : FCtx) : Expand.Piece → List (Option Ident)
  | .method _ k => helperIdent L x k ::
      if !x.isSync && x.isLazy && (k == .accessor || k == .accessorMut) then [helperIdent L x .lazy] else []
  | .wrapper _ => [wrapperIdent L x, helperIdent L x .lazy]
  | .setter _ => [helperIdent L x .builder]
  | .dflt _ | .build _ | .fromShadow _ =>
    if x.isSync && x.isLazy then [if Init.useAsync x then wrapperIdent L x else helperIdent L x .lazy] else []
  | .shadow _ => x.field.baseName.toList.map (newIdent L)
  | .lazyInit _ => if x.isSync then [] else [helperIdent L x .lazy]
  | .serdeFn _ => [serdeFnIdent L name x.field n]
  | _ => []

/-- The field a piece is about. -/
def about : Expand.Piece → Option String
  | .copy f | .dflt f | .method f _ | .wrapper f | .setter f | .slot f | .decl f | .shadow f | .shadowDflt f | .serdeFn f
  | .fromShadow f | .lazyInit f | .intoShadow f | .checker f | .build f => some f
  | .wholeFn | .shadowStruct | .fromImpl | .intoImpl | .newFn | .builderFn | .defaultImpl | .builderStruct => none

/-- Identifiers made for one piece of the expansion. The shadow: codegen/serde.rs 288-300, 339-441, 515-516; the builder:
codegen.rs 253-265, 424-465. -/
def pieceIdents (L : Letters) (name : Ident) (c : Ctx) (n : Nat) (p : Expand.Piece) : List (Option Ident) :=
  match about p with
  | some f => (c.allFields.filter (·.ident == f)).flatMap fun g => fieldIdents L name n ⟨c, g⟩ p
  | none => match p with
    | .wholeFn => [wholeFnIdent L name c.args n]
    | .shadowStruct | .fromImpl | .intoImpl => [shadowIdent L name c.args]
    | .builderFn | .builderStruct => [builderIdent L name]
    | _ => []

/-- All identifiers made in a run which wrote the pieces `out`; `n`: the counter as it stood at each piece. If one of them is
`none` the macro panicked instead. -/
def idents (L : Letters) (name : Ident) (c : Ctx) (n : Expand.Piece → Nat) (out : List Expand.Piece) : List (Option Ident) :=
  rcIdents L c.args ++ out.flatMap fun p => pieceIdents L name c (n p) p

end Verif.Model.Idents
