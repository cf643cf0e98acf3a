import Verif.Model.Expand
import Verif.Model.Attrs
/-!
# Conditional compilation of the expansion

An attribute `#[cfg(..)]` on an item of the expansion takes the item out, and all inside it. It gets there with the arguments
`attributes`, `attributes_fn`, `attributes_impl` (lib.rs 101-105 gives a `cfg` as the example), or from the user's field
(codegen_trait.rs 287-300, codegen/serde.rs 139-157).

Sources: /repo/fieldx_derive/src/codegen.rs 226-251, 282-306, 318-422, 424-465, 481-528; /repo/fieldx_derive/src/codegen/serde.rs
55-118, 139-188, 190-220, 225-284, 288-336, 339-389, 391-441, 473-534; /repo/fieldx_derive/src/codegen/sync.rs 160-175, 649-690;
/repo/fieldx_derive/src/codegen/sync/impl_async.rs 36-55.

Simplifications: the compiler settles a `cfg` on the struct itself before the macro runs, so it is not here; the hidden self
reference of `rc` structs has no attributes (codegen.rs 159-162), so neither is what mentions it; a `cfg` inside the user's
own code is not seen.
-/
namespace Verif.Model.Conditional
open Verif.Model.Args Verif.Model.Expand Verif.Model.Attrs

/-- A part of the expansion: a piece of it, or one that is always written along with another piece. -/
inductive Part
  | piece (p : Piece)
  /-- `#[serde(from = "..", into = "..")]` on the struct: codegen/serde.rs 252-284 -/
  | structAttr
  /-- `new()` of the builder object: codegen.rs 386-392 -/
  | builderNew
  /-- `build()`: codegen.rs 415-418 -/
  | buildFn
  /-- `Default` of the shadow: codegen/serde.rs 308-322 -/
  | shadowDefault
deriving DecidableEq, Repr

/-- Is a piece put into the code? The entries of a struct expression and the fields of the shadow are collected first, and
written with what they belong to: codegen.rs 283-294, codegen/serde.rs 291, 308. -/
def written (out : List Piece) : Piece → Bool
  | .dflt _ => out.contains .defaultImpl
  | .shadow _ => out.contains .shadowStruct
  | .shadowDflt _ => out.contains .shadowStruct
  | _ => true

/-- The parts of an expansion. -/
def parts (c : Ctx) (out : List Piece) : List Part :=
  (out.filter (written out)).map .piece ++
  -- codegen/serde.rs 252-284
  (if out.contains .shadowStruct && (c.args.needsSerialize || c.args.needsDeserialize) then [.structAttr] else []) ++
  -- codegen.rs 410-420, 459
  (if out.contains .builderStruct then [.builderNew, .buildFn] else []) ++
  -- codegen/serde.rs 308-322
  (if out.contains .shadowStruct && c.needsDefault then [.shadowDefault] else [])

/-- The field of a name. -/
def fieldOf (c : Ctx) (n : String) : FieldArgs := (c.allFields.find? (fun f => f.ident == n)).getD {}

/-- The attributes on a part and on all it is inside of. `fattrs`: the user's on the fields. -/
def marks (c : Ctx) (fattrs : String → List Attr) : Part → List Mark
  -- codegen.rs 508-513
  | .piece (.decl n) => place c [] fattrs (.structField (fieldOf c n))
  -- codegen.rs 517-521; ctx/codegen.rs 150-160 `add_method_decl`
  | .piece (.method n k) => place c [] fattrs .structImpl ++ place c [] fattrs (.method (fieldOf c n) k)
  | .piece (.wrapper _) => place c [] fattrs .structImpl
  | .piece (.copy _) => place c [] fattrs .structImpl
  | .piece (.serdeFn _) => place c [] fattrs .structImpl
  | .piece .wholeFn => place c [] fattrs .structImpl
  | .piece .newFn => place c [] fattrs .structImpl
  | .piece .builderFn => place c [] fattrs .structImpl
  -- codegen.rs 408-420
  | .piece (.setter n) => place c [] fattrs .builderImpl ++ place c [] fattrs (.builderSetter (fieldOf c n))
  | .piece (.build _) => place c [] fattrs .builderImpl
  | .piece (.checker _) => place c [] fattrs .builderImpl
  | .builderNew => place c [] fattrs .builderImpl
  | .buildFn => place c [] fattrs .builderImpl
  -- codegen.rs 449-457
  | .piece .builderStruct => place c [] fattrs .builderStruct
  | .piece (.slot n) => place c [] fattrs .builderStruct ++ place c [] fattrs (.builderField (fieldOf c n))
  -- codegen/serde.rs 325-330
  | .piece .shadowStruct => place c [] fattrs .shadowStruct
  | .piece (.shadow n) => place c [] fattrs .shadowStruct ++ place c [] fattrs (.shadowField (fieldOf c n))
  -- the impls of `Default` and `From`: codegen.rs 294-300, codegen/serde.rs 310-318, 376-386, 428-439
  | .piece .defaultImpl => []
  | .piece (.dflt _) => []
  | .shadowDefault => []
  | .piece (.shadowDflt _) => []
  | .piece .fromImpl => []
  | .piece (.fromShadow _) => []
  | .piece .intoImpl => []
  | .piece (.lazyInit _) => []
  | .piece (.intoShadow _) => []
  | .structAttr => []

/-- A name the expansion declares. -/
inductive Nm
  | ownField (n : String)
  | builderField (n : String)
  | shadowField (n : String)
  | builderTy
  | builderNew
  | shadowTy
  | wrapper (n : String)
  | serdeFn (n : String)
  | wholeFn
  | default
deriving DecidableEq, Repr

/-- The part which declares a name. -/
def home : Nm → Part
  | .ownField n => .piece (.decl n)
  | .builderField n => .piece (.slot n)
  | .shadowField n => .piece (.shadow n)
  | .builderTy => .piece .builderStruct
  | .builderNew => .builderNew
  | .shadowTy => .piece .shadowStruct
  | .wrapper n => .piece (.wrapper n)
  | .serdeFn n => .piece (.serdeFn n)
  | .wholeFn => .piece .wholeFn
  | .default => .piece .defaultImpl

/-- The names in a part which the expansion may declare. -/
def mentions (c : Ctx) (out : List Piece) : Part → List Nm
  -- the values of async lazy fields name the wrapper: codegen/sync.rs 160-175, impl_async.rs 50-55
  | .piece (.dflt n) => [.ownField n, .wrapper n]
  | .piece (.build n) => [.builderTy, .ownField n, .wrapper n] ++
      -- codegen/sync.rs 397-424, codegen/plain.rs 207-237
      (if Builder.hasSetter ⟨c, fieldOf c n⟩ then [.builderField n] else [])
  | .piece (.fromShadow n) => [.shadowTy, .ownField n, .shadowField n, .wrapper n]
  -- every method works on its field
  | .piece (.method n _) => [.ownField n]
  -- codegen_trait.rs 369-372, 395-430
  | .piece (.setter n) => [.builderTy, .builderField n]
  | .piece (.checker n) => [.builderTy, .builderField n]
  -- codegen.rs 386-392
  | .builderNew => .builderTy :: (slotsOf out).map .builderField
  | .buildFn => [.builderTy]
  -- codegen.rs 214-222 `Builder::new()`
  | .piece .builderFn => [.builderTy, .builderNew]
  -- codegen.rs 240-241 `..Self::default()`
  | .piece .newFn => [.default]
  -- `default = "path"` is read by serde's derive of `Deserialize`: codegen/serde.rs 225-243, 78-90, 302-306
  | .piece (.shadow n) => if c.args.needsDeserialize then [.serdeFn n] else []
  | .piece .shadowStruct => if c.args.needsDeserialize then [.wholeFn] else []
  | .piece .wholeFn => [.shadowTy]
  | .shadowDefault => [.shadowTy]
  | .piece (.shadowDflt n) => [.shadowTy, .shadowField n]
  | .piece .fromImpl => .shadowTy :: (if c.needsDefault then [.default] else [])
  | .piece .intoImpl => [.shadowTy]
  | .piece (.lazyInit n) => [.ownField n]
  | .piece (.intoShadow n) => [.shadowTy, .ownField n, .shadowField n]
  | .structAttr => [.shadowTy]
  | .piece (.decl _) => []
  | .piece (.copy _) => []
  | .piece (.slot _) => []
  | .piece (.wrapper _) => []
  | .piece (.serdeFn _) => []
  | .piece .defaultImpl => []
  | .piece .builderStruct => []

end Verif.Model.Conditional
