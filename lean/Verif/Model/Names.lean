import Verif.Model.Emit
/-
Names and visibility of generated methods.

Sources: /repo/fieldx_derive/src/helper.rs 40-70 (prefixes and suffixes), /repo/fieldx_derive/src/codegen/codegen_trait.rs
102-145 (`helper_name`), 303-322, 357-378; /repo/fieldx_derive/src/ctx/field.rs 305-326 (`vis_tok`), 381-388;
/repo/fieldx_derive/src/ctx/codegen.rs 425-433 (`myself_names`); /repo/fieldx_derive/src/codegen.rs 205-280, 385-421,
490-500; /repo/fieldx_derive/src/codegen/sync.rs 203-210, 314; /repo/fieldx_derive/src/codegen/sync/impl_async.rs 11-16.

Simplifications: raw identifiers (`r#name`) stand here without `r#`, see `Verif.Model.Idents`; the names invented for serde default functions
(see `Tokens.uniqueIdent`) are not in the lists below.
-/
namespace Verif.Model.Names
open Verif.Model.Args Verif.Model.Emit

/-- helper.rs 40-54 `default_prefix`. -/
def defaultPrefix : Kind → Option String
  | .accessorMut => none
  | .accessor => none
  | .builder => none
  | .clearer => some "clear_"
  | .lazy => some "build_"
  | .predicate => some "has_"
  | .reader => some "read_"
  | .setter => some "set_"
  | .writer => some "write_"

/-- helper.rs 56-70 `default_suffix`. -/
def defaultSuffix : Kind → Option String
  | .accessorMut => some "_mut"
  | _ => none

/-- ctx/field.rs 381-388 `helper_base_name`. -/
def baseName (f : FieldArgs) : String := f.baseName.getD f.ident

/-- codegen_trait.rs 129-134: the prefix; a struct-level name replaces the default prefix. -/
def namePrefix (s : StructArgs) (k : Kind) : String :=
  (((s.getHelper k).bind (·.name)).or (defaultPrefix k)).getD ""

/-- codegen_trait.rs 134. -/
def nameSuffix (k : Kind) : String := (defaultSuffix k).getD ""

/-- codegen_trait.rs 102-145 `helper_name`. -/
def helperName (x : FCtx) (k : Kind) : String :=
  match (x.field.getHelper k).bind (·.name) with
  | some n => if !n.isEmpty then n else namePrefix x.ctx.args k ++ baseName x.field ++ nameSuffix k
  | none => namePrefix x.ctx.args k ++ baseName x.field ++ nameSuffix k

/-- codegen/sync/impl_async.rs 12-16 `lazy_wrapper_name`. -/
def lazyWrapperName (x : FCtx) : String := "__fx_async_wrap_for_" ++ helperName x .lazy

/-- A method in the inherent implementation that stems from one field: a helper, the builder method the user has to
supply for a lazy field (`lazy`), or the wrapper around it. -/
inductive Slot
  | helper (k : Kind)
  | wrap
deriving DecidableEq, Repr

/-- Name of a slot. -/
def slotName (x : FCtx) : Slot → String
  | .helper k => helperName x k
  | .wrap => lazyWrapperName x

/-- Methods of one field in the struct's implementation: codegen_trait.rs 303-313; the wrapper only for async lazy
fields (sync.rs 203-210, impl_sync.rs 25-27, impl_async.rs 36-48). -/
def slots (x : FCtx) : List Slot :=
  ([.accessor, .accessorMut, .reader, .writer, .setter, .clearer, .predicate].filter (emits x)).map .helper ++
    (if x.isLazy then [.helper .lazy] else []) ++
    (if !x.field.isSkipped && x.isLazy && genMode x == .async then [.wrap] else [])

/-- Methods of the struct that do not stem from a field: codegen.rs 205-280, 490-500; ctx/codegen.rs 425-433. -/
def fixedMethods (c : Ctx) : List String :=
  (if c.args.isRefCounted then
    let n := (c.args.rc.bind (·.name)).getD "myself"
    [n, n ++ "_downgrade"] else []) ++
  (if c.needsDefault then [if c.args.needsNew then "new" else "__fieldx_new"] else []) ++
  (if c.needsBuilderStruct then ["builder"] else []) ++
  (if c.allFields.any (fun f => let x : FCtx := ⟨c, f⟩; x.needsAccessor && x.isCopy) then
    ["__fieldx_copy_validation"] else [])

/-- All method names in the inherent implementation of the struct. -/
def structMethods (c : Ctx) : List String :=
  c.allFields.flatMap (fun f => (slots ⟨c, f⟩).map (slotName ⟨c, f⟩)) ++ fixedMethods c

/-- All method names in the implementation of the builder struct: codegen.rs 385-421, codegen_trait.rs 357-378. -/
def builderMethods (c : Ctx) : List String :=
  ["new"] ++
  (c.allFields.filter (fun f => emits ⟨c, f⟩ .builder)).map (fun f => helperName ⟨c, f⟩ .builder) ++ ["build"]

/-- Visibility written on a generated method; `none` is the declared visibility of the struct. Builder methods are
always `pub` (codegen_trait.rs 369); the sync mutable accessor asks for the accessor's visibility (sync.rs 314); all
others for their own kind. -/
def emittedVis (x : FCtx) (k : Kind) : Option PubMode :=
  match k with
  | .builder => some .all
  | .accessorMut => if x.isSync then x.publicMode .accessor else x.publicMode .accessorMut
  | k => x.publicMode k

end Verif.Model.Names
