import Verif.Model.Structs
import Verif.Model.Emit
import Verif.Model.Method
import Verif.Model.Exclusive
/-
The run of the macro: generators called one after another, the pieces they leave behind, the errors they record.

Sources: /repo/fieldx_derive/src/lib.rs 590-610 (`fxstruct`); /repo/fieldx_derive/src/codegen.rs 134-250 (`rewrite`,
`prepare_struct`, `prepare_field`, `rewrite_struct`, `struct_extras`), 282-306 (`default_impl`), 318-422 (`builder_impl`),
424-465 (`builder_struct`), 467-528 (`finalize`); /repo/fieldx_derive/src/codegen/codegen_trait.rs 287-329;
/repo/fieldx_derive/src/codegen/serde.rs 55-118, 140-220, 288-534; /repo/fieldx_derive/src/ctx/codegen.rs 113-143
(recording), 145-195 (`add_*`), 234-248 (`finalize`), 346-370.

Simplifications: a piece is a tag with the name of the field, its tokens are in the other models; names given as strings
are valid identifiers (`format_ident!` panics otherwise); every field has a name (`supports(struct_named)`), so
`field_ctx` succeeds; the hidden self reference is parsed without error (codegen.rs 158-166); an error inside
`field_builder_value_for_set` counts as one of `field_builder_setter` (see `Init.builderValueForSet`); the crate feature
`serde` is on.
-/
namespace Verif.Model.Expand
open Verif.Model.Args Verif.Model.Init Verif.Model.Emit Verif.Model.Exclusive

/-- What a generator adds to the expansion. -/
inductive Piece
  /-- the type of the field in `__fieldx_copy_validation` -/
  | copy (f : String)
  /-- the entry in `Default::default()` -/
  | dflt (f : String)
  | method (f : String) (k : Kind)
  /-- the private wrapper around the builder of an async lazy field -/
  | wrapper (f : String)
  /-- the setter of the builder object -/
  | setter (f : String)
  /-- the field of the builder object; also remembers the name for `build()` -/
  | slot (f : String)
  /-- the declaration in the struct -/
  | decl (f : String)
  /-- the declaration in the shadow struct -/
  | shadow (f : String)
  /-- the entry in `Default::default()` of the shadow -/
  | shadowDflt (f : String)
  /-- the function made of the serde default of the field -/
  | serdeFn (f : String)
  /-- the function made of the serde default of the struct -/
  | wholeFn
  | shadowStruct
  /-- the entry in the conversion from the shadow -/
  | fromShadow (f : String)
  | fromImpl
  /-- the initialisation ahead of the conversion into the shadow -/
  | lazyInit (f : String)
  /-- the entry in the conversion into the shadow -/
  | intoShadow (f : String)
  | intoImpl
  | newFn
  | builderFn
  | defaultImpl
  /-- the check in `build()` -/
  | checker (f : String)
  /-- the entry in `build()` -/
  | build (f : String)
  | builderStruct
deriving DecidableEq, Repr

/-- State of the run: the pieces, and the errors recorded; an error is told by the field it is about, `none` for the
struct. ctx/codegen.rs 14-50 `FXCodeGenCtx`. -/
structure St where
  out  : List Piece := []
  errs : List (Option String) := []
deriving DecidableEq, Repr

/-- A step of the run: `.error` is `Err` handed to the caller, `.panic` ends the run. -/
def M (α : Type) := St → Gen α × St

namespace M

def ret {α : Type} (a : α) : M α := fun s => (.ok a, s)

def bind {α β : Type} (m : M α) (f : α → M β) : M β := fun s =>
  match m s with
  | (.ok a, s') => f a s'
  | (.error, s') => (.error, s')
  | (.panic, s') => (.panic, s')

instance : Monad M where
  pure := ret
  bind := bind

end M

/-- `add_*`: ctx/codegen.rs 145-195. -/
def emit (p : Piece) : M Unit := fun s => (.ok (), { s with out := s.out ++ [p] })

/-- Only if asked for; an empty piece is not added. -/
def emitIf (b : Bool) (p : Piece) : M Unit := if b then emit p else pure ()

/-- `?` after a generator. -/
def tryGen {α : Type} (g : Gen α) : M Unit := fun s =>
  match g with
  | .ok _ => (.ok (), s)
  | .error => (.error, s)
  | .panic => (.panic, s)

/-- `ok_or_record`, `exec_or_record`, `ok_or_empty`: ctx/codegen.rs 113-143. The error is kept and the run goes on. -/
def record (who : Option String) (m : M Unit) : M Unit := fun s =>
  match m s with
  | (.error, s') => (.ok (), { s' with errs := s'.errs ++ [who] })
  | r => r

/-- A `for` loop. -/
def each {α : Type} (step : α → M Unit) : List α → M Unit
  | [] => pure ()
  | a :: as => do step a; each step as

/-- The fields of the builder object known so far: ctx/codegen.rs 176-179, codegen.rs 318-325. -/
def slotsOf (out : List Piece) : List String := out.filterMap fun | .slot f => some f | _ => none

/-- The entries of `Default::default()` so far: ctx/codegen.rs 229-232. -/
def defaultsOf (out : List Piece) : List String := out.filterMap fun | .dflt f => some f | _ => none

/-- What the user's literals are: is the serde default of a field a string; is the serde default of the struct a string
which is no path, or `name = value` (codegen/serde.rs 491-510). -/
structure Lits where
  isPath   : String → Bool := fun _ => false
  badWhole : Bool := false

section
variable (c : Ctx)

/-- The methods in the order of codegen_trait.rs 306-312. -/
def methodKinds : List Kind := [.accessor, .accessorMut, .reader, .writer, .setter, .clearer, .predicate]

/-- One method: codegen_trait.rs 306-312; each generator returns an empty piece if the method is not wanted. -/
def genMethod (f : FieldArgs) (k : Kind) : M Unit :=
  if emits ⟨c, f⟩ k then do
    tryGen (Method.body ⟨c, f⟩ k)
    emit (.method f.ident k)
  else pure ()

/-- codegen/sync.rs 203-210 `field_lazy_builder_wrapper`, codegen/plain.rs 36-38, codegen/sync/impl_sync.rs 25-27,
codegen/sync/impl_async.rs 36-48 `lazy_wrapper_fn`. -/
def genWrapper (f : FieldArgs) : M Unit :=
  let x : FCtx := ⟨c, f⟩
  if x.isSync && x.isLazy && useAsync x then do
    tryGen (Method.fallibleRet x (.own .t))
    emit (.wrapper f.ident)
  else pure ()

/-- codegen_trait.rs 303-322 `field_methods`. -/
def fieldMethods (f : FieldArgs) : M Unit :=
  if f.isSkipped then pure ()
  else do
    each (genMethod c f) methodKinds
    genWrapper c f
    if c.needsBuilderStruct then do
      emitIf (Builder.hasSetter ⟨c, f⟩) (.setter f.ident)
      emit (.slot f.ident)
    else pure ()

/-- codegen.rs 187-203 `prepare_field`; codegen_trait.rs 287-301 `field_decl`, 324-329 `field_default`. -/
def prepareField (f : FieldArgs) : M Unit := do
  emitIf ((FCtx.mk c f).needsAccessor && (FCtx.mk c f).isCopy) (.copy f.ident)
  tryGen (defaultInit ⟨c, f⟩)
  emit (.dflt f.ident)
  fieldMethods c f
  tryGen (declType ⟨c, f⟩)
  emit (.decl f.ident)

/-- codegen/serde.rs 55-118 `serde_field_attribute`: it adds a function for a default that is no string (190-220). Both
errors of `serde_field_default_fn` are excluded by the tests before the call. -/
def serdeAttribute (l : Lits) (f : FieldArgs) : M Unit :=
  if c.args.isSerde then
    match f.serde with
    | some sh => emitIf (sh.hasDefault && sh.defaultValue.isSome && !l.isPath f.ident) (.serdeFn f.ident)
    | none => pure ()
  else pure ()

/-- codegen/serde.rs 140-157 `serde_shadow_field`, 159-188 `serde_shadow_field_default`. -/
def shadowField (l : Lits) (f : FieldArgs) : M Unit := do
  record (some f.ident) (serdeAttribute c l f)
  emit (.shadow f.ident)
  emitIf c.needsDefault (.shadowDflt f.ident)

/-- codegen/serde.rs 443-465 `serde_prepare_struct`; the attributes it adds are in `Verif.Model.Attrs`. -/
def serdePrepare (l : Lits) : M Unit := each (shadowField c l) (Serde.shadowFields c)

/-- codegen.rs 171-185 `prepare_struct`. -/
def prepareStruct (l : Lits) : M Unit := do
  each (fun f => record (some f.ident) (prepareField c f)) c.allFields
  serdePrepare c l

/-- codegen.rs 226-251 `struct_extras` (the methods of `rc` structs cannot fail). -/
def structExtras : M Unit := emitIf c.needsDefault .newFn

/-- codegen/serde.rs 473-534 `serde_shadow_default_fn`. -/
def shadowDefaultFn (l : Lits) : M Unit :=
  match c.args.serde with
  | some sh =>
    if sh.hasDefault && sh.defaultValue.isSome then
      if l.badWhole then tryGen (α := Unit) .error else emit .wholeFn
    else pure ()
  | none => pure ()

/-- codegen/serde.rs 288-336 `serde_shadow_struct`. -/
def shadowStruct (l : Lits) : M Unit :=
  if c.args.isSerde then do
    shadowDefaultFn c l
    emit .shadowStruct
  else pure ()

/-- codegen/serde.rs 339-389 `serde_struct_from_shadow`. -/
def structFromShadow : M Unit :=
  if c.args.isSerde && c.args.needsDeserialize then do
    each (fun f => record (some f.ident) do
        tryGen (fromShadow ⟨c, f⟩)
        emit (.fromShadow f.ident))
      (c.allFields.filter (fun f => Serde.deserialised ⟨c, f⟩))
    emit .fromImpl
  else pure ()

/-- codegen/serde.rs 391-441 `serde_struct_into_shadow`; neither `field_from_struct` nor `field_lazy_initializer` ever
returns an error (plain.rs 67-79, 463-476, sync.rs 427-435, 445-454). -/
def structIntoShadow : M Unit :=
  if c.args.isSerde && c.args.needsSerialize then do
    each (fun f => record (some f.ident) do
        emitIf (FCtx.mk c f).isLazy (.lazyInit f.ident)
        emit (.intoShadow f.ident))
      (Serde.serFields c)
    emit .intoImpl
  else pure ()

/-- codegen.rs 205-224 `rewrite_struct`, codegen/serde.rs 467-471 `serde_rewrite_struct`. -/
def rewriteStruct (l : Lits) : M Unit := do
  structExtras c
  emitIf c.needsBuilderStruct .builderFn
  record none (shadowStruct c l)
  structFromShadow c
  structIntoShadow c

/-- codegen.rs 282-306 `default_impl`. -/
def defaultImpl : M Unit := fun s => emitIf (c.needsDefault && !(defaultsOf s.out).isEmpty) .defaultImpl s

/-- One field of `build()`: codegen.rs 346-373. -/
def builderField (f : FieldArgs) : M Unit := do
  record (some f.ident) do
    tryGen (builderInit ⟨c, f⟩)
    emit (.build f.ident)
  emitIf (Builder.hasChecker ⟨c, f⟩) (.checker f.ident)

/-- codegen.rs 318-422 `builder_impl`, 424-465 `builder_struct`: the fields whose names were remembered. -/
def builderStruct : M Unit := fun s =>
  (if c.needsBuilderStruct then do
    each (builderField c) ((slotsOf s.out).filterMap (fun n => c.allFields.find? (fun f => f.ident == n)))
    emit .builderStruct
  else pure ()) s

/-- codegen.rs 134-138 `rewrite` with 467-528 `finalize`. -/
def rewrite (l : Lits) : M Unit := do
  prepareStruct c l
  rewriteStruct c l
  defaultImpl c
  builderStruct c

end

/-- What the compiler gets from the macro. -/
inductive Expansion
  /-- the input was not accepted: error messages, and not even the struct -/
  | refused
  /-- the macro panicked: nothing but the panic message -/
  | panicked
  /-- code, followed by the errors recorded (ctx/codegen.rs 234-248) -/
  | code (out : List Piece) (errs : List (Option String))
deriving DecidableEq, Repr

/-- lib.rs 590-610 `fxstruct`. `parsed`: attribute and struct could be read into arguments (see `Verif.Model.Parse`). -/
def fxstruct (parsed : Bool) (s : StructArgs) (fs : List FieldArgs) (l : Lits) : Expansion :=
  if parsed && acceptStructFull s && fs.all acceptFieldFull then
    match rewrite (Structs.prepare s fs) l {} with
    | (.panic, _) => .panicked
    | (_, st) => .code st.out st.errs
  else .refused

end Verif.Model.Expand
