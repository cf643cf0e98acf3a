/-
Arguments of `#[fxstruct(..)]` and `#[fieldx(..)]` and their resolution.

Sources: /repo/fieldx_aux/src/{lib,base_helper,accessor_helper,setter_helper,builder_helper,fallible,default_arg,
serde_helper,value,traits,util}.rs, /repo/fieldx_derive_support/src/lib.rs,
/repo/fieldx_derive/src/{fields,util,helper}.rs, /repo/fieldx_derive/src/util/args.rs,
/repo/fieldx_derive/src/ctx/{field,codegen}.rs.

Simplifications: spans, original tokens and diagnostics are dropped; the crate features `sync`, `async`, `serde` are taken
as enabled (`Verif.Model.Features` says what they change). Parsing of the attribute syntax into these records is in
`Verif.Model.Parse`; which records come out is C65.
A trigger argument `FXBool` is an `Option Bool`: absent, `name` = `some true`, `name(off)` = `some false`
(fieldx_aux/src/value.rs 34-41, 56-60, fieldx_aux/src/lib.rs 203).
-/
namespace Verif.Model.Args

/-- fieldx_aux/src/lib.rs 97-110 `FXPubMode`. -/
inductive PubMode
  | priv | crate | super | inMod (path : String) | all
deriving DecidableEq, Repr

/-- fieldx_aux/src/lib.rs 145-153 `FXSyncMode`. -/
inductive SyncMode
  | sync | async | plain
deriving DecidableEq, Repr

/-- fieldx_aux/src/accessor_helper.rs 15-25 `FXAccessorMode`. -/
inductive AccMode
  | copy | clone | asRef | none
deriving DecidableEq, Repr

/-- fieldx_derive/src/helper.rs 5-15 `FXHelperKind`. -/
inductive Kind
  | accessor | accessorMut | builder | clearer | lazy | predicate | reader | setter | writer
deriving DecidableEq, Repr

/-- The part common to all helpers: fieldx_derive_support/src/lib.rs 190-208 (`name`, `off`, `attributes_fn`, `public`,
`private`). `name` is the value of the string argument (`none` if not given or switched off, fieldx_aux/src/value.rs
46-53). -/
structure Helper where
  off     : Bool := false
  name    : Option String := none
  attrsFn : Option (List String) := none
  pub     : Option PubMode := none
  priv    : Option Bool := none
deriving DecidableEq, Repr

/-- fieldx_derive_support/src/lib.rs 210-214: `is_true` of a helper. -/
def Helper.isTrue (h : Helper) : Bool := !h.off

/-- fieldx_aux/src/base_helper.rs 53-60 `From<bool> for FXBaseHelper`: the flag `off` is made from the boolean. -/
def Helper.ofBool (b : Bool) : Helper := { off := b }

/-- fieldx_aux/src/base_helper.rs 41-51 `From<FXBaseHelper> for bool`. -/
def Helper.toBool (h : Helper) : Bool := h.isTrue

/-- fieldx_aux/src/util.rs 145-152 `public_mode`. -/
def publicMode (pub : Option PubMode) (priv : Option Bool) : Option PubMode :=
  if priv.getD false then some .priv else pub

/-- fieldx_derive_support/src/lib.rs 232-235. -/
def Helper.publicMode (h : Helper) : Option PubMode := Args.publicMode h.pub h.priv

/-- fieldx_aux/src/accessor_helper.rs 28-39 `FXAccessorHelper`. -/
structure Accessor extends Helper where
  clone : Bool := false
  copy  : Bool := false
  asRef : Bool := false
deriving DecidableEq, Repr

/-- fieldx_aux/src/accessor_helper.rs 42-55 `mode`. -/
def Accessor.mode (a : Accessor) : Option AccMode :=
  if a.clone then some .clone else if a.copy then some .copy else if a.asRef then some .asRef else none

/-- fieldx_aux/src/setter_helper.rs 10-15 `FXSetterHelper`. -/
structure Setter extends Helper where
  into : Option Bool := none
deriving DecidableEq, Repr

/-- fieldx_aux/src/builder_helper.rs 13-56 `FXBuilderHelper`; `postBuild = some none` is the bare keyword, `error` the
error type and optional variant. -/
structure Builder extends Helper where
  attributes     : Option (List String) := none
  attributesImpl : Option (List String) := none
  into           : Option Bool := none
  required       : Option Bool := none
  optIn          : Option Bool := none
  postBuild      : Option (Option String) := none
  error          : Option (String × Option String) := none
deriving DecidableEq, Repr

/-- fieldx_aux/src/builder_helper.rs 74-76. -/
def Builder.isBuilderOptIn (b : Builder) : Bool := b.optIn.getD false

/-- fieldx_aux/src/fallible.rs 7-15 `FXFallible`. -/
structure Fallible where
  off   : Bool := false
  error : Option String := none
deriving DecidableEq, Repr

/-- fieldx_aux/src/fallible.rs 31-33. -/
def Fallible.isTrue (f : Fallible) : Bool := !f.off

/-- fieldx_aux/src/default_arg.rs 13-22 `FXDefault`; the value is the text of the expression. -/
structure Default where
  off   : Bool := false
  value : Option String := none
deriving DecidableEq, Repr

/-- fieldx_aux/src/default_arg.rs 94-98. -/
def Default.isTrue (d : Default) : Bool := !d.off

/-- fieldx_aux/src/serde_helper.rs 14-32 `FXSerdeHelper`. -/
structure Serde where
  off          : Bool := false
  pub          : Option PubMode := none
  priv         : Option Bool := none
  serialize    : Option Bool := none
  deserialize  : Option Bool := none
  default      : Option Default := none
  shadowName   : Option String := none
  forwardAttrs : Option (List String) := none
  attributes   : Option (List String) := none
deriving DecidableEq, Repr

/-- fieldx_aux/src/serde_helper.rs 42-46. -/
def Serde.isTrue (s : Serde) : Bool := !s.off

/-- fieldx_aux/src/serde_helper.rs 57-62 `needs_serialize`. -/
def Serde.needsSerialize (s : Serde) : Option Bool := s.serialize.or (s.deserialize.map (!·))

/-- fieldx_aux/src/serde_helper.rs 64-69 `needs_deserialize`. -/
def Serde.needsDeserialize (s : Serde) : Option Bool := s.deserialize.or (s.serialize.map (!·))

/-- fieldx_aux/src/serde_helper.rs 71-87 `is_serde`. -/
def Serde.isSerde (s : Serde) : Option Bool :=
  if s.isTrue then
    if s.serialize.isNone && s.deserialize.isNone then none
    else some (s.serialize.getD true || s.deserialize.getD true)
  else some false

/-- fieldx_aux/src/serde_helper.rs 99-101 `has_default`. -/
def Serde.hasDefault (s : Serde) : Bool := s.default.elim false (·.isTrue)

/-- fieldx_aux/src/serde_helper.rs 103-110 `default_value`. -/
def Serde.defaultValue (s : Serde) : Option String := if s.hasDefault then s.default.bind (·.value) else none

/-- fieldx_derive/src/fields.rs 17-77 `FXFieldReceiver` (identifier, arguments; the declared type and visibility of the
field are not needed here). -/
structure FieldArgs where
  ident       : String := ""
  skip        : Bool := false
  mode        : Option SyncMode := none
  modeSync    : Option Bool := none
  modeAsync   : Option Bool := none
  attrsFn     : Option (List String) := none
  fallible    : Option Fallible := none
  lazy        : Option Helper := none
  baseName    : Option String := none
  accessor    : Option Accessor := none
  accessorMut : Option Helper := none
  setter      : Option Setter := none
  reader      : Option Helper := none
  writer      : Option Helper := none
  clearer     : Option Helper := none
  predicate   : Option Helper := none
  optional    : Option Bool := none
  pub         : Option PubMode := none
  priv        : Option Bool := none
  default     : Option Default := none
  builder     : Option Builder := none
  into        : Option Bool := none
  clone       : Option Bool := none
  copy        : Option Bool := none
  lock        : Option Bool := none
  innerMut    : Option Bool := none
  serde       : Option Serde := none
deriving DecidableEq, Repr

/-- fieldx_derive/src/util/args.rs 16-65 `FXSArgs`. -/
structure StructArgs where
  mode           : Option SyncMode := none
  modeSync       : Option Bool := none
  modeAsync      : Option Bool := none
  builder        : Option Builder := none
  into           : Option Bool := none
  noNew          : Option Bool := none
  default        : Option Bool := none
  rc             : Option Helper := none
  attributes     : Option (List String) := none
  attributesImpl : Option (List String) := none
  fallible       : Option Fallible := none
  lazy           : Option Helper := none
  accessor       : Option Accessor := none
  accessorMut    : Option Helper := none
  setter         : Option Setter := none
  reader         : Option Helper := none
  writer         : Option Helper := none
  clearer        : Option Helper := none
  predicate      : Option Helper := none
  optional       : Option Bool := none
  pub            : Option PubMode := none
  priv           : Option Bool := none
  clone          : Option Bool := none
  copy           : Option Bool := none
  lock           : Option Bool := none
  innerMut       : Option Bool := none
  serde          : Option Serde := none
deriving DecidableEq, Repr

namespace FieldArgs

/-- fieldx_derive/src/fields.rs 294-297 `is_skipped`. -/
def isSkipped (f : FieldArgs) : Bool := f.skip

/-- fieldx_derive/src/fields.rs 137 with fieldx_derive/src/util.rs 45-57 (`needs_helper!`). -/
def needsAccessor (f : FieldArgs) : Option Bool := f.accessor.map (·.isTrue)
/-- fieldx_derive/src/fields.rs 137. -/
def needsAccessorMut (f : FieldArgs) : Option Bool := f.accessorMut.map (·.isTrue)
/-- fieldx_derive/src/fields.rs 137. -/
def needsBuilder (f : FieldArgs) : Option Bool := f.builder.map (·.isTrue)
/-- fieldx_derive/src/fields.rs 137. -/
def needsClearer (f : FieldArgs) : Option Bool := f.clearer.map (·.isTrue)
/-- fieldx_derive/src/fields.rs 137. -/
def needsSetter (f : FieldArgs) : Option Bool := f.setter.map (·.isTrue)
/-- fieldx_derive/src/fields.rs 137. -/
def needsPredicate (f : FieldArgs) : Option Bool := f.predicate.map (·.isTrue)
/-- fieldx_derive/src/fields.rs 137. -/
def needsReader (f : FieldArgs) : Option Bool := f.reader.map (·.isTrue)
/-- fieldx_derive/src/fields.rs 137. -/
def needsWriter (f : FieldArgs) : Option Bool := f.writer.map (·.isTrue)

/-- fieldx_derive/src/fields.rs 185-188 `public_mode`. -/
def publicMode (f : FieldArgs) : Option PubMode := Args.publicMode f.pub f.priv

/-- fieldx_derive/src/fields.rs 205-211 `is_async`. -/
def isAsync (f : FieldArgs) : Option Bool := f.modeAsync.or (f.mode.map (· == .async))

/-- fieldx_derive/src/fields.rs 299-302 `is_inner_mut`. -/
def isInnerMut (f : FieldArgs) : Option Bool := f.innerMut

/-- fieldx_derive/src/fields.rs 213-215 `is_plain`. -/
def isPlain (f : FieldArgs) : Option Bool := f.isInnerMut

/-- fieldx_derive/src/fields.rs 217-237 `is_sync`. -/
def isSync (f : FieldArgs) : Option Bool :=
  f.modeSync
    |>.or (f.mode.map (· == .sync))
    |>.or f.isAsync
    |>.or f.lock
    |>.or (f.isPlain.map (!·))
    |>.or (if f.reader.elim false (·.isTrue) || f.writer.elim false (·.isTrue) then some true else none)

/-- fieldx_derive/src/fields.rs 239-242 `is_fallible`. -/
def isFallible (f : FieldArgs) : Option Bool := f.fallible.map (·.isTrue)

/-- fieldx_derive/src/fields.rs 176-183 `unless_skip`, 244-247 `is_lazy`. -/
def isLazy (f : FieldArgs) : Option Bool := if f.isSkipped then some false else f.lazy.map (·.isTrue)

/-- fieldx_derive/src/fields.rs 249-252 `is_into`. -/
def isInto (f : FieldArgs) : Option Bool := f.into

/-- fieldx_derive/src/fields.rs 254-257 `is_setter_into`. -/
def isSetterInto (f : FieldArgs) : Option Bool := f.setter.bind (·.into)

/-- fieldx_derive/src/fields.rs 259-262 `is_builder_into`. -/
def isBuilderInto (f : FieldArgs) : Option Bool := f.builder.bind (·.into)

/-- fieldx_derive/src/fields.rs 264-272 `is_copy`. -/
def isCopy (f : FieldArgs) : Option Bool := if f.clone.getD false then some false else f.copy

/-- fieldx_derive/src/fields.rs 274-282 `is_clone`. -/
def isClone (f : FieldArgs) : Option Bool := if f.copy.getD false then some false else f.clone

/-- fieldx_derive/src/fields.rs 342-344 `accessor_mode`. -/
def accessorMode (f : FieldArgs) : Option AccMode := f.accessor.bind (·.mode)

/-- fieldx_derive/src/fields.rs 284-287 `is_accessor_copy`. -/
def isAccessorCopy (f : FieldArgs) : Option Bool := f.accessorMode.map (· == .copy)

/-- fieldx_derive/src/fields.rs 289-292 `is_accessor_clone`. -/
def isAccessorClone (f : FieldArgs) : Option Bool := f.accessorMode.map (· == .clone)

/-- fieldx_derive/src/fields.rs 304-307 `needs_lock`. -/
def needsLock (f : FieldArgs) : Option Bool := f.lock

/-- fieldx_derive/src/fields.rs 309-313 `is_serde`. -/
def isSerde (f : FieldArgs) : Option Bool := f.serde.bind (·.isSerde)

/-- fieldx_derive/src/fields.rs 315-318 `is_optional`. -/
def isOptional (f : FieldArgs) : Option Bool := f.optional

/-- fieldx_derive/src/fields.rs 320-324 `needs_serialize`. -/
def needsSerialize (f : FieldArgs) : Option Bool := f.serde.bind (·.needsSerialize)

/-- fieldx_derive/src/fields.rs 326-330 `needs_deserialize`. -/
def needsDeserialize (f : FieldArgs) : Option Bool := f.serde.bind (·.needsDeserialize)

/-- fieldx_derive/src/fields.rs 332-340 `has_default_value`. -/
def hasDefaultValue (f : FieldArgs) : Bool := f.default.elim false (·.isTrue)

/-- fieldx_derive/src/fields.rs 346-356 `mark_implicitly`: what a bare `#[fieldx]` does. -/
def markImplicitly (f : FieldArgs) : FieldArgs :=
  match f.lazy with
  | none => { f with lazy := some (.ofBool true), clearer := some (.ofBool true), predicate := some (.ofBool true) }
  | some _ => f

/-- fieldx_derive/src/fields.rs 397-409 `get_helper`. -/
def getHelper (f : FieldArgs) : Kind → Option Helper
  | .accessor => f.accessor.map (·.toHelper)
  | .accessorMut => f.accessorMut
  | .builder => f.builder.map (·.toHelper)
  | .clearer => f.clearer
  | .lazy => f.lazy
  | .predicate => f.predicate
  | .reader => f.reader
  | .setter => f.setter.map (·.toHelper)
  | .writer => f.writer

end FieldArgs

namespace StructArgs

/-- fieldx_derive/src/util/args.rs 77 with fieldx_derive/src/util.rs 45-57 (`needs_helper!`). -/
def needsAccessor (s : StructArgs) : Option Bool := s.accessor.map (·.isTrue)
/-- fieldx_derive/src/util/args.rs 77. -/
def needsAccessorMut (s : StructArgs) : Option Bool := s.accessorMut.map (·.isTrue)
/-- fieldx_derive/src/util/args.rs 77. -/
def needsSetter (s : StructArgs) : Option Bool := s.setter.map (·.isTrue)
/-- fieldx_derive/src/util/args.rs 77. -/
def needsReader (s : StructArgs) : Option Bool := s.reader.map (·.isTrue)
/-- fieldx_derive/src/util/args.rs 77. -/
def needsWriter (s : StructArgs) : Option Bool := s.writer.map (·.isTrue)
/-- fieldx_derive/src/util/args.rs 77. -/
def needsClearer (s : StructArgs) : Option Bool := s.clearer.map (·.isTrue)
/-- fieldx_derive/src/util/args.rs 77. -/
def needsPredicate (s : StructArgs) : Option Bool := s.predicate.map (·.isTrue)

/-- fieldx_derive/src/util/args.rs 121-127 `is_async`. -/
def isAsync (s : StructArgs) : Option Bool := s.modeAsync.or (s.mode.map (· == .async))

/-- fieldx_derive/src/util/args.rs 109-119 `is_sync`. -/
def isSync (s : StructArgs) : Option Bool :=
  s.modeSync
    |>.or (s.mode.map (fun m => m == .sync || m == .async))
    |>.or s.isAsync
    |>.or s.lock
    |>.or (s.reader.map (·.isTrue))
    |>.or (s.writer.map (·.isTrue))

/-- fieldx_derive/src/util/args.rs 129-132 `is_fallible`. -/
def isFallible (s : StructArgs) : Option Bool := s.fallible.map (·.isTrue)

/-- fieldx_derive/src/util/args.rs 134-137 `is_ref_counted`. -/
def isRefCounted (s : StructArgs) : Bool := s.rc.elim false (·.isTrue)

/-- fieldx_derive/src/util/args.rs 139-142 `is_into`. -/
def isInto (s : StructArgs) : Option Bool := s.into

/-- fieldx_derive/src/util/args.rs 144-153 `is_copy`. -/
def isCopy (s : StructArgs) : Option Bool := if s.clone.getD false then some false else s.copy

/-- fieldx_derive/src/util/args.rs 155-164 `is_clone`. -/
def isClone (s : StructArgs) : Option Bool := if s.copy.getD false then some false else s.clone

/-- fieldx_derive/src/util/args.rs 249-252 `accessor_mode`. -/
def accessorMode (s : StructArgs) : Option AccMode := s.accessor.bind (·.mode)

/-- fieldx_derive/src/util/args.rs 166-169 `is_accessor_copy`. -/
def isAccessorCopy (s : StructArgs) : Option Bool := s.accessorMode.map (· == .copy)

/-- fieldx_derive/src/util/args.rs 171-174 `is_accessor_clone`. -/
def isAccessorClone (s : StructArgs) : Option Bool := s.accessorMode.map (· == .clone)

/-- fieldx_derive/src/util/args.rs 176-179 `is_setter_into`. -/
def isSetterInto (s : StructArgs) : Option Bool := s.setter.bind (·.into)

/-- fieldx_derive/src/util/args.rs 181-184 `is_builder_into`. -/
def isBuilderInto (s : StructArgs) : Option Bool := s.builder.bind (·.into)

/-- fieldx_derive/src/util/args.rs 186-189 `is_builder_required`. -/
def isBuilderRequired (s : StructArgs) : Option Bool := s.builder.bind (·.required)

/-- fieldx_derive/src/util/args.rs 191-195 `is_serde`. -/
def isSerde (s : StructArgs) : Bool := s.serde.elim false (fun sw => sw.isSerde.getD true)

/-- fieldx_derive/src/util/args.rs 197-200 `is_optional`. -/
def isOptional (s : StructArgs) : Option Bool := s.optional

/-- fieldx_derive/src/util/args.rs 202-208 `needs_serialize`. -/
def needsSerialize (s : StructArgs) : Bool := s.serde.elim false (fun sw => sw.needsSerialize.getD true)

/-- fieldx_derive/src/util/args.rs 210-216 `needs_deserialize`. -/
def needsDeserialize (s : StructArgs) : Bool := s.serde.elim false (fun sw => sw.needsDeserialize.getD true)

/-- fieldx_derive/src/util/args.rs 224-227 `needs_default`. -/
def needsDefault (s : StructArgs) : Option Bool := s.default

/-- fieldx_derive/src/util/args.rs 218-222 `needs_new`. -/
def needsNew (s : StructArgs) : Bool := !s.noNew.getD false && s.needsDefault.getD true

/-- fieldx_derive/src/util/args.rs 229-232 `needs_builder`. -/
def needsBuilder (s : StructArgs) : Option Bool := s.builder.map (·.isTrue)

/-- fieldx_derive/src/util/args.rs 234-237 `needs_lock`. -/
def needsLock (s : StructArgs) : Option Bool := s.lock

/-- fieldx_derive/src/util/args.rs 239-242 `is_lazy`. -/
def isLazy (s : StructArgs) : Option Bool := s.lazy.map (·.isTrue)

/-- fieldx_derive/src/util/args.rs 244-247 `is_inner_mut`. -/
def isInnerMut (s : StructArgs) : Option Bool := s.innerMut

/-- fieldx_derive/src/util/args.rs 270-273 `public_mode`. -/
def publicMode (s : StructArgs) : Option PubMode := Args.publicMode s.pub s.priv

/-- fieldx_derive/src/util/args.rs 305-317 `get_helper`. -/
def getHelper (s : StructArgs) : Kind → Option Helper
  | .accessor => s.accessor.map (·.toHelper)
  | .accessorMut => s.accessorMut
  | .builder => s.builder.map (·.toHelper)
  | .clearer => s.clearer
  | .lazy => s.lazy
  | .predicate => s.predicate
  | .reader => s.reader
  | .setter => s.setter.map (·.toHelper)
  | .writer => s.writer

end StructArgs

/-- The struct-wide context: arguments, input fields in declaration order, and fields added by the macro itself
(the self reference of `rc`). fieldx_derive/src/ctx/codegen.rs 19-54. -/
structure Ctx where
  args   : StructArgs := {}
  fields : List FieldArgs := []
  extra  : List FieldArgs := []

namespace Ctx

/-- fieldx_derive/src/ctx/codegen.rs 363-370 `all_fields`. -/
def allFields (c : Ctx) : List FieldArgs := c.extra ++ c.fields

/-- fieldx_derive/src/ctx/codegen.rs 437-451 `is_rather_sync`. -/
def isRatherSync (c : Ctx) : Bool :=
  c.args.isSync.getD ((c.allFields.findSome? (·.isSync)).getD false)

/-- fieldx_derive/src/ctx/codegen.rs 250-256 `is_builder_opt_in`. (The cell may also be set by `needs_builder_struct`,
but only if there is no struct-level `builder`, and then `FXFieldCtx::needs_builder` does not look at it: C110.) -/
def isBuilderOptIn (c : Ctx) : Bool := c.args.builder.elim false (·.isBuilderOptIn)

/-- fieldx_derive/src/ctx/codegen.rs 258-275 `needs_builder_struct`. -/
def needsBuilderStruct (c : Ctx) : Bool :=
  c.args.needsBuilder.getD (c.fields.any (fun f => f.needsBuilder == some true))

/-- fieldx_derive/src/ctx/codegen.rs 393-418 `needs_default`. -/
def needsDefault (c : Ctx) : Bool :=
  match c.args.needsDefault with
  | some b => b
  | none =>
    if c.args.needsNew then true
    else c.fields.any (fun f => f.hasDefaultValue || (c.isRatherSync && f.isLazy.getD false))

end Ctx

/-- One field within its struct: fieldx_derive/src/ctx/field.rs 46-57 `FXFieldCtx`. -/
structure FCtx where
  ctx   : Ctx
  field : FieldArgs

namespace FCtx

/-- fieldx_derive/src/ctx/field.rs 19-31 (`helper_fn_ctx!`), 79 `is_lazy`. -/
def isLazy (x : FCtx) : Bool := (x.field.isLazy.or x.ctx.args.isLazy).getD false

/-- fieldx_derive/src/ctx/field.rs 79 `is_inner_mut`. -/
def isInnerMut (x : FCtx) : Bool := (x.field.isInnerMut.or x.ctx.args.isInnerMut).getD false

/-- fieldx_derive/src/ctx/field.rs 81 `needs_accessor_mut`. -/
def needsAccessorMut (x : FCtx) : Bool := (x.field.needsAccessorMut.or x.ctx.args.needsAccessorMut).getD false

/-- fieldx_derive/src/ctx/field.rs 81 `needs_setter`. -/
def needsSetter (x : FCtx) : Bool := (x.field.needsSetter.or x.ctx.args.needsSetter).getD false

/-- fieldx_derive/src/ctx/field.rs 81 `needs_writer`. -/
def needsWriter (x : FCtx) : Bool := (x.field.needsWriter.or x.ctx.args.needsWriter).getD false

/-- fieldx_derive/src/ctx/field.rs 125-131 `needs_clearer`. -/
def needsClearer (x : FCtx) : Bool := (x.field.needsClearer.or x.ctx.args.needsClearer).getD false

/-- fieldx_derive/src/ctx/field.rs 133-139 `needs_predicate`. -/
def needsPredicate (x : FCtx) : Bool := (x.field.needsPredicate.or x.ctx.args.needsPredicate).getD false

/-- fieldx_derive/src/ctx/field.rs 141-148 `needs_reader`. -/
def needsReader (x : FCtx) : Bool := (x.field.needsReader.or x.ctx.args.needsReader).getD false

/-- fieldx_derive/src/ctx/field.rs 105-111 `needs_accessor`. -/
def needsAccessor (x : FCtx) : Bool :=
  (x.field.needsAccessor.or x.ctx.args.needsAccessor).getD
    (x.needsClearer || x.needsPredicate || x.isLazy || x.isInnerMut)

/-- fieldx_derive/src/ctx/field.rs 113-123 `needs_builder`. -/
def needsBuilder (x : FCtx) : Bool :=
  x.field.needsBuilder.getD (x.ctx.args.needsBuilder.elim false (fun needs => needs && !x.ctx.isBuilderOptIn))

/-- fieldx_derive/src/ctx/field.rs 242-249 `is_optional`. -/
def isOptional (x : FCtx) : Bool :=
  !x.field.isSkipped &&
    (x.field.isOptional.or x.ctx.args.isOptional).getD (!x.isLazy && (x.needsClearer || x.needsPredicate))

/-- fieldx_derive/src/ctx/field.rs 150-156 `needs_lock`. -/
def needsLock (x : FCtx) : Bool :=
  (x.field.needsLock.or x.ctx.args.needsLock).getD (x.needsReader || x.needsWriter || x.isOptional)

/-- fieldx_derive/src/ctx/field.rs 158-164 `needs_serialize`. -/
def needsSerialize (x : FCtx) : Bool := x.field.needsSerialize.getD x.ctx.args.isSerde

/-- fieldx_derive/src/ctx/field.rs 166-172 `needs_deserialize`. -/
def needsDeserialize (x : FCtx) : Bool := x.field.needsDeserialize.getD x.ctx.args.isSerde

/-- fieldx_derive/src/ctx/field.rs 174-177 `forced_builder`. -/
def forcedBuilder (x : FCtx) : Bool := x.field.builder.elim false (·.name.isSome)

/-- fieldx_derive/src/ctx/field.rs 179-184 `is_sync`. -/
def isSync (x : FCtx) : Bool := x.field.isSync.getD x.ctx.isRatherSync

/-- fieldx_derive/src/ctx/field.rs 186-192 `is_async`. -/
def isAsync (x : FCtx) : Bool := (x.field.isAsync.or x.ctx.args.isAsync).getD false

/-- fieldx_derive/src/ctx/field.rs 194-200 `is_fallible`. -/
def isFallible (x : FCtx) : Bool := (x.field.isFallible.or x.ctx.args.isFallible).getD false

/-- fieldx_derive/src/ctx/field.rs 202-210 `is_copy`. -/
def isCopy (x : FCtx) : Bool :=
  (x.field.isAccessorCopy.or x.field.isCopy |>.or x.ctx.args.isAccessorCopy |>.or x.ctx.args.isCopy).getD false

/-- fieldx_derive/src/ctx/field.rs 212-220 `is_clone`. -/
def isClone (x : FCtx) : Bool :=
  (x.field.isAccessorClone.or x.field.isClone |>.or x.ctx.args.isAccessorClone |>.or x.ctx.args.isClone).getD false

/-- fieldx_derive/src/ctx/field.rs 222-230 `is_builder_into`. -/
def isBuilderInto (x : FCtx) : Bool :=
  (x.field.isBuilderInto.or x.field.isInto |>.or x.ctx.args.isBuilderInto |>.or x.ctx.args.isInto).getD false

/-- fieldx_derive/src/ctx/field.rs 232-240 `is_setter_into`. -/
def isSetterInto (x : FCtx) : Bool :=
  (x.field.isSetterInto.or x.field.isInto |>.or x.ctx.args.isSetterInto |>.or x.ctx.args.isInto).getD false

/-- fieldx_derive/src/ctx/field.rs 251-257 `is_builder_required`. -/
def isBuilderRequired (x : FCtx) : Bool :=
  ((x.field.builder.bind (·.required)).or x.ctx.args.isBuilderRequired).getD false

/-- fieldx_derive/src/ctx/field.rs 259-262 `is_serde`. -/
def isSerde (x : FCtx) : Bool := !x.field.isSkipped && (x.ctx.args.isSerde && x.field.isSerde.getD true)

/-- fieldx_derive/src/ctx/field.rs 264-289 `accessor_mode`. -/
def accessorMode (x : FCtx) : AccMode :=
  (x.field.accessorMode
    |>.or (x.field.isCopy.bind (fun c => if c then some .copy else some .clone))
    |>.or x.ctx.args.accessorMode
    |>.or (x.ctx.args.isCopy.bind (fun c => if c then some .copy else some .clone))).getD .none

/-- fieldx_derive/src/ctx/field.rs 291-298 `default_value`. -/
def defaultValue (x : FCtx) : Option String :=
  if x.field.hasDefaultValue then x.field.default.bind (·.value) else none

/-- fieldx_derive/src/ctx/field.rs 305-316, the argument deciding visibility in `vis_tok`. -/
def publicMode (x : FCtx) (k : Kind) : Option PubMode :=
  ((x.field.getHelper k).bind (·.publicMode))
    |>.or x.field.publicMode
    |>.or (((x.ctx.args.getHelper k).bind (·.publicMode)).or x.ctx.args.publicMode)

end FCtx

/-- The generator chosen for a field: fieldx_derive/src/codegen.rs 116-123 `field_codegen` picks the sync generator if
`is_sync`, and inside it fieldx_derive/src/codegen/sync.rs 43-51 `implementor` picks async if `is_async`. -/
def genMode (x : FCtx) : SyncMode :=
  if x.isSync then (if x.isAsync then .async else .sync) else .plain

end Verif.Model.Args
