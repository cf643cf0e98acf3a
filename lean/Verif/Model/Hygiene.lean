import Verif.Model.Method
import Verif.Model.Builder
import Verif.Spec.Scope
/-
The local variables in the generated functions, with the spans they are written with.

Sources: /repo/fieldx_derive/src/codegen/codegen_trait.rs 95-100 (`helper_span`), 220-276, 357-378, 395-478, 524-545;
/repo/fieldx_derive/src/codegen/plain.rs 67-365, 444-476; /repo/fieldx_derive/src/codegen/sync.rs 63-111, 212-454, 456-647;
/repo/fieldx_derive/src/codegen/sync/impl_async.rs 36-48; /repo/fieldx_derive/src/codegen.rs 253-279, 327-422;
/repo/fieldx_derive/src/codegen/serde.rs 338-438; /repo/fieldx_derive/src/ctx/field.rs 390-392;
/repo/fieldx_derive/src/fields.rs 80-107, 346-356, 411-423; /repo/fieldx_derive/src/util/args.rs 319-331.

`quote_spanned![span=> ..]` writes its tokens with the context of `span`, `quote![..]` with that of the macro call; what is
interpolated keeps its own.

Simplifications: of a span only the context is kept; an argument has one context, that of its first token
(`syn::spanned::Spanned`); of the code only the local variables are kept: `self`, parameters and `let`s. Names of methods,
fields, types, type parameters and lifetimes are not local variables. Default expressions are the user's, and mention no
local variables of the macro.
-/
namespace Verif.Model.Hygiene
open Verif.Model.Args Verif.Model.Init Verif.Model.Builder Verif.Spec.Scope

/-- The local variables written by the generators. -/
inductive Name
  | self
  /-- the parameter of setters -/
  | value
  /-- `old`: plain.rs 255-257 -/
  | old
  /-- `rlock`: sync.rs 257, 268 -/
  | rlock
  /-- `wlock`: sync.rs 549 -/
  | wlock
  /-- `field_manual_value`: codegen_trait.rs 459-463 -/
  | manual
  /-- `me`: codegen_trait.rs 258-260 -/
  | me
  /-- `__shadow`: ctx/codegen.rs 291-293 -/
  | shadow
  /-- `__me`: ctx/codegen.rs 298-300 -/
  | meVar
  /-- `v`: plain.rs 450-451 -/
  | v
deriving DecidableEq, Repr

/-- The contexts of the spans the generators use. -/
structure Spans (H : Type) where
  /-- `Span::call_site()` -/
  call : H
  /-- an argument of a field -/
  arg  : String → Kind → H
  /-- the attribute `#[fieldx]` of a field, if it has one: fields.rs 88 -/
  attr : String → Option H
  /-- an argument of the struct -/
  sarg : Kind → H
  /-- the argument `rc` -/
  rc   : H

section
variable {H : Type} (sp : Spans H) (x : FCtx)

/-- fields.rs 411-423 `get_helper_span` of a field. -/
def fieldSpan (k : Kind) : Option H := (x.field.getHelper k).map fun _ => sp.arg x.field.ident k

/-- util/args.rs 319-331 `get_helper_span` of the struct. -/
def structSpan (k : Kind) : Option H := (x.ctx.args.getHelper k).map fun _ => sp.sarg k

/-- codegen_trait.rs 95-100 `helper_span`. -/
def helperSpan (k : Kind) : H :=
  (((fieldSpan sp x k).or (sp.attr x.field.ident)).or (structSpan sp x k)).getD sp.call

/-- ctx/field.rs 390-392 `helper_span`. -/
def ctxHelperSpan (k : Kind) : H := (fieldSpan sp x k).getD sp.call

/-- codegen_trait.rs 530-545 `maybe_ref_counted_self`, either way written by `quote!`. -/
def countedSelf : Ex Name H := .use .self sp.call

/-- A method with `self`, written with one span. -/
def onSelf (h : H) (b : Ex Name H) : Fn Name H := ⟨[(.self, h)], b⟩

/-- The same with the parameter `value`. -/
def onValue (h : H) (b : Ex Name H) : Fn Name H := ⟨[(.self, h), (.value, h)], b⟩

/-- plain.rs 81-146 `field_accessor`; 67-79 `field_lazy_initializer`: `self` has the span of `lazy`, the receiver of the
builder is `maybe_ref_counted_self`. -/
def plainAccessor : Fn Name H :=
  let h := helperSpan sp x .accessor
  onSelf h (if x.isLazy then .seq (.use .self (helperSpan sp x .lazy)) (countedSelf sp) else .use .self h)

/-- plain.rs 148-200 `field_accessor_mut`. -/
def plainAccessorMut : Fn Name H :=
  let h := helperSpan sp x .accessorMut
  onSelf h (if x.isLazy then .seq (.seq (.use .self h) (countedSelf sp)) (.use .self h) else .use .self h)

/-- plain.rs 241-300 `field_setter`; with `inner_mut` the value is written by `quote!` (265-270). -/
def plainSetter : Fn Name H :=
  let h := helperSpan sp x .setter
  onValue h (if x.isLazy then .bind .old h (.use .self h) (.seq (.seq (.use .self h) (.use .value h)) (.use .old h))
    else if x.isInnerMut then .seq (.use .self h) (.use .value sp.call)
    else .seq (.use .self h) (.use .value h))

/-- plain.rs 302-327 `field_clearer`. -/
def plainClearer : Fn Name H := let h := helperSpan sp x .clearer; onSelf h (.use .self h)

/-- plain.rs 329-365 `field_predicate`. -/
def plainPredicate : Fn Name H := let h := helperSpan sp x .predicate; onSelf h (.use .self h)

/-- sync.rs 63-111 `field_reader_method`. -/
def syncReader (k : Kind) : Fn Name H :=
  let h := helperSpan sp x k
  onSelf h (if x.isLazy then .seq (.use .self h) (countedSelf sp) else .use .self h)

/-- sync.rs 212-309 `field_accessor`. -/
def syncAccessor : Fn Name H :=
  let h := helperSpan sp x .accessor
  if x.isClone || x.isCopy then
    onSelf h (if x.isLazy then .bind .rlock h (.seq (.use .self h) (countedSelf sp)) (.use .rlock h)
      else if x.needsLock then .bind .rlock h (.use .self h) (.use .rlock h)
      else .use .self h)
  else if x.isLazy || x.needsLock then syncReader sp x .accessor
  else onSelf h (.use .self h)

/-- sync.rs 311-370 `field_accessor_mut`; the span is that of the accessor (318). -/
def syncAccessorMut : Fn Name H :=
  let h := helperSpan sp x .accessor
  onSelf h (if x.isLazy then .seq (.use .self h) (countedSelf sp) else .use .self h)

/-- sync.rs 465-507 `field_writer`. -/
def syncWriter : Fn Name H := let h := helperSpan sp x .writer; onSelf h (.use .self h)

/-- sync.rs 509-566 `field_setter`. -/
def syncSetter : Fn Name H :=
  let h := helperSpan sp x .setter
  onValue h (if x.isLazy || x.isOptional then .seq (.use .self h) (.use .value h)
    else if x.needsLock then .bind .wlock h (.use .self h) (.seq (.use .wlock h) (.use .value h))
    else .seq (.use .self h) (.use .value h))

/-- sync.rs 568-602 `field_clearer`. -/
def syncClearer : Fn Name H := let h := helperSpan sp x .clearer; onSelf h (.use .self h)

/-- sync.rs 604-647 `field_predicate`. -/
def syncPredicate : Fn Name H := let h := helperSpan sp x .predicate; onSelf h (.use .self h)

/-- codegen_trait.rs 357-378 `field_builder`: the method of the builder. -/
def builderMethod : Fn Name H :=
  let h := ctxHelperSpan sp x .builder
  onValue h (.seq (.seq (.use .self h) (.use .value h)) (.use .self h))

/-- sync/impl_async.rs 36-48 `lazy_wrapper_fn`. -/
def lazyWrapper : Fn Name H := let h := ctxHelperSpan sp x .lazy; onSelf h (.use .self h)

/-- The helper of a kind: codegen.rs 116-123, codegen_trait.rs 303-322; the builder's method is a helper here. -/
def helper (k : Kind) : Fn Name H :=
  match k with
  | .accessor => if x.isSync then syncAccessor sp x else plainAccessor sp x
  | .accessorMut => if x.isSync then syncAccessorMut sp x else plainAccessorMut sp x
  | .reader => syncReader sp x .reader
  | .writer => syncWriter sp x
  | .setter => if x.isSync then syncSetter sp x else plainSetter sp x
  | .clearer => if x.isSync then syncClearer sp x else plainClearer sp x
  | .predicate => if x.isSync then syncPredicate sp x else plainPredicate sp x
  | .builder => builderMethod sp x
  | .lazy => lazyWrapper sp x

/-- codegen_trait.rs 395-428 `field_builder_value_required`. -/
def checker : Ex Name H := if hasChecker x then .use .self (helperSpan sp x .builder) else .skip

/-- codegen_trait.rs 430-478 `field_builder_value_for_set`: the pattern has the span of the helper, the variable used is
written by `quote!` (460), as is `self` if nothing else can be taken (474). -/
def valueForSet : Ex Name H :=
  let h := helperSpan sp x .builder
  if x.field.hasDefaultValue || (x.isOptional && !x.isBuilderRequired) then
    .bind .manual h (.use .self h) (.use .manual sp.call)
  else .use .self sp.call

/-- plain.rs 202-239 `field_builder_setter`; what an optional field is given is written by `quote!` (222). -/
def plainBuilderSetter : Ex Name H :=
  let h := helperSpan sp x .builder
  if !x.forcedBuilder && !x.needsBuilder then .skip
  else if x.isLazy then .seq (.use .self h) (.use .self h)
  else if x.isOptional && !x.isBuilderRequired then .seq (.use .self h) (.use .self sp.call)
  else valueForSet sp x

/-- sync.rs 372-425 `field_builder_setter`. -/
def syncBuilderSetter : Ex Name H :=
  let h := helperSpan sp x .builder
  if !x.forcedBuilder && !x.needsBuilder then .skip
  else if x.isLazy then .use .self h
  else if x.needsLock then valueForSet sp x
  else if x.isOptional then .use .self h
  else valueForSet sp x

/-- The initialiser of the field in `build()`. -/
def builderSetter : Ex Name H := if x.isSync then syncBuilderSetter sp x else plainBuilderSetter sp x

/-- plain.rs 444-460 and sync.rs 438-442 `field_from_shadow`, in `quote!` all. -/
def fromShadow : Ex Name H :=
  if x.isSync then .use .shadow sp.call
  else if serdeOptional x then .bind .v sp.call (.use .shadow sp.call) (.use .v sp.call)
  else .use .shadow sp.call

/-- plain.rs 463-476 and sync.rs 445-454 `field_from_struct`. -/
def fromStruct : Ex Name H := .use .meVar sp.call

/-- serde.rs 415-418 with `field_lazy_initializer`: plain.rs 67-79, where `self_ident` is given twice, and sync.rs 427-435. -/
def lazyInit : Ex Name H := .seq (.use .meVar sp.call) (.use .meVar sp.call)

end

section
variable {H : Type} (sp : Spans H) (c : Ctx)

/-- `#( .. )*`. -/
def all (l : List (Ex Name H)) : Ex Name H := l.foldr .seq .skip

/-- codegen.rs 327-422 `builder_impl`: the function `build`, its receiver written by `quote!`; codegen_trait.rs 232-275
`maybe_ref_counted_create`, in `quote!` all. -/
def build : Fn Name H :=
  let fs := builderFields c
  let lit := all (fs.map fun f => builderSetter sp ⟨c, f⟩)
  onSelf sp.call (.seq (all (fs.map fun f => checker sp ⟨c, f⟩))
    (if c.args.isRefCounted then .bind .me sp.call .skip (.seq (.use .me sp.call) lit) else lit))

/-- codegen.rs 253-279 `myself_methods`: both are written alike. -/
def myself : Fn Name H := onSelf sp.rc (.use .self sp.rc)

/-- serde.rs 338-385 `serde_struct_from_shadow`. -/
def fromShadowFn : Fn Name H :=
  ⟨[(.shadow, sp.call)],
   all ((c.allFields.filter fun f => (FCtx.mk c f).isSerde && (FCtx.mk c f).needsDeserialize).map fun f => fromShadow sp ⟨c, f⟩)⟩

/-- serde.rs 387-438 `serde_struct_into_shadow`. -/
def intoShadowFn : Fn Name H :=
  let fs := c.allFields.filter fun f => (FCtx.mk c f).isSerde && (FCtx.mk c f).needsSerialize
  ⟨[(.meVar, sp.call)],
   .seq (all ((fs.filter fun f => (FCtx.mk c f).isLazy).map fun _ => lazyInit sp)) (all (fs.map fun _ => fromStruct sp))⟩

end

end Verif.Model.Hygiene
