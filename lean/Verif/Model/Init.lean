import Verif.Model.Args
/-
The type declared for a field and the expressions generated to initialise it: in `Default`, in the builder, in the
conversions from and into the serde shadow struct, and in `Default` of the shadow struct.

Sources: /repo/fieldx_derive/src/codegen.rs, /repo/fieldx_derive/src/codegen/{codegen_trait,plain,sync,serde}.rs,
/repo/fieldx_derive/src/codegen/sync/{impl_sync,impl_async}.rs.

Simplifications: tokens are replaced by the small expression language `IE`; a string literal default is not told apart
from another default (codegen_trait.rs 339-349 puts `String::from` around it); the lazy builder argument of
`FXProxy*::new_default` is left out because it does not depend on the value; trait bounds on the user's type (`Default`
for `Default::default()` and `RefCell::take`) are taken as satisfied.
-/
namespace Verif.Model.Init
open Verif.Model.Args

/-- Types of fields and of values from which fields are made: the user's type, `Option`, `OnceCell`, `RefCell`,
`FXRwLockSync`/`FXRwLockAsync` (`a = true`), `FXProxySync`/`FXProxyAsync` around the fallible or infallible builder
wrapper. -/
inductive Ty
  | t
  | opt (a : Ty)
  | once (a : Ty)
  | cell (a : Ty)
  | lock (async : Bool) (a : Ty)
  | proxy (async fallible : Bool)
deriving DecidableEq, Repr

/-- Expressions the generators write. -/
inductive IE
  /-- the declared default expression; `fixed` if `fixup_self_type` was applied to it -/
  | dv (fixed : Bool)
  /-- the default expression of the field's `serde` argument -/
  | sdv
  /-- `::std::default::Default::default()` -/
  | dflt
  | none
  | some (e : IE)
  /-- `OnceCell::new()` -/
  | onceNew
  /-- `OnceCell::from(e)` -/
  | onceFrom (e : IE)
  /-- `RefCell::from(e)`, `RefCell::new(e)` -/
  | cellNew (e : IE)
  /-- `FXRwLock*::new(e)` -/
  | lockNew (async : Bool) (e : IE)
  /-- `<FXProxy*>::new_default(builder, e)` -/
  | proxyNew (async fallible : Bool) (e : IE)
  /-- `self.f.take()` in the builder object -/
  | slotTake
  /-- `self.f.take().unwrap()` in the builder object -/
  | slotUnwrap
  /-- `e.or_else(|| Some(d))` -/
  | orElseSome (e d : IE)
  /-- `if self.f.is_some() {a} else {b}` in the builder object -/
  | ifSlot (a b : IE)
  /-- `if let Some(v) = self.f.take() {a} else {b}` in the builder object -/
  | ifLetSlot (a b : IE)
  /-- `e.map_or_else(|| d, |v| b)` -/
  | mapOrElse (e d b : IE)
  /-- the variable bound by `ifLetSlot` or `mapOrElse` -/
  | var
  /-- `shadow.f` -/
  | shadow
  /-- `me.f` -/
  | me
  /-- `me.f.take()` -/
  | meTake
  /-- `me.f.into_inner()` -/
  | meIntoInner
deriving DecidableEq, Repr

/-- What a generator ends with: code, a reported error, or a panic inside the macro. -/
inductive Gen (α : Type)
  | ok (a : α)
  | error
  | panic
deriving DecidableEq, Repr

namespace Gen

def bind {α β : Type} (x : Gen α) (f : α → Gen β) : Gen β :=
  match x with
  | .ok a => f a
  | .error => .error
  | .panic => .panic

instance : Monad Gen where
  pure := .ok
  bind := bind

end Gen

/-- fieldx_derive/src/codegen.rs 37-41 `FXValueRepr`. -/
inductive VRepr
  | none
  | exact (e : IE)
  | versatile (e : IE)
deriving DecidableEq

/-- fieldx_derive/src/codegen.rs 74-80 `map`. -/
def VRepr.map (f : IE → IE) : VRepr → VRepr
  | .none => .none
  | .exact e => .exact (f e)
  | .versatile e => .versatile (f e)

/-- fieldx_derive/src/codegen.rs 48-54 `expect`. -/
def VRepr.expect : VRepr → Gen IE
  | .none => .panic
  | .exact e => .ok e
  | .versatile e => .ok e

/-- fieldx_derive/src/codegen.rs 66-72 `unwrap_or_else`. -/
def VRepr.unwrapOr (d : IE) : VRepr → IE
  | .none => d
  | .exact e => e
  | .versatile e => e

/-- fieldx_derive/src/codegen/codegen_trait.rs 480-516 `fixup_self_type`, on the expressions it is applied to (a default
value possibly within `Some`). Its effect on tokens is modelled in `Verif.Model.Tokens`. -/
def fixup : IE → IE
  | .dv _ => .dv true
  | .some e => .some (fixup e)
  | e => e

section
variable (x : FCtx)

/-- fieldx_derive/src/ctx/field.rs 449-462 `fallible_error`: is an error type known? fieldx_derive/src/fields.rs
391-394, fieldx_derive/src/util/args.rs 293-296. -/
def hasErrorType : Bool :=
  ((x.field.fallible.bind (·.error)).or (x.ctx.args.fallible.bind (·.error))).isSome

/-- fieldx_derive/src/codegen/codegen_trait.rs 331-355 `field_default_value`. -/
def defaultRepr : VRepr :=
  if x.defaultValue.isSome then .versatile (.dv false)
  else if x.isLazy || x.isOptional then .none
  else .exact .dflt

/-- fieldx_derive/src/codegen/plain.rs 40-61 `type_tokens`. -/
def plainType : Ty :=
  if x.isLazy then .once .t
  else
    let a := if x.isOptional then Ty.opt .t else .t
    if x.isInnerMut then .cell a else a

/-- fieldx_derive/src/codegen/sync.rs 143-162 `builder_wrapper_type`: fails if the field is fallible and no error type is
known. -/
def builderWrapper : Gen Unit :=
  if x.isFallible && !hasErrorType x then .error else .ok ()

/-- fieldx_derive/src/codegen/sync.rs 43-51 `implementor`: async or sync containers. -/
def useAsync : Bool := x.isAsync

/-- fieldx_derive/src/codegen/sync.rs 114-134 `maybe_optional_ty`, `maybe_locked_ty`; 179-197 `type_tokens`. -/
def syncType : Gen Ty := do
  builderWrapper x
  if x.field.isSkipped then return .t
  if x.isLazy then return .proxy (useAsync x) x.isFallible
  let a := if x.isOptional then Ty.opt .t else .t
  return if x.needsLock then .lock (useAsync x) a else a

/-- fieldx_derive/src/codegen.rs 116-123 `field_codegen` and the two `type_tokens`. -/
def declType : Gen Ty := if x.isSync then syncType x else .ok (plainType x)

/-- fieldx_derive/src/codegen/plain.rs 367-428 `field_value_wrap`. -/
def plainWrap (r : VRepr) : Gen IE :=
  match r with
  | .exact e => .ok e
  | .versatile e =>
    if x.isLazy then .ok (.onceFrom e)
    else
      let e := if x.isOptional then .some e else e
      .ok (if x.isInnerMut then .cellNew e else e)
  | .none =>
    if x.isLazy then .ok .onceNew
    else if x.isOptional then .ok (if x.isInnerMut then .cellNew .none else .none)
    else .error

/-- fieldx_derive/src/codegen/sync.rs 649-690 `field_value_wrap`. -/
def syncWrap (r : VRepr) : Gen IE := do
  let e : IE := match r with
    | .none => .none
    | .exact e => e
    | .versatile e => if x.isOptional || x.isLazy then .some e else e
  if x.isLazy then
    let _ ← syncType x
    builderWrapper x
    return .proxyNew (useAsync x) x.isFallible e
  else if !x.isOptional && r == .none then .error
  else return if x.needsLock then .lockNew (useAsync x) e else e

/-- `field_value_wrap` of the generator of the field. -/
def valueWrap (r : VRepr) : Gen IE := if x.isSync then syncWrap x r else plainWrap x r

/-- fieldx_derive/src/codegen/plain.rs 430-432 `field_default_wrap` rewrites `Self` in the default;
fieldx_derive/src/codegen/sync.rs 692-694 does not. -/
def defaultWrap : Gen IE :=
  if x.isSync then syncWrap x (defaultRepr x) else plainWrap x ((defaultRepr x).map fixup)

/-- The initialiser in `Default`: fieldx_derive/src/codegen/codegen_trait.rs 324-329 `field_default`. -/
def defaultInit : Gen IE := defaultWrap x

/-- fieldx_derive/src/codegen/codegen_trait.rs 430-478 `field_builder_value_for_set`. An error inside is recorded
(`push_error`), which makes the whole expansion fail, so it is an error here too. -/
def builderValueForSet : Gen IE :=
  if x.field.hasDefaultValue then do
    let alt ← defaultWrap x
    let manual ← valueWrap x (.versatile .var)
    return .ifLetSlot manual alt
  else if x.isOptional && !x.isBuilderRequired then do
    let alt ← valueWrap x (.exact .none)
    let manual ← valueWrap x (.versatile .var)
    return .ifLetSlot manual alt
  else valueWrap x (.versatile .slotUnwrap)

/-- fieldx_derive/src/codegen/plain.rs 202-239 `field_builder_setter`; `simple_field_build_setter` is
fieldx_derive/src/codegen/codegen_trait.rs 524-528. -/
def plainBuilderInit : Gen IE := do
  let def_ ← defaultWrap x
  if !x.forcedBuilder && !x.needsBuilder then return def_
  else if x.isLazy then return .ifSlot (.onceFrom .slotUnwrap) def_
  else if x.isOptional && !x.isBuilderRequired then
    return .ifSlot (if x.isInnerMut then .cellNew .slotTake else .slotTake) def_
  else builderValueForSet x

/-- fieldx_derive/src/codegen/sync.rs 372-425 `field_builder_setter`. -/
def syncBuilderInit : Gen IE := do
  let _ ← syncType x
  let def_ := defaultRepr x
  let orDefault : IE → IE ←
    if x.field.hasDefaultValue then do
      let d ← def_.expect
      pure (fun e => .orElseSome e (fixup d))
    else pure id
  if !x.forcedBuilder && !x.needsBuilder then syncWrap x def_
  else if x.isLazy then
    builderWrapper x
    return .proxyNew (useAsync x) x.isFallible (orDefault .slotTake)
  else if x.needsLock then builderValueForSet x
  else if x.isOptional then return orDefault .slotTake
  else builderValueForSet x

/-- The initialiser in `build()`. Skipped fields have none: codegen_trait.rs 303-322. -/
def builderInit : Gen IE := if x.isSync then syncBuilderInit x else plainBuilderInit x

/-- fieldx_derive/src/codegen/serde.rs 10-12 `is_serde_optional`. -/
def serdeOptional : Bool := x.isOptional || x.isLazy

/-- fieldx_derive/src/codegen/serde.rs 120-129 `serde_shadow_field_type`. -/
def shadowType : Ty := if serdeOptional x then .opt .t else .t

/-- fieldx_derive/src/codegen/serde.rs 131-138 `serde_shadow_field_value`. -/
def shadowValue (e : IE) : IE := if serdeOptional x then .some e else e

/-- fieldx_derive/src/codegen/serde.rs 159-188 `serde_shadow_field_default`: the initialiser in `Default` of the shadow. -/
def shadowDefault : IE :=
  fixup (((defaultRepr x).map (shadowValue x)).unwrapOr (if serdeOptional x then .none else .dflt))

/-- fieldx_derive/src/codegen/serde.rs 190-220 `serde_field_default_fn`: the body of the function for the field's serde
default. -/
def serdeDefaultFn : IE := shadowValue x .sdv

/-- fieldx_derive/src/codegen/plain.rs 444-460 and sync.rs 438-442 `field_from_shadow`. -/
def fromShadow : Gen IE :=
  if x.isSync then syncWrap x (.exact .shadow)
  else if serdeOptional x then do
    let d ← defaultWrap x
    let v ← plainWrap x (.versatile .var)
    return .mapOrElse .shadow d v
  else if x.isInnerMut then plainWrap x (.versatile .shadow)
  else .ok .shadow

/-- fieldx_derive/src/codegen/plain.rs 463-476 and sync.rs 445-454 `field_from_struct`. -/
def intoShadow : IE :=
  if x.isSync then (if serdeOptional x || x.needsLock then .meIntoInner else .me)
  else if x.isLazy || x.isInnerMut then .meTake
  else .me

end

/-! ### Meaning of the expressions -/

/-- Run-time values of fields. The content of a proxy is an optional value. -/
inductive Val (V : Type)
  | val (v : V)
  | none
  | some (a : Val V)
  | once (a : Val V)
  | cell (a : Val V)
  | lock (async : Bool) (a : Val V)
  | proxy (async : Bool) (a : Val V)
deriving DecidableEq, Repr

/-- What the surroundings of an initialiser provide: the values of the default expressions, `T::default()`, the shadow
field and the struct field being converted, and the variable bound last. -/
structure Env (V : Type) where
  dv     : V
  sdv    : V
  dflt   : V
  shadow : Val V
  me     : Val V
  var    : Option V := none

/-- Outcome of evaluating an initialiser: a value, a panic, or nothing sensible (the code would not type-check). -/
inductive Out (V : Type)
  | ok (a : Val V)
  | panic
  | stuck
deriving DecidableEq, Repr

/-- Apply a constructor to the result. -/
def Out.map {V : Type} (f : Val V → Val V) : Out V → Out V
  | .ok a => .ok (f a)
  | .panic => .panic
  | .stuck => .stuck

/-- `Default::default()` at a type. `FXProxy*` has no `Default`. -/
def dfltAt {V : Type} (d : V) : Ty → Out V
  | .t => .ok (.val d)
  | .opt _ => .ok .none
  | .once _ => .ok (.once .none)
  | .cell a => (dfltAt d a).map .cell
  | .lock as a => (dfltAt d a).map (.lock as)
  | .proxy _ _ => .stuck

/-- Lift an optional plain value. -/
def ofOpt {V : Type} : Option V → Val V
  | .none => .none
  | .some v => .some (.val v)

/-- Evaluate an expression where a value of the given type is expected; the second component is the content of the
builder slot of the field before and after. -/
def eval {V : Type} (τ : Ty) (env : Env V) (slot : Option V) : IE → Out V × Option V
  | .dv _ => (.ok (.val env.dv), slot)
  | .sdv => (.ok (.val env.sdv), slot)
  | .dflt => (dfltAt env.dflt τ, slot)
  | .none => (.ok .none, slot)
  | .some e =>
    match τ with
    | .opt a => let r := eval a env slot e; (r.1.map .some, r.2)
    | _ => (.stuck, slot)
  | .onceNew => (.ok (.once .none), slot)
  | .onceFrom e =>
    match τ with
    | .once a => let r := eval a env slot e; (r.1.map (.once ∘ .some), r.2)
    | _ => (.stuck, slot)
  | .cellNew e =>
    match τ with
    | .cell a => let r := eval a env slot e; (r.1.map .cell, r.2)
    | _ => (.stuck, slot)
  | .lockNew as e =>
    match τ with
    | .lock _ a => let r := eval a env slot e; (r.1.map (.lock as), r.2)
    | _ => (.stuck, slot)
  | .proxyNew as _ e =>
    let r := eval (.opt .t) env slot e; (r.1.map (.proxy as), r.2)
  | .slotTake => (.ok (ofOpt slot), .none)
  | .slotUnwrap =>
    match slot with
    | .some v => (.ok (.val v), .none)
    | .none => (.panic, .none)
  | .orElseSome e d =>
    match eval τ env slot e with
    | (.ok .none, s) =>
      match τ with
      | .opt a => let r := eval a env s d; (r.1.map .some, r.2)
      | _ => (.stuck, s)
    | r => r
  | .ifSlot a b => if slot.isSome then eval τ env slot a else eval τ env slot b
  | .ifLetSlot a b =>
    match slot with
    | .some v => eval τ { env with var := .some v } .none a
    | .none => eval τ env .none b
  | .mapOrElse e d b =>
    match eval (.opt .t) env slot e with
    | (.ok .none, s) => eval τ env s d
    | (.ok (.some (.val v)), s) => eval τ { env with var := .some v } s b
    | (.ok _, s) => (.stuck, s)
    | r => r
  | .var =>
    match env.var with
    | .some v => (.ok (.val v), slot)
    | .none => (.stuck, slot)
  | .shadow => (.ok env.shadow, slot)
  | .me => (.ok env.me, slot)
  | .meTake =>
    match env.me with
    | .once a => (.ok a, slot)
    | .cell a => (.ok a, slot)
    | .none => (.ok .none, slot)
    | .some a => (.ok (.some a), slot)
    | _ => (.stuck, slot)
  | .meIntoInner =>
    match env.me with
    | .proxy _ a => (.ok a, slot)
    | .lock _ a => (.ok a, slot)
    | .cell a => (.ok a, slot)
    | .once a => (.ok a, slot)
    | _ => (.stuck, slot)

/-- Is `Self`, in every default expression of `e`, the user's struct, if the code is written inside an `impl` for the
struct itself (`inStruct`) or for another type (builder, shadow)? An expression that went through `fixup_self_type`
does not mention `Self` any more. -/
def selfOk (inStruct : Bool) : IE → Bool
  | .dv fixed => fixed || inStruct
  | .some e | .onceFrom e | .cellNew e | .lockNew _ e | .proxyNew _ _ e => selfOk inStruct e
  | .orElseSome a b | .ifSlot a b | .ifLetSlot a b => selfOk inStruct a && selfOk inStruct b
  | .mapOrElse a b c => selfOk inStruct a && selfOk inStruct b && selfOk inStruct c
  | _ => true

end Verif.Model.Init
