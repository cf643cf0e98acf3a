import Verif.Model.Structs
import Verif.Model.SerdeDerive
import Verif.Spec.Traits
/-
What the containers are made of, and which traits of the standard library they implement: the auto traits `Send` and `Sync`,
and those users derive.

Sources: /repo/fieldx/src/sync/fxproxy.rs, /repo/fieldx/src/async/fxproxy.rs, /repo/fieldx/src/sync/fxlock.rs,
/repo/fieldx/src/async/fxlock.rs, /repo/fieldx/src/traits.rs, /repo/fieldx/src/lib.rs 490; /repo/fieldx_derive/src/codegen.rs
140-165, codegen/sync.rs 199-201, codegen/plain.rs 63-65.

Simplifications: the types of `std`, `once_cell`, `parking_lot`, `tokio` and what they implement are those of their
documentation. References to `parking_lot` guards: what they implement is stated for contents which are `Send` and `Sync`.
A generic struct stands for its instances. The argument of a setter has the type of the field (with `into` it has its own).
-/
namespace Verif.Model.Traits
open Verif.Model.Args Verif.Model.Init Verif.Spec.Traits

/-- The auto traits. -/
inductive Auto
  | send
  | sync
deriving DecidableEq, Repr

/-- Types from which fields, guards and futures are made. -/
inductive RTy
  /-- the type written for the field; for the hidden field it is `Weak<Self>` -/
  | user
  | opt (a : RTy)
  /-- `once_cell::unsync::OnceCell`: /repo/fieldx/src/lib.rs 490 -/
  | once (a : RTy)
  | refCell (a : RTy)
  /-- `parking_lot::RwLock`, `tokio::sync::RwLock` -/
  | rwLock (async : Bool) (a : RTy)
  | atomicBool
  /-- `fn(&S) -> T` -/
  | fnPtr
  /-- `Box<dyn Fn(&S) -> Pin<Box<dyn Future<..> + Send + '_>> + Send + Sync>` -/
  | boxFn
  /-- `Pin<Box<dyn Future<..> + Send + '_>>` -/
  | boxFuture
  /-- the struct -/
  | owner
  | ref (a : RTy)
  /-- `Arc<S>`, `Rc<S>` -/
  | strong (arc : Bool)
  /-- guards of `parking_lot` and `tokio`, shared or exclusive, mapped or not -/
  | guard (async ex : Bool) (a : RTy)
  /-- a struct or the state of a future with two parts -/
  | both (a b : RTy)
deriving DecidableEq, Repr

/-- The builder wrapper in a proxy: sync/fxproxy.rs 17-21, 42-46; async/fxproxy.rs 14, 22-25, 50-53. -/
def wrapper (async : Bool) : RTy := if async then .boxFn else .fnPtr

/-- `FXProxySync`, `FXProxyAsync`: sync/fxproxy.rs 67-75, async/fxproxy.rs 81-89. -/
def proxy (async : Bool) : RTy :=
  .both (.rwLock async (.opt .user)) (.both .atomicBool (.rwLock async (.opt (wrapper async))))

/-- `FXRwLockSync`, `FXRwLockAsync`: fxlock.rs 8-9 of both. -/
def lock (async : Bool) (a : RTy) : RTy := .rwLock async a

/-- The type of a field (`declType`) in terms of what it is made of. -/
def expand : Ty → RTy
  | .t => .user
  | .opt a => .opt (expand a)
  | .once a => .once (expand a)
  | .cell a => .refCell (expand a)
  | .lock as a => lock as (expand a)
  | .proxy as _ => proxy as

/-- `FXWrLockGuardSync`, `FXWrLockGuardAsync`: sync/fxproxy.rs 77-87, async/fxproxy.rs 91-101. -/
def fxGuard (async : Bool) : RTy := .both (.refCell (.guard async true (.opt .user))) (.ref (proxy async))

/-- Does a type have an auto trait? Given which of them the user's type has, and the struct. `sg`: the feature `send_guard`,
/repo/fieldx/Cargo.toml 40. -/
def auto (sg : Bool) (user owner : Auto → Bool) : RTy → Auto → Bool
  | .user, t => user t
  | .opt a, t => auto sg user owner a t
  | .once a, .send | .refCell a, .send => auto sg user owner a .send
  | .once _, .sync | .refCell _, .sync => false
  | .rwLock _ a, .send => auto sg user owner a .send
  | .rwLock _ a, .sync => auto sg user owner a .send && auto sg user owner a .sync
  | .atomicBool, _ | .fnPtr, _ | .boxFn, _ => true
  | .boxFuture, .send => true
  | .boxFuture, .sync => false
  | .owner, t => owner t
  | .strong arc, _ => arc && (owner .send && owner .sync)
  | .ref a, _ => auto sg user owner a .sync
  | .guard false _ a, .send => sg && auto sg user owner a .send && auto sg user owner a .sync
  | .guard false _ a, .sync => auto sg user owner a .send && auto sg user owner a .sync
  | .guard true ex a, .send => auto sg user owner a .sync && (!ex || auto sg user owner a .send)
  | .guard true _ a, .sync => auto sg user owner a .send && auto sg user owner a .sync
  | .both a b, t => auto sg user owner a t && auto sg user owner b t

/-- `Weak<Self>` of `std::sync` or `std::rc`. -/
def weak (arc : Bool) (owner : Auto → Bool) : Auto → Bool := fun _ => arc && (owner .send && owner .sync)

/-- The type of a field of the struct: codegen_trait.rs 287-301. -/
def fieldTy (c : Ctx) (f : FieldArgs) : RTy :=
  match declType ⟨c, f⟩ with
  | .ok τ => expand τ
  | _ => .user

/-- One round: the struct has an auto trait if all its fields have it, supposing that of the struct. `user` says what the types
have which the user wrote; the field added has the `Weak` that goes with `is_rather_sync`: codegen.rs 151-161. -/
def round (c : Ctx) (user : String → Auto → Bool) (owner : Auto → Bool) (t : Auto) : Bool :=
  c.extra.all (fun f => auto false (weak c.isRatherSync owner) owner (fieldTy c f) t) &&
    c.fields.all (fun f => auto false (user f.ident) owner (fieldTy c f) t)

/-- The auto traits of the struct: what the compiler finds when it may suppose them for the struct itself where it meets it
again. -/
def structAuto (c : Ctx) (user : String → Auto → Bool) : Auto → Bool :=
  round c user (round c user (round c user fun _ => true))

/-! ### Async builders -/

/-- `FXProxyAsync<B>` may be written only if `B: FXBuilderWrapperAsync`, which the wrappers are if the struct is `Sync`:
async/fxproxy.rs 39-43, 70-74, 82-84. -/
def wellFormed (c : Ctx) (user : String → Auto → Bool) : Bool :=
  c.allFields.all fun f => match declType ⟨c, f⟩ with
    | .ok (.proxy true _) => structAuto c user .sync
    | _ => true

/-- What an async helper does with the container: accessors and readers, writers and clearers, setters. -/
inductive Use
  | read
  | write
  | store
deriving DecidableEq, Repr

/-- What is alive at each `await` of an async helper, in the helper and in the method of the container it awaits. Helpers: sync.rs
63-111, 246-261, 321-335, 477-502, 522-553, 579-597; codegen_trait.rs 530-544 `maybe_ref_counted_self`: the strong reference
lives as long as the call. Proxies: async/fxproxy.rs 153-166 (`read_or_init`), 212-214, 222-225; locks: async/fxlock.rs 22-30. -/
def awaits (x : FCtx) (τ : Ty) (u : Use) : List RTy :=
  let me : RTy := .ref .owner
  let arg : RTy := if x.ctx.args.isRefCounted then .both me (.strong x.ctx.isRatherSync) else me
  match τ, u with
  | .proxy true _, .read =>
    [.both arg (.ref (proxy true)),
     .both arg (.both (.ref (proxy true)) (.guard true true (.opt .user))),
     .both arg (.both (.both (.ref (proxy true)) (.guard true true (.opt .user)))
       (.both (.guard true false (.opt (wrapper true))) .boxFuture))]
  | .proxy true _, .write => [.both me (.ref (proxy true))]
  | .proxy true _, .store => [.both (.both me .user) (.ref (proxy true))]
  | .lock true a, .store => [.both (.both me .user) (.ref (lock true (expand a)))]
  | .lock true a, _ => [.both me (.ref (lock true (expand a)))]
  | _, _ => []

/-! ### Derives -/

/-- The wrapper in a proxy is `Clone`: sync/fxproxy.rs 18, 43 derive it, for which the struct, the type and the error type have to
be; async/fxproxy.rs 22-25, 50-53 do not. `owner` for the struct, `err` for the error type. -/
def wrapperClone (async fallible user owner err : Bool) : Bool :=
  !async && user && owner && (!fallible || err)

/-- What a type implements. `user`, `err`: what the type and the error type of the field do. `owner`: what the struct does.
- `OnceCell`, `RefCell`, `Option` as documented;
- `FXRwLockSync`: sync/fxlock.rs 8, 23, 35, 63, 73; `FXRwLockAsync`: async/fxlock.rs 8, 33, 71, 81;
- `FXProxySync`: sync/fxproxy.rs 89, 243, 259, 271; `FXProxyAsync`: async/fxproxy.rs 103, 251. -/
def impls (user err owner : Der → Bool) : Ty → Der → Bool
  | .t, d => user d
  | .opt _, .default => true
  | .opt a, d => impls user err owner a d
  | .once _, .default => true
  | .once a, .clone => impls user err owner a .clone
  | .once a, .debug => impls user err owner a .debug
  | .once a, .partialEq => impls user err owner a .partialEq
  | .once a, .eq => impls user err owner a .eq
  | .once _, _ => false
  | .cell _, .copy | .cell _, .hash => false
  | .cell a, d => impls user err owner a d
  | .lock _ a, .clone => impls user err owner a .clone
  | .lock _ a, .debug => impls user err owner a .debug
  | .lock _ a, .default => impls user err owner a .default
  | .lock _ a, .partialEq => impls user err owner a .partialEq
  | .lock as a, .eq => !as && impls user err owner a .eq
  | .lock _ _, _ => false
  | .proxy as fa, .clone => user .clone && wrapperClone as fa (user .clone) (owner .clone) (err .clone)
  | .proxy _ _, .debug => user .debug
  | .proxy as _, .partialEq => !as && user .partialEq
  | .proxy as _, .eq => !as && user .eq
  | .proxy _ _, _ => false

/-- `Weak` of `std::sync` and `std::rc`. -/
def weakImpls : Der → Bool
  | .clone | .debug | .default => true
  | _ => false

/-- `#[derive(d)]` on the struct compiles: every field has the trait, the struct having it. (A second `Default` beside the generated
one is another matter: `Default.hasDefaultImpl`.) -/
def derives (c : Ctx) (user err : String → Der → Bool) (d : Der) : Bool :=
  let has (u : FieldArgs → Der → Bool) (f : FieldArgs) : Bool := match declType ⟨c, f⟩ with
    | .ok τ => impls (u f) (err f.ident) (fun _ => true) τ d
    | _ => true
  c.extra.all (has fun _ => weakImpls) && c.fields.all (has fun f => user f.ident)

/-- The expansion asks for `Clone`: `#[serde(into = ..)]` does, which codegen/serde.rs 269-272 writes. -/
def asksClone (c : Ctx) : Bool := (SerdeDerive.structArgs c.args).contains .into

end Verif.Model.Traits
