import Verif.Model.Init
import Verif.Spec.Cell
/-
The bodies of the generated helper methods of one field, and what they do.

Sources: /repo/fieldx_derive/src/codegen/plain.rs 67-365, /repo/fieldx_derive/src/codegen/sync.rs 53-111, 212-370, 456-647,
/repo/fieldx_derive/src/codegen/sync/{impl_sync,impl_async}.rs; the containers in
/repo/fieldx/src/{sync,async}/{fxproxy,fxlock}.rs, std::cell::RefCell, once_cell::unsync::OnceCell, parking_lot and tokio
`RwLock`.

Every generated body is one or two chains `self.f.m1().m2()...`; a chain is a list of `MOp`. Prefix operators and the
enclosing `Ok(..)` stand where they are applied: after the postfix methods.

Simplifications: names, visibility, attributes, lifetimes and generics are in `Verif.Model.Names`; `.into()` on a value is
not shown; the calls of one thread are considered, with guards handed out earlier still alive or not (`Field.rd`,
`Field.wr`); a call on a proxy is one step here (`Verif.Model.Sync` and `Verif.Model.Async` have the small steps, C02 and
C12 connect them to one-step calls).
-/
namespace Verif.Model.Method
open Verif.Model.Args Verif.Model.Init
open Verif.Spec (Outcome)

/-- Operations in method bodies. -/
inductive MOp
  /-- `&e` -/
  | amp
  /-- `&mut e` -/
  | ampMut
  /-- `*e` -/
  | star
  /-- a place used as a value: copied out -/
  | copyVal
  | clone
  | asRef
  | copied
  | cloned
  | borrow
  | borrowMut
  /-- `get_or_init(|| self.build())`, `get_or_init(|| self.myself().expect(..).build())` (`rc`) -/
  | getOrInit (rc : Bool)
  | getOrTryInit (rc : Bool)
  | get
  | getMut
  | unwrap
  | take
  /-- `set(value)` -/
  | setV
  /-- `replace(value)` -/
  | replaceV
  /-- `replace(Some(value))` -/
  | replaceSomeV
  /-- `store(value)` -/
  | storeV
  /-- `::std::mem::replace(e, value)` -/
  | memReplaceV
  /-- `read()` -/
  | read
  /-- `try_read()` -/
  | tryRead
  /-- `write()` -/
  | write
  /-- `read(&self)`, `read_mut(&self)`, `try_read(&self)`, `try_read_mut(&self)`; with `rc` the argument is
  `self.myself().expect(..)` -/
  | lazyRead (rc mutable fallible : Bool)
  | clear
  | isSet
  | isSome
  | await
  | question
  | okWrap
deriving DecidableEq, Repr

/-- Guard types. -/
inductive Guard
  | ref
  | refMut
  | read (async : Bool)
  | write (async : Bool)
  | mapRead
  | mapWrite (async : Bool)
  /-- `FXWrLockGuardSync`, `FXWrLockGuardAsync` -/
  | fx (async : Bool)
deriving DecidableEq, Repr

/-- Types of expressions in method bodies. `m`: mutable; `loc`: borrowed from a guard that dies with the method. -/
inductive CTy
  | own (τ : Ty)
  | bool
  | unitRes
  | place (m loc : Bool) (τ : Ty)
  | ref (m loc : Bool) (τ : Ty)
  /-- `Option<&T>`, `Option<&mut T>` -/
  | optRef (m loc : Bool)
  | guard (g : Guard) (τ : Ty)
  /-- `Option` of a guard: parking_lot `try_read` -/
  | optGuard (g : Guard) (τ : Ty)
  /-- `Result` of a guard with tokio's `TryLockError` -/
  | tryGuard (g : Guard) (τ : Ty)
  /-- `Result<a, E>` with the error type of the field -/
  | res (a : CTy)
  /-- a future -/
  | fut (a : CTy)
  /-- `&Result<τ, E>` -/
  | refRes (τ : Ty)
  /-- `Ref<&T>`, `Ref<Option<&T>>` -/
  | refOfRef
deriving DecidableEq, Repr

/-- A generated method: receiver `&mut self` or `&self`, `async`, declared return type, and the body: optionally a first
chain, then the main chain; the value returned is that of the first chain if `retPre`. -/
structure Body where
  recvMut : Bool := false
  isAsync : Bool := false
  ret     : CTy
  pre     : Option (List MOp) := none
  main    : List MOp
  retPre  : Bool := false
deriving DecidableEq, Repr

section
variable (x : FCtx)

/-- Is the struct reference counted: fieldx_derive/src/codegen/codegen_trait.rs 530-545 `maybe_ref_counted_self`. -/
def rc : Bool := x.ctx.args.isRefCounted

/-- codegen_trait.rs 278-285 `maybe_optional`, sync.rs 114-122 `maybe_optional_ty`. -/
def maybeOpt : Ty := if x.isOptional then .opt .t else .t

/-- codegen_trait.rs 554-567 `fallible_return_type`. -/
def fallibleRet (a : CTy) : Gen CTy :=
  if x.isFallible then (if hasErrorType x then .ok (.res a) else .error) else .ok a

/-- ctx/field.rs 464-471 `fallible_shortcut`. -/
def shortcut : List MOp := if x.isFallible then [.question] else []

/-- ctx/field.rs 473-480 `fallible_ok_return`. -/
def okReturn : List MOp := if x.isFallible then [.okWrap] else []

/-- sync/impl_async.rs 61-63, sync/impl_sync.rs 40-42 `await_call`. -/
def awaitCall : List MOp := if x.isAsync then [.await] else []

/-- plain.rs 20-27 `get_or_init_method`, 67-79 `field_lazy_initializer`. -/
def plainLazyInit : MOp := if x.isFallible then .getOrTryInit (rc x) else .getOrInit (rc x)

/-- plain.rs 92-97: the postfix method of the accessor mode. -/
def plainMeth : List MOp :=
  match x.accessorMode with
  | .copy => []
  | .clone => [.clone]
  | .asRef => [.asRef]
  | .none => []

/-- plain.rs 81-146 `field_accessor`. -/
def plainAccessor : Gen Body :=
  if x.isLazy then do
    let byRef := x.accessorMode == .none
    let ret ← fallibleRet x (if byRef then .ref false false .t else .own .t)
    let deref : List MOp := if x.accessorMode == .copy then [.star, .copyVal] else []
    return { ret := ret, main := [plainLazyInit x] ++ shortcut x ++ plainMeth x ++ deref ++ okReturn x }
  else if x.isInnerMut then
    let asRef := x.accessorMode == .asRef
    if x.isClone || x.isCopy then
      let ret : CTy := if asRef then (if x.isOptional then .optRef false false else .ref false false .t)
        else .own (maybeOpt x)
      .ok { ret := ret, main := [.borrow, .star] ++ plainMeth x ++ (match x.accessorMode with | .copy | .none => [.copyVal] | _ => []) }
    else
      .ok { ret := if asRef then .refOfRef else .guard .ref (maybeOpt x), main := [.borrow] ++ plainMeth x }
  else match x.accessorMode with
    | .copy => .ok { ret := .own (maybeOpt x), main := [.copyVal] }
    | .clone => .ok { ret := .own (maybeOpt x), main := [.clone] }
    | .asRef => .ok { ret := if x.isOptional then .optRef false false else .ref false false .t, main := [.asRef] }
    | .none => .ok { ret := .ref false false (maybeOpt x), main := [.amp] }

/-- plain.rs 148-200 `field_accessor_mut`. -/
def plainAccessorMut : Gen Body :=
  if x.isLazy then do
    let ret ← fallibleRet x (.ref true false .t)
    return { recvMut := true, ret := ret, pre := some ([plainLazyInit x] ++ shortcut x)
             main := [.getMut, .unwrap] ++ okReturn x }
  else if x.isInnerMut then .ok { ret := .guard .refMut (maybeOpt x), main := [.borrowMut] }
  else .ok { recvMut := true, ret := .ref true false (maybeOpt x), main := [.ampMut] }

/-- plain.rs 241-300 `field_setter`. -/
def plainSetter : Gen Body :=
  if x.isLazy then
    .ok { recvMut := true, ret := .own (.opt .t), pre := some [.take], main := [.setV], retPre := true }
  else if x.isInnerMut then
    .ok { ret := .own (maybeOpt x), main := [if x.isOptional then .replaceSomeV else .replaceV] }
  else if x.isOptional then .ok { recvMut := true, ret := .own (.opt .t), main := [.replaceV] }
  else .ok { recvMut := true, ret := .own .t, main := [.ampMut, .memReplaceV] }

/-- plain.rs 302-327 `field_clearer`. -/
def plainClearer : Gen Body :=
  if x.isInnerMut then .ok { ret := .own (maybeOpt x), main := [.take] }
  else .ok { recvMut := true, ret := .own (.opt .t), main := [.take] }

/-- plain.rs 329-365 `field_predicate`, written only for lazy and optional fields. -/
def plainPredicate : Gen Body :=
  if x.isLazy then .ok { ret := .bool, main := [.get, .isSome] }
  else if x.isInnerMut then .ok { ret := .bool, main := [.borrow, .isSome] }
  else .ok { ret := .bool, main := [.isSome] }

/-- sync/impl_sync.rs 56-62, sync/impl_async.rs 77-83 `rwlock_mapped_read_guard`. -/
def mappedRead : Guard := if x.isAsync then .read true else .mapRead

/-- sync.rs 63-111 `field_reader_method`. -/
def syncReader : Gen Body :=
  if x.isLazy then do
    let ret ← fallibleRet x (.guard (mappedRead x) .t)
    return { isAsync := x.isAsync, ret := ret, main := [.lazyRead (rc x) false x.isFallible] ++ awaitCall x }
  else if x.isOptional then
    .ok { isAsync := x.isAsync, ret := .guard (.read x.isAsync) (.opt .t)
          main := [if x.isFallible then .tryRead else .read] ++ awaitCall x }
  else .ok { isAsync := x.isAsync, ret := .guard (.read x.isAsync) .t, main := [.read] ++ awaitCall x }

/-- sync.rs 230-245: the method at the end of a copy or clone accessor. -/
def syncCMethod : List MOp :=
  if x.isCopy then (if x.isOptional then [.asRef, .copied] else [.copyVal])
  else (if x.isOptional then [.asRef, .cloned] else [.clone])

/-- sync.rs 212-309 `field_accessor`. -/
def syncAccessor : Gen Body :=
  if x.isClone || x.isCopy then
    if x.isLazy then do
      let ret ← fallibleRet x (.own .t)
      return { isAsync := x.isAsync, ret := ret
               main := [.lazyRead (rc x) false x.isFallible] ++ awaitCall x ++ shortcut x ++ [.star] ++ syncCMethod x ++
                 okReturn x }
    else if x.needsLock then
      .ok { ret := .own (maybeOpt x), main := [.read] ++ shortcut x ++ [.star] ++ syncCMethod x }
    else if x.isOptional then .ok { ret := .own (maybeOpt x), main := syncCMethod x }
    else .ok { ret := .own .t, main := [if x.isCopy then .copyVal else .clone] }
  else if x.isLazy || x.needsLock then syncReader x
  else do
    let _ ← fallibleRet x (.own (maybeOpt x))
    return { ret := if x.isFallible then .refRes (maybeOpt x) else .ref false false (maybeOpt x), main := [.amp] }

/-- sync.rs 311-370 `field_accessor_mut`. -/
def syncAccessorMut : Gen Body :=
  if x.isLazy then do
    let ret ← fallibleRet x (.guard (.mapWrite x.isAsync) .t)
    return { isAsync := x.isAsync, ret := ret, main := [.lazyRead (rc x) true x.isFallible] ++ awaitCall x }
  else if x.needsLock then .ok { ret := .guard (.write x.isAsync) (maybeOpt x), main := [.write] }
  else .ok { recvMut := true, ret := .ref true false (maybeOpt x), main := [.ampMut] }

/-- sync.rs 465-507 `field_writer`. -/
def syncWriter : Gen Body :=
  if x.isLazy then do
    builderWrapper x
    return { isAsync := x.isAsync, ret := .guard (.fx x.isAsync) (.opt .t), main := [.write] ++ awaitCall x }
  else .ok { isAsync := x.isAsync, ret := .guard (.write x.isAsync) (maybeOpt x), main := [.write] ++ awaitCall x }

/-- sync.rs 509-566 `field_setter`. -/
def syncSetter : Gen Body :=
  if x.isLazy then
    .ok { isAsync := x.isAsync, ret := .own (.opt .t), main := [.write] ++ awaitCall x ++ [.storeV] }
  else if x.isOptional then
    if x.needsLock then
      .ok { isAsync := x.isAsync, ret := .own (.opt .t), main := [.write] ++ awaitCall x ++ [.replaceV] }
    else .ok { recvMut := true, ret := .own (.opt .t), main := [.replaceV] }
  else if x.needsLock then
    .ok { isAsync := x.isAsync, ret := .own .t, main := [.write] ++ awaitCall x ++ [.star, .ampMut, .memReplaceV] }
  else .ok { recvMut := true, ret := .own .t, main := [.ampMut, .memReplaceV] }

/-- sync.rs 568-602 `field_clearer`. -/
def syncClearer : Gen Body :=
  if x.isLazy then .ok { isAsync := x.isAsync, ret := .own (.opt .t), main := [.clear] ++ awaitCall x }
  else .ok { isAsync := x.isAsync, ret := .own (.opt .t), main := [.write] ++ awaitCall x ++ [.take] }

/-- sync.rs 604-647 `field_predicate`. -/
def syncPredicate : Gen Body :=
  if x.isLazy then .ok { ret := .bool, main := [.isSet] }
  else if x.needsLock then
    .ok { isAsync := x.isAsync, ret := .bool
          main := [if x.isFallible then .tryRead else .read] ++ awaitCall x ++ [.isSome] }
  else .ok { ret := .bool, main := [.isSome] }

/-- The body written for a helper of the field (whether it is written at all is `Verif.Model.Emit.emits`):
fieldx_derive/src/codegen.rs 116-123, codegen_trait.rs 303-322. The plain generator writes no reader and no writer
(plain.rs 435-441). -/
def body (k : Kind) : Gen Body :=
  match k with
  | .accessor => if x.isSync then syncAccessor x else plainAccessor x
  | .accessorMut => if x.isSync then syncAccessorMut x else plainAccessorMut x
  | .reader => if x.isSync then syncReader x else .error
  | .writer => if x.isSync then syncWriter x else .error
  | .setter => if x.isSync then syncSetter x else plainSetter x
  | .clearer => if x.isSync then syncClearer x else plainClearer x
  | .predicate => if x.isSync then syncPredicate x else plainPredicate x
  | .builder => .error
  | .lazy => .error

end

/-! ### Meaning -/

/-- A field at run time: its value, and the guards alive on it (`Ref`s and read guards; `RefMut` or write guard). -/
structure Field (V : Type) where
  val : Val V
  rd  : Nat := 0
  wr  : Bool := false
deriving DecidableEq, Repr

/-- Any guard alive? -/
def Field.busy {V : Type} (f : Field V) : Bool := f.wr || f.rd != 0

/-- Content of a container or of `Some`. -/
def child {V : Type} : Val V → Option (Val V)
  | .some a | .once a | .cell a | .lock _ a | .proxy _ a => some a
  | .none | .val _ => none

/-- Replace the content. -/
def setChild {V : Type} (b : Val V) : Val V → Val V
  | .some _ => .some b
  | .once _ => .once b
  | .cell _ => .cell b
  | .lock as _ => .lock as b
  | .proxy as _ => .proxy as b
  | a => a

/-- The part of a value `d` levels inside. -/
def sub {V : Type} : Nat → Val V → Option (Val V)
  | 0, a => some a
  | d + 1, a => (child a).bind (sub d)

/-- Replace the part `d` levels inside. -/
def put {V : Type} (b : Val V) : Nat → Val V → Val V
  | 0, _ => b
  | d + 1, a =>
    match child a with
    | some c => setChild (put b d c) a
    | none => a

/-- Values of expressions. References and places are given by their depth inside the field. -/
inductive CV (V E : Type)
  | own (a : Val V)
  | bool (b : Bool)
  | unit
  | place (d : Nat)
  | optPlace (o : Option Nat)
  | guard (ex : Bool) (d : Nat)
  | optGuard (o : Option (Bool × Nat))
  | ok (a : CV V E)
  | err (e : E)
  /-- a future that would perform the operation on the place -/
  | fut (op : MOp) (d : Nat)
deriving DecidableEq, Repr

/-- What a call is given: the argument, what the lazy builder would do if run, whether the self reference of an `rc`
object can be upgraded, and the value of `T::default()`. -/
structure CallEnv (V E : Type) where
  arg   : V
  bld   : Outcome V E
  alive : Bool := true
  dflt  : V

/-- State during a call: the field, the builder run made, and the guard taken by this call (exclusive or not). -/
structure Cfg (V E : Type) where
  f    : Field V
  ran  : Option (Outcome V E) := none
  held : Option Bool := none

/-- Outcome of one operation. -/
inductive Step (V E : Type)
  | next (c : Cfg V E) (a : CV V E)
  /-- `?` on `Err` -/
  | ret (c : Cfg V E) (e : E)
  | panic (c : Cfg V E)
  /-- waits for a guard which this thread itself keeps, or another thread -/
  | block
  | stuck

section
variable {V E : Type}

/-- Take a shared or an exclusive guard. -/
def Cfg.hold (c : Cfg V E) (ex : Bool) : Cfg V E :=
  { c with f := { c.f with rd := if ex then c.f.rd else c.f.rd + 1, wr := c.f.wr || ex }, held := some ex }

/-- Is there a guard in the way of a shared or an exclusive one? -/
def Cfg.blocked (c : Cfg V E) (ex : Bool) : Bool := if ex then c.f.busy else c.f.wr

/-- Write into the field. -/
def Cfg.put (c : Cfg V E) (d : Nat) (a : Val V) : Cfg V E := { c with f := { c.f with val := Method.put a d c.f.val } }

/-- The initialising reads of a proxy at depth `d`: /repo/fieldx/src/sync/fxproxy.rs 138-201,
/repo/fieldx/src/async/fxproxy.rs 147-206. `read` waits for no writer and, if the field is empty or mutable access is
wanted, for no reader; the async one always takes the write lock. An `Err` makes the infallible forms panic. -/
def lazyRead (env : CallEnv V E) (c : Cfg V E) (d : Nat) (rc mutable fallible : Bool) : Step V E :=
  if rc && !env.alive then .panic c
  else match sub d c.f.val with
    | some (.proxy as (.some (.val _))) =>
      if c.blocked (mutable || as) then .block
      else
        let g : CV V E := .guard mutable (d + 2)
        .next (c.hold mutable) (if fallible then .ok g else g)
    | some (.proxy as .none) =>
      if c.blocked true then .block
      else
        let c := { c with ran := some env.bld }
        match env.bld with
        | .ok v =>
          let g : CV V E := .guard mutable (d + 2)
          .next ((c.put d (.proxy as (.some (.val v)))).hold mutable) (if fallible then .ok g else g)
        | .err e => if fallible then .next c (.err e) else .panic c
        | .panic => .panic c
    | _ => .stuck

/-- Operations of async containers which return a future instead of acting: tokio `read`/`write`
(/repo/fieldx/src/async/fxlock.rs 22-30) and the `async fn`s of /repo/fieldx/src/async/fxproxy.rs. -/
def isFuture : MOp → Val V → Bool
  | .read, .lock true _ | .write, .lock true _ => true
  | .write, .proxy true _ | .clear, .proxy true _ | .lazyRead _ _ _, .proxy true _ => true
  | _, _ => false

/-- An operation on the place at depth `d`. -/
def onPlace (env : CallEnv V E) (c : Cfg V E) (d : Nat) (op : MOp) : Step V E :=
  match op, sub d c.f.val with
  | .amp, some _ | .ampMut, some _ => .next c (.place d)
  | .copyVal, some a => .next c (.own a)
  | .clone, some a => .next c (.own a)
  | .asRef, some .none => .next c (.optPlace none)
  | .asRef, some (.some _) => .next c (.optPlace (some (d + 1)))
  | .isSome, some .none => .next c (.bool false)
  | .isSome, some (.some _) => .next c (.bool true)
  -- std RefCell
  | .borrow, some (.cell _) => if c.blocked false then .panic c else .next (c.hold false) (.guard false (d + 1))
  | .borrowMut, some (.cell _) => if c.blocked true then .panic c else .next (c.hold true) (.guard true (d + 1))
  | .replaceV, some (.cell a) => if c.blocked true then .panic c else .next (c.put (d + 1) (.val env.arg)) (.own a)
  | .replaceSomeV, some (.cell a) =>
    if c.blocked true then .panic c else .next (c.put (d + 1) (.some (.val env.arg))) (.own a)
  | .take, some (.cell a) =>
    if c.blocked true then .panic c
    else .next (c.put (d + 1) (match a with | .val _ => .val env.dflt | _ => .none)) (.own a)
  -- once_cell OnceCell
  | .getOrInit rc, some (.once .none) | .getOrTryInit rc, some (.once .none) =>
    if rc && !env.alive then .panic c
    else
      let c := { c with ran := some env.bld }
      match env.bld with
      | .ok v =>
        .next (c.put (d + 1) (.some (.val v))) (if op = .getOrTryInit rc then .ok (.place (d + 2)) else .place (d + 2))
      | .err e => if op = .getOrTryInit rc then .next c (.err e) else .stuck
      | .panic => .panic c
  | .getOrInit _, some (.once (.some _)) => .next c (.place (d + 2))
  | .getOrTryInit _, some (.once (.some _)) => .next c (.ok (.place (d + 2)))
  | .get, some (.once .none) | .getMut, some (.once .none) => .next c (.optPlace none)
  | .get, some (.once (.some _)) | .getMut, some (.once (.some _)) => .next c (.optPlace (some (d + 2)))
  | .take, some (.once a) => .next (c.put (d + 1) .none) (.own a)
  | .setV, some (.once .none) => .next (c.put (d + 1) (.some (.val env.arg))) .unit
  | .setV, some (.once (.some _)) => .next c .unit
  -- Option
  | .take, some .none => .next c (.own .none)
  | .take, some (.some a) => .next (c.put d .none) (.own (.some a))
  | .replaceV, some .none => .next (c.put d (.some (.val env.arg))) (.own .none)
  | .replaceV, some (.some a) => .next (c.put d (.some (.val env.arg))) (.own (.some a))
  | .memReplaceV, some a => .next (c.put d (.val env.arg)) (.own a)
  -- locks
  | .read, some (.lock _ _) => if c.blocked false then .block else .next (c.hold false) (.guard false (d + 1))
  | .tryRead, some (.lock _ _) =>
    if c.blocked false then .next c (.optGuard none) else .next (c.hold false) (.optGuard (some (false, d + 1)))
  | .write, some (.lock _ _) => if c.blocked true then .block else .next (c.hold true) (.guard true (d + 1))
  -- proxies: fxproxy.rs 128-130, 204-217
  | .lazyRead rc m f, some (.proxy _ _) => lazyRead env c d rc m f
  | .write, some (.proxy _ _) => if c.blocked true then .block else .next (c.hold true) (.guard true (d + 1))
  | .clear, some (.proxy _ a) => if c.blocked true then .block else .next (c.put (d + 1) .none) (.own a)
  | .isSet, some (.proxy _ a) => .next c (.bool (match a with | .some _ => true | _ => false))
  | _, _ => .stuck

/-- One operation. Methods on guards and references act on what they point to; `store` is a method of the write guard of a
proxy (fxproxy.rs 232-235). -/
def stepOp (env : CallEnv V E) (c : Cfg V E) (a : CV V E) (op : MOp) : Step V E :=
  match op, a with
  | .await, .fut op' d => onPlace env c d op'
  | .question, .ok a => .next c a
  | .question, .err e => .ret c e
  | .okWrap, a => .next c (.ok a)
  | .star, .place d => .next c (.place d)
  | .star, .guard _ d => .next c (.place d)
  | .storeV, .guard true d => onPlace env c d .replaceV
  | .unwrap, .optPlace (some d) => .next c (.place d)
  | .unwrap, .optPlace none => .panic c
  | .isSome, .optPlace o => .next c (.bool o.isSome)
  | .isSome, .optGuard o => .next c (.bool o.isSome)
  | .copied, .optPlace o | .cloned, .optPlace o =>
    match o with
    | none => .next c (.own .none)
    | some d =>
      match sub d c.f.val with
      | some b => .next c (.own (.some b))
      | none => .stuck
  | op, .place d =>
    match sub d c.f.val with
    | some b => if isFuture op b then .next c (.fut op d) else onPlace env c d op
    | none => .stuck
  | op, .guard _ d => onPlace env c d op
  | _, _ => .stuck

/-- A chain of operations. -/
def runChain (env : CallEnv V E) (c : Cfg V E) (a : CV V E) : List MOp → Step V E
  | [] => .next c a
  | op :: ops =>
    match stepOp env c a op with
    | .next c a => runChain env c a ops
    | s => s

/-- What the caller gets. -/
inductive Got (V E : Type)
  | value (a : CV V E)
  | error (e : E)
  | panicked
  | blocked
  | ill
deriving DecidableEq, Repr

/-- Does the value keep the guard alive? -/
def CV.keeps : CV V E → Bool
  | .guard _ _ => true
  | .ok a => a.keeps
  | .optGuard o => o.isSome
  | _ => false

/-- The field after the guard taken by the call is gone. -/
def Cfg.release (c : Cfg V E) : Field V :=
  match c.held with
  | none => c.f
  | some true => { c.f with wr := false }
  | some false => { c.f with rd := c.f.rd - 1 }

/-- Returning: a guard that is not part of the result is dropped. `Err` results are told apart. -/
def finish (c : Cfg V E) (a : CV V E) : Got V E × Field V × Option (Outcome V E) :=
  match a with
  | .err e => (.error e, c.release, c.ran)
  | .ok a => (.value a, if a.keeps then c.f else c.release, c.ran)
  | a => (.value a, if a.keeps then c.f else c.release, c.ran)

/-- Call a generated method. -/
def call (b : Body) (env : CallEnv V E) (f : Field V) : Got V E × Field V × Option (Outcome V E) :=
  let fin : Step V E → Got V E × Field V × Option (Outcome V E)
    | .next c a => finish c a
    | .ret c e => (.error e, c.release, c.ran)
    | .panic c => (.panicked, c.release, c.ran)
    | .block => (.blocked, f, none)
    | .stuck => (.ill, f, none)
  match b.pre with
  | none => fin (runChain env { f := f } (.place 0) b.main)
  | some p =>
    match runChain env { f := f } (.place 0) p with
    | .next c a =>
      if b.retPre then
        match runChain env c (.place 0) b.main with
        | .next c' _ => fin (.next c' a)
        | s => fin s
      else fin (runChain env c (.place 0) b.main)
    | s => fin s

end

end Verif.Model.Method
