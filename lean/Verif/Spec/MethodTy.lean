import Verif.Model.Method
/-
Typing of the bodies of generated methods, written from the signatures in the Rust standard library (`RefCell`, `Option`,
`Ref`), once_cell, parking_lot, tokio and /repo/fieldx/src/{sync,async}/{fxlock,fxproxy}.rs, and from the rules of Rust for
`&`, `*`, `?`, `.await`, moves and returns. Independent of how the generators choose a body.

About the user's type `T` only this is known: it is `Clone`, it has `Default`, and it is `Copy` if `copyT`. So
`as_ref`, `take`, `is_some` on a `T` are errors.
-/
namespace Verif.Spec.MethodTy
open Verif.Model.Init Verif.Model.Method

/-- Where a body stands: receiver `&mut self`, `async fn`, return type is a `Result`, `T: Copy`. -/
structure MEnv where
  recvMut : Bool
  isAsync : Bool
  retRes  : Bool
  copyT   : Bool

/-- The user's type, or `Option` of it: the types which can be copied or cloned out. -/
inductive Data : Ty → Prop
  | t : Data .t
  | opt : Data (.opt .t)

/-- Guards giving mutable access. -/
inductive MutGuard : Guard → Prop
  | refMut : MutGuard .refMut
  | write (a) : MutGuard (.write a)
  | mapWrite (a) : MutGuard (.mapWrite a)

/-- `*g` is a mutable place? -/
def guardMut : Guard → Bool
  | .refMut | .write _ | .mapWrite _ => true
  | _ => false

/-- A call of an `async fn` gives a future. -/
def call? (async : Bool) (c : CTy) : CTy := if async then .fut c else c

/-- What the initialising reads give: parking_lot's mapped guards, tokio's `RwLockReadGuard` (which is its own mapped form)
and `RwLockMappedWriteGuard`. -/
def lazyGuard (async mutable : Bool) : Guard :=
  match mutable, async with
  | true, a => .mapWrite a
  | false, true => .read true
  | false, false => .mapRead

/-- `OpTy Γ c op c'`: the operation can be applied to an expression of type `c` and gives one of type `c'`. -/
inductive OpTy (Γ : MEnv) : CTy → MOp → CTy → Prop
  | amp {m l τ} : OpTy Γ (.place m l τ) .amp (.ref false l τ)
  | ampMut {l τ} : OpTy Γ (.place true l τ) .ampMut (.ref true l τ)
  | starRef {m l τ} : OpTy Γ (.ref m l τ) .star (.place m l τ)
  | starGuard {g τ} : OpTy Γ (.guard g τ) .star (.place (guardMut g) true τ)
  | copyVal {m l τ} : Γ.copyT = true → Data τ → OpTy Γ (.place m l τ) .copyVal (.own τ)
  | clonePlace {m l τ} : Data τ → OpTy Γ (.place m l τ) .clone (.own τ)
  | cloneRef {m l τ} : Data τ → OpTy Γ (.ref m l τ) .clone (.own τ)
  | cloneGuard {g τ} : Data τ → OpTy Γ (.guard g τ) .clone (.own τ)
  | asRefPlace {m l} : OpTy Γ (.place m l (.opt .t)) .asRef (.optRef false l)
  | asRefRef {m l} : OpTy Γ (.ref m l (.opt .t)) .asRef (.optRef false l)
  | asRefGuard {g} : OpTy Γ (.guard g (.opt .t)) .asRef (.optRef false true)
  | copied {m l} : Γ.copyT = true → OpTy Γ (.optRef m l) .copied (.own (.opt .t))
  | cloned {m l} : OpTy Γ (.optRef m l) .cloned (.own (.opt .t))
  -- RefCell
  | borrow {m τ} : OpTy Γ (.place m false (.cell τ)) .borrow (.guard .ref τ)
  | borrowMut {m τ} : OpTy Γ (.place m false (.cell τ)) .borrowMut (.guard .refMut τ)
  | replaceCell {m l} : OpTy Γ (.place m l (.cell .t)) .replaceV (.own .t)
  | replaceCellSome {m l} : OpTy Γ (.place m l (.cell (.opt .t))) .replaceSomeV (.own (.opt .t))
  | takeCell {m l τ} : Data τ → OpTy Γ (.place m l (.cell τ)) .take (.own τ)
  -- OnceCell
  | getOrInit {m l rc} : OpTy Γ (.place m l (.once .t)) (.getOrInit rc) (.ref false l .t)
  | getOrTryInit {m l rc} : OpTy Γ (.place m l (.once .t)) (.getOrTryInit rc) (.res (.ref false l .t))
  | get {m l} : OpTy Γ (.place m l (.once .t)) .get (.optRef false l)
  | getMut {l} : OpTy Γ (.place true l (.once .t)) .getMut (.optRef true l)
  | takeOnce {l} : OpTy Γ (.place true l (.once .t)) .take (.own (.opt .t))
  | setOnce {m l} : OpTy Γ (.place m l (.once .t)) .setV .unitRes
  -- Option
  | unwrap {m l} : OpTy Γ (.optRef m l) .unwrap (.ref m l .t)
  | takeOpt {l} : OpTy Γ (.place true l (.opt .t)) .take (.own (.opt .t))
  | takeGuard {g} : MutGuard g → OpTy Γ (.guard g (.opt .t)) .take (.own (.opt .t))
  | replaceOpt {l} : OpTy Γ (.place true l (.opt .t)) .replaceV (.own (.opt .t))
  | replaceGuard {g} : MutGuard g → OpTy Γ (.guard g (.opt .t)) .replaceV (.own (.opt .t))
  | isSomePlace {m l} : OpTy Γ (.place m l (.opt .t)) .isSome .bool
  | isSomeGuard {g} : OpTy Γ (.guard g (.opt .t)) .isSome .bool
  | isSomeRef {m l} : OpTy Γ (.optRef m l) .isSome .bool
  | isSomeOptGuard {g τ} : OpTy Γ (.optGuard g τ) .isSome .bool
  -- std::mem::replace(&mut T, T)
  | memReplace {l} : OpTy Γ (.ref true l .t) .memReplaceV (.own .t)
  -- FXRwLockSync dereferences to parking_lot::RwLock, FXRwLockAsync has `async fn read/write` and dereferences to tokio's
  | read {m a τ} : OpTy Γ (.place m false (.lock a τ)) .read (call? a (.guard (.read a) τ))
  | tryReadSync {m τ} : OpTy Γ (.place m false (.lock false τ)) .tryRead (.optGuard (.read false) τ)
  | tryReadAsync {m τ} : OpTy Γ (.place m false (.lock true τ)) .tryRead (.tryGuard (.read true) τ)
  | writeLock {m a τ} : OpTy Γ (.place m false (.lock a τ)) .write (call? a (.guard (.write a) τ))
  -- proxies
  | writeProxy {m a f} : OpTy Γ (.place m false (.proxy a f)) .write (call? a (.guard (.fx a) (.opt .t)))
  | store {a} : OpTy Γ (.guard (.fx a) (.opt .t)) .storeV (.own (.opt .t))
  | clear {m a f} : OpTy Γ (.place m false (.proxy a f)) .clear (call? a (.own (.opt .t)))
  | isSet {m a f} : OpTy Γ (.place m false (.proxy a f)) .isSet .bool
  | lazyRead {m a f rc mu} :
    OpTy Γ (.place m false (.proxy a f)) (.lazyRead rc mu false) (call? a (.guard (lazyGuard a mu) .t))
  | lazyTryRead {m a f rc mu} :
    OpTy Γ (.place m false (.proxy a f)) (.lazyRead rc mu true) (call? a (.res (.guard (lazyGuard a mu) .t)))
  -- control
  | await {c} : Γ.isAsync = true → OpTy Γ (.fut c) .await c
  | question {c} : Γ.retRes = true → OpTy Γ (.res c) .question c
  | okWrap {c} : OpTy Γ c .okWrap (.res c)

/-- Chains. -/
inductive ChainTy (Γ : MEnv) : CTy → List MOp → CTy → Prop
  | nil {c} : ChainTy Γ c [] c
  | cons {c op c' ops c''} : OpTy Γ c op c' → ChainTy Γ c' ops c'' → ChainTy Γ c (op :: ops) c''

/-- Where the body of a method with this signature stands. -/
def envOf (b : Body) (copyT : Bool) : MEnv :=
  { recvMut := b.recvMut, isAsync := b.isAsync, retRes := (match b.ret with | .res _ => true | _ => false), copyT := copyT }

/-- The method type-checks in a struct where the field is declared with type `τ`. -/
inductive BodyTy (τ : Ty) (copyT : Bool) (b : Body) : Prop
  | one : b.pre = none → b.retPre = false →
      ChainTy (envOf b copyT) (.place b.recvMut false τ) b.main b.ret → BodyTy τ copyT b
  | second {p c} : b.pre = some p → b.retPre = false →
      ChainTy (envOf b copyT) (.place b.recvMut false τ) p c →
      ChainTy (envOf b copyT) (.place b.recvMut false τ) b.main b.ret → BodyTy τ copyT b
  | first {p c} : b.pre = some p → b.retPre = true →
      ChainTy (envOf b copyT) (.place b.recvMut false τ) p b.ret →
      ChainTy (envOf b copyT) (.place b.recvMut false τ) b.main c → BodyTy τ copyT b

end Verif.Spec.MethodTy
