import Verif.Model.Init
/-
Typing of the generated expressions, written from the signatures in the Rust standard library, once_cell, and
/repo/fieldx/src/{sync,async}/{fxlock,fxproxy}.rs. Independent of how the generators choose an expression.
-/
namespace Verif.Spec.InitTy
open Verif.Model.Init

/-- What can be mentioned at the place of the expression: the builder slot `self.f : Option<T>` (in `build()`), the shadow
field (in the conversion from the shadow), the struct field being converted (in the conversion into the shadow). -/
structure TEnv where
  slot   : Bool := false
  shadow : Option Ty := none
  me     : Option Ty := none

/-- `Default` is implemented for the type (`T: Default` is assumed): `Option`, `OnceCell` always; `RefCell` and the locks
(/repo/fieldx/src/sync/fxlock.rs 8, /repo/fieldx/src/async/fxlock.rs 8) if the content has it; the proxies do not. -/
inductive HasDefault : Ty → Prop
  | t : HasDefault .t
  | opt (a) : HasDefault (.opt a)
  | once (a) : HasDefault (.once a)
  | cell {a} : HasDefault a → HasDefault (.cell a)
  | lock (as) {a} : HasDefault a → HasDefault (.lock as a)

/-- `HasTy Γ b e τ`: expression `e` can be used where a `τ` is expected; `b` tells whether the variable of
`if let`/`map_or_else` is in scope. -/
inductive HasTy (Γ : TEnv) : Bool → IE → Ty → Prop
  | dv {b f} : HasTy Γ b (.dv f) .t
  | sdv {b} : HasTy Γ b .sdv .t
  | dflt {b τ} : HasDefault τ → HasTy Γ b .dflt τ
  | none {b a} : HasTy Γ b .none (.opt a)
  | some {b e a} : HasTy Γ b e a → HasTy Γ b (.some e) (.opt a)
  | onceNew {b a} : HasTy Γ b .onceNew (.once a)
  | onceFrom {b e a} : HasTy Γ b e a → HasTy Γ b (.onceFrom e) (.once a)
  | cellNew {b e a} : HasTy Γ b e a → HasTy Γ b (.cellNew e) (.cell a)
  | lockNew {b as e a} : HasTy Γ b e a → HasTy Γ b (.lockNew as e) (.lock as a)
  | proxyNew {b as f e} : HasTy Γ b e (.opt .t) → HasTy Γ b (.proxyNew as f e) (.proxy as f)
  | slotTake {b} : Γ.slot = true → HasTy Γ b .slotTake (.opt .t)
  | slotUnwrap {b} : Γ.slot = true → HasTy Γ b .slotUnwrap .t
  | orElseSome {b e d a} : HasTy Γ b e (.opt a) → HasTy Γ b d a → HasTy Γ b (.orElseSome e d) (.opt a)
  | ifSlot {b e d τ} : Γ.slot = true → HasTy Γ b e τ → HasTy Γ b d τ → HasTy Γ b (.ifSlot e d) τ
  | ifLetSlot {b e d τ} : Γ.slot = true → HasTy Γ true e τ → HasTy Γ b d τ → HasTy Γ b (.ifLetSlot e d) τ
  | mapOrElse {b e d c τ} : HasTy Γ b e (.opt .t) → HasTy Γ b d τ → HasTy Γ true c τ → HasTy Γ b (.mapOrElse e d c) τ
  | var : HasTy Γ true .var .t
  | shadow {b τ} : Γ.shadow = Option.some τ → HasTy Γ b .shadow τ
  | me {b τ} : Γ.me = Option.some τ → HasTy Γ b .me τ
  | takeOnce {b a} : Γ.me = Option.some (.once a) → HasTy Γ b .meTake (.opt a)
  | takeCell {b a} : Γ.me = Option.some (.cell a) → HasTy Γ b .meTake a
  | takeOpt {b a} : Γ.me = Option.some (.opt a) → HasTy Γ b .meTake (.opt a)
  | innerOnce {b a} : Γ.me = Option.some (.once a) → HasTy Γ b .meIntoInner (.opt a)
  | innerCell {b a} : Γ.me = Option.some (.cell a) → HasTy Γ b .meIntoInner a
  | innerLock {b as a} : Γ.me = Option.some (.lock as a) → HasTy Γ b .meIntoInner a
  | innerProxy {b as f} : Γ.me = Option.some (.proxy as f) → HasTy Γ b .meIntoInner (.opt .t)

/-- Run-time values of a type. -/
inductive ValTy {V : Type} : Val V → Ty → Prop
  | val (v) : ValTy (.val v) .t
  | none {a} : ValTy .none (.opt a)
  | some {v a} : ValTy v a → ValTy (.some v) (.opt a)
  | once {v a} : ValTy v (.opt a) → ValTy (.once v) (.once a)
  | cell {v a} : ValTy v a → ValTy (.cell v) (.cell a)
  | lock {as v a} : ValTy v a → ValTy (.lock as v) (.lock as a)
  | proxy {as f v} : ValTy v (.opt .t) → ValTy (.proxy as v) (.proxy as f)

/-- The user's value inside a field, if any. -/
def content {V : Type} : Val V → Option V
  | .val v => Option.some v
  | .none => Option.none
  | .some a => content a
  | .once a => content a
  | .cell a => content a
  | .lock _ a => content a
  | .proxy _ a => content a

end Verif.Spec.InitTy
