import Verif.Model.Method
/-
Where the bodies of helpers call code of the user: conversions of setters (`into`), `Clone` of accessors, builders of lazy fields.

Sources: /repo/fieldx_derive/src/codegen/plain.rs 67-300, /repo/fieldx_derive/src/codegen/sync.rs 53-111, 212-370, 509-566;
/repo/fieldx/src/{sync,async}/fxproxy.rs (`read_or_init`). The bodies are those of `Verif.Model.Method`; this file adds the conversions
left out there: an argument is evaluated after the receiver and before the call.

Simplified: `From` of user types, `Clone` and the builder are each one call; other code of the user (`Drop`, `Copy`, `Default`) is left
out. `Clone` of `None` calls nothing.
-/
namespace Verif.Model.User
open Verif.Model.Args Verif.Model.Init Verif.Model.Method
open Verif.Spec (Outcome)

/-- Code of the user. -/
inductive Code
  | convert
  | clone
  | build
deriving DecidableEq, Repr

/-- A call of the user's code: which, with the field and its guards as they are meanwhile, and the field after a panic there: guards of
the helper are dropped, nothing else is done. -/
structure Visit (V : Type) where
  code  : Code
  now   : Field V
  after : Field V
deriving DecidableEq, Repr

variable {V E : Type}

/-- A call in the given state. -/
def Cfg.visit (c : Cfg V E) (u : Code) : Visit V := ⟨u, c.f, c.release⟩

/-- Is there a value of the user's type? -/
def holds : Val V → Bool
  | .val _ => true
  | .none => false
  | .some a | .once a | .cell a | .lock _ a | .proxy _ a => holds a

/-- The builder in `OnceCell::get_or_init`, plain.rs 67-79; in `read_or_init`, sync/fxproxy.rs 138-163, async/fxproxy.rs 147-175: there
the write guard is kept while it runs. -/
def builds (env : CallEnv V E) (c : Cfg V E) (d : Nat) (op : MOp) : List (Visit V) :=
  match op, sub d c.f.val with
  | .getOrInit rc, some (.once .none) | .getOrTryInit rc, some (.once .none) =>
    if rc && !env.alive then [] else [Cfg.visit c .build]
  | .lazyRead rc _ _, some (.proxy _ .none) =>
    if rc && !env.alive then [] else if c.blocked true then [] else [Cfg.visit (c.hold true) .build]
  | _, _ => []

/-- The user's code which one operation calls, or its argument: `value.into()` in plain.rs 254-297, sync.rs 520-561; `clone()` in plain.rs
92-97, sync.rs 230-245, of what stands there. -/
def calls (into : Bool) (env : CallEnv V E) (c : Cfg V E) (a : CV V E) (op : MOp) : List (Visit V) :=
  match op, a with
  | .setV, _ | .replaceV, _ | .replaceSomeV, _ | .storeV, _ | .memReplaceV, _ => if into then [Cfg.visit c .convert] else []
  | .clone, .place d | .clone, .guard _ d =>
    match sub d c.f.val with
    | some v => if holds v then [Cfg.visit c .clone] else []
    | none => []
  | .cloned, .optPlace (some _) => [Cfg.visit c .clone]
  | .await, .fut op' d => builds env c d op'
  | op, .place d =>
    match sub d c.f.val with
    | some b => if isFuture op b then [] else builds env c d op
    | none => []
  | _, _ => []

/-- Along a chain of operations. -/
def chainCalls (into : Bool) (env : CallEnv V E) (c : Cfg V E) (a : CV V E) : List MOp → List (Visit V)
  | [] => []
  | op :: ops =>
    calls into env c a op ++
      match stepOp env c a op with
      | .next c a => chainCalls into env c a ops
      | _ => []

/-- All calls of the user's code in a call of the helper. -/
def visits (into : Bool) (b : Body) (env : CallEnv V E) (f : Field V) : List (Visit V) :=
  match b.pre with
  | none => chainCalls into env { f := f } (.place 0) b.main
  | some p =>
    chainCalls into env { f := f } (.place 0) p ++
      match runChain env { f := f } (.place 0) p with
      | .next c _ => chainCalls into env c (.place 0) b.main
      | _ => []

end Verif.Model.User
