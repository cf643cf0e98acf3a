import Verif.Model.Build
/-!
# Typing and documented behaviour of `build()`

Types: Rust's rules for method calls, `?` and closures (the function handed to `new_cyclic` returns the object itself).
Behaviour: /repo/fieldx_derive/src/lib.rs 214-228.
-/

namespace Verif.Spec.BuildTy
open Verif.Model.Args Verif.Model.Build

/-- Types: the struct, a counting pointer to it, `Result` with an error type (`none`: `FieldXError`). -/
inductive BTy where
  | self
  | rc
  | res (t : BTy) (e : Option String)
deriving DecidableEq

/-- `HasTy sig conv ret e τ`: inside a function or closure returning `ret`, `e` has type `τ`. `sig`: the return types of the
methods of the struct which take `self`; `conv`: is there a `From` between two error types. -/
inductive HasTy (sig : String → Option BTy) (conv : Option String → Option String → Prop) : BTy → Expr → BTy → Prop where
  | lit {ret} : HasTy sig conv ret .lit .self
  | call {ret e m τ} : HasTy sig conv ret e .self → sig m = some τ → HasTy sig conv ret (.call e m) τ
  | question {e τ x σ y} : HasTy sig conv (.res σ y) e (.res τ x) → conv x y → HasTy sig conv (.res σ y) (.question e) τ
  | cyclic {ret e} : HasTy sig conv .self e .self → HasTy sig conv ret (.cyclic e) .rc

/-- An error expression has the error type of the function. `variants`: the enum each path constructs. -/
def ErrTyped (variants : String → Option String) (conv : Option String → Option String → Prop) (error : Option String) :
    ErrExpr → Prop
  | .variant p => variants p = error ∧ error ≠ none
  | .into => conv none error
  | .plain => error = none

/-- The type of the object in the return type. -/
def objTy : Bool → BTy
  | true => .rc
  | false => .self

/-- The function compiles. -/
def Typed (sig : String → Option BTy) (variants : String → Option String) (conv : Option String → Option String → Prop)
    (b : BuildFn) : Prop :=
  HasTy sig conv (.res (objTy b.rc) b.error) b.body (objTy b.rc) ∧
  ∀ p ∈ b.checks, ErrTyped variants conv b.error p.2

/-! ### What the arguments say -/

/-- `post_build` names the method `m`; the bare word names the method `post_build`. -/
def PostNamed (a : StructArgs) (m : String) : Prop :=
  ∃ b, a.builder = some b ∧ (b.postBuild = some (some m) ∨ (b.postBuild = some none ∧ m = "post_build"))

/-- `error(e)` or `error(e, v)`. -/
def ErrorNamed (a : StructArgs) (e : String) : Prop := ∃ b v, a.builder = some b ∧ b.error = some (e, v)

/-- `error(e, v)`. -/
def VariantNamed (a : StructArgs) (v : String) : Prop := ∃ b e, a.builder = some b ∧ b.error = some (e, some v)

/-- The struct is reference counted: `rc` is there and not switched off. -/
def Counted (a : StructArgs) : Prop := ∃ r, a.rc = some r ∧ r.isTrue = true

/-- The documented signature of the method: it returns `Self`, or with an error type `Result<Self, ErrorType>`. -/
def DocSig (a : StructArgs) (sig : String → Option BTy) : Prop :=
  ∀ m, PostNamed a m →
    (∀ e, ErrorNamed a e → sig m = some (.res .self (some e))) ∧ ((∀ e, ¬ ErrorNamed a e) → sig m = some .self)

/-- What the user owes for an error type: a variant given is one of the type; without it the type converts from
`FieldXError`; and a type converts into itself. -/
def DocErr (a : StructArgs) (variants : String → Option String) (conv : Option String → Option String → Prop) : Prop :=
  (∀ x, conv x x) ∧
  ∀ e, ErrorNamed a e → (∀ v, VariantNamed a v → variants v = some e) ∧ ((∀ v, ¬ VariantNamed a v) → conv none (some e))

/-- How a missing field is reported. -/
inductive Reported (a : StructArgs) : ErrExpr → Prop where
  | variant {v} : VariantNamed a v → Reported a (.variant v)
  | into {e} : ErrorNamed a e → (∀ v, ¬ VariantNamed a v) → Reported a .into
  | plain : (∀ e, ¬ ErrorNamed a e) → Reported a .plain

/-- What the method returns is of the type `τ`. -/
def RetTy {V X : Type} : Verif.Model.Build.Ret V X → BTy → Prop
  | .self _, τ => τ = .self
  | .ok _, τ => ∃ x, τ = .res .self x
  | .err _, τ => ∃ σ x, τ = .res σ x
  | .panic, _ => True

/-- The methods return what their signature says. -/
def Respects {V X : Type} (sig : String → Option BTy) (meth : String → Obj V → Verif.Model.Build.Ret V X) : Prop :=
  ∀ m o τ, sig m = some τ → RetTy (meth m o) τ

/-- What `build()` returns once the method has returned: the object is counted or not, and there is an error only if the
method gave one. -/
def Final {V X : Type} (rc : Bool) : Verif.Model.Build.Ret V X → Out V X
  | .self o => .ok rc o
  | .ok o => .ok rc o
  | .err x => .err (.user x)
  | .panic => .panic

end Verif.Spec.BuildTy
