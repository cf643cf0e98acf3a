import Verif.Model.Builder
/-!
# The function `build()`: checks, construction, `post_build`, error type

Sources: /repo/fieldx_derive/src/codegen.rs 327-422 (`builder_impl`); /repo/fieldx_derive/src/codegen/codegen_trait.rs 220-276
(`maybe_ref_counted`, `maybe_ref_counted_create`), 395-428 (`field_builder_value_required`);
/repo/fieldx_derive/src/ctx/codegen.rs 453-493.

The function is data (`BuildFn`) with an evaluator; its struct expression is that of `Verif.Model.Builder`. What the user's
method does is arbitrary.
-/

namespace Verif.Model.Build
open Verif.Model.Args Verif.Model.Init Verif.Model.Builder

/-- The error expression of a check: codegen_trait.rs 404-421. -/
inductive ErrExpr where
  /-- `variant(name.into())` -/
  | variant (path : String)
  /-- `Into::into(FieldXError::uninitialized_field(name.into()))` -/
  | into
  /-- `FieldXError::uninitialized_field(name.into())` -/
  | plain
deriving DecidableEq, Repr

/-- The expression inside `Ok(..)`: codegen_trait.rs 255-275. -/
inductive Expr where
  /-- the struct expression -/
  | lit
  /-- `e.m()` -/
  | call (e : Expr) (m : String)
  /-- `e?` -/
  | question (e : Expr)
  /-- `Rc::new_cyclic(|me| { e })`, the struct expression in `e` starting with the self reference -/
  | cyclic (e : Expr)
deriving DecidableEq, Repr

/-- `fn build(&mut self) -> Result<_, error>`: codegen.rs 402-415. -/
structure BuildFn where
  /-- is the object wrapped in `Rc` or `Arc` in the return type -/
  rc : Bool
  /-- the error type; `none` for `FieldXError` -/
  error : Option String
  checks : List (String × ErrExpr)
  body : Expr
deriving DecidableEq, Repr

/-- ctx/codegen.rs 458-481 `builder_post_build_ident`. -/
def postBuildIdent (c : Ctx) : Option String := c.args.builder.bind fun b => b.postBuild.map fun n => n.getD "post_build"

/-- ctx/codegen.rs 487-489 `builder_error_type`; 483-485 `build_has_error_type` is whether there is one. -/
def errorType (c : Ctx) : Option String := c.args.builder.bind fun b => b.error.map (·.1)

/-- ctx/codegen.rs 491-493 `builder_error_variant`. -/
def errorVariant (c : Ctx) : Option String := c.args.builder.bind fun b => b.error.bind (·.2)

/-- codegen_trait.rs 404-421. -/
def errExpr (c : Ctx) : ErrExpr :=
  match errorVariant c with
  | some v => .variant v
  | none => if (errorType c).isSome then .into else .plain

/-- codegen_trait.rs 240-252: what follows the struct expression. -/
def postConstruct (c : Ctx) (e : Expr) : Expr :=
  match postBuildIdent c with
  | some m => if (errorType c).isSome then .question (.call e m) else .call e m
  | none => e

/-- codegen_trait.rs 232-275 `maybe_ref_counted_create`. -/
def construction (c : Ctx) : Expr :=
  if c.args.isRefCounted then .cyclic (postConstruct c .lit) else postConstruct c .lit

/-- codegen.rs 371-373, 379, 402-415. -/
def buildFn (c : Ctx) : BuildFn :=
  { rc := c.args.isRefCounted
    error := errorType c
    checks := ((builderFields c).filter fun f => hasChecker ⟨c, f⟩).map fun f => (f.ident, errExpr c)
    body := construction c }

/-! ## Evaluation -/

/-- An error value. -/
inductive Err (X : Type) where
  /-- what an error expression makes of the name of a field -/
  | missing (how : ErrExpr) (name : String)
  /-- an error of the user's method -/
  | user (x : X)
deriving DecidableEq

/-- The object: values by field. -/
abbrev Obj (V : Type) := List (String × Val V)

/-- What the user's method returns: an object, `Ok` or `Err`; or it panics. -/
inductive Ret (V X : Type) where
  | self (o : Obj V)
  | ok (o : Obj V)
  | err (x : X)
  | panic
deriving DecidableEq

/-- Value of an expression: of the method's kind, a counted object, an early return with an error; `ill` if such code does not
compile. -/
inductive Value (V X : Type) where
  | ret (r : Ret V X)
  | rc (o : Obj V)
  | early (x : X)
  | ill
deriving DecidableEq

/-- How an expression is evaluated, and the calls of the user's methods it makes; `lit` is the value of the struct expression.
Inside the closure of `new_cyclic` an early return gives no object, and there is no such code. -/
def Expr.eval {V X : Type} (meth : String → Obj V → Ret V X) (lit : Value V X) : Expr → Value V X × List (String × Obj V)
  | .lit => (lit, [])
  | .call e m =>
    match e.eval meth lit with
    | (.ret (.self o), l) => (.ret (meth m o), l ++ [(m, o)])
    | (.ret .panic, l) => (.ret .panic, l)
    | (.early x, l) => (.early x, l)
    | (_, l) => (.ill, l)
  | .question e =>
    match e.eval meth lit with
    | (.ret (.ok o), l) => (.ret (.self o), l)
    | (.ret (.err x), l) => (.early x, l)
    | (.ret .panic, l) => (.ret .panic, l)
    | (.early x, l) => (.early x, l)
    | (_, l) => (.ill, l)
  | .cyclic e =>
    match e.eval meth lit with
    | (.ret (.self o), l) => (.rc o, l)
    | (.ret .panic, l) => (.ret .panic, l)
    | (_, l) => (.ill, l)

/-- What `build()` returns. -/
inductive Out (V X : Type) where
  | ok (rc : Bool) (o : Obj V)
  | err (e : Err X)
  | panic
  | ill
deriving DecidableEq

/-- The checks in order: codegen.rs 412. -/
def runChecks {V : Type} (s : Slots V) : List (String × ErrExpr) → Option (ErrExpr × String)
  | [] => none
  | (n, e) :: cs => if (s n).isNone then some (e, n) else runChecks s cs

/-- The struct expression as a value. -/
def litValue {V X : Type} : Built V → Value V X
  | .ok o => .ret (.self o)
  | .panic => .ret .panic
  | _ => .ill

/-- `Ok(construction)`, or the early return: codegen.rs 413. -/
def finish {V X : Type} : Value V X → Out V X
  | .ret (.self o) => .ok false o
  | .rc o => .ok true o
  | .early x => .err (.user x)
  | .ret .panic => .panic
  | _ => .ill

/-- What a call of the function gives. -/
structure Run (V X : Type) where
  out : Out V X
  /-- the builder afterwards -/
  slots : Slots V
  /-- the calls of the user's methods, in order -/
  calls : List (String × Obj V)

/-- A call of the function, with the struct expression of `Model.Builder.construct`. -/
def BuildFn.run {V X : Type} (b : BuildFn) (c : Ctx) (w : String → Env V) (meth : String → Obj V → Ret V X) (s : Slots V) :
    Run V X :=
  match runChecks s b.checks with
  | some (e, n) => ⟨.err (.missing e n), s, []⟩
  | none =>
    let r := construct c w s (builderFields c)
    let v := b.body.eval meth (litValue r.1)
    ⟨finish v.1, r.2, v.2⟩

end Verif.Model.Build
