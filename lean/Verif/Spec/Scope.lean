/-
Local variables in code put together from several places.

The Rust reference on macros by example, "Hygiene": local variables are looked up where they are written, all else where the
macro is used. An identifier in the output of a procedural macro carries a span, and the span carries the context in which the
token it was taken from is written: the file itself, or one expansion of a `macro_rules!` macro. A use of a local variable
refers to a binding of the same name in the same context; `self` is such a variable. A use without such a binding is an error,
or means an item of that name, if there is one.

No definition here is about fieldx.
-/
namespace Verif.Spec.Scope

/-- Code seen as its local variables: names `N` with contexts `H`. -/
inductive Ex (N H : Type)
  /-- no local variables -/
  | skip
  | use (n : N) (h : H)
  | seq (a b : Ex N H)
  /-- `let n = e; b`, `if let Some(n) = e { b }`, `e.m(|n| b)` -/
  | bind (n : N) (h : H) (e b : Ex N H)
deriving DecidableEq, Repr

/-- Every variable used in the code is one of those of the scope, or bound in the code around the use. -/
inductive Refers {N H : Type} : List (N × H) → Ex N H → Prop
  | skip {Γ} : Refers Γ .skip
  | use {Γ n h} : (n, h) ∈ Γ → Refers Γ (.use n h)
  | seq {Γ a b} : Refers Γ a → Refers Γ b → Refers Γ (.seq a b)
  | bind {Γ n h e b} : Refers Γ e → Refers ((n, h) :: Γ) b → Refers Γ (.bind n h e b)

/-- The names used, in the order of the text. -/
def Ex.names {N H : Type} : Ex N H → List N
  | .skip => []
  | .use n _ => [n]
  | .seq a b => a.names ++ b.names
  | .bind _ _ e b => e.names ++ b.names

/-- A function with its parameters. -/
structure Fn (N H : Type) where
  params : List (N × H)
  body   : Ex N H
deriving DecidableEq, Repr

/-- All local variables used are the function's own. -/
def Fn.Closed {N H : Type} (f : Fn N H) : Prop := Refers f.params f.body

end Verif.Spec.Scope
