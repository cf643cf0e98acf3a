import Verif.Model.Structs
import Verif.Spec.MethodTy
import Verif.Model.Emit
/-
Specification: when the compiler accepts a struct expression, a struct declaration with parameters, and when a method
needs `Copy`. Written from the Rust reference.
-/
namespace Verif.Spec.Structs
open Verif.Model.Args Verif.Model.Structs Verif.Model.Init Verif.Model.Method Verif.Spec.MethodTy

/-- A struct expression for a struct with fields `decl` (Rust reference, struct expressions; E0062, E0063, E0560): no field
is named twice, every field named is there, and all of them are named unless the rest comes from a value of the type;
that value is `Default::default()`, so the type has to have `Default`. -/
structure Complete (decl : List String) (hasDefault : Bool) (e : Expr) : Prop where
  once     : e.names.Nodup
  there    : ∀ n ∈ e.names, n ∈ decl
  all      : e.rest = false → ∀ n ∈ decl, n ∈ e.names
  fromRest : e.rest = true → hasDefault = true

/-- Parameter `p` is used by the fields of the user's struct (E0392). `Weak<Self>` inside the struct itself does not count. -/
def UsedOwn (mentions : String → List String) (fields : List (String × FieldTy)) (p : String) : Prop :=
  ∃ n f, (n, .around f) ∈ fields ∧ p ∈ mentions f

/-- In another struct `Weak<Foo<..>>` uses the parameters `Foo` uses. -/
def UsedIn (mentions : String → List String) (own fields : List (String × FieldTy)) (p : String) : Prop :=
  UsedOwn mentions fields p ∨ ((∃ n, (n, .weak) ∈ fields) ∧ UsedOwn mentions own p)

/-- A method that compiles only if the type of the field is `Copy`. -/
def NeedsCopy (x : FCtx) (k : Kind) : Prop :=
  ∃ τ b, declType x = .ok τ ∧ body x k = .ok b ∧ BodyTy τ true b ∧ ¬BodyTy τ false b

end Verif.Spec.Structs
