/-
What `Type::name` leads to.

The Rust reference, "Associated items" and "Path expressions": the functions of the type's own `impl` blocks come before those of
traits, whatever their parameters.
-/
namespace Verif.Spec.Assoc

/-- A function of the type itself, or of a trait. -/
inductive Target
  | own
  | trait (t : String)
deriving DecidableEq, Repr

/-- `Type::name`, by the names of the type's own functions and by the functions of traits (with the names of those). -/
def assoc (own : List String) (traits : List (String × String)) (n : String) : Option Target :=
  if n ∈ own then some .own else (traits.lookup n).map .trait

end Verif.Spec.Assoc
