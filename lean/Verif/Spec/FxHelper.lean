import Verif.Model.FxHelper
/-!
# What `fxhelper` is for

A group is a set of arguments of which at most one may be given. A helper has the group "visibility" with `public` and
`private`, and each argument of its own is in the group it names.
-/
namespace Verif.Spec.FxHelper
open Verif.Model.FxHelper

/-- The argument is in the group. -/
def InGroup (i : Input) (g n : String) : Prop :=
  (g = "visibility" ∧ (n = "public" ∨ n = "private")) ∨ ∃ f ∈ i.fields, f.name = n ∧ f.exclusive = some g

/-- Two different arguments of the group are given. -/
def Conflict (i : Input) (given : String → Bool) (g : String) : Prop :=
  ∃ a b, a ≠ b ∧ InGroup i g a ∧ InGroup i g b ∧ given a = true ∧ given b = true

/-- The arguments in the order of the declaration: those which all helpers have, then the others. -/
def declared (i : Input) : List String := ["name", "off", "attributes_fn", "public", "private"] ++ i.fields.map (·.name)

/-- No field is declared twice (rustc E0124). -/
def Fresh (i : Input) : Prop := (declared i).Nodup

/-- The arguments an error about the group has to name: all which are given, once, in the order of the declaration. -/
def Names (i : Input) (given : String → Bool) (g : String) (l : List String) : Prop :=
  l.Sublist (declared i) ∧ ∀ n, n ∈ l ↔ InGroup i g n ∧ given n = true

/-- A field whose type the macro does not accept for an argument in a group. -/
def NoPath (i : Input) : Prop := ∃ f ∈ i.fields, f.exclusive ≠ none ∧ f.ty = .other

/-- A field in a group for which it can be told whether it is given, in the way the macro does. -/
def Testable (f : Field) : Prop := f.ty = .flag ∨ f.ty = .option

end Verif.Spec.FxHelper
