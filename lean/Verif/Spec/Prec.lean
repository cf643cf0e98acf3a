/-
Documented precedence of arguments: levels are asked from the most specific to the least specific; the first level that
says something decides; if no level says anything the default applies. (Specification only, no reference to the model.)
-/
namespace Verif.Spec.Prec

/-- `Decides says dflt r`: asking the levels `says` in order, with default `dflt`, gives `r`. -/
inductive Decides {α : Type} : List (Option α) → α → α → Prop
  | dflt (d : α) : Decides [] d d
  | here (a : α) (rest : List (Option α)) (d : α) : Decides (some a :: rest) d a
  | next {rest : List (Option α)} {d r : α} : Decides rest d r → Decides (none :: rest) d r

/-- A conflict between exclusive alternatives: two different alternatives each contain an argument that is set. -/
def Conflict {N : Type} (alts : List (List (N × Bool))) : Prop :=
  ∃ i j : Nat, i ≠ j ∧ ∃ a b, alts[i]? = some a ∧ alts[j]? = some b ∧
    (∃ n, (n, true) ∈ a) ∧ (∃ n, (n, true) ∈ b)

end Verif.Spec.Prec
