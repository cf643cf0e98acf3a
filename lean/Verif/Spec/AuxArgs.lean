import Verif.Model.AuxArgs
/-
What arguments of the types of fieldx_aux look like.
-/
namespace Verif.Spec.AuxArgs
open Verif.Model.Parse Verif.Model.AuxArgs

variable {T : Type}

/-- The list of an argument with a value: `off` or not, a literal or not, in any order. -/
inductive Says (conv : Lit → Option T) : List Arg → Bool → Option T → Prop
  | nothing : Says conv [] false none
  | off : Says conv [.word "off"] true none
  | lit {l v} : conv l = some v → Says conv [.lit l] false (some v)
  | offLit {l v} : conv l = some v → Says conv [.word "off", .lit l] true (some v)
  | litOff {l v} : conv l = some v → Says conv [.lit l, .word "off"] true (some v)

/-- The forms of the documentation, value.rs 11-13. -/
inductive Documented (conv : Lit → Option T) : Arg → Option T → Prop
  | word {n} : Documented conv (.word n) none
  | lit {n l v} : conv l = some v → Documented conv (.list n [.lit l]) (some v)
  | offLit {n l v} : conv l = some v → Documented conv (.list n [.word "off", .lit l]) none
  | off {n} : Documented conv (.list n [.word "off"]) none

/-- A number of items between two bounds, of which a negative one is none. -/
def within (min max : Int) (n : Nat) : Prop := (0 ≤ min → min ≤ n) ∧ (0 ≤ max → (n : Int) ≤ max)

/-- What a row of digits is worth. -/
def worth : List Char → Nat
  | [] => 0
  | c :: cs => (c.toNat - 48) * 10 ^ cs.length + worth cs

/-- A row of digits. -/
def Numeral (t : String) : Prop := t.toList ≠ [] ∧ ∀ c ∈ t.toList, '0' ≤ c ∧ c ≤ '9'

end Verif.Spec.AuxArgs
