import Verif.Spec.Linear
/-!
# Linearizability and data races with respect to happens-before (specification)

Without a global clock only what happens before what is observable. Events are numbered; each knows the numbers of the
events which happen before it: earlier ones of the same process, and whatever came through synchronisation.
-/

namespace Verif.Spec

/-- Event of a history, with its number and its past. -/
structure OEv (Op R : Type) where
  num  : Nat
  past : List Nat
  ev   : HEv Op R
deriving DecidableEq, Repr

/-- As `Linearizable`, but a call comes before another one if its answer happens before the invocation of the other. -/
def HbLinearizable {S Op R : Type} (spec : S → Op → R → S → Prop) (s₀ : S) (h : List (OEv Op R)) : Prop :=
  ∃ (lin : List (Done Op R)) (s : S),
    Legal spec s₀ lin s ∧
    (lin.map Done.id).Nodup ∧
    (∀ d ∈ lin, ∃ x ∈ h, x.ev = .inv d.id d.op) ∧
    (∀ x ∈ h, ∀ i r, x.ev = .res i r → ∃ op, (∃ y ∈ h, y.ev = .inv i op) ∧ (⟨i, op, r⟩ : Done Op R) ∈ lin) ∧
    (∀ d ∈ lin, ∀ e ∈ lin, ∀ x ∈ h, ∀ y ∈ h, x.ev = .res d.id d.ret → y.ev = .inv e.id e.op → x.num ∈ y.past →
      Before lin d e)

/-- Access to memory which is not atomic. -/
structure Access where
  num   : Nat
  past  : List Nat
  write : Bool
deriving DecidableEq, Repr

/-- Of two accesses, one of them a write, the earlier one happens before the later one. -/
def RaceFree (l : List Access) : Prop :=
  ∀ a b, Before l a b → (a.write = true ∨ b.write = true) → a.num ∈ b.past

end Verif.Spec
