import Verif.Spec.Memory
/-
Copies of whole objects, made field by field.
-/
namespace Verif.Spec.Snapshot
open Verif.Spec Verif.Spec.Memory

variable {L V : Type}

/-- One field of a copy: the call, the field, the content copied. -/
structure Part (L V : Type) where
  call  : CallId
  field : L
  value : V

/-- The beginning and the end of the call which copied the part. -/
def Part.begins (x : Part L V) : HEv (Op L V) (Ret V) := .inv x.call (.get x.field)
def Part.ends (x : Part L V) : HEv (Op L V) (Ret V) := .res x.call (.value x.value)

/-- A copy in the history: its parts are copied one after another. (`derive(Clone)` clones fields in the order of their
declaration.) -/
def Copied (h : List (HEv (Op L V) (Ret V))) (cs : List (Part L V)) : Prop :=
  (∀ x ∈ cs, x.begins ∈ h ∧ x.ends ∈ h) ∧ cs.Pairwise fun x y => Before h x.ends y.begins

/-- The call may change field `i`. -/
def Changes (i : L) : Op L V → Prop
  | .swap j _ | .assign j _ => j = i
  | _ => False

/-- While the copy is made nobody is in a call that changes one of the fields. -/
def Undisturbed (h : List (HEv (Op L V) (Ret V))) (cs : List (Part L V)) : Prop :=
  ∀ c op, HEv.inv c op ∈ h → (∃ x ∈ cs, Changes x.field op) →
    (∃ r, ∀ x ∈ cs, Before h (.res c r) x.begins) ∨ ∀ x ∈ cs, Before h x.ends (.inv c op)

/-- An order in which the calls of the history may have happened, as in `Linearizable`: contents were `v₀` and are `s`. -/
structure Order [DecidableEq L] (eqv : V → V → Bool) (v₀ : L → V) (h : List (HEv (Op L V) (Ret V))) (lin : List (Done (Op L V) (Ret V)))
    (s : L → V) : Prop where
  legal : Legal (Step eqv) v₀ lin s
  ids   : (lin.map Done.id).Nodup
  made  : ∀ d ∈ lin, HEv.inv d.id d.op ∈ h
  all   : ∀ i r, HEv.res i r ∈ h → ∃ op, HEv.inv i op ∈ h ∧ (⟨i, op, r⟩ : Done (Op L V) (Ret V)) ∈ lin
  real  : ∀ d ∈ lin, ∀ e ∈ lin, Before h (.res d.id d.ret) (.inv e.id e.op) → Before lin d e

/-- The object had the copied contents at one moment of some order of the calls. -/
def Once [DecidableEq L] (eqv : V → V → Bool) (v₀ : L → V) (h : List (HEv (Op L V) (Ret V))) (cs : List (Part L V)) : Prop :=
  ∃ (lin p : List (Done (Op L V) (Ret V))) (s σ : L → V), Order eqv v₀ h lin s ∧ p <+: lin ∧ Legal (Step eqv) v₀ p σ ∧
    ∀ x ∈ cs, σ x.field = x.value

end Verif.Spec.Snapshot
