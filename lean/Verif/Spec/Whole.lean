import Verif.Spec.Cell
import Verif.Spec.Memory
import Verif.Spec.Linear
/-!
# All fields together (specification)

What all fields of all objects promise together: they are lazy cells (`Verif.Spec.Cell`) and places of plain memory
(`Verif.Spec.Memory`) side by side, and every call, on whichever of them, happens at once.
`F` names the lazy fields, `L` the others. Nothing here refers to the model.
-/

namespace Verif.Spec.Whole
open Verif.Spec

/-- Calls: on the lazy field `i`, or on the others. `A`, `B`: the calls which there are on the one kind and on the other. -/
inductive Op (F A B : Type) where
  | lazy (i : F) (op : A)
  | lock (op : B)
deriving DecidableEq, Repr

/-- Results. -/
inductive Ret (R Q : Type) where
  | lazy (r : R)
  | lock (r : Q)
deriving DecidableEq, Repr

/-- Contents of all fields: `S` of a lazy one, `M` of the others together. -/
structure State (F S M : Type) where
  cell : F → S
  mem  : M

/-- The sequential object: a call on a lazy field changes that field as `cell` says and no other, a call on the others
does what `mem` says and leaves lazy fields alone. -/
inductive Step {F S M A B R Q : Type} (cell : F → S → A → R → S → Prop) (mem : M → B → Q → M → Prop) :
    State F S M → Op F A B → Ret R Q → State F S M → Prop where
  | lazy {σ i op r τ} : cell i (σ.cell i) op r (τ.cell i) → (∀ j, j ≠ i → τ.cell j = σ.cell j) → τ.mem = σ.mem →
      Step cell mem σ (.lazy i op) (.lazy r) τ
  | lock {σ op r τ} : mem σ.mem op r τ.mem → τ.cell = σ.cell → Step cell mem σ (.lock op) (.lock r) τ

/-- The calls on containers: lazy cells, and places of plain memory. -/
def Containers {F L V W E : Type} [DecidableEq L] (eqv : W → W → Bool) :
    State F (Option V) (L → W) → Op F (Spec.Op V) (Memory.Op L W) → Ret (Res V E) (Memory.Ret W) →
    State F (Option V) (L → W) → Prop :=
  Step (fun _ => CellStep) (Memory.Step eqv)

/-- `h` is linearizable, and the order which explains it ends in the state `s` (`Linearizable` says: in some state). -/
def LinearizesTo {S Op R : Type} (spec : S → Op → R → S → Prop) (s₀ : S) (h : List (HEv Op R)) (s : S) : Prop :=
  ∃ lin : List (Done Op R),
    Legal spec s₀ lin s ∧
    (lin.map Done.id).Nodup ∧
    (∀ d ∈ lin, HEv.inv d.id d.op ∈ h) ∧
    (∀ i r, HEv.res i r ∈ h → ∃ op, HEv.inv i op ∈ h ∧ (⟨i, op, r⟩ : Done Op R) ∈ lin) ∧
    (∀ d ∈ lin, ∀ e ∈ lin, Before h (.res d.id d.ret) (.inv e.id e.op) → Before lin d e)

end Verif.Spec.Whole
