import Verif.Spec.Linear
/-!
# The sequential specification of lock-protected fields

Plain memory: every field of every object has a value; each call happens at once. This is what the documentation promises
about fields with `lock` (/repo/fieldx_derive/src/lib.rs, sections on `lock`, `reader`, `writer`, `set`, `clearer`) and what
a user expects of `==` and `clone()` on them; it does not refer to the implementation.
-/

namespace Verif.Spec.Memory

/-- Calls on fields `L` with contents `V` (for an optional field, `V` is the optional type). -/
inductive Op (L V : Type) where
  /-- the accessor with `copy` or `clone`, the predicate, `clone()` of the container -/
  | get (i : L)
  /-- the setter, and the clearer of an optional field -/
  | swap (i : L) (v : V)
  /-- comparison of two fields, normally of two objects -/
  | eq (i j : L)
  /-- the accessor without `copy` or `clone`, the reader: gives a guard -/
  | read (i : L)
  /-- the writer, the mutable accessor: gives a guard -/
  | write (i : L)
  /-- look through a guard on the field -/
  | deref (i : L)
  /-- replace the content through a writing guard on the field -/
  | assign (i : L) (v : V)
deriving DecidableEq, Repr

/-- Results. -/
inductive Ret (V : Type) where
  | value (v : V)
  | bool (b : Bool)
  | unit
  /-- the user's `clone`, `eq` or `into` has panicked -/
  | panicked
deriving DecidableEq, Repr

/-- Memory after a write. -/
def write {L V : Type} [DecidableEq L] (σ : L → V) (i : L) (v : V) : L → V := fun k => if k = i then v else σ k

/-- Does the call run code of the user's type, which may panic? -/
def Op.runsUser {L V : Type} : Op L V → Prop
  | .get _ | .swap _ _ | .eq _ _ => True
  | _ => False

/-- One call on the memory; `eqv` is the user's `==`. -/
inductive Step {L V : Type} [DecidableEq L] (eqv : V → V → Bool) : (L → V) → Op L V → Ret V → (L → V) → Prop where
  | get {σ i} : Step eqv σ (.get i) (.value (σ i)) σ
  | swap {σ i v} : Step eqv σ (.swap i v) (.value (σ i)) (write σ i v)
  | eq {σ i j} : Step eqv σ (.eq i j) (.bool (eqv (σ i) (σ j))) σ
  | read {σ i} : Step eqv σ (.read i) .unit σ
  | write {σ i} : Step eqv σ (.write i) .unit σ
  | deref {σ i} : Step eqv σ (.deref i) (.value (σ i)) σ
  | assign {σ i v} : Step eqv σ (.assign i v) (.value (σ i)) (write σ i v)
  | panicked {σ op} : op.runsUser → Step eqv σ op .panicked σ

end Verif.Spec.Memory
