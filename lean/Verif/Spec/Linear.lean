/-!
# Linearizability (specification)

Textbook definition (Herlihy & Wing 1990), independent of any model in this project.
A concurrent history is a list of invocation and response events.  It is linearizable with respect to a sequential
object if the calls can be put in one order which is legal for the object, keeps every response, and respects real time.
-/

namespace Verif.Spec

/-- Identity of one call: the calling process and the number of the call within that process. -/
structure CallId where
  proc : Nat
  seq  : Nat
deriving DecidableEq, Repr

/-- Event of a concurrent history. -/
inductive HEv (Op R : Type) where
  | inv (i : CallId) (op : Op)
  | res (i : CallId) (r : R)
deriving DecidableEq, Repr

/-- One call with its result, as an entry of a sequential history. -/
structure Done (Op R : Type) where
  id  : CallId
  op  : Op
  ret : R
deriving DecidableEq, Repr

/-- `Legal spec s ds s'`: executing the calls `ds` one after another takes the sequential object from `s` to `s'`, every
call giving the recorded result. -/
inductive Legal {S Op R : Type} (spec : S → Op → R → S → Prop) : S → List (Done Op R) → S → Prop where
  | nil  {s} : Legal spec s [] s
  | cons {s s' s'' d ds} : spec s d.op d.ret s' → Legal spec s' ds s'' → Legal spec s (d :: ds) s''

/-- `a` occurs in `l` at a position before an occurrence of `b`. -/
def Before {α : Type} (l : List α) (a b : α) : Prop := ∃ l₁ l₂ l₃, l = l₁ ++ a :: l₂ ++ b :: l₃

/-- What an event is about: which call, and whether it is the invocation. -/
def HEv.key {Op R : Type} : HEv Op R → CallId × Bool
  | .inv i _ => (i, true)
  | .res i _ => (i, false)

/-- Every call is invoked at most once and answered at most once, and only after it was invoked. -/
structure WellFormed {Op R : Type} (h : List (HEv Op R)) : Prop where
  once  : (h.map HEv.key).Nodup
  after : ∀ i r l₁ l₂, h = l₁ ++ .res i r :: l₂ → ∃ op, HEv.inv i op ∈ l₁

/-- `h` is linearizable with respect to `spec` started in `s₀`. `lin` contains every answered call with the result it
gave, possibly some calls still pending, and nothing else. -/
def Linearizable {S Op R : Type} (spec : S → Op → R → S → Prop) (s₀ : S) (h : List (HEv Op R)) : Prop :=
  ∃ (lin : List (Done Op R)) (s : S),
    Legal spec s₀ lin s ∧
    (lin.map Done.id).Nodup ∧
    (∀ d ∈ lin, HEv.inv d.id d.op ∈ h) ∧
    (∀ i r, HEv.res i r ∈ h → ∃ op, HEv.inv i op ∈ h ∧ (⟨i, op, r⟩ : Done Op R) ∈ lin) ∧
    (∀ d ∈ lin, ∀ e ∈ lin, Before h (.res d.id d.ret) (.inv e.id e.op) → Before lin d e)

/-- The call with number `i` in a history, if it was made. -/
def opOf {Op R : Type} (h : List (HEv Op R)) (i : CallId) : Option Op :=
  h.findSome? fun
    | .inv j op => if j = i then some op else none
    | .res _ _ => none

/-- The answered calls of a history, in the order of their answers. -/
def completed {Op R : Type} (h : List (HEv Op R)) : List (Done Op R) :=
  h.filterMap fun
    | .inv _ _ => none
    | .res i r => (opOf h i).map fun op => ⟨i, op, r⟩

end Verif.Spec
