import Verif.Spec.Cell
/-
Single-threaded programs which use one lazy field and keep no guards, and what they may observe: the field is the optional
cell with build-on-read of `Verif.Spec.Cell`.
-/
namespace Verif.Spec.Program
open Verif.Spec

/-- One use of the field. Guards and references are dropped at the end of the use. -/
inductive Use (V : Type)
  /-- accessor -/
  | get
  /-- reader -/
  | read
  /-- `get_mut`; look at the value, then perhaps `*r = w` -/
  | getMut (w : Option V)
  /-- writer; then `store(w)` on the guard -/
  | write (w : V)
  /-- setter, with the argument given by the environment -/
  | set
  /-- clearer -/
  | clear
  /-- predicate -/
  | isSet
deriving DecidableEq, Repr

/-- The outside world during a use: the argument of the setter, and what the user's builder does if it is run now. -/
structure World (V E : Type) where
  arg : V
  bld : Outcome V E

/-- What is seen during a use: calls of the cell and their results. -/
abbrev Seen (V E : Type) := List (Op V × Res V E)

/-- The guard of the current use; in these programs there is no other. -/
def here : CallId := ⟨0, 0⟩

/-- The cell operation that initialises on demand; the forms for `fallible` fields hand over errors. -/
def getOp (fallible mutable : Bool) : GetKind :=
  match fallible, mutable with
  | false, false => .read
  | false, true => .readMut
  | true, false => .tryRead
  | true, true => .tryReadMut

/-- A cell operation during which the builder, if it runs, does what the world says. -/
def CellStepIn {V E : Type} (w : World V E) (c : Option V) (op : Op V) (r : Res V E) (c' : Option V) : Prop :=
  CellStep c op r c' ∧ ∀ o, r.ran = some o → o = w.bld

/-- What a use of an optional cell with content `c` may observe, and the content it leaves. -/
inductive UseStep {V E : Type} (fallible : Bool) (w : World V E) : Option V → Use V → Seen V E → Option V → Prop
  | get {c r c'} : CellStepIn w c (.get (getOp fallible false)) r c' →
      UseStep fallible w c .get [(.get (getOp fallible false), r)] c'
  | read {c r c'} : CellStepIn w c (.get (getOp fallible false)) r c' →
      UseStep fallible w c .read [(.get (getOp fallible false), r)] c'
  | look {c r c'} : CellStepIn w c (.get (getOp fallible true)) r c' →
      UseStep fallible w c (.getMut none) [(.get (getOp fallible true), r)] c'
  | change {c r v c₁ u r' c'} : CellStepIn w c (.get (getOp fallible true)) r c₁ → r.ret = .value v →
      CellStepIn w c₁ (.assign here u) r' c' →
      UseStep fallible w c (.getMut (some u)) [(.get (getOp fallible true), r), (.assign here u, r')] c'
  | noChange {c r c' u} : CellStepIn w c (.get (getOp fallible true)) r c' → (∀ v, r.ret ≠ .value v) →
      UseStep fallible w c (.getMut (some u)) [(.get (getOp fallible true), r)] c'
  | write {c r c₁ u r' c'} : CellStepIn w c .writer r c₁ → CellStepIn w c₁ (.store u) r' c' →
      UseStep fallible w c (.write u) [(.writer, r), (.store u, r')] c'
  | set {c r c'} : CellStepIn w c (.set w.arg) r c' → UseStep fallible w c .set [(.set w.arg, r)] c'
  | clear {c r c'} : CellStepIn w c .clear r c' → UseStep fallible w c .clear [(.clear, r)] c'
  | isSet {c r c'} : CellStepIn w c .isSet r c' → UseStep fallible w c .isSet [(.isSet, r)] c'

/-- A program: uses, each in its world. -/
inductive ProgStep {V E : Type} (fallible : Bool) :
    Option V → List (Use V × World V E) → List (Seen V E) → Option V → Prop
  | nil {c} : ProgStep fallible c [] [] c
  | cons {c u w t c₁ us ts c'} : UseStep fallible w c u t c₁ → ProgStep fallible c₁ us ts c' →
      ProgStep fallible c ((u, w) :: us) (t :: ts) c'

/-- With the builder's behaviour given, the cell is deterministic. -/
theorem CellStepIn.det {V E : Type} {w : World V E} {c c₁ c₂ : Option V} {op : Op V} {r₁ r₂ : Res V E}
    (h₁ : CellStepIn w c op r₁ c₁) (h₂ : CellStepIn w c op r₂ c₂) : r₁ = r₂ ∧ c₁ = c₂ := by
  obtain ⟨h₁, g₁⟩ := h₁
  obtain ⟨h₂, g₂⟩ := h₂
  cases h₁ <;> cases h₂ <;> try exact ⟨rfl, rfl⟩
  have e₁ := g₁ _ rfl
  have e₂ := g₂ _ rfl
  subst e₁; subst e₂
  exact ⟨rfl, rfl⟩

theorem UseStep.det {V E : Type} {fa : Bool} {w : World V E} {c c₁ c₂ : Option V} {u : Use V} {t₁ t₂ : Seen V E}
    (h₁ : UseStep fa w c u t₁ c₁) (h₂ : UseStep fa w c u t₂ c₂) : t₁ = t₂ ∧ c₁ = c₂ := by
  cases h₁ with
  | get h => cases h₂ with | get g => obtain ⟨rfl, rfl⟩ := h.det g; exact ⟨rfl, rfl⟩
  | read h => cases h₂ with | read g => obtain ⟨rfl, rfl⟩ := h.det g; exact ⟨rfl, rfl⟩
  | look h => cases h₂ with | look g => obtain ⟨rfl, rfl⟩ := h.det g; exact ⟨rfl, rfl⟩
  | change h k h' =>
    cases h₂ with
    | change g l g' =>
      obtain ⟨rfl, rfl⟩ := h.det g
      obtain ⟨rfl, rfl⟩ := h'.det g'
      exact ⟨rfl, rfl⟩
    | noChange g l =>
      obtain ⟨rfl, rfl⟩ := h.det g
      exact absurd k (l _)
  | noChange h k =>
    cases h₂ with
    | change g l g' =>
      obtain ⟨rfl, rfl⟩ := h.det g
      exact absurd l (k _)
    | noChange g l => obtain ⟨rfl, rfl⟩ := h.det g; exact ⟨rfl, rfl⟩
  | write h h' =>
    cases h₂ with
    | write g g' =>
      obtain ⟨rfl, rfl⟩ := h.det g
      obtain ⟨rfl, rfl⟩ := h'.det g'
      exact ⟨rfl, rfl⟩
  | set h => cases h₂ with | set g => obtain ⟨rfl, rfl⟩ := h.det g; exact ⟨rfl, rfl⟩
  | clear h => cases h₂ with | clear g => obtain ⟨rfl, rfl⟩ := h.det g; exact ⟨rfl, rfl⟩
  | isSet h => cases h₂ with | isSet g => obtain ⟨rfl, rfl⟩ := h.det g; exact ⟨rfl, rfl⟩

theorem ProgStep.det {V E : Type} {fa : Bool} {c c₁ c₂ : Option V} {p : List (Use V × World V E)}
    {t₁ t₂ : List (Seen V E)} (h₁ : ProgStep fa c p t₁ c₁) (h₂ : ProgStep fa c p t₂ c₂) : t₁ = t₂ ∧ c₁ = c₂ := by
  induction h₁ generalizing t₂ c₂ with
  | nil => cases h₂; exact ⟨rfl, rfl⟩
  | cons h _ ih =>
    cases h₂ with
    | cons g g' =>
      obtain ⟨rfl, rfl⟩ := h.det g
      obtain ⟨rfl, rfl⟩ := ih g'
      exact ⟨rfl, rfl⟩

end Verif.Spec.Program
