import Verif.Model.Args
/-
Which traits a struct has, by what its fields were asked to be.
-/
namespace Verif.Spec.Traits
open Verif.Model.Args

/-- What stands around the type of a field. -/
inductive Wrap
  | bare
  /-- a cell for one thread -/
  | celled
  /-- a lock -/
  | guarded
deriving DecidableEq, Repr

/-- Lazy and locked fields are guarded if they are sync or async; lazy and `inner_mut` ones are cells if not. -/
def wrap (x : FCtx) : Wrap :=
  if x.isSync then (if !x.field.isSkipped && (x.isLazy || x.needsLock) then .guarded else .bare)
  else if x.isLazy || x.isInnerMut then .celled else .bare

/-- What a field asks of its type for the struct to be shared between threads: a lock hands out shared references and moves values,
so it asks for both. -/
def Shared (w : Wrap) (send sync : Prop) : Prop :=
  match w with
  | .bare => sync
  | .celled => False
  | .guarded => send ∧ sync

/-- A set of properties with a rule for them may be supposed if it is consistent; auto traits are what is in some such set. -/
def Coinductive {α : Type} (rule : (α → Bool) → α → Bool) (a : α) : Prop :=
  ∃ o : α → Bool, (∀ b, o b = true → rule o b = true) ∧ o a = true

/-- Traits users derive. -/
inductive Der
  | clone
  | copy
  | debug
  | default
  | partialEq
  | eq
  | partialOrd
  | ord
  | hash
deriving DecidableEq, Repr

/-- By what a field was asked to be: which traits it has, if its type has `user` and its error type `err`. -/
def Has (x : FCtx) (user err : Der → Bool) : Der → Prop
  | .clone => user .clone = true ∧ (x.isSync = true → x.isLazy = true → x.isAsync = false ∧ (x.isFallible = true → err .clone = true))
  | .debug => user .debug = true
  | .default => ¬ (x.isSync = true ∧ x.isLazy = true) ∧ (x.isLazy = true ∨ x.isOptional = true ∨ user .default = true)
  | .partialEq => user .partialEq = true ∧ ¬ (x.isSync = true ∧ x.isLazy = true ∧ x.isAsync = true)
  | .eq => user .eq = true ∧ ¬ (wrap x = .guarded ∧ x.isAsync = true)
  | .partialOrd => user .partialOrd = true ∧ wrap x ≠ .guarded ∧ x.isLazy = false
  | .ord => user .ord = true ∧ wrap x ≠ .guarded ∧ x.isLazy = false
  | .copy => user .copy = true ∧ wrap x = .bare
  | .hash => user .hash = true ∧ wrap x = .bare

end Verif.Spec.Traits
