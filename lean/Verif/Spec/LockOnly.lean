import Verif.Spec.Lower
/-
The argument `lock` of a struct. Written down from /repo/fieldx_derive/src/lib.rs 345-350: "Forces lock-wrapping of all fields by
default. […] Identical to the `reader`/`writer` arguments but without installing any methods."
-/
namespace Verif.Spec.LockOnly
open Verif.Model.Args Verif.Model.Expand

/-- The struct has `reader` or `writer` or both, each by the keyword alone, and says nothing of `lock`. -/
structure Guarded (s : StructArgs) : Prop where
  lock   : s.lock = none
  reader : s.reader = none ∨ s.reader = some {}
  writer : s.writer = none ∨ s.writer = some {}
  any    : s.reader ≠ none ∨ s.writer ≠ none

/-- The struct with `lock` in their place. -/
def lockOnly (s : StructArgs) : StructArgs := { s with lock := some true, reader := none, writer := none }

/-- The field switches neither of them off. -/
def Follows (f : FieldArgs) : Prop := (∀ h, f.reader = some h → h.off = false) ∧ ∀ h, f.writer = some h → h.off = false

/-- A method `reader` or `writer`. -/
def guardMethod : Piece → Bool
  | .method _ .reader | .method _ .writer => true
  | _ => false

/-- What is left of an expansion without these methods. -/
def rest : Expansion → Expansion
  | .code out errs => .code (out.filter fun p => !guardMethod p) errs
  | e => e

end Verif.Spec.LockOnly
