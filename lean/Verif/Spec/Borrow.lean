import Verif.Model.Args
/-
An ordinary cell whose users may keep guards: what is expected of an `inner_mut` field of a plain struct.
-/
namespace Verif.Spec.Borrow
open Verif.Model.Args (Kind)

/-- What the user does: call a helper, drop the `i`-th living guard, look through it, overwrite through it. -/
inductive Ev (V : Type)
  | call (k : Kind) (arg : V)
  | drop (i : Nat)
  | look (i : Nat)
  | assign (i : Nat) (v : V)
deriving DecidableEq, Repr

/-- What the user sees. -/
inductive Obs (V : Type)
  | panicked
  /-- the content, by value, by reference or through a guard -/
  | sees (c : Option V)
  /-- the content, moved out -/
  | old (c : Option V)
  | bool (b : Bool)
  | nothing
deriving DecidableEq, Repr

/-- The content and the living guards; `true` for exclusive. -/
structure Cell (V : Type) where
  c : Option V
  guards : List Bool
deriving DecidableEq, Repr

/-- Helpers which need exclusive access. -/
def exclusive : Kind → Bool
  | .accessorMut | .setter | .clearer => true
  | _ => false

/-- Is there a guard in the way? -/
def conflict {V : Type} (s : Cell V) (k : Kind) : Bool := if exclusive k then s.guards != [] else s.guards.contains true

/-- The cell. `bare`: the accessor gives a guard rather than a copy. `left`: what the clearer leaves. -/
def step {V : Type} (bare : Bool) (left : Option V) (s : Cell V) : Ev V → Obs V × Cell V
  | .call k arg =>
    if conflict s k then (.panicked, s)
    else match k with
      | .accessor => (.sees s.c, { s with guards := if bare then s.guards ++ [false] else s.guards })
      | .accessorMut => (.sees s.c, { s with guards := s.guards ++ [true] })
      | .setter => (.old s.c, { s with c := some arg })
      | .clearer => (.old s.c, { s with c := left })
      | .predicate => (.bool s.c.isSome, s)
      | _ => (.nothing, s)
  | .drop i => (.nothing, { s with guards := s.guards.eraseIdx i })
  | .look i => match s.guards[i]? with | some _ => (.sees s.c, s) | none => (.nothing, s)
  | .assign i v => match s.guards[i]? with | some true => (.nothing, { s with c := some v }) | _ => (.nothing, s)

/-- A history. -/
def run {V : Type} (bare : Bool) (left : Option V) : Cell V → List (Ev V) → List (Obs V) × Cell V
  | s, [] => ([], s)
  | s, e :: es =>
    let (o, s₁) := step bare left s e
    let (os, s₂) := run bare left s₁ es
    (o :: os, s₂)

end Verif.Spec.Borrow
