import Verif.Spec.Fallible
/-
Lazy fields of plain structs whose builders use each other: accessors nest on the stack of the one thread there is.

Sources: /repo/fieldx_derive/src/codegen/plain.rs 67-79 (`field_lazy_initializer`), 101-111 (accessor of a lazy field); /repo/fieldx/src/lib.rs
490: the container is `once_cell::unsync::OnceCell`. Its `get_or_init` and `get_or_try_init` look for the value, call the closure, and assert
that `set` succeeds: "reentrant init" if the closure has filled the cell.

Simplified: a builder has `&self`, so it can read fields and change those with inner mutability, which are put together in one `world`, but
not set or clear lazy fields. The stack has room for a number of builders. The entry points are those of `Verif.Spec.GetKind`: a fallible
accessor is `tryRead`, another one `read`, the initialisation before serialising `lazyInit`.
-/
namespace Verif.Model.Plain
open Verif.Spec

/-- What a builder does: read lazy fields, look at and change the rest of the world, end. As `Verif.Spec.Code`, with a world. -/
inductive Prog (F V E W : Type) where
  | ret (o : Outcome V E)
  | read (q : GetKind) (j : F) (k : Ret V E → Prog F V E W)
  | act (g : W → W) (k : W → Prog F V E W)

/-- The object: its cells, the world, and the builders started so far, the last first. -/
structure St (F V W : Type) where
  cell : F → Option V
  world : W
  log : List F := []

variable {F V E W : Type} [DecidableEq F]

/-- A builder which does nothing but read. -/
def Prog.pure : Code F V E → Prog F V E W
  | .ret o => .ret o
  | .read q j k => .read q j fun r => Prog.pure (k r)

/-- A builder runs; `get` is how a field is read. -/
def exec (get : F → St F V W → Option (Outcome V E × St F V W)) : Prog F V E W → St F V W → Option (Outcome V E × St F V W)
  | .ret o, s => some (o, s)
  | .read q j k, s =>
    match get j s with
    | none => none
    | some (o, s') => exec get (k (getRet q o)) s'
  | .act g k, s => exec get (k s.world) { s with world := g s.world }

/-- `OnceCell::set`, once_cell's `unsync`: of an empty cell. -/
def set (s : St F V W) (i : F) (v : V) : Option (St F V W) :=
  match s.cell i with
  | some _ => none
  | none => some { s with cell := fun j => if j = i then some v else s.cell j }

/-- `self.field.get_or_try_init(|| self.builder())`, plain.rs 67-79, with room for `n` builders on the stack: `none` if it is not enough. -/
def get (bld : F → Prog F V E W) : Nat → F → St F V W → Option (Outcome V E × St F V W)
  | n, i, s =>
    match s.cell i with
    | some v => some (.ok v, s)
    | none =>
      match n with
      | 0 => none
      | n + 1 =>
        match exec (get bld n) (bld i) { s with log := i :: s.log } with
        | none => none
        | some (.ok v, s') =>
          match set s' i v with
          | some s'' => some (.ok v, s'')
          | none => some (.panic, s')
        | some (o, s') => some (o, s')

/-- Fields are read one after the other; panics are caught. -/
def reads (bld : F → Prog F V E W) (n : Nat) : List F → St F V W → Option (List (Outcome V E) × St F V W)
  | [], s => some ([], s)
  | i :: is, s =>
    match get bld n i s with
    | none => none
    | some (o, s') =>
      match reads bld n is s' with
      | none => none
      | some (os, s'') => some (o :: os, s'')

end Verif.Model.Plain
