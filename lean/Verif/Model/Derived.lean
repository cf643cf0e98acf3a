import Verif.Model.Traits
/-
What the traits users derive do with the containers of the fields while others hold guards, and inside an async runtime.

Sources: /repo/fieldx/src/{sync,async}/{fxlock,fxproxy}.rs; the struct: /repo/fieldx_derive/src/codegen.rs 478-530; `into` of serde:
/repo/fieldx_derive/src/codegen/serde.rs 254-285.
Simplified: the guards which others hold do not change while the code runs (`waits` says that it does not return before a guard is
dropped); what `Clone`, `Debug` and `PartialEq` of the user's types do is left out apart from the answer of `eq`.
-/
namespace Verif.Model.Derived
open Verif.Model.Args Verif.Model.Init Verif.Model.Structs

/-- Trait methods which take `&self`. -/
inductive Act
  | clone
  | debug
  | eq
deriving DecidableEq, Repr

/-- The guards of a container which are alive: `Ref`, `RwLockReadGuard`; or `RefMut`, `RwLockWriteGuard`, `FXWrLock`. -/
inductive Alive
  | free
  | shared
  | exclusive
deriving DecidableEq, Repr

/-- Why a call does not return. -/
inductive Stop
  /-- before a guard is dropped -/
  | waits
  | panics
deriving DecidableEq, Repr

/-- `RwLock::read` of `parking_lot`, sync/fxlock.rs 28, 68, sync/fxproxy.rs 94, 249, 264; `RwLock::blocking_read` of `tokio`,
async/fxlock.rs 38, 76, async/fxproxy.rs 108, 257: it panics where async code runs (`rt`). -/
def readLock (rt async : Bool) (g : Alive) : Option Stop :=
  if async && rt then some .panics else if g = .exclusive then some .waits else none

/-- A method of a field's type.
`Option` and `OnceCell` look inside without a guard. `RefCell`: `borrow` for `Clone` and `PartialEq`, `try_borrow` for `Debug`.
Locks: sync/fxlock.rs 23-33 (`eq`), 63-71 (`clone`), 73-80 (`fmt` of the lock inside, which tries); async/fxlock.rs 33-43, 71-79, 81-88.
Proxies: sync/fxproxy.rs 89-101 (`fmt`), 243-257 (`clone`), 259-269 (`eq`); async/fxproxy.rs 103-115, 251-265: the value is read
first; nobody ever writes to `builder`. -/
def touch (rt : Bool) (op : Act) (g : Alive) : Ty → Option Stop
  | .t => none
  | .opt a => touch rt op g a
  | .once a => touch rt op g a
  | .cell _ => if op ≠ .debug ∧ g = .exclusive then some .panics else none
  | .lock as _ => if op = .debug then none else readLock rt as g
  | .proxy as _ => readLock rt as g

/-- The type of a field of the struct: codegen_trait.rs 287-301. The field added is a `Weak`: ctx/codegen.rs 151-161. -/
def touchField (rt : Bool) (op : Act) (c : Ctx) (g : String → Alive) (f : FieldArgs) : Option Stop :=
  match declType ⟨c, f⟩ with
  | .ok τ => touch rt op (g f.ident) τ
  | _ => none

/-- What came of a call. -/
inductive Out
  | done
  | answer (b : Bool)
  | stopped (field : String) (s : Stop)
deriving DecidableEq, Repr

/-- `#[derive(Clone)]`, `#[derive(Debug)]`: one field after the other. -/
def over (rt : Bool) (op : Act) (c : Ctx) (g : String → Alive) : List FieldArgs → Out
  | [] => .done
  | f :: fs =>
    match touchField rt op c g f with
    | some s => .stopped f.ident s
    | none => over rt op c g fs

/-- `#[derive(PartialEq)]`: the fields are joined with `&&`; each takes its own guard and then that of the other object. `same`:
the answer of `eq` for what is inside. -/
def pairwise (rt : Bool) (c : Ctx) (g g' : String → Alive) (same : String → Bool) : List FieldArgs → Out
  | [] => .answer true
  | f :: fs =>
    match touchField rt .eq c g f with
    | some s => .stopped f.ident s
    | none =>
      match touchField rt .eq c g' f with
      | some s => .stopped f.ident s
      | none => if same f.ident then pairwise rt c g g' same fs else .answer false

/-- All fields of the struct, in the order of ctx/codegen.rs 213-215 `struct_fields`, 363-370 `all_fields`. -/
def walk (rt : Bool) (op : Act) (c : Ctx) (g : String → Alive) : Out := over rt op c g c.allFields

/-- `clone` of the struct: codegen.rs 478-530, with the traits users ask for. -/
def clone (rt : Bool) (c : Ctx) (g : String → Alive) : Out := walk rt .clone c g

/-- `fmt` of the struct: codegen.rs 478-530. -/
def debug (rt : Bool) (c : Ctx) (g : String → Alive) : Out := walk rt .debug c g

/-- `eq` of two structs: codegen.rs 478-530. -/
def eq (rt : Bool) (c : Ctx) (g g' : String → Alive) (same : String → Bool) : Out := pairwise rt c g g' same c.allFields

/-- `serialize` of a struct with `#[serde(into = …)]`, codegen/serde.rs 269-272: `serde` clones the struct and converts the copy, of
which nobody holds guards. -/
def serialize (rt : Bool) (c : Ctx) (g : String → Alive) : Out := clone rt c g

end Verif.Model.Derived
