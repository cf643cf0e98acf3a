import Verif.Model.Sync
import Verif.Spec.Fields
/-!
# Several lazy fields of one object, several threads

Every lazy field of a sync struct is an `FXProxySync` of its own (/repo/fieldx_derive/src/codegen/sync.rs 63-100, the
generated accessors go straight to `self.field.read(..)`). What ties them together is that the builder of a field gets
the object (/repo/fieldx/src/sync/fxproxy.rs 37-39, 62-64, called in line 150 under the write guard of its field) and may
call the accessors, setters, clearers, ... of other fields. So a thread is a stack of calls: all but the innermost one are
inside their builder.

The containers are those of `Verif.Model.Sync`, one for each field, running side by side. Each call gets a process number
of its own in the container it goes to, so a builder which comes back to its own field is covered as well.
User code is arbitrary: which calls a thread or a builder makes, in which order, and how a builder ends, is not fixed.
-/

namespace Verif.Model.Multi
open Verif.Spec Verif.Model

/-- An object with fields `F` and all threads working on it. `obj`: the container of each field (one `FXProxySync` per
lazy field, sync/fxproxy.rs 68-75). `stack`: for each thread its calls and guards, innermost first, as field and process
number. `next`: process number for the next call. -/
structure St (F V E : Type) where
  obj   : F → Sync.St V E
  stack : Nat → List (F × Nat)
  next  : Nat

/-- What a thread can do next. -/
inductive Act (F V E : Type) where
  /-- begin a call on the container of field `j` -/
  | call (j : F) (op : Op V)
  /-- use the guard which the innermost call has returned -/
  | use (op : Op V)
  /-- one step of the code of the innermost call -/
  | go
  /-- the innermost builder ends -/
  | finish (o : Outcome V E)
  /-- drop the innermost guard -/
  | drop
deriving DecidableEq, Repr

section
variable {F V E : Type}

/-- Has the process left the container? -/
def gone : Sync.Pc V E → Bool
  | .idle => true
  | _ => false

/-- Is the process inside its builder (sync/fxproxy.rs 150)? -/
def building : Sync.Pc V E → Bool
  | .rBuild _ => true
  | _ => false

/-- Does the process keep a guard, without running any code of the container? -/
def holding : Sync.Pc V E → Bool
  | .gRead _ | .gMut _ | .gWrite _ => true
  | _ => false

/-- A new object: every container as `new_default` makes it (sync/fxproxy.rs 108-114). -/
def init (v₀ : F → Option V) : St F V E :=
  { obj := fun i => Sync.init (v₀ i), stack := fun _ => [], next := 0 }

variable [DecidableEq F]

/-- The innermost call of thread `t`, process `p` of field `i`, made the container `o`; it is taken off the stack when it
has left. -/
def settle (s : St F V E) (t : Nat) (i : F) (p : Nat) (rest : List (F × Nat)) (o : Sync.St V E) : St F V E :=
  { s with obj := upd s.obj i o, stack := upd s.stack t (if gone (o.pc p) then rest else (i, p) :: rest) }

/-- May thread `t` begin a call on a container: it runs user code, either outside of everything, or inside a builder.
With `keep` it may also do so while it keeps a guard. -/
def userTurn (keep : Bool) (s : St F V E) (t : Nat) : Bool :=
  match s.stack t with
  | [] => true
  | (i, p) :: _ => building ((s.obj i).pc p) || (keep && holding ((s.obj i).pc p))

/-- The transition function: the innermost call of thread `t` moves, or a new call begins. -/
def step (keep : Bool) (s : St F V E) (t : Nat) : Act F V E → Option (St F V E)
  | .call j op =>
    if userTurn keep s t then
      (Sync.invoke (s.obj j) s.next op).map fun o =>
        { obj := upd s.obj j o, stack := upd s.stack t ((j, s.next) :: s.stack t), next := s.next + 1 }
    else none
  | .use op =>
    match s.stack t with
    | (i, p) :: rest => (Sync.invoke (s.obj i) p op).map (settle s t i p rest)
    | [] => none
  | .go =>
    match s.stack t with
    | (i, p) :: rest => (Sync.go (s.obj i) p).map (settle s t i p rest)
    | [] => none
  | .finish o =>
    match s.stack t with
    | (i, p) :: rest => (Sync.builderReturns (s.obj i) p o).map (settle s t i p rest)
    | [] => none
  | .drop =>
    match s.stack t with
    | (i, p) :: rest => (Sync.dropGuard (s.obj i) p).map (settle s t i p rest)
    | [] => none

/-- The field whose builder thread `t` is in. -/
def inBuilder (s : St F V E) (t : Nat) : Option F :=
  ((s.stack t).find? fun f => building ((s.obj f.1).pc f.2)).map (·.1)

/-- A builder of field `i` only calls fields `j` with `dep i j`. -/
def Allowed (dep : F → F → Prop) (s : St F V E) (t : Nat) : Act F V E → Prop
  | .call j _ => ∀ i, inBuilder s t = some i → dep i j
  | _ => True

/-- Every schedule of any number of threads. -/
inductive Reach (dep : F → F → Prop) (keep : Bool) (v₀ : F → Option V) : St F V E → Prop where
  | init : Reach dep keep v₀ (init v₀)
  | step {s s' t a} : Reach dep keep v₀ s → Allowed dep s t a → step keep s t a = some s' → Reach dep keep v₀ s'

/-- Run a finite schedule; `none` if an action is not enabled. -/
def run (keep : Bool) (s : St F V E) : List (Nat × Act F V E) → Option (St F V E)
  | [] => some s
  | (t, a) :: rest => (step keep s t a).bind fun s' => run keep s' rest

/-- Actions which begin nothing new: code of the library goes on, a builder ends, a guard is dropped. -/
def quiet : Act F V E → Bool
  | .go | .finish _ | .drop => true
  | _ => false

/-- Thread `t` is stuck inside code of the library: its innermost call is neither at the user (in a builder, or back with
a guard) nor can it move. -/
def Blocked (s : St F V E) (t : Nat) : Prop :=
  ∃ i p rest, s.stack t = (i, p) :: rest ∧ building ((s.obj i).pc p) = false ∧ holding ((s.obj i).pc p) = false ∧
    (Sync.go (s.obj i) p).isNone = true

/-- Somebody is inside, and everybody who is inside is stuck. -/
def Deadlock (s : St F V E) : Prop :=
  (∃ t, s.stack t ≠ []) ∧ ∀ t, s.stack t ≠ [] → Blocked s t

/-! ## Builders as programs

For the question what values come out, builders are deterministic programs (`Spec.Prog`) which read other fields. -/

/-- State with the remaining program of each builder, by process number. -/
structure PSt (F V E : Type) where
  m    : St F V E
  code : Nat → Prog F V

/-- Calls which neither set nor clear: `read`, `try_read`, `lazy_init`, `is_set`, and clone/comparison/debug
(sync/fxproxy.rs 166, 186, 134, 128, 248). -/
def reading : Op V → Bool
  | .get .read | .get .tryRead | .get .lazyInit | .isSet | .snapshot => true
  | _ => false

/-- Calls which return the value. -/
def fetching : Op V → Bool
  | .get .read | .get .tryRead => true
  | _ => false

/-- Moving on: the builder below the guard gets the value when the guard is dropped. -/
def resume (s : PSt F V E) (t : Nat) : Nat → Prog F V :=
  match s.m.stack t with
  | (j, _) :: (_, p) :: _ =>
    match s.code p, (s.m.obj j).value with
    | .read _ k, some v => upd s.code p (k v)
    | _, _ => s.code
  | _ => s.code

/-- May thread `t` begin the call `op` on field `j`? Outside of builders any reading call; a builder what its program reads
next. -/
def mayCall (s : PSt F V E) (t : Nat) (j : F) (op : Op V) : Bool :=
  match s.m.stack t with
  | [] => reading op
  | (_, p) :: _ =>
    match s.code p with
    | .read j' _ => fetching op && decide (j' = j)
    | .ret _ => false

/-- Transition function with builders `bld`. Threads begin reading calls as they like; a builder does what its program
says: reads the next field (and drops the guard once it has the value), or ends with the value its program gives, whatever
the action says. -/
def pstep (bld : F → Prog F V) (s : PSt F V E) (t : Nat) : Act F V E → Option (PSt F V E)
  | .call j op =>
    if mayCall s t j op then
      (step false s.m t (.call j op)).map fun m => { m := m, code := upd s.code s.m.next (bld j) }
    else none
  | .use (.deref g) => (step false s.m t (.use (.deref g))).map fun m => { s with m := m }
  | .use _ => none
  | .go => (step false s.m t .go).map fun m => { s with m := m }
  | .finish _ =>
    match s.m.stack t with
    | (_, p) :: _ =>
      match s.code p with
      | .ret v => (step false s.m t (.finish (.ok v))).map fun m => { s with m := m }
      | .read _ _ => none
    | [] => none
  | .drop => (step false s.m t .drop).map fun m => { m := m, code := resume s t }

/-- Actions by which threads go on with what they have begun: neither a new call from outside, nor another look through a
guard. -/
def inner (s : PSt F V E) (t : Nat) : Act F V E → Prop
  | .call _ _ => s.m.stack t ≠ []
  | .use _ => False
  | _ => True

/-- Every schedule with builders `bld`. -/
inductive PReach (bld : F → Prog F V) (v₀ : F → Option V) : PSt F V E → Prop where
  | init (c) : PReach bld v₀ ⟨init v₀, c⟩
  | step {s s' t a} : PReach bld v₀ s → pstep bld s t a = some s' → PReach bld v₀ s'

end

end Verif.Model.Multi
