import Verif.Model.Multi
import Verif.Spec.Fallible
/-!
# Several lazy fields with builders which may fail

The object is that of `Verif.Model.Multi` (one `FXProxySync` per lazy field). Builders follow a program (`Spec.Code`) which
calls `read`, `read_mut`, `try_read`, `try_read_mut` and `lazy_init` of other fields
(/repo/fieldx/src/sync/fxproxy.rs 134-136, 166-201) and gets what these calls answer: a value under a guard, an error
(line 188, 198 `?`), a panic (`unwrap`, lines 168, 178), or nothing (line 135).
Nobody sets, clears, or writes through a guard.
-/

namespace Verif.Model.Fallible
open Verif.Spec Verif.Model Verif.Model.Multi

section
variable {F V E : Type}

/-- State with the remaining program of each builder, by process number. -/
structure CSt (F V E : Type) where
  m    : St F V E
  code : Nat → Code F V E

/-- Calls which neither set nor clear, nor give the write guard: the five entry points, `is_set`, and
clone/comparison/debug (sync/fxproxy.rs 134-201, 128, 248, 264, 94). -/
def looking : Op V → Bool
  | .get _ | .isSet | .snapshot => true
  | _ => false

/-- What the call which has just left the container has answered: the last entry of the log. -/
def answered (o : Sync.St V E) : Option (Ret V E) :=
  match o.log.getLast? with
  | some (.res _ a) => some a.ret
  | _ => none

/-- A builder gets the answer `r`. -/
def feed (c : Code F V E) (r : Ret V E) : Code F V E :=
  match c with
  | .read _ _ k => k r
  | c => c

variable [DecidableEq F]

/-- Programs after a step of the innermost call of thread `t`: if the call is over without a guard, the builder below gets
its answer (sync/fxproxy.rs 168, 178, 188, 198, 135). `m` is the object after the step. -/
def leave (s : CSt F V E) (t : Nat) (m : St F V E) : Nat → Code F V E :=
  match s.m.stack t with
  | (j, q) :: (_, p) :: _ =>
    match gone ((m.obj j).pc q), answered (m.obj j) with
    | true, some r => upd s.code p (feed (s.code p) r)
    | _, _ => s.code
  | _ => s.code

/-- Programs after the innermost guard of thread `t` is dropped: the builder below has seen the value through it. -/
def release (s : CSt F V E) (t : Nat) : Nat → Code F V E :=
  match s.m.stack t with
  | (j, _) :: (_, p) :: _ =>
    match (s.m.obj j).value with
    | some v => upd s.code p (feed (s.code p) (.value v))
    | none => s.code
  | _ => s.code

/-- Is `op` the call of the entry point `q`? -/
def asks (q : GetKind) : Op V → Bool
  | .get q' => decide (q' = q)
  | _ => false

/-- May thread `t` begin the call `op` on field `j`? Outside of builders any looking call; a builder what its program reads
next, through the entry point it names. -/
def mayLook (s : CSt F V E) (t : Nat) (j : F) (op : Op V) : Bool :=
  match s.m.stack t with
  | [] => looking op
  | (_, p) :: _ =>
    match s.code p with
    | .read q j' _ => asks q op && decide (j' = j)
    | .ret _ => false

/-- Transition function with builders `bld`. Threads begin looking calls as they like; a builder does what its program
says: it makes the call, drops the guard once it has seen the value, or ends as its program ends, whatever the action
says. -/
def cstep (bld : F → Code F V E) (s : CSt F V E) (t : Nat) : Act F V E → Option (CSt F V E)
  | .call j op =>
    if mayLook s t j op then
      (step false s.m t (.call j op)).map fun m => { m := m, code := upd s.code s.m.next (bld j) }
    else none
  | .use (.deref g) => (step false s.m t (.use (.deref g))).map fun m => { s with m := m }
  | .use _ => none
  | .go => (step false s.m t .go).map fun m => { m := m, code := leave s t m }
  | .finish _ =>
    match s.m.stack t with
    | (_, p) :: _ =>
      match s.code p with
      | .ret o => (step false s.m t (.finish o)).map fun m => { s with m := m }
      | .read _ _ _ => none
    | [] => none
  | .drop => (step false s.m t .drop).map fun m => { m := m, code := release s t }

/-- Actions by which threads go on with what they have begun: neither a new call from outside, nor another look through a
guard. -/
def inside (s : CSt F V E) (t : Nat) : Act F V E → Prop
  | .call _ _ => s.m.stack t ≠ []
  | .use _ => False
  | _ => True

/-- Every schedule with builders `bld`. -/
inductive CReach (bld : F → Code F V E) (v₀ : F → Option V) : CSt F V E → Prop where
  | init (c) : CReach bld v₀ ⟨init v₀, c⟩
  | step {s s' t a} : CReach bld v₀ s → cstep bld s t a = some s' → CReach bld v₀ s'

end

end Verif.Model.Fallible
