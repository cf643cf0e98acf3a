import Verif.Model.AsyncCalls
import Verif.Model.AsyncLockCalls
import Verif.Model.AsyncMixed
import Verif.Model.Whole
/-!
# Tasks calling the generated helpers of all fields of async structs

An async struct has lazy and lock-protected fields (/repo/fieldx_derive/src/codegen/sync.rs 124-134); users await the helpers
generated for them (sync.rs 212-370, 465-647, with the `.await` of /repo/fieldx_derive/src/codegen/sync/impl_async.rs 61-63),
from several tasks, from builders of lazy fields (/repo/fieldx/src/async/fxproxy.rs 159), in branches which are awaited
together (`join!`, `select!`, the handle of a spawned task), and with guards in hand which other helpers gave them. Any helper
can be dropped where it awaits. `Verif.Model.AsyncCalls` has the helpers of one lazy field, `Verif.Model.AsyncLockCalls` those
of all lock-protected ones, `Verif.Model.AsyncMixed` has tasks which use the containers of both kinds directly. Here tasks use
both kinds through the helpers. `F` names the lazy fields, `L` the others, of any number of objects.

As in `Verif.Model.AsyncMixed` every call has a process number of its own, a frame names a call or the guard it left, and a
branch is a task, `par` tells which task awaits it. All but one of the frames of a task are at the user: in a builder, or
over with the guard kept. User code called by helpers other than builders (`clone` and `into`; sync.rs 244, 257, 527) does not
call fields, nor does that of comparison and `clone` of lock-protected contents; those are in `Verif.Model.AsyncMixed`.
-/

namespace Verif.Model.Tasks
open Verif.Spec Verif.Model Verif.Model.Args Verif.Model.Method
open Verif.Model.AsyncMixed (Fr)

/-- All fields and tasks. `obj`: the lazy fields with the helpers running on them; `queue`: who waits for each of them, in
order of arrival; `lk`: the other fields with the helpers running on them; `stack`: for each task its calls and guards, the
last begun first; `next`: process number of the next call; `kids`: the branches a task awaits; `par`: the task which awaits a
branch (sync.rs 124-134). -/
structure St (F L V W E : Type) where
  obj   : F → AsyncCalls.St V E
  queue : F → List Nat
  lk    : AsyncLockCalls.St L W
  stack : Nat → List (Fr F)
  next  : Nat
  kids  : Nat → List Nat
  par   : Nat → Option Nat

/-- What can happen to a call or guard. -/
inductive FAct (L V W E : Type) where
  /-- one step of its code -/
  | go
  /-- a guard of a lazy field is used -/
  | use (u : Spec.Calls.Call V)
  /-- the builder ends -/
  | finish (o : Outcome V E)
  /-- a guard of a lazy field is dropped -/
  | drop
  /-- a guard of a lock-protected field is used -/
  | useLock (u : Spec.LockCalls.Call L W)
  /-- a guard of a lock-protected field is dropped -/
  | dropLock (g : L × Bool)
  /-- `clone` or `==` of a lock-protected content panics -/
  | panic
  /-- the future is dropped -/
  | cancel

/-- What a task can do next. -/
inductive Act (F L V W E : Type) where
  /-- call the helper `k` of the lazy field `j`; `v`, `boom` as in `Verif.Spec.Calls` -/
  | call (j : F) (k : Kind) (v : V) (boom : Bool)
  /-- call a helper of a lock-protected field, or compare or clone such fields -/
  | lock (c : Spec.LockCalls.Call L W)
  /-- something happens to a call or guard it has -/
  | act (f : Fr F) (b : FAct L V W E)
  /-- await branch `c` -/
  | fork (c : Nat)
  /-- return to the task which awaits this one -/
  | ret

/-- How a frame stands: where in its helper and where in the container, and for lock-protected fields the guards it has. -/
inductive View (F L V W E : Type) where
  | lazy (i : F) (y : AsyncCalls.Pc V E) (x : Async.Pc V E)
  | lock (y : AsyncLockCalls.Pc L W) (x : AsyncLocks.Pc L (Option W)) (h : List (L × Bool))

section
variable {F L V W E : Type}

/-- New objects (async/fxproxy.rs 123-129, /repo/fieldx/src/async/fxlock.rs 13-15). -/
def init (v₀ : F → Option V) (w₀ : L → Option W) : St F L V W E :=
  { obj := fun i => AsyncCalls.init (v₀ i), queue := fun _ => [], lk := AsyncLockCalls.init w₀, stack := fun _ => [],
    next := 0, kids := fun _ => [], par := fun _ => none }

/-- How frame `f` stands. -/
def look (s : St F L V W E) : Fr F → View F L V W E
  | .lazy i p => .lazy i ((s.obj i).pc p) ((s.obj i).c.pc p)
  | .lock p => .lock (s.lk.pc p) (s.lk.c.pc p) (s.lk.c.held p)

/-- Over, and no guard is left. -/
def gone : View F L V W E → Bool
  | .lazy _ .idle _ => true
  | .lock .idle _ [] => true
  | _ => false

/-- A guard which a helper returned. -/
def guard : View F L V W E → Bool
  | .lazy _ .keeps _ => true
  | .lock .idle _ (_ :: _) => true
  | _ => false

/-- A builder is running (async/fxproxy.rs 159). -/
def building : View F L V W E → Bool
  | .lazy _ (.wait _ _ _) x => AsyncMulti.building x
  | _ => false

/-- The user's code runs: in the builder (async/fxproxy.rs 159), or with the guard which the helper returned. -/
def atUser (w : View F L V W E) : Bool := guard w || building w

/-- Fields which a frame has in hand when it is at the user. -/
def hand : View F L V W E → List (F ⊕ L)
  | .lazy i _ _ => [.inl i]
  | .lock _ _ h => h.map fun g => .inr g.1

/-- Fields which a frame waits for now or later: the helper is still to come to its `.await` (impl_async.rs 61-63), or the
container waits for its lock. -/
def targets : View F L V W E → List (F ⊕ L)
  | .lazy i (.run _ todo _) _ => if .await ∈ todo then [.inl i] else []
  | .lazy i _ x => AsyncMixed.targets (.lazy i x : AsyncMixed.View F L V (Option W) E)
  | .lock (.run f todo _) _ _ => if .await ∈ todo then [.inr f.field] else []
  | .lock _ x h => AsyncMixed.targets (.lock x h : AsyncMixed.View F L V (Option W) E)

/-- All calls of task `t` are at the user. -/
def atRest (s : St F L V W E) (t : Nat) : Bool := (s.stack t).all fun f => atUser (look s f)

/-- Task `t` runs user code. -/
def turn (s : St F L V W E) (t : Nat) : Bool := atRest s t && (s.kids t).isEmpty

/-- The innermost running builder of task `t`. -/
def innermost (s : St F L V W E) (t : Nat) : Option (Fr F) := (s.stack t).find? fun f => building (look s f)

/-- The queue of a lazy field when process `p` went from `x` to `x'`: it enters when it begins to wait (tokio's semaphore is
fair) and leaves when it waits no longer. -/
def requeue (p : Nat) (x x' : Async.Pc V E) (q : List Nat) : List Nat :=
  if AsyncMulti.queued x' then (if AsyncMulti.queued x then q else q ++ [p]) else q.erase p

variable [DecidableEq F]

/-- All calls of task `t` but `f` are at the user, and it awaits no branches. -/
def alone (s : St F L V W E) (t : Nat) (f : Fr F) : Bool :=
  (s.stack t).all (fun g => g == f || atUser (look s g)) && (s.kids t).isEmpty

/-- Process `p` made the lazy field `i` into `o`. -/
def put (s : St F L V W E) (i : F) (p : Nat) (o : AsyncCalls.St V E) : St F L V W E :=
  { s with obj := upd s.obj i o, queue := upd s.queue i (requeue p ((s.obj i).c.pc p) (o.c.pc p) (s.queue i)) }

variable [DecidableEq L]

/-- What happens in the fields. Only the first of a queue may take the lock. -/
def fstep (lazyCode : F → Kind → Option Body) (lockCode : L → Kind → Option Body) (eqv : Option W → Option W → Bool)
    (s : St F L V W E) : Fr F → FAct L V W E → Option (St F L V W E)
  | .lazy i p, .go =>
    if AsyncMulti.queued ((s.obj i).c.pc p) = false ∨ (s.queue i).head? = some p then
      (AsyncCalls.step (lazyCode i) (s.obj i) p .go).map (put s i p)
    else none
  | .lazy i p, .use u => (AsyncCalls.step (lazyCode i) (s.obj i) p (.call u)).map (put s i p)
  | .lazy i p, .finish o => (AsyncCalls.step (lazyCode i) (s.obj i) p (.finish o)).map (put s i p)
  | .lazy i p, .drop => (AsyncCalls.step (lazyCode i) (s.obj i) p .drop).map (put s i p)
  | .lazy i p, .cancel => (AsyncCalls.step (lazyCode i) (s.obj i) p .cancel).map (put s i p)
  | .lock p, .go => (AsyncLockCalls.step lockCode eqv s.lk p .go).map fun l => { s with lk := l }
  | .lock p, .useLock (.deref k) =>
    (AsyncLockCalls.step lockCode eqv s.lk p (.call (.deref k))).map fun l => { s with lk := l }
  | .lock p, .useLock (.assign k v) =>
    (AsyncLockCalls.step lockCode eqv s.lk p (.call (.assign k v))).map fun l => { s with lk := l }
  | .lock p, .dropLock g => (AsyncLockCalls.step lockCode eqv s.lk p (.drop g)).map fun l => { s with lk := l }
  | .lock p, .panic => (AsyncLockCalls.step lockCode eqv s.lk p .panic).map fun l => { s with lk := l }
  | .lock p, .cancel => (AsyncLockCalls.step lockCode eqv s.lk p .cancel).map fun l => { s with lk := l }
  | _, _ => none

/-- Builders end, and are dropped, from the innermost outwards. -/
def may (s : St F L V W E) (t : Nat) (f : Fr F) : Bool := !building (look s f) || innermost s t == some f

/-- The transition function. `lazyCode`, `lockCode`: the bodies of the helpers which the fields have. -/
def step (lazyCode : F → Kind → Option Body) (lockCode : L → Kind → Option Body) (eqv : Option W → Option W → Bool)
    (s : St F L V W E) (t : Nat) : Act F L V W E → Option (St F L V W E)
  | .call j k v boom =>
    if turn s t then
      (AsyncCalls.step (lazyCode j) (s.obj j) s.next (.call (.helper k v boom))).map fun o =>
        { s with obj := upd s.obj j o, stack := upd s.stack t (.lazy j s.next :: s.stack t), next := s.next + 1 }
    else none
  | .lock c =>
    if turn s t then
      (AsyncLockCalls.step lockCode eqv s.lk s.next (.call c)).map fun l =>
        { s with lk := l, stack := upd s.stack t (.lock s.next :: s.stack t), next := s.next + 1 }
    else none
  | .act f b =>
    if f ∈ s.stack t ∧ alone s t f = true ∧ may s t f = true then
      (fstep lazyCode lockCode eqv s f b).map fun s' =>
        { s' with stack := upd s'.stack t (if gone (look s' f) then (s'.stack t).erase f else s'.stack t) }
    else none
  | .fork c =>
    if t < c ∧ atRest s t = true ∧ s.stack c = [] ∧ s.kids c = [] ∧ s.par c = none then
      some { s with kids := upd s.kids t (c :: s.kids t), par := upd s.par c (some t) }
    else none
  | .ret =>
    match s.par t with
    | some u =>
      if s.kids t = [] ∧ (s.stack t).all (fun f => guard (look s f)) = true then
        some { s with
          stack := upd (upd s.stack t []) u (s.stack t ++ s.stack u)
          kids := upd s.kids u ((s.kids u).erase t), par := upd s.par t none }
      else none
    | none => none

/-- `u` is task `t` or a task which awaits it, directly or through others. -/
def Awaits (s : St F L V W E) (u t : Nat) : Prop := Relation.ReflTransGen (fun a b => s.par b = some a) u t

/-- Everything that task `t`, and the tasks which await it, have in hand comes before `r` in the order `dep`. -/
def Precedes (dep : F ⊕ L → F ⊕ L → Prop) (s : St F L V W E) (t : Nat) (r : F ⊕ L) : Prop :=
  ∀ u, Awaits s u t → ∀ g ∈ s.stack u, ∀ h ∈ hand (look s g), dep h r

/-- Tasks keep to the order `dep`: `dep a b` if a helper of `b` may be called while `a` is in hand, by the same task or by one
which awaits it. The predicate of a lazy field is free, it takes no lock (async/fxproxy.rs 143-145). A comparison of `i` with
`j` needs `dep i j`. A branch which returns with guards puts them in the hand of the task which awaits it, before what the
other branches wait for. -/
def Allowed (dep : F ⊕ L → F ⊕ L → Prop) (s : St F L V W E) (t : Nat) : Act F L V W E → Prop
  | .call _ .predicate _ _ => True
  | .call j _ _ _ => Precedes dep s t (.inl j)
  | .lock (.helper k _ _ _) | .lock (.clone k) => Precedes dep s t (.inr k)
  | .lock (.eq i j) => Precedes dep s t (.inr i) ∧ Precedes dep s t (.inr j) ∧ dep (.inr i) (.inr j)
  | .ret => ∀ u, s.par t = some u → ∀ v, Awaits s u v → v ≠ t → ∀ f ∈ s.stack v, ∀ r ∈ targets (look s f),
      ∀ g ∈ s.stack t, ∀ h ∈ hand (look s g), dep h r
  | _ => True

/-- Every schedule of any number of tasks keeping to the order `dep`. -/
inductive Reach (lazyCode : F → Kind → Option Body) (lockCode : L → Kind → Option Body) (eqv : Option W → Option W → Bool)
    (dep : F ⊕ L → F ⊕ L → Prop) (v₀ : F → Option V) (w₀ : L → Option W) : St F L V W E → Prop where
  | init : Reach lazyCode lockCode eqv dep v₀ w₀ (init v₀ w₀)
  | step {s s' t a} : Reach lazyCode lockCode eqv dep v₀ w₀ s → Allowed dep s t a →
      step lazyCode lockCode eqv s t a = some s' → Reach lazyCode lockCode eqv dep v₀ w₀ s'

/-- Actions which begin nothing new. -/
def quiet : Act F L V W E → Bool
  | .act _ (.use _) | .act _ (.useLock _) => false
  | .act _ _ | .ret => true
  | _ => false

/-- Actions which everybody comes to who drops no future: helpers go on, builders end, with `o`, guards are dropped, branches
return. -/
def eager (o : Outcome V E) : Act F L V W E → Prop
  | .act _ .go | .act _ .drop | .act _ (.dropLock _) | .ret => True
  | .act _ (.finish o') => o' = o
  | _ => False

/-- Task `t` has to do with the fields: it is in a helper, keeps a guard, awaits branches, or is awaited. -/
def Inside (s : St F L V W E) (t : Nat) : Prop := s.stack t ≠ [] ∨ s.kids t ≠ [] ∨ s.par t ≠ none

/-- Task `t` awaits branches, or is in code of the library and that code cannot move. -/
def Stuck (lazyCode : F → Kind → Option Body) (lockCode : L → Kind → Option Body) (eqv : Option W → Option W → Bool)
    (s : St F L V W E) (t : Nat) : Prop :=
  s.kids t ≠ [] ∨ ∃ f ∈ s.stack t, atUser (look s f) = false ∧ (fstep lazyCode lockCode eqv s f .go).isNone = true

/-- The containers under the helpers. -/
def containers (s : St F L V W E) : AsyncMixed.St F L V (Option W) E :=
  { obj := fun i => (s.obj i).c, queue := s.queue, lk := s.lk.c, stack := s.stack, next := s.next, kids := s.kids,
    par := s.par }

/-- Task `t` waits for task `u`: it awaits it, or a container which a helper of `t` calls is held up by `u`. -/
def WaitsFor (s : St F L V W E) (t u : Nat) : Prop := AsyncMixed.WaitsFor (containers s) t u

/-- Somebody is inside, and everybody who is inside is stuck. -/
def Deadlock (lazyCode : F → Kind → Option Body) (lockCode : L → Kind → Option Body) (eqv : Option W → Option W → Bool)
    (s : St F L V W E) : Prop :=
  (∃ t, Inside s t) ∧ ∀ t, Inside s t → Stuck lazyCode lockCode eqv s t

/-! ## One history of all helpers -/

/-- Events of the calls of the users on lazy fields, or on the others. -/
abbrev Tagged (F L V W E : Type) :=
  Whole.Tag F (Spec.Calls.Call V) (Res V E) Unit (Spec.LockCalls.Call L W) (Memory.Ret (Option W)) Unit

/-- What the step from `s` to `s'`, action `a`, adds (bookkeeping, as in `Verif.Model.Whole`). -/
def news (s s' : St F L V W E) : Act F L V W E → List (Tagged F L V W E)
  | .call j _ _ _ => (Whole.added (s.obj j).log (s'.obj j).log).map (.lazy j)
  | .act (.lazy j _) _ => (Whole.added (s.obj j).log (s'.obj j).log).map (.lazy j)
  | .lock _ | .act (.lock _) _ => (Whole.added s.lk.log s'.lk.log).map .lock
  | .fork _ | .ret => []

/-- Every schedule, with the record of all events. -/
inductive Trace (lazyCode : F → Kind → Option Body) (lockCode : L → Kind → Option Body) (eqv : Option W → Option W → Bool)
    (dep : F ⊕ L → F ⊕ L → Prop) (v₀ : F → Option V) (w₀ : L → Option W) :
    St F L V W E → List (Tagged F L V W E) → Prop where
  | init : Trace lazyCode lockCode eqv dep v₀ w₀ (init v₀ w₀) []
  | step {s s' g t a} : Trace lazyCode lockCode eqv dep v₀ w₀ s g → Allowed dep s t a →
      step lazyCode lockCode eqv s t a = some s' → Trace lazyCode lockCode eqv dep v₀ w₀ s' (g ++ news s s' a)

end

end Verif.Model.Tasks
