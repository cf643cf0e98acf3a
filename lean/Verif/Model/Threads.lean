import Verif.Model.Calls
import Verif.Model.LockCalls
import Verif.Model.Mixed
import Verif.Model.Whole
/-!
# Threads calling the generated helpers of all fields

A sync struct has lazy and lock-protected fields (/repo/fieldx_derive/src/codegen/sync.rs 124-134); users call the helpers
generated for them (sync.rs 212-370, 465-647), from several threads, from builders of lazy fields
(/repo/fieldx/src/sync/fxproxy.rs 150), and with guards in hand which other helpers gave them. `Verif.Model.Calls` has the
helpers of one lazy field, `Verif.Model.LockCalls` those of all lock-protected ones, `Verif.Model.Mixed` has threads which
use the containers of both kinds directly. Here threads use both kinds through the helpers. `F` names the lazy fields, `L`
the others, of any number of objects.

A thread has a stack of helper calls on lazy fields and guards of them, innermost first, and at most one call on a
lock-protected field. All but one of its calls are at the user: in a builder, or over with the guard kept. User code called
by helpers other than builders (`clone` and `into`; sync.rs 244, 257, 527) does not call fields; comparison, `clone` and
`fmt` of whole objects are in `Verif.Model.Mixed`.
-/

namespace Verif.Model.Threads
open Verif.Spec Verif.Model Verif.Model.Args Verif.Model.Method

/-- All fields and threads. `obj`: the lazy fields with the helpers running on them; `stack`: for each thread its calls and
guards as field and process number; `next`: process number of the next call; `lk`: the other fields with the helpers running
on them (sync.rs 124-134). -/
structure St (F L V W E : Type) where
  obj   : F → Calls.St V E
  stack : Nat → List (F × Nat)
  next  : Nat
  lk    : LockCalls.St L W

/-- What a thread can do next. -/
inductive Act (F L V W E : Type) where
  /-- call the helper `k` of the lazy field `j`; `v`, `boom` as in `Verif.Spec.Calls` -/
  | call (j : F) (k : Kind) (v : V) (boom : Bool)
  /-- use the guard `f` -/
  | use (f : F × Nat) (u : Spec.Calls.Call V)
  /-- one step of the code of the call `f` -/
  | go (f : F × Nat)
  /-- the innermost builder ends -/
  | finish (o : Outcome V E)
  /-- drop the guard `f` -/
  | drop (f : F × Nat)
  /-- anything with lock-protected fields -/
  | lock (a : LockCalls.Act L W)

section
variable {F L V W E : Type}

/-- The user's code runs: in the builder (fxproxy.rs 150), or with the guard which the helper returned. -/
def atUser (o : Calls.St V E) (p : Nat) : Bool :=
  match o.pc p with
  | .keeps => true
  | .wait _ _ _ => Multi.building (o.c.pc p)
  | _ => false

/-- The helper is over and left no guard. -/
def gone (o : Calls.St V E) (p : Nat) : Bool :=
  match o.pc p with
  | .idle => true
  | _ => false

/-- No helper of a lock-protected field is running. -/
def idle : LockCalls.Pc L W → Bool
  | .idle => true
  | _ => false

/-- New objects (fxproxy.rs 108-114, /repo/fieldx/src/sync/fxlock.rs 13-15). -/
def init (v₀ : F → Option V) (w₀ : L → Option W) : St F L V W E :=
  { obj := fun i => Calls.init (v₀ i), stack := fun _ => [], next := 0, lk := LockCalls.init w₀ }

/-- All calls of thread `t` on lazy fields are at the user. -/
def atRest (s : St F L V W E) (t : Nat) : Bool := (s.stack t).all fun f => atUser (s.obj f.1) f.2

/-- Thread `t` runs user code. -/
def turn (s : St F L V W E) (t : Nat) : Bool := atRest s t && idle (s.lk.pc t)

/-- The innermost running builder of thread `t`. -/
def innermost (s : St F L V W E) (t : Nat) : Option (F × Nat) :=
  (s.stack t).find? fun f => Multi.building ((s.obj f.1).c.pc f.2)

variable [DecidableEq F]

/-- All calls of thread `t` but `f` are at the user. -/
def alone (s : St F L V W E) (t : Nat) (f : F × Nat) : Bool :=
  (s.stack t).all (fun g => g == f || atUser (s.obj g.1) g.2) && idle (s.lk.pc t)

/-- The call `f` of thread `t` made its field `o`; it is taken off the stack when it is over and left no guard. -/
def settle (s : St F L V W E) (t : Nat) (f : F × Nat) (o : Calls.St V E) : St F L V W E :=
  { s with
    obj := upd s.obj f.1 o
    stack := upd s.stack t (if gone o f.2 then (s.stack t).erase f else s.stack t) }

variable [DecidableEq L]

/-- The transition function. `lazyCode`, `lockCode`: the bodies of the helpers which the fields have. -/
def step (lazyCode : F → Kind → Option Body) (lockCode : L → Kind → Option Body) (eqv : Option W → Option W → Bool)
    (s : St F L V W E) (t : Nat) : Act F L V W E → Option (St F L V W E)
  | .call j k v boom =>
    if turn s t then
      (Calls.step (lazyCode j) (s.obj j) s.next (.call (.helper k v boom))).map fun o =>
        { s with obj := upd s.obj j o, stack := upd s.stack t ((j, s.next) :: s.stack t), next := s.next + 1 }
    else none
  | .use f u =>
    if f ∈ s.stack t ∧ turn s t = true then
      (Calls.step (lazyCode f.1) (s.obj f.1) f.2 (.call u)).map (settle s t f)
    else none
  | .go f =>
    if f ∈ s.stack t ∧ alone s t f = true then
      (Calls.step (lazyCode f.1) (s.obj f.1) f.2 .go).map (settle s t f)
    else none
  | .finish o =>
    match innermost s t with
    | some f =>
      if turn s t then (Calls.step (lazyCode f.1) (s.obj f.1) f.2 (.finish o)).map (settle s t f) else none
    | none => none
  | .drop f =>
    if f ∈ s.stack t ∧ turn s t = true then
      (Calls.step (lazyCode f.1) (s.obj f.1) f.2 .drop).map (settle s t f)
    else none
  | .lock a => if atRest s t then (LockCalls.step lockCode eqv s.lk t a).map fun l => { s with lk := l } else none

/-- Everything thread `t` has in hand, of its calls on lazy fields those in `fs`, comes before `r` in the order `dep`. -/
def Precedes (dep : F ⊕ L → F ⊕ L → Prop) (s : St F L V W E) (t : Nat) (fs : List (F × Nat)) (r : F ⊕ L) : Prop :=
  (∀ f ∈ fs, dep (.inl f.1) r) ∧ ∀ g ∈ s.lk.c.held t, dep (.inr g.1) r

/-- Threads keep to the order `dep`: `dep a b` if a helper of `b` may be called from the builder of `a` or while keeping a
guard of `a`. The predicate of a lazy field is free, it takes no lock (fxproxy.rs 128-130). When a builder ends the thread
must not keep guards which come after its field: those the builder took are dropped (they borrow from its `&self`), those
taken earlier come before the field anyhow. -/
def Allowed (dep : F ⊕ L → F ⊕ L → Prop) (s : St F L V W E) (t : Nat) : Act F L V W E → Prop
  | .call _ .predicate _ _ => True
  | .call j _ _ _ => Precedes dep s t (s.stack t) (.inl j)
  | .finish _ => ∀ f, innermost s t = some f → Precedes dep s t ((s.stack t).erase f) (.inl f.1)
  | .lock (.call (.helper k _ _ _)) | .lock (.call (.clone k)) => Precedes dep s t (s.stack t) (.inr k)
  | .lock (.call (.eq k k')) =>
    Precedes dep s t (s.stack t) (.inr k) ∧ Precedes dep s t (s.stack t) (.inr k') ∧ dep (.inr k) (.inr k')
  | _ => True

/-- Every schedule of any number of threads keeping to the order `dep`. -/
inductive Reach (lazyCode : F → Kind → Option Body) (lockCode : L → Kind → Option Body) (eqv : Option W → Option W → Bool)
    (dep : F ⊕ L → F ⊕ L → Prop) (v₀ : F → Option V) (w₀ : L → Option W) : St F L V W E → Prop where
  | init : Reach lazyCode lockCode eqv dep v₀ w₀ (init v₀ w₀)
  | step {s s' t a} : Reach lazyCode lockCode eqv dep v₀ w₀ s → Allowed dep s t a →
      step lazyCode lockCode eqv s t a = some s' → Reach lazyCode lockCode eqv dep v₀ w₀ s'

/-- Actions which begin nothing new. -/
def quiet : Act F L V W E → Bool
  | .go _ | .finish _ | .drop _ => true
  | .lock (.call _) => false
  | .lock _ => true
  | _ => false

/-- Thread `t` has to do with the fields: it is in a helper or keeps a guard. -/
def Inside (s : St F L V W E) (t : Nat) : Prop := s.stack t ≠ [] ∨ s.lk.pc t ≠ .idle ∨ s.lk.c.held t ≠ []

/-- Thread `t` is in code of the library and that code cannot move. -/
def Stuck (eqv : Option W → Option W → Bool) (s : St F L V W E) (t : Nat) : Prop :=
  (∃ f ∈ s.stack t, atUser (s.obj f.1) f.2 = false ∧ Calls.go (s.obj f.1) f.2 = none) ∨
  (s.lk.pc t ≠ .idle ∧ LockCalls.go eqv s.lk t = none)

/-- The containers under the helpers. -/
def containers (s : St F L V W E) : Mixed.St F L V (Option W) E :=
  { obj := fun i => (s.obj i).c, stack := s.stack, next := s.next, lk := s.lk.c }

/-- Thread `t` waits for thread `u`: a container which a helper of `t` calls is held up by `u`. -/
def WaitsFor (s : St F L V W E) (t u : Nat) : Prop := Mixed.WaitsFor (containers s) t u

/-- Somebody is inside, and everybody who is inside is stuck. -/
def Deadlock (eqv : Option W → Option W → Bool) (s : St F L V W E) : Prop :=
  (∃ t, Inside s t) ∧ ∀ t, Inside s t → Stuck eqv s t

/-! ## One history of all helpers -/

/-- Events of the calls of the users on lazy fields, or on the others. -/
abbrev Tagged (F L V W E : Type) :=
  Whole.Tag F (Spec.Calls.Call V) (Res V E) Unit (Spec.LockCalls.Call L W) (Memory.Ret (Option W)) Unit

/-- What the step from `s` to `s'`, action `a` of thread `t`, adds (bookkeeping, as in `Verif.Model.Whole`). -/
def news (s s' : St F L V W E) (t : Nat) : Act F L V W E → List (Tagged F L V W E)
  | .call j _ _ _ => (Whole.added (s.obj j).log (s'.obj j).log).map (.lazy j)
  | .use f _ | .go f | .drop f => (Whole.added (s.obj f.1).log (s'.obj f.1).log).map (.lazy f.1)
  | .finish _ =>
    match innermost s t with
    | some f => (Whole.added (s.obj f.1).log (s'.obj f.1).log).map (.lazy f.1)
    | none => []
  | .lock _ => (Whole.added s.lk.log s'.lk.log).map .lock

/-- Every schedule, with the record of all events. -/
inductive Trace (lazyCode : F → Kind → Option Body) (lockCode : L → Kind → Option Body) (eqv : Option W → Option W → Bool)
    (dep : F ⊕ L → F ⊕ L → Prop) (v₀ : F → Option V) (w₀ : L → Option W) :
    St F L V W E → List (Tagged F L V W E) → Prop where
  | init : Trace lazyCode lockCode eqv dep v₀ w₀ (init v₀ w₀) []
  | step {s s' g t a} : Trace lazyCode lockCode eqv dep v₀ w₀ s g → Allowed dep s t a →
      step lazyCode lockCode eqv s t a = some s' → Trace lazyCode lockCode eqv dep v₀ w₀ s' (g ++ news s s' t a)

end

end Verif.Model.Threads
