import Verif.Model.Multi
import Verif.Model.Locks
/-!
# Lazy and lock-protected fields together, several threads

A sync struct has fields of both kinds: lazy ones are `FXProxySync` (`Verif.Model.Sync`), the others with `lock` are
`FXRwLockSync` (`Verif.Model.Locks`); /repo/fieldx_derive/src/codegen/sync.rs 124-134. Both are built on the same locks,
threads use both, builders use both, and guards of both kinds may be kept while further calls are made and may be dropped
in any order. `F` names the lazy containers, `L` the others, of any number of objects.

A thread has a stack of lazy calls and guards, innermost first, and its lock calls and lock guards. All but one of the calls
are at the user: in a builder (/repo/fieldx/src/sync/fxproxy.rs 150), keeping a guard, or inside a comparison, `clone` or
`fmt` with the shared guard held (fxproxy.rs 95-99, 249-255, 264-267: there `PartialEq`, `Clone`, `Debug` of the value run;
the comparison of two containers takes the second guard in line 266 while it holds the first, which is a call made from
there). User code called from within a lock-protected container (`clone`, `into`, `eq` of its content) does not call fields.
-/

namespace Verif.Model.Mixed
open Verif.Spec Verif.Model

/-- All containers and threads. `obj`: the lazy containers; `stack`: for each thread its lazy calls and guards as container
and process number; `next`: process number of the next call; `lk`: the other containers with the lock calls and lock guards
of each thread (codegen/sync.rs 124-134). -/
structure St (F L V W E : Type) where
  obj   : F → Sync.St V E
  stack : Nat → List (F × Nat)
  next  : Nat
  lk    : Locks.St L W

/-- What a thread can do next. -/
inductive Act (F L V W E : Type) where
  /-- begin a call on the lazy container `j` -/
  | call (j : F) (op : Op V)
  /-- use the guard `f` -/
  | use (f : F × Nat) (op : Op V)
  /-- one step of the code of the call `f` -/
  | go (f : F × Nat)
  /-- the innermost builder ends -/
  | finish (o : Outcome V E)
  /-- drop the guard `f` -/
  | drop (f : F × Nat)
  /-- anything with lock-protected containers -/
  | lock (a : Locks.Act L W)
deriving DecidableEq, Repr

section
variable {F L V W E : Type}

/-- The user's code runs: in a builder (fxproxy.rs 150), with a guard, or under the shared guard of a comparison, `clone`
or `fmt` (fxproxy.rs 96, 252, 266-267). -/
def atUser : Sync.Pc V E → Bool
  | .rBuild _ | .gRead _ | .gMut _ | .gWrite _ | .sHave => true
  | _ => false

/-- No lock call is running. -/
def idle : Locks.Pc L W → Bool
  | .idle => true
  | _ => false

/-- New objects (fxproxy.rs 108-114, /repo/fieldx/src/sync/fxlock.rs 13-15). -/
def init (v₀ : F → Option V) (w₀ : L → W) : St F L V W E :=
  { obj := fun i => Sync.init (v₀ i), stack := fun _ => [], next := 0, lk := Locks.init w₀ }

/-- All lazy calls of thread `t` are at the user. -/
def atRest (s : St F L V W E) (t : Nat) : Bool := (s.stack t).all fun f => atUser ((s.obj f.1).pc f.2)

/-- Thread `t` runs user code. -/
def turn (s : St F L V W E) (t : Nat) : Bool := atRest s t && idle (s.lk.pc t)

/-- The innermost running builder of thread `t`. -/
def innermost (s : St F L V W E) (t : Nat) : Option (F × Nat) :=
  (s.stack t).find? fun f => Multi.building ((s.obj f.1).pc f.2)

variable [DecidableEq F]

/-- All lazy calls of thread `t` but `f` are at the user, and no lock call is running. -/
def alone (s : St F L V W E) (t : Nat) (f : F × Nat) : Bool :=
  (s.stack t).all (fun g => g == f || atUser ((s.obj g.1).pc g.2)) && idle (s.lk.pc t)

/-- The call `f` of thread `t` made its container `o`; it is taken off the stack when it has left. -/
def settle (s : St F L V W E) (t : Nat) (f : F × Nat) (o : Sync.St V E) : St F L V W E :=
  { s with
    obj := upd s.obj f.1 o
    stack := upd s.stack t (if Multi.gone (o.pc f.2) then (s.stack t).erase f else s.stack t) }

variable [DecidableEq L]

/-- The transition function. -/
def step (eqv : W → W → Bool) (s : St F L V W E) (t : Nat) : Act F L V W E → Option (St F L V W E)
  | .call j op =>
    if turn s t then
      (Sync.invoke (s.obj j) s.next op).map fun o =>
        { s with obj := upd s.obj j o, stack := upd s.stack t ((j, s.next) :: s.stack t), next := s.next + 1 }
    else none
  | .use f op =>
    if f ∈ s.stack t ∧ turn s t = true then (Sync.invoke (s.obj f.1) f.2 op).map (settle s t f) else none
  | .go f =>
    if f ∈ s.stack t ∧ alone s t f = true then (Sync.go (s.obj f.1) f.2).map (settle s t f) else none
  | .finish o =>
    match innermost s t with
    | some f => if turn s t then (Sync.builderReturns (s.obj f.1) f.2 o).map (settle s t f) else none
    | none => none
  | .drop f =>
    if f ∈ s.stack t ∧ turn s t = true then (Sync.dropGuard (s.obj f.1) f.2).map (settle s t f) else none
  | .lock a => if atRest s t then (Locks.step eqv s.lk t a).map fun l => { s with lk := l } else none

/-- Everything thread `t` has in hand, of its lazy calls those in `fs`, comes before `r` in the order `dep`. -/
def Precedes (dep : F ⊕ L → F ⊕ L → Prop) (s : St F L V W E) (t : Nat) (fs : List (F × Nat)) (r : F ⊕ L) : Prop :=
  (∀ f ∈ fs, dep (.inl f.1) r) ∧ ∀ g ∈ s.lk.held t, dep (.inr g.1) r

/-- Threads keep to the order `dep`: `dep a b` if a call on `b` may be made while in a call on `a` (in its builder, or
comparing, cloning or printing it) or while keeping a guard of `a`. The predicate is free, it takes no lock. When a builder
ends the thread must not keep guards which come after its field: those the builder took are dropped (they borrow from its
`&self`), those taken earlier come before the field anyhow. -/
def Allowed (dep : F ⊕ L → F ⊕ L → Prop) (s : St F L V W E) (t : Nat) : Act F L V W E → Prop
  | .call _ .isSet => True
  | .call j _ => Precedes dep s t (s.stack t) (.inl j)
  | .finish _ => ∀ f, innermost s t = some f → Precedes dep s t ((s.stack t).erase f) (.inl f.1)
  | .lock (.call (.get k)) | .lock (.call (.swap k _)) | .lock (.call (.read k)) | .lock (.call (.write k)) =>
    Precedes dep s t (s.stack t) (.inr k)
  | .lock (.call (.eq k k')) =>
    Precedes dep s t (s.stack t) (.inr k) ∧ Precedes dep s t (s.stack t) (.inr k') ∧ dep (.inr k) (.inr k')
  | _ => True

/-- Every schedule of any number of threads keeping to the order `dep`. -/
inductive Reach (eqv : W → W → Bool) (dep : F ⊕ L → F ⊕ L → Prop) (v₀ : F → Option V) (w₀ : L → W) :
    St F L V W E → Prop where
  | init : Reach eqv dep v₀ w₀ (init v₀ w₀)
  | step {s s' t a} : Reach eqv dep v₀ w₀ s → Allowed dep s t a → step eqv s t a = some s' → Reach eqv dep v₀ w₀ s'

/-- Run a finite schedule; `none` if an action is not enabled. -/
def run (eqv : W → W → Bool) (s : St F L V W E) : List (Nat × Act F L V W E) → Option (St F L V W E)
  | [] => some s
  | (t, a) :: rest => (step eqv s t a).bind fun s' => run eqv s' rest

/-- Actions which begin nothing new. -/
def quiet : Act F L V W E → Bool
  | .go _ | .finish _ | .drop _ => true
  | .lock a => Locks.quiet a
  | _ => false

/-- Thread `t` has to do with the containers: it is in a call or keeps a guard. -/
def Inside (s : St F L V W E) (t : Nat) : Prop := s.stack t ≠ [] ∨ Locks.Inside s.lk t

/-- Thread `t` is in code of the library and that code cannot move. -/
def Stuck (eqv : W → W → Bool) (s : St F L V W E) (t : Nat) : Prop :=
  (∃ f ∈ s.stack t, atUser ((s.obj f.1).pc f.2) = false ∧ Sync.go (s.obj f.1) f.2 = none) ∨ Locks.Stuck eqv s.lk t

/-- Points which wait to be let in past an exclusive owner. -/
def entering : Sync.Pc V E → Bool
  | .rStart _ | .xStart _ | .sStart => true
  | _ => false

/-- ... and past the holder of the upgradable guard. -/
def enteringAlone : Sync.Pc V E → Bool
  | .rStart _ | .xStart _ => true
  | _ => false

/-- Points which own the exclusive bit and wait for the readers. -/
def draining : Sync.Pc V E → Bool
  | .rUpg _ | .rUpg2 _ _ | .xWait _ => true
  | _ => false

/-- Thread `t` waits for thread `u`: a call of `t` is held up by the owner of the exclusive bit, by the holder of the
upgradable guard, or, having claimed the exclusive bit, by a reader. -/
inductive WaitsFor (s : St F L V W E) (t u : Nat) : Prop where
  | owner {i p q} : (i, p) ∈ s.stack t → entering ((s.obj i).pc p) = true → (s.obj i).lk.wr = some q →
      (i, q) ∈ s.stack u → WaitsFor s t u
  | upgrader {i p q} : (i, p) ∈ s.stack t → enteringAlone ((s.obj i).pc p) = true → (s.obj i).lk.upg = some q →
      (i, q) ∈ s.stack u → WaitsFor s t u
  | reader {i p q} : (i, p) ∈ s.stack t → draining ((s.obj i).pc p) = true → q ∈ (s.obj i).lk.shared →
      (i, q) ∈ s.stack u → WaitsFor s t u
  | lock : Locks.WaitsFor s.lk t u → WaitsFor s t u

/-- Somebody is inside, and everybody who is inside is stuck. -/
def Deadlock (eqv : W → W → Bool) (s : St F L V W E) : Prop :=
  (∃ t, Inside s t) ∧ ∀ t, Inside s t → Stuck eqv s t

end

end Verif.Model.Mixed
