import Verif.Model.AsyncMulti
import Verif.Model.AsyncLocks
import Mathlib.Logic.Relation
/-!
# Lazy and lock-protected fields of async structs together, tasks with joined branches

An async struct has fields of both kinds: lazy ones are `FXProxyAsync` (`Verif.Model.Async`), the others with `lock` are
`FXRwLockAsync` (`Verif.Model.AsyncLocks`); /repo/fieldx_derive/src/codegen/sync.rs 124-134. Both are built on tokio's lock,
tasks and builders await calls on both, and guards of both kinds may be kept while further calls are made and may be dropped
in any order. `F` names the lazy containers, `L` the others, of any number of objects.

A task may await several things at once (`join!`, `select!`, the handle of a spawned task): it forks into branches, each of
which goes on by itself, and may fork again. While it has branches it runs no code of its own. A branch returns to the task
which awaits it and hands over the guards it has; until all have returned these guards are kept by a future that is not
polled to the end, nobody can drop them. A branch whose future is dropped is one that cancels its calls, drops its guards
and returns with nothing. So a branch is a task, and `par` tells which task awaits it.

Every call has a process number of its own in the container it goes to, also the calls on lock-protected containers: so
guards can be handed over. A frame names a call or guard.

User code is called from within a lazy container in the builder (/repo/fieldx/src/async/fxproxy.rs 159) and in comparison,
`clone` and `fmt` (109, 257-260), from within a lock-protected one in `clone`, `into`, `==` of its content
(/repo/fieldx/src/async/fxlock.rs 41, 77, codegen/sync.rs 541, 550, 594). All of it may use further containers.
-/

namespace Verif.Model.AsyncMixed
open Verif.Spec Verif.Model
open Verif.Model.Async (ALock)

/-- A call or guard: on the lazy container `i`, or on lock-protected containers, with its process number. -/
inductive Fr (F : Type) where
  | lazy (i : F) (p : Nat)
  | lock (p : Nat)
deriving DecidableEq, Repr

/-- All containers and tasks. `obj`: the lazy containers; `queue`: who waits for each of them, in order of arrival; `lk`: the
other containers, with their queues; `stack`: for each task its calls and guards, the last begun first; `next`: process
number of the next call; `kids`: the branches a task awaits; `par`: the task which awaits a branch (codegen/sync.rs
124-134). -/
structure St (F L V W E : Type) where
  obj   : F → Async.St V E
  queue : F → List Nat
  lk    : AsyncLocks.St L W
  stack : Nat → List (Fr F)
  next  : Nat
  kids  : Nat → List Nat
  par   : Nat → Option Nat

/-- What can happen to a call or guard. -/
inductive FAct (L V W E : Type) where
  /-- one step of its code -/
  | go
  /-- a lazy guard is used -/
  | use (op : Op V)
  /-- the builder ends -/
  | finish (o : Outcome V E)
  /-- a lazy guard is dropped -/
  | drop
  /-- a lock guard is used -/
  | useLock (op : Memory.Op L W)
  /-- a lock guard is dropped -/
  | dropLock (g : L × Bool)
  /-- user code called from a lock-protected container panics -/
  | panic
  /-- the future is dropped -/
  | cancel
deriving DecidableEq, Repr

/-- What a task can do next. -/
inductive Act (F L V W E : Type) where
  /-- begin a call on the lazy container `j` -/
  | call (j : F) (op : Op V)
  /-- begin a call on lock-protected containers -/
  | lock (op : Memory.Op L W)
  /-- something happens to a call or guard it has -/
  | act (f : Fr F) (b : FAct L V W E)
  /-- await branch `c` -/
  | fork (c : Nat)
  /-- return to the task which awaits this one -/
  | ret
deriving DecidableEq, Repr

/-- How a frame stands: its program point and, for lock-protected containers, the guard it has given. -/
inductive View (F L V W E : Type) where
  | lazy (i : F) (c : Async.Pc V E)
  | lock (c : AsyncLocks.Pc L W) (h : List (L × Bool))

section
variable {F L V W E : Type}

/-- New objects (async/fxproxy.rs 123-129, async/fxlock.rs 13-15). -/
def init (v₀ : F → Option V) (w₀ : L → W) : St F L V W E :=
  { obj := fun i => Async.init (v₀ i), queue := fun _ => [], lk := AsyncLocks.init w₀, stack := fun _ => [], next := 0,
    kids := fun _ => [], par := fun _ => none }

/-- How frame `f` stands. -/
def look (s : St F L V W E) : Fr F → View F L V W E
  | .lazy i p => .lazy i ((s.obj i).pc p)
  | .lock p => .lock (s.lk.pc p) (s.lk.held p)

/-- Over: nothing runs and no guard is left. -/
def gone : View F L V W E → Bool
  | .lazy _ c => AsyncMulti.gone c
  | .lock .idle [] => true
  | _ => false

/-- A guard. -/
def guard : View F L V W E → Bool
  | .lazy _ c => AsyncMulti.holding c
  | .lock .idle (_ :: _) => true
  | _ => false

/-- A builder is running (async/fxproxy.rs 159). -/
def building : View F L V W E → Bool
  | .lazy _ c => AsyncMulti.building c
  | _ => false

/-- The user's code runs: in a builder (async/fxproxy.rs 159), with a guard, in comparison, `clone`, `fmt` (109, 260), or in
`clone`, `into`, `==` of a lock-protected content (async/fxlock.rs 41, 77, codegen/sync.rs 541, 550, 594). -/
def atUser : View F L V W E → Bool
  | .lazy _ (.rBuild _) | .lazy _ (.gRead _) | .lazy _ (.gMut _) | .lazy _ (.gWrite _) | .lazy _ .sHave => true
  | .lock .idle (_ :: _) | .lock (.gHave _) _ | .lock (.xHave _ _) _ | .lock (.eHave _ _) _ | .lock (.eMid _ _ _) _ => true
  | _ => false

/-- Lock-protected containers of which a running call has a guard (async/fxlock.rs 38-42, 76-77, codegen/sync.rs 541, 549,
594, 630). -/
def during : AsyncLocks.Pc L W → List L
  | .gHave i | .gDone i _ | .xHave i _ | .xDone i _ _ | .eWait2 i _ | .eDrop i _ _ => [i]
  | .eHave i j | .eMid i j _ | .eDone i j _ => [i, j]
  | _ => []

/-- What a frame has in hand: its container once it is let in, the containers of its guards. -/
def hand : View F L V W E → List (F ⊕ L)
  | .lazy i c => if AsyncMulti.queued c then [] else [.inl i]
  | .lock c h => (h.map Prod.fst ++ during c).map .inr

/-- The container a frame waits for (async/fxproxy.rs 154, 213, 223; 109, 257; async/fxlock.rs 24, 29, 38, 39, 76). -/
def wants : View F L V W E → Option (F ⊕ L)
  | .lazy i c => if AsyncMulti.queued c then some (.inl i) else none
  | .lock c _ => (AsyncLocks.wants c).map .inr

/-- Does it wait for the exclusive guard (async/fxproxy.rs 154, 213, 223; async/fxlock.rs 29)? -/
def wantsAlone : View F L V W E → Bool
  | .lazy _ (.rStart _) | .lazy _ (.xStart _) => true
  | .lock c _ => AsyncLocks.wantsAlone c
  | _ => false

/-- Containers a frame waits for now or later: a comparison waits for its second side after the first (async/fxlock.rs
38-39). -/
def targets : View F L V W E → List (F ⊕ L)
  | .lock (.eWait1 i j) _ => [.inr i, .inr j]
  | w => (wants w).toList

/-- All calls of task `t` are at the user. -/
def atRest (s : St F L V W E) (t : Nat) : Bool := (s.stack t).all fun f => atUser (look s f)

/-- Task `t` runs user code. -/
def turn (s : St F L V W E) (t : Nat) : Bool := atRest s t && (s.kids t).isEmpty

/-- The innermost running builder of task `t`. -/
def innermost (s : St F L V W E) (t : Nat) : Option (Fr F) := (s.stack t).find? fun f => building (look s f)

variable [DecidableEq F]

/-- All calls of task `t` but `f` are at the user, and it awaits no branches. -/
def alone (s : St F L V W E) (t : Nat) (f : Fr F) : Bool :=
  (s.stack t).all (fun g => g == f || atUser (look s g)) && (s.kids t).isEmpty

/-- Process `p` made the lazy container `i` into `o`; it leaves the queue when it waits no longer. -/
def put (s : St F L V W E) (i : F) (p : Nat) (o : Async.St V E) : St F L V W E :=
  { s with
    obj := upd s.obj i o
    queue := upd s.queue i (if AsyncMulti.queued (o.pc p) then s.queue i else (s.queue i).erase p) }

variable [DecidableEq L]

/-- What happens in the containers. Only the first of a queue may take the lock. -/
def fstep (eqv : W → W → Bool) (s : St F L V W E) : Fr F → FAct L V W E → Option (St F L V W E)
  | .lazy i p, .go =>
    if AsyncMulti.queued ((s.obj i).pc p) = false ∨ (s.queue i).head? = some p then
      (Async.go (s.obj i) p).map (put s i p)
    else none
  | .lazy i p, .use op => (Async.invoke (s.obj i) p op).map (put s i p)
  | .lazy i p, .finish o => (Async.builderReturns (s.obj i) p o).map (put s i p)
  | .lazy i p, .drop => (Async.dropGuard (s.obj i) p).map (put s i p)
  | .lazy i p, .cancel => (Async.cancel (s.obj i) p).map (put s i p)
  | .lock p, .go => (AsyncLocks.go eqv s.lk p).map fun l => { s with lk := l }
  | .lock p, .useLock (.deref k) => (AsyncLocks.invoke s.lk p (.deref k)).map fun l => { s with lk := l }
  | .lock p, .useLock (.assign k v) => (AsyncLocks.invoke s.lk p (.assign k v)).map fun l => { s with lk := l }
  | .lock p, .dropLock g => (AsyncLocks.dropGuard s.lk p g).map fun l => { s with lk := l }
  | .lock p, .panic => (AsyncLocks.panics s.lk p).map fun l => { s with lk := l }
  | .lock p, .cancel => (AsyncLocks.cancel s.lk p).map fun l => { s with lk := l }
  | _, _ => none

/-- Builders end, and are dropped, from the innermost outwards. -/
def may (s : St F L V W E) (t : Nat) (f : Fr F) : Bool := !building (look s f) || innermost s t == some f

/-- The transition function. -/
def step (eqv : W → W → Bool) (s : St F L V W E) (t : Nat) : Act F L V W E → Option (St F L V W E)
  | .call j op =>
    if turn s t then
      (Async.invoke (s.obj j) s.next op).map fun o =>
        { s with
          obj := upd s.obj j o
          queue := upd s.queue j (if AsyncMulti.queued (o.pc s.next) then s.queue j ++ [s.next] else s.queue j)
          stack := upd s.stack t (.lazy j s.next :: s.stack t), next := s.next + 1 }
    else none
  | .lock op =>
    if turn s t then
      (AsyncLocks.invoke s.lk s.next op).map fun l =>
        { s with lk := l, stack := upd s.stack t (.lock s.next :: s.stack t), next := s.next + 1 }
    else none
  | .act f b =>
    if f ∈ s.stack t ∧ alone s t f = true ∧ may s t f = true then
      (fstep eqv s f b).map fun s' =>
        { s' with stack := upd s'.stack t (if gone (look s' f) then (s'.stack t).erase f else s'.stack t) }
    else none
  | .fork c =>
    if t < c ∧ atRest s t = true ∧ s.stack c = [] ∧ s.kids c = [] ∧ s.par c = none then
      some { s with kids := upd s.kids t (c :: s.kids t), par := upd s.par c (some t) }
    else none
  | .ret =>
    match s.par t with
    | some u =>
      if s.kids t = [] ∧ (s.stack t).all (fun f => guard (look s f)) = true then
        some { s with
          stack := upd (upd s.stack t []) u (s.stack t ++ s.stack u)
          kids := upd s.kids u ((s.kids u).erase t), par := upd s.par t none }
      else none
    | none => none

/-- `u` is task `t` or a task which awaits it, directly or through others. -/
def Awaits (s : St F L V W E) (u t : Nat) : Prop := Relation.ReflTransGen (fun a b => s.par b = some a) u t

/-- Everything that task `t`, and the tasks which await it, have in hand comes before `r` in the order `dep`. -/
def Precedes (dep : F ⊕ L → F ⊕ L → Prop) (s : St F L V W E) (t : Nat) (r : F ⊕ L) : Prop :=
  ∀ u, Awaits s u t → ∀ g ∈ s.stack u, ∀ h ∈ hand (look s g), dep h r

/-- Containers a call on lock-protected containers goes to. -/
def opTargets : Memory.Op L W → List L
  | .get i | .swap i _ | .read i | .write i => [i]
  | .eq i j => [i, j]
  | _ => []

/-- Tasks keep to the order `dep`: `dep a b` if `b` may be waited for while `a` is in hand, by the same task or by one which
awaits it. The predicate is free, it takes no lock. A comparison of `i` with `j` needs `dep i j`. A branch which returns with
guards puts them in the hand of the task which awaits it, before what the other branches wait for. -/
def Allowed (dep : F ⊕ L → F ⊕ L → Prop) (s : St F L V W E) (t : Nat) : Act F L V W E → Prop
  | .call _ .isSet => True
  | .call j _ => Precedes dep s t (.inl j)
  | .lock op => (∀ k ∈ opTargets op, Precedes dep s t (.inr k)) ∧ ∀ i j, op = .eq i j → dep (.inr i) (.inr j)
  | .ret => ∀ u, s.par t = some u → ∀ v, Awaits s u v → v ≠ t → ∀ f ∈ s.stack v, ∀ r ∈ targets (look s f),
      ∀ g ∈ s.stack t, ∀ h ∈ hand (look s g), dep h r
  | _ => True

/-- Every schedule of any number of tasks keeping to the order `dep`. -/
inductive Reach (eqv : W → W → Bool) (dep : F ⊕ L → F ⊕ L → Prop) (v₀ : F → Option V) (w₀ : L → W) :
    St F L V W E → Prop where
  | init : Reach eqv dep v₀ w₀ (init v₀ w₀)
  | step {s s' t a} : Reach eqv dep v₀ w₀ s → Allowed dep s t a → step eqv s t a = some s' → Reach eqv dep v₀ w₀ s'

/-- Run a finite schedule; `none` if an action is not enabled. -/
def run (eqv : W → W → Bool) (s : St F L V W E) : List (Nat × Act F L V W E) → Option (St F L V W E)
  | [] => some s
  | (t, a) :: rest => (step eqv s t a).bind fun s' => run eqv s' rest

/-- Actions which begin nothing new. -/
def quiet : Act F L V W E → Bool
  | .act _ (.use _) | .act _ (.useLock _) => false
  | .act _ _ | .ret => true
  | _ => false

/-- Actions which everybody comes to who drops no future: calls go on, builders end, with `o`, guards are dropped, branches
return. -/
def eager (o : Outcome V E) : Act F L V W E → Prop
  | .act _ .go | .act _ .drop | .act _ (.dropLock _) | .ret => True
  | .act _ (.finish o') => o' = o
  | _ => False

/-- Task `t` has to do with the containers: it is in a call, keeps a guard, awaits branches, or is awaited. -/
def Inside (s : St F L V W E) (t : Nat) : Prop := s.stack t ≠ [] ∨ s.kids t ≠ [] ∨ s.par t ≠ none

/-- Task `t` awaits branches, or is in code of the library and that code cannot move. -/
def Stuck (eqv : W → W → Bool) (s : St F L V W E) (t : Nat) : Prop :=
  s.kids t ≠ [] ∨ ∃ f ∈ s.stack t, atUser (look s f) = false ∧ (fstep eqv s f .go).isNone = true

/-- The frame of process `p` at container `r`. -/
def frame (r : F ⊕ L) (p : Nat) : Fr F :=
  match r with
  | .inl i => .lazy i p
  | .inr _ => .lock p

/-- Who waits for container `r`, in order of arrival. -/
def waiting (s : St F L V W E) : F ⊕ L → List Nat
  | .inl i => s.queue i
  | .inr k => s.lk.queue k

/-- The lock of container `r`. -/
def lockOf (s : St F L V W E) : F ⊕ L → ALock
  | .inl i => (s.obj i).lk
  | .inr k => s.lk.lock k

/-- Task `t` waits for task `u`: it awaits it as a branch; or a call of `t` stands behind one of `u` in the queue of a
container; or it is the first there and `u` has the exclusive guard; or it wants the exclusive guard and `u` has a shared
one. -/
inductive WaitsFor (s : St F L V W E) (t u : Nat) : Prop where
  | branch : u ∈ s.kids t → WaitsFor s t u
  | before {r p q rest} : frame r p ∈ s.stack t → wants (look s (frame r p)) = some r → waiting s r = q :: rest → p ∈ rest →
      frame r q ∈ s.stack u → WaitsFor s t u
  | owner {r p q} : frame r p ∈ s.stack t → wants (look s (frame r p)) = some r → (waiting s r).head? = some p →
      (lockOf s r).wr = some q → frame r q ∈ s.stack u → WaitsFor s t u
  | reader {r p q} : frame r p ∈ s.stack t → wants (look s (frame r p)) = some r → (waiting s r).head? = some p →
      wantsAlone (look s (frame r p)) = true → q ∈ (lockOf s r).shared → frame r q ∈ s.stack u → WaitsFor s t u

/-- Somebody is inside, and everybody who is inside is stuck. -/
def Deadlock (eqv : W → W → Bool) (s : St F L V W E) : Prop :=
  (∃ t, Inside s t) ∧ ∀ t, Inside s t → Stuck eqv s t

end

end Verif.Model.AsyncMixed
