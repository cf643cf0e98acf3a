import Verif.Model.Async
import Verif.Spec.Memory
/-!
# Lock-protected fields of async structs, several of them, several tasks

Fields with `lock` which are not lazy, in async mode: `FXRwLockAsync<T>` or `FXRwLockAsync<Option<T>>`
(/repo/fieldx_derive/src/codegen/sync.rs 124-134), a wrapper of `tokio::sync::RwLock`
(/repo/fieldx/src/async/fxlock.rs 9-89). `L` names the containers: a field of an object. Any number of tasks make calls on
them; a task keeps any number of guards in `held`, and drops them in any order.

tokio's lock is fair (DESIGN.md section 1): whoever waits stands in a queue, only the first may take the lock, and somebody
who arrives later waits behind those who wait already, also if they could share the lock with the holder. A future may be
dropped where it awaits; it leaves the queue. A panic drops the guards of the call (no poisoning).

`clone` and `==` take their guards with `blocking_read` (fxlock.rs 38-39, 76), which stands in the same queue and
panics on a thread of an async runtime; the model covers calls from outside of it. The accessor with `copy` or `clone` and
the mutable accessor of such a field do not compile (codegen/sync.rs 268, 352 have no `await`, see `Props/MethodTy.lean`).
-/

namespace Verif.Model.AsyncLocks
open Verif.Spec Verif.Spec.Memory Verif.Model
open Verif.Model.Async (ALock)

/-- Where a task is. -/
inductive Pc (L V : Type) where
  | idle
  /-- `get`: in the queue for the shared guard (the predicate, codegen/sync.rs 630; `clone`, fxlock.rs 76) -/
  | gWait (i : L)
  /-- `get`: shared guard held, about to look (codegen/sync.rs 630, fxlock.rs 77) -/
  | gHave (i : L)
  /-- `get`: result known, shared guard about to be dropped -/
  | gDone (i : L) (r : Ret V)
  /-- `swap`: in the queue for the exclusive guard (codegen/sync.rs 541, 549, 594) -/
  | xWait (i : L) (v : V)
  /-- `swap`: exclusive guard held, about to convert and replace (codegen/sync.rs 541, 550, 594) -/
  | xHave (i : L) (v : V)
  | xDone (i : L) (v : V) (r : Ret V)
  /-- `eq`: in the queue for the first guard (fxlock.rs 38) -/
  | eWait1 (i j : L)
  /-- `eq`: in the queue for the second guard (fxlock.rs 39) -/
  | eWait2 (i j : L)
  /-- `eq`: both guards held, about to look at the first content (fxlock.rs 41) -/
  | eHave (i j : L)
  /-- `eq`: first content seen -/
  | eMid (i j : L) (x : V)
  /-- `eq`: result known, second guard about to be dropped (guards are dropped in reverse order) -/
  | eDone (i j : L) (r : Ret V)
  /-- `eq`: first guard about to be dropped -/
  | eDrop (i j : L) (r : Ret V)
  /-- reader: in the queue (codegen/sync.rs 97, 107; fxlock.rs 24) -/
  | rWait (i : L)
  /-- writer: in the queue (codegen/sync.rs 491, 499; fxlock.rs 29) -/
  | wWait (i : L)
  /-- using a guard -/
  | use (i : L)
  | asg (i : L) (v : V)
  | used (op : Op L V) (r : Ret V)
deriving DecidableEq, Repr

/-- Events: nothing besides calls. -/
abbrev Ev (L V : Type) := LEv (Op L V) (Ret V) Unit

/-- The containers (fxlock.rs 9: one lock with its content) with all tasks around them, and the log. `queue`: who waits for
each lock, in order of arrival. `held`: guards kept by each task, `true` for exclusive ones. -/
structure St (L V : Type) where
  lock  : L → ALock
  queue : L → List Nat
  val   : L → V
  held  : Nat → List (L × Bool)
  pc    : Nat → Pc L V
  seq   : Nat → Nat
  log   : List (Ev L V)

section
variable {L V : Type}

/-- `FXRwLockAsync::new`, `From<T>` (fxlock.rs 13-15, 45-49). -/
def init (v₀ : L → V) : St L V :=
  { lock := fun _ => .free, queue := fun _ => [], val := v₀, held := fun _ => [], pc := fun _ => .idle, seq := fun _ => 0,
    log := [] }

/-- Identity of the call task `t` is in. -/
def St.me (s : St L V) (t : Nat) : CallId := ⟨t, s.seq t⟩

/-- Move task `t`. -/
def St.to (s : St L V) (t : Nat) (c : Pc L V) : St L V := { s with pc := upd s.pc t c }

/-- The call of task `t` takes effect. -/
def St.lin (s : St L V) (t : Nat) (op : Op L V) (r : Ret V) : St L V :=
  { s with log := s.log ++ [.lin (s.me t) op r] }

/-- The call of task `t` returns. -/
def St.ret (s : St L V) (t : Nat) (r : Ret V) : St L V :=
  { s with log := s.log ++ [.res (s.me t) r], seq := upd s.seq t (s.seq t + 1), pc := upd s.pc t .idle }

/-- The future of the call is dropped: no answer. -/
def St.quit (s : St L V) (t : Nat) : St L V :=
  { s with log := s.log ++ [.cancel (s.me t)], seq := upd s.seq t (s.seq t + 1), pc := upd s.pc t .idle }

/-- The call `op` of task `t` begins at `c`. -/
def St.begin (s : St L V) (t : Nat) (op : Op L V) (c : Pc L V) : St L V :=
  { s with log := s.log ++ [.inv (s.me t) op], pc := upd s.pc t c }

/-- Task `t` keeps another guard. -/
def St.keep (s : St L V) (t : Nat) (g : L × Bool) : St L V := { s with held := upd s.held t (g :: s.held t) }

variable [DecidableEq L]

/-- Change one lock. -/
def St.setLock (s : St L V) (i : L) (l : ALock) : St L V := { s with lock := upd s.lock i l }

/-- Task `t` joins the queue of container `i`. -/
def St.enter (s : St L V) (i : L) (t : Nat) : St L V := { s with queue := upd s.queue i (s.queue i ++ [t]) }

/-- Task `t` leaves the queue of container `i`. -/
def St.leave (s : St L V) (i : L) (t : Nat) : St L V := { s with queue := upd s.queue i ((s.queue i).erase t) }

/-- The first of the queue takes the shared guard. -/
def St.shared (s : St L V) (i : L) (t : Nat) : Option (St L V) :=
  if (s.queue i).head? = some t then ((s.lock i).tryShared t).map fun l => (s.setLock i l).leave i t else none

/-- The first of the queue takes the exclusive guard. -/
def St.exclusive (s : St L V) (i : L) (t : Nat) : Option (St L V) :=
  if (s.queue i).head? = some t then ((s.lock i).tryWrite t).map fun l => (s.setLock i l).leave i t else none

/-- Begin of a call: the future is created and polled for the first time. Looking and writing through a guard needs a
guard. -/
def invoke (s : St L V) (t : Nat) (op : Op L V) : Option (St L V) :=
  match s.pc t with
  | .idle =>
    match op with
    | .get i => some ((s.enter i t).begin t op (.gWait i))
    | .swap i v => some ((s.enter i t).begin t op (.xWait i v))
    | .eq i j => some ((s.enter i t).begin t op (.eWait1 i j))
    | .read i => some ((s.enter i t).begin t op (.rWait i))
    | .write i => some ((s.enter i t).begin t op (.wWait i))
    | .deref i => if (i, false) ∈ s.held t ∨ (i, true) ∈ s.held t then some (s.begin t op (.use i)) else none
    | .assign i v => if (i, true) ∈ s.held t then some (s.begin t op (.asg i v)) else none
  | _ => none

/-- One step of the code of task `t`. `none`: waiting, or nothing to do. -/
def go (eqv : V → V → Bool) (s : St L V) (t : Nat) : Option (St L V) :=
  match s.pc t with
  | .idle => none
  -- codegen/sync.rs 630, fxlock.rs 76
  | .gWait i => (s.shared i t).map fun s => s.to t (.gHave i)
  -- codegen/sync.rs 630, fxlock.rs 77
  | .gHave i => some ((s.lin t (.get i) (.value (s.val i))).to t (.gDone i (.value (s.val i))))
  | .gDone i r => some ((s.setLock i ((s.lock i).dropShared t)).ret t r)
  -- codegen/sync.rs 541, 549, 594
  | .xWait i v => (s.exclusive i t).map fun s => s.to t (.xHave i v)
  -- codegen/sync.rs 541, 550, 594
  | .xHave i v =>
    some (({ s with val := upd s.val i v }.lin t (.swap i v) (.value (s.val i))).to t (.xDone i v (.value (s.val i))))
  | .xDone i _ r => some ((s.setLock i (s.lock i).dropWrite).ret t r)
  -- fxlock.rs 38
  | .eWait1 i j => (s.shared i t).map fun s => (s.enter j t).to t (.eWait2 i j)
  -- fxlock.rs 39
  | .eWait2 i j => (s.shared j t).map fun s => s.to t (.eHave i j)
  -- fxlock.rs 41
  | .eHave i j => some (s.to t (.eMid i j (s.val i)))
  | .eMid i j x =>
    some ((s.lin t (.eq i j) (.bool (eqv x (s.val j)))).to t (.eDone i j (.bool (eqv x (s.val j)))))
  -- fxlock.rs 42
  | .eDone i j r => some ((s.setLock j ((s.lock j).dropShared t)).to t (.eDrop i j r))
  | .eDrop i _ r => some ((s.setLock i ((s.lock i).dropShared t)).ret t r)
  -- codegen/sync.rs 97, 107
  | .rWait i => (s.shared i t).map fun s => ((s.keep t (i, false)).lin t (.read i) .unit).ret t .unit
  -- codegen/sync.rs 491, 499
  | .wWait i => (s.exclusive i t).map fun s => ((s.keep t (i, true)).lin t (.write i) .unit).ret t .unit
  -- `Deref` and `DerefMut` of the guards of tokio
  | .use i => some ((s.lin t (.deref i) (.value (s.val i))).to t (.used (.deref i) (.value (s.val i))))
  | .asg i v =>
    some (({ s with val := upd s.val i v }.lin t (.assign i v) (.value (s.val i))).to t
      (.used (.assign i v) (.value (s.val i))))
  | .used _ r => some (s.ret t r)

/-- The user's `clone`, `into` or `eq` panics: the call is decided, guards are dropped next. -/
def panics (s : St L V) (t : Nat) : Option (St L V) :=
  match s.pc t with
  | .gHave i => some ((s.lin t (.get i) .panicked).to t (.gDone i .panicked))
  | .xHave i v => some ((s.lin t (.swap i v) .panicked).to t (.xDone i v .panicked))
  | .eHave i j | .eMid i j _ => some ((s.lin t (.eq i j) .panicked).to t (.eDone i j .panicked))
  | _ => none

/-- The future of the call is dropped where it awaits (codegen/sync.rs 97, 107, 491, 499, 541, 549, 594, 630); the
comparison does not await, it blocks. -/
def cancel (s : St L V) (t : Nat) : Option (St L V) :=
  match s.pc t with
  | .gWait i | .xWait i _ | .rWait i | .wWait i => some ((s.leave i t).quit t)
  | _ => none

/-- The user drops a guard. -/
def dropGuard (s : St L V) (t : Nat) (g : L × Bool) : Option (St L V) :=
  match s.pc t with
  | .idle =>
    if g ∈ s.held t then
      let l := s.lock g.1
      some { s.setLock g.1 (if g.2 then l.dropWrite else l.dropShared t) with
        held := upd s.held t ((s.held t).erase g) }
    else none
  | _ => none

/-- What can happen next to a task. -/
inductive Act (L V : Type) where
  | call (op : Op L V)
  | go
  | panic
  | cancel
  | drop (g : L × Bool)
deriving DecidableEq, Repr

/-- The transition function. -/
def step (eqv : V → V → Bool) (s : St L V) (t : Nat) : Act L V → Option (St L V)
  | .call op => invoke s t op
  | .go => go eqv s t
  | .panic => panics s t
  | .cancel => cancel s t
  | .drop g => dropGuard s t g

/-- Locks are taken in the order `dep`: `dep i j` if `j` may be waited for while `i` is held. A call on `j` while keeping a
guard on `i`, and a comparison of `i` with `j`, need `dep i j`. -/
def Allowed (dep : L → L → Prop) (s : St L V) (t : Nat) : Act L V → Prop
  | .call (.get j) | .call (.swap j _) | .call (.read j) | .call (.write j) => ∀ g ∈ s.held t, dep g.1 j
  | .call (.eq i j) => (∀ g ∈ s.held t, dep g.1 i ∧ dep g.1 j) ∧ dep i j
  | _ => True

/-- Every schedule of any number of tasks keeping to the order `dep`. -/
inductive Reach (eqv : V → V → Bool) (dep : L → L → Prop) (v₀ : L → V) : St L V → Prop where
  | init : Reach eqv dep v₀ (init v₀)
  | step {s s' t a} : Reach eqv dep v₀ s → Allowed dep s t a → step eqv s t a = some s' → Reach eqv dep v₀ s'

/-- Run a finite schedule; `none` if an action is not enabled. -/
def run (eqv : V → V → Bool) (s : St L V) : List (Nat × Act L V) → Option (St L V)
  | [] => some s
  | (t, a) :: rest => (step eqv s t a).bind fun s' => run eqv s' rest

/-- Actions which begin nothing new. -/
def quiet : Act L V → Bool
  | .call _ => false
  | _ => true

/-- Task `t` is inside a call, and the call cannot move. -/
def Stuck (eqv : V → V → Bool) (s : St L V) (t : Nat) : Prop := s.pc t ≠ .idle ∧ go eqv s t = none

/-- Task `t` has to do with the containers: it is in a call or keeps a guard. -/
def Inside (s : St L V) (t : Nat) : Prop := s.pc t ≠ .idle ∨ s.held t ≠ []

/-- The container the running call waits for. -/
def wants : Pc L V → Option L
  | .gWait i | .xWait i _ | .eWait1 i _ | .eWait2 _ i | .rWait i | .wWait i => some i
  | _ => none

/-- Does it wait for the exclusive guard? -/
def wantsAlone : Pc L V → Bool
  | .xWait _ _ | .wWait _ => true
  | _ => false

/-- Task `t` waits for task `u`: `u` stands before it in the queue, or `t` is the first and `u` has the exclusive guard, or
`t` wants the exclusive guard and `u` has a shared one. -/
inductive WaitsFor (s : St L V) (t u : Nat) : Prop where
  | before {i rest} : wants (s.pc t) = some i → s.queue i = u :: rest → t ∈ rest → WaitsFor s t u
  | owner {i} : wants (s.pc t) = some i → (s.queue i).head? = some t → (s.lock i).wr = some u → WaitsFor s t u
  | reader {i} : wants (s.pc t) = some i → (s.queue i).head? = some t → wantsAlone (s.pc t) = true →
      u ∈ (s.lock i).shared → WaitsFor s t u

/-- Somebody is inside, and everybody who is inside is stuck. -/
def Deadlock (eqv : V → V → Bool) (s : St L V) : Prop := (∃ t, Inside s t) ∧ ∀ t, Inside s t → Stuck eqv s t

end

end Verif.Model.AsyncLocks
