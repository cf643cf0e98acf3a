import Verif.Model.Log
import Verif.Model.RwLock
import Verif.Spec.Memory
/-!
# Lock-protected fields, several of them, several threads

Fields with `lock` which are not lazy are `FXRwLockSync<T>` or `FXRwLockSync<Option<T>>`
(/repo/fieldx_derive/src/codegen/sync.rs 124-134, 179-197), a wrapper of `parking_lot::RwLock`
(/repo/fieldx/src/sync/fxlock.rs 8-79). `L` names the containers: a field of an object. Any number of threads make calls on
them; a thread keeps any number of guards in `held`, and drops them in any order.

Third-party locks as in `Verif.Model.RwLock` (the upgradable mode is not used here): a writer claims the exclusive bit
first and then waits for the readers; a claimed bit holds up new readers, also those which already hold a shared guard.
A panic drops the guards of the call (no poisoning).
-/

namespace Verif.Model.Locks
open Verif.Spec Verif.Spec.Memory Verif.Model

/-- Where a thread is. -/
inductive Pc (L V : Type) where
  | idle
  /-- `get`: waiting for the shared guard (codegen/sync.rs 268, fxlock.rs 67) -/
  | gWait (i : L)
  /-- `get`: shared guard held, about to copy or clone (codegen/sync.rs 269, fxlock.rs 68) -/
  | gHave (i : L)
  /-- `get`: result known, shared guard about to be dropped -/
  | gDone (i : L) (r : Ret V)
  /-- `swap`: waiting to claim the exclusive bit (codegen/sync.rs 533, 549, 594) -/
  | xWait (i : L) (v : V)
  /-- `swap`: bit claimed, waiting for the readers -/
  | xDrain (i : L) (v : V)
  /-- `swap`: exclusive guard held, about to convert and replace (codegen/sync.rs 541, 550, 594) -/
  | xHave (i : L) (v : V)
  | xDone (i : L) (v : V) (r : Ret V)
  /-- `eq`: waiting for the first guard (fxlock.rs 29) -/
  | eWait1 (i j : L)
  /-- `eq`: waiting for the second guard (fxlock.rs 30) -/
  | eWait2 (i j : L)
  /-- `eq`: both guards held, about to look at the first content (fxlock.rs 32) -/
  | eHave (i j : L)
  /-- `eq`: first content seen -/
  | eMid (i j : L) (x : V)
  /-- `eq`: result known, second guard about to be dropped (guards are dropped in reverse order) -/
  | eDone (i j : L) (r : Ret V)
  /-- `eq`: first guard about to be dropped -/
  | eDrop (i j : L) (r : Ret V)
  /-- reader: waiting (codegen/sync.rs 97, 107) -/
  | rWait (i : L)
  /-- writer, mutable accessor: waiting to claim (codegen/sync.rs 352, 491, 499) -/
  | wWait (i : L)
  | wDrain (i : L)
  /-- using a guard -/
  | use (i : L)
  | asg (i : L) (v : V)
  | used (op : Op L V) (r : Ret V)
deriving DecidableEq, Repr

/-- Events: nothing besides calls. -/
abbrev Ev (L V : Type) := LEv (Op L V) (Ret V) Unit

/-- The containers (fxlock.rs 9: one lock with its content) with all threads around them, and the log. `held`: guards kept
by each thread, `true` for exclusive ones. -/
structure St (L V : Type) where
  lock : L → Lock
  val  : L → V
  held : Nat → List (L × Bool)
  pc   : Nat → Pc L V
  seq  : Nat → Nat
  log  : List (Ev L V)

section
variable {L V : Type}

/-- `FXRwLockSync::new`, `From<T>` (fxlock.rs 13-15, 37-41). -/
def init (v₀ : L → V) : St L V :=
  { lock := fun _ => .free, val := v₀, held := fun _ => [], pc := fun _ => .idle, seq := fun _ => 0, log := [] }

/-- Identity of the call thread `t` is in. -/
def St.me (s : St L V) (t : Nat) : CallId := ⟨t, s.seq t⟩

/-- Move thread `t`. -/
def St.to (s : St L V) (t : Nat) (c : Pc L V) : St L V := { s with pc := upd s.pc t c }

/-- The call of thread `t` takes effect. -/
def St.lin (s : St L V) (t : Nat) (op : Op L V) (r : Ret V) : St L V :=
  { s with log := s.log ++ [.lin (s.me t) op r] }

/-- The call of thread `t` returns. -/
def St.ret (s : St L V) (t : Nat) (r : Ret V) : St L V :=
  { s with log := s.log ++ [.res (s.me t) r], seq := upd s.seq t (s.seq t + 1), pc := upd s.pc t .idle }

/-- The call `op` of thread `t` begins at `c`. -/
def St.begin (s : St L V) (t : Nat) (op : Op L V) (c : Pc L V) : St L V :=
  { s with log := s.log ++ [.inv (s.me t) op], pc := upd s.pc t c }

/-- Thread `t` keeps another guard. -/
def St.keep (s : St L V) (t : Nat) (g : L × Bool) : St L V := { s with held := upd s.held t (g :: s.held t) }

variable [DecidableEq L]

/-- Change one lock. -/
def St.setLock (s : St L V) (i : L) (l : Lock) : St L V := { s with lock := upd s.lock i l }

/-- Begin of a call. Looking and writing through a guard needs a guard. -/
def invoke (s : St L V) (t : Nat) (op : Op L V) : Option (St L V) :=
  match s.pc t with
  | .idle =>
    match op with
    | .get i => some (s.begin t op (.gWait i))
    | .swap i v => some (s.begin t op (.xWait i v))
    | .eq i j => some (s.begin t op (.eWait1 i j))
    | .read i => some (s.begin t op (.rWait i))
    | .write i => some (s.begin t op (.wWait i))
    | .deref i => if (i, false) ∈ s.held t ∨ (i, true) ∈ s.held t then some (s.begin t op (.use i)) else none
    | .assign i v => if (i, true) ∈ s.held t then some (s.begin t op (.asg i v)) else none
  | _ => none

/-- One step of the code of thread `t`. `none`: blocked, or nothing to do. -/
def go (eqv : V → V → Bool) (s : St L V) (t : Nat) : Option (St L V) :=
  match s.pc t with
  | .idle => none
  -- codegen/sync.rs 268, fxlock.rs 67
  | .gWait i => ((s.lock i).tryShared t).map fun l => (s.setLock i l).to t (.gHave i)
  -- codegen/sync.rs 269, fxlock.rs 68
  | .gHave i => some ((s.lin t (.get i) (.value (s.val i))).to t (.gDone i (.value (s.val i))))
  | .gDone i r => some ((s.setLock i ((s.lock i).dropShared t)).ret t r)
  -- codegen/sync.rs 533, 549, 594
  | .xWait i v => ((s.lock i).claim t).map fun l => (s.setLock i l).to t (.xDrain i v)
  | .xDrain i v => if (s.lock i).drained then some (s.to t (.xHave i v)) else none
  -- codegen/sync.rs 541, 550, 594
  | .xHave i v =>
    some (({ s with val := upd s.val i v }.lin t (.swap i v) (.value (s.val i))).to t (.xDone i v (.value (s.val i))))
  | .xDone i _ r => some ((s.setLock i (s.lock i).dropWrite).ret t r)
  -- fxlock.rs 29
  | .eWait1 i j => ((s.lock i).tryShared t).map fun l => (s.setLock i l).to t (.eWait2 i j)
  -- fxlock.rs 30
  | .eWait2 i j => ((s.lock j).tryShared t).map fun l => (s.setLock j l).to t (.eHave i j)
  -- fxlock.rs 32
  | .eHave i j => some (s.to t (.eMid i j (s.val i)))
  | .eMid i j x =>
    some ((s.lin t (.eq i j) (.bool (eqv x (s.val j)))).to t (.eDone i j (.bool (eqv x (s.val j)))))
  -- fxlock.rs 33
  | .eDone i j r => some ((s.setLock j ((s.lock j).dropShared t)).to t (.eDrop i j r))
  | .eDrop i _ r => some ((s.setLock i ((s.lock i).dropShared t)).ret t r)
  -- codegen/sync.rs 97, 107
  | .rWait i =>
    ((s.lock i).tryShared t).map fun l => (((s.setLock i l).keep t (i, false)).lin t (.read i) .unit).ret t .unit
  -- codegen/sync.rs 352, 491, 499
  | .wWait i => ((s.lock i).claim t).map fun l => (s.setLock i l).to t (.wDrain i)
  | .wDrain i =>
    if (s.lock i).drained then some (((s.keep t (i, true)).lin t (.write i) .unit).ret t .unit) else none
  -- `Deref` and `DerefMut` of the guards of parking_lot
  | .use i => some ((s.lin t (.deref i) (.value (s.val i))).to t (.used (.deref i) (.value (s.val i))))
  | .asg i v =>
    some (({ s with val := upd s.val i v }.lin t (.assign i v) (.value (s.val i))).to t
      (.used (.assign i v) (.value (s.val i))))
  | .used _ r => some (s.ret t r)

/-- The user's `clone`, `into` or `eq` panics: the call is decided, guards are dropped next. -/
def panics (s : St L V) (t : Nat) : Option (St L V) :=
  match s.pc t with
  | .gHave i => some ((s.lin t (.get i) .panicked).to t (.gDone i .panicked))
  | .xHave i v => some ((s.lin t (.swap i v) .panicked).to t (.xDone i v .panicked))
  | .eHave i j | .eMid i j _ => some ((s.lin t (.eq i j) .panicked).to t (.eDone i j .panicked))
  | _ => none

/-- The user drops a guard. -/
def dropGuard (s : St L V) (t : Nat) (g : L × Bool) : Option (St L V) :=
  match s.pc t with
  | .idle =>
    if g ∈ s.held t then
      let l := s.lock g.1
      some { s.setLock g.1 (if g.2 then l.dropWrite else l.dropShared t) with
        held := upd s.held t ((s.held t).erase g) }
    else none
  | _ => none

/-- What can happen next to a thread. -/
inductive Act (L V : Type) where
  | call (op : Op L V)
  | go
  | panic
  | drop (g : L × Bool)
deriving DecidableEq, Repr

/-- The transition function. -/
def step (eqv : V → V → Bool) (s : St L V) (t : Nat) : Act L V → Option (St L V)
  | .call op => invoke s t op
  | .go => go eqv s t
  | .panic => panics s t
  | .drop g => dropGuard s t g

/-- Locks are taken in the order `dep`: `dep i j` if `j` may be waited for while `i` is held. A call on `j` while keeping a
guard on `i`, and a comparison of `i` with `j`, need `dep i j`. -/
def Allowed (dep : L → L → Prop) (s : St L V) (t : Nat) : Act L V → Prop
  | .call (.get j) | .call (.swap j _) | .call (.read j) | .call (.write j) => ∀ g ∈ s.held t, dep g.1 j
  | .call (.eq i j) => (∀ g ∈ s.held t, dep g.1 i ∧ dep g.1 j) ∧ dep i j
  | _ => True

/-- Every schedule of any number of threads keeping to the order `dep`. -/
inductive Reach (eqv : V → V → Bool) (dep : L → L → Prop) (v₀ : L → V) : St L V → Prop where
  | init : Reach eqv dep v₀ (init v₀)
  | step {s s' t a} : Reach eqv dep v₀ s → Allowed dep s t a → step eqv s t a = some s' → Reach eqv dep v₀ s'

/-- Run a finite schedule; `none` if an action is not enabled. -/
def run (eqv : V → V → Bool) (s : St L V) : List (Nat × Act L V) → Option (St L V)
  | [] => some s
  | (t, a) :: rest => (step eqv s t a).bind fun s' => run eqv s' rest

/-- Actions which begin nothing new. -/
def quiet : Act L V → Bool
  | .call _ => false
  | _ => true

/-- Thread `t` is inside a call, and the call cannot move. -/
def Stuck (eqv : V → V → Bool) (s : St L V) (t : Nat) : Prop := s.pc t ≠ .idle ∧ go eqv s t = none

/-- Thread `t` has to do with the containers: it is in a call or keeps a guard. -/
def Inside (s : St L V) (t : Nat) : Prop := s.pc t ≠ .idle ∨ s.held t ≠ []

/-- The container the running call waits for. -/
def wants : Pc L V → Option L
  | .gWait i | .xWait i _ | .xDrain i _ | .eWait1 i _ | .eWait2 _ i | .rWait i | .wWait i | .wDrain i => some i
  | _ => none

/-- The container whose readers the running call waits for. -/
def draining : Pc L V → Option L
  | .xDrain i _ | .wDrain i => some i
  | _ => none

/-- Thread `t` waits for thread `u`: for its exclusive guard or claim, or, having claimed the exclusive bit, for its shared
guard. -/
inductive WaitsFor (s : St L V) (t u : Nat) : Prop where
  | owner {i} : wants (s.pc t) = some i → draining (s.pc t) = none → (s.lock i).wr = some u → WaitsFor s t u
  | reader {i} : draining (s.pc t) = some i → u ∈ (s.lock i).shared → WaitsFor s t u

/-- Somebody is inside, and everybody who is inside is stuck. -/
def Deadlock (eqv : V → V → Bool) (s : St L V) : Prop := (∃ t, Inside s t) ∧ ∀ t, Inside s t → Stuck eqv s t

end

end Verif.Model.Locks
