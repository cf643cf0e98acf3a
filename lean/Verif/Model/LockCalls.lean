import Verif.Model.Method
import Verif.Model.Locks
import Verif.Spec.LockCalls
/-!
# The generated helpers of lock-protected fields, run by several threads

`Verif.Model.Method` has the bodies of the helpers (/repo/fieldx_derive/src/codegen/sync.rs 95-110, 264-271, 346-358,
487-503, 531-554, 589-597, 622-635), `Verif.Model.Locks` the locks, in small steps. Here the bodies are run, operation by
operation, by any number of threads on any number of fields `L`; between any two steps of one thread the others may make
any steps of theirs. A thread may keep any number of guards.

A guard which is not part of the result is dropped at the end of the body (sync.rs 268, 549: the local `rlock`, `wlock`;
541, 594, 632: a temporary), also when the body unwinds.

Simplifications: whether user code called by a helper is going to panic is chosen when the helper is called (`boom`): the
`clone` of the value (sync.rs 242-245, called on a present value only) and the `into` of the argument (sync.rs 541, 550:
evaluated after `write()`). The content of a field without `optional` is `some v` here.
-/

namespace Verif.Model.LockCalls
open Verif.Spec Verif.Spec.Memory Verif.Spec.LockCalls Verif.Model Verif.Model.Args Verif.Model.Method

/-- The value of a chain so far. -/
inductive Cur (V : Type) where
  /-- `self.f` -/
  | self
  | guard
  /-- `*guard`, `&mut *guard` -/
  | place
  /-- `(*guard).as_ref()` of an `Option` -/
  | opt
  | own (o : Option V)
  | bool (b : Bool)
deriving DecidableEq, Repr

/-- Does the value keep the guard? -/
def Cur.keeps {V : Type} : Cur V → Bool
  | .guard => true
  | _ => false

/-- What the caller sees of it. -/
def Cur.seen {V : Type} : Cur V → Ret (Option V)
  | .own o => .value o
  | .bool b => .bool b
  | _ => .unit

/-- A running helper: the call, and the guard it holds (`true`: exclusive). `base`: guards kept by the caller, `dec`: the
result, once the call took effect (bookkeeping, no counterpart in /repo). -/
structure Frame (L V : Type) where
  field : L
  kind  : Kind
  arg   : V
  boom  : Bool
  guard : Option Bool := none
  base  : List (L × Bool)
  dec   : Option (Ret (Option V)) := none

/-- Where a thread is. -/
inductive Pc (L V : Type) where
  | idle
  /-- in a helper, between two operations of its body -/
  | run (f : Frame L V) (todo : List MOp) (a : Cur V)
  /-- in a helper, inside the operation `m` on the lock or its content -/
  | wait (f : Frame L V) (m : MOp) (todo : List MOp)
  /-- in a helper which unwinds -/
  | stop (f : Frame L V)
  /-- in another call -/
  | other (u : Call L V) (dec : Option (Ret (Option V)))

/-- The locks with the threads around them and the log of the calls of the users. -/
structure St (L V : Type) where
  c   : Locks.St L (Option V)
  pc  : Nat → Pc L V
  seq : Nat → Nat
  log : List (LEv (Call L V) (Ret (Option V)) Unit)

section
variable {L V : Type}

/-- New fields (/repo/fieldx/src/sync/fxlock.rs 13-15). -/
def init (v₀ : L → Option V) : St L V := { c := Locks.init v₀, pc := fun _ => .idle, seq := fun _ => 0, log := [] }

/-- Identity of the call thread `p` is in. -/
def St.me (s : St L V) (p : Nat) : CallId := ⟨p, s.seq p⟩

/-- Move thread `p`. -/
def St.to (s : St L V) (p : Nat) (c : Pc L V) : St L V := { s with pc := upd s.pc p c }

/-- The call of thread `p` takes effect. -/
def St.lin (s : St L V) (p : Nat) (call : Call L V) (r : Ret (Option V)) : St L V :=
  { s with log := s.log ++ [.lin (s.me p) call r] }

/-- The call of thread `p` returns. -/
def St.ret (s : St L V) (p : Nat) (r : Ret (Option V)) : St L V :=
  { s with log := s.log ++ [.res (s.me p) r], seq := upd s.seq p (s.seq p + 1), pc := upd s.pc p .idle }

/-- The call of thread `p` begins. -/
def St.begin (s : St L V) (p : Nat) (call : Call L V) (c : Pc L V) : St L V :=
  { s with log := s.log ++ [.inv (s.me p) call], pc := upd s.pc p c }

/-- The call of the user. -/
def Frame.call (f : Frame L V) : Call L V := .helper f.field f.kind f.arg f.boom

/-- What the next operation of a body does. -/
inductive Next (L V : Type) where
  | now (a : Cur V)
  | call (op : Op L (Option V))
  | stuck

/-- The next operation: `read`, `write` of the lock (/repo/fieldx/src/sync/fxlock.rs 43-49), methods of the content
behind a guard, and what needs no memory access. -/
def next (i : L) (arg : V) : MOp → Cur V → Next L V
  | .read, .self => .call (.read i)
  | .write, .self => .call (.write i)
  | .star, .guard => .now .place
  | .ampMut, .place => .now .place
  | .asRef, .place => .now .opt
  | .copyVal, .place => .call (.deref i)
  | .clone, .place => .call (.deref i)
  | .copied, .opt => .call (.deref i)
  | .cloned, .opt => .call (.deref i)
  | .isSome, .guard => .call (.deref i)
  | .replaceV, .guard => .call (.assign i (some arg))
  | .memReplaceV, .place => .call (.assign i (some arg))
  | .take, .guard => .call (.assign i none)
  | _, _ => .stuck

/-- Operations which first convert the argument, by code of the user. -/
def converts : MOp → Bool
  | .replaceV | .memReplaceV => true
  | _ => false

/-- Operations which clone the value. -/
def clones : MOp → Bool
  | .clone | .cloned => true
  | _ => false

/-- The value of the chain after operation `m` of the lock or content gave `r`; `none`: it panicked. -/
def got (boom : Bool) (m : MOp) (r : Ret (Option V)) : Option (Cur V) :=
  match m, r with
  | .read, .unit | .write, .unit => some .guard
  | .isSome, .value o => some (.bool o.isSome)
  | m, .value o => if boom && clones m && o.isSome then none else some (.own o)
  | _, _ => none

/-- The result of a helper which `got` this. -/
def outcome (a : Option (Cur V)) : Ret (Option V) :=
  match a with
  | some a => a.seen
  | none => .panicked

/-- The result which an event of the locks shows (bookkeeping). -/
def linRes : Locks.Ev L (Option V) → Option (Ret (Option V))
  | .lin _ _ r => some r
  | _ => none

/-- The result with which the running operation took effect in the step from `c` to `c'` (bookkeeping). -/
def decided (c c' : Locks.St L (Option V)) : Option (Ret (Option V)) :=
  (c'.log.drop c.log.length).findSome? linRes

/-- The answer which thread `p` got in the step from `c` to `c'`. -/
def answered (c c' : Locks.St L (Option V)) (p : Nat) : Option (Ret (Option V)) :=
  if c'.seq p = c.seq p then none
  else match c'.log.getLast? with
    | some (.res _ r) => some r
    | _ => none

/-- Does the helper take effect with operation `m` (bookkeeping)? -/
def decisive (m : MOp) (todo : List MOp) : Bool :=
  match m with
  | .read | .write => todo.isEmpty
  | _ => true

/-- The guard which the helper holds after operation `m`. -/
def guardOf (m : MOp) (old : Option Bool) : Option Bool :=
  match m with
  | .read => some false
  | .write => some true
  | _ => old

/-- The deciding operation took effect in the step from `c` to `c'`. -/
def note (s : St L V) (p : Nat) (f : Frame L V) (m : MOp) (todo : List MOp) (c c' : Locks.St L (Option V)) :
    St L V × Frame L V :=
  match decided c c' with
  | some r =>
    if decisive m todo then
      (s.lin p f.call (outcome (got f.boom m r)), { f with dec := some (outcome (got f.boom m r)) })
    else (s, f)
  | none => (s, f)

/-- The locks made a step, from `s.c` to `c'`, inside the operation `m` of thread `p`. -/
def settle (s : St L V) (p : Nat) (f : Frame L V) (m : MOp) (todo : List MOp) (c' : Locks.St L (Option V)) : St L V :=
  let (s', f') := note s p f m todo s.c c'
  let s' := { s' with c := c' }
  match answered s.c c' p with
  | none => s'.to p (.wait f' m todo)
  | some r =>
    let f' := { f' with guard := guardOf m f'.guard }
    match got f.boom m r with
    | some a => s'.to p (.run f' todo a)
    | none => s'.to p (.stop f')

/-- Another call goes on, from `s.c` to `c'`. -/
def settleOther (s : St L V) (p : Nat) (u : Call L V) (dec : Option (Ret (Option V))) (c' : Locks.St L (Option V)) :
    St L V :=
  let (s', dec) := match decided s.c c' with
    | some r => (s.lin p u r, some r)
    | none => (s, dec)
  let s' := { s' with c := c' }
  match answered s.c c' p with
  | none => s'.to p (.other u dec)
  | some r => s'.ret p r

variable [DecidableEq L]

/-- One step of a helper. -/
def goRun (s : St L V) (p : Nat) (f : Frame L V) : List MOp → Cur V → Option (St L V)
  | m :: todo, a =>
    if f.boom && converts m then
      some ((s.lin p f.call .panicked).to p (.stop { f with dec := some .panicked }))
    else match next f.field f.arg m a with
      | .now b => some (s.to p (.run f todo b))
      | .call op => (Locks.invoke s.c p op).map fun c' => { s with c := c' }.to p (.wait f m todo)
      | .stuck => none
  | [], a =>
    match if a.keeps then none else f.guard with
    -- the guard is not part of the value: it is dropped
    | some ex => (Locks.dropGuard s.c p (f.field, ex)).map fun c' =>
        { s with c := c' }.to p (.run { f with guard := none } [] a)
    | none => some (s.ret p a.seen)

/-- One step of the code of thread `p`. -/
def go (eqv : Option V → Option V → Bool) (s : St L V) (p : Nat) : Option (St L V) :=
  match s.pc p with
  | .idle => none
  | .run f todo a => goRun s p f todo a
  | .wait f m todo => (Locks.go eqv s.c p).map (settle s p f m todo)
  | .other u dec => (Locks.go eqv s.c p).map (settleOther s p u dec)
  | .stop f =>
    match f.guard with
    | some ex => (Locks.dropGuard s.c p (f.field, ex)).map fun c' =>
        { s with c := c' }.to p (.stop { f with guard := none })
    | none => some (s.ret p .panicked)

/-- The operation of the locks for another call: `Deref`, `DerefMut` of the guards, `Clone` and `PartialEq` of the lock
(/repo/fieldx/src/sync/fxlock.rs 23-34, 62-70). -/
def otherOp : Call L V → Option (Op L (Option V))
  | .deref i => some (.deref i)
  | .assign i o => some (.assign i o)
  | .clone i => some (.get i)
  | .eq i j => some (.eq i j)
  | .helper _ _ _ _ => none

/-- Begin of a call. `code`: the bodies of the helpers which the fields have. Bodies of two chains are written for plain
structs only. -/
def invoke (code : L → Kind → Option Body) (s : St L V) (p : Nat) (call : Call L V) : Option (St L V) :=
  match s.pc p with
  | .idle =>
    match call with
    | .helper i k v boom =>
      match code i k with
      | some b =>
        match b.pre with
        | none => some (s.begin p call (.run { field := i, kind := k, arg := v, boom := boom, base := s.c.held p } b.main .self))
        | some _ => none
      | none => none
    | u =>
      (otherOp u).bind fun op =>
        (Locks.invoke s.c p op).map fun c' => { s with c := c' }.begin p u (.other u none)
  | _ => none

/-- User code called by `clone()` or `==` panics. -/
def panics (s : St L V) (p : Nat) : Option (St L V) :=
  match s.pc p with
  | .other u dec => (Locks.panics s.c p).map (settleOther s p u dec)
  | _ => none

/-- The user drops a guard. -/
def dropGuard (s : St L V) (p : Nat) (g : L × Bool) : Option (St L V) :=
  match s.pc p with
  | .idle => (Locks.dropGuard s.c p g).map fun c' => { s with c := c' }
  | _ => none

/-- What can happen next to a thread. -/
inductive Act (L V : Type) where
  | call (c : Call L V)
  | go
  | panic
  | drop (g : L × Bool)

/-- The transition function. -/
def step (code : L → Kind → Option Body) (eqv : Option V → Option V → Bool) (s : St L V) (p : Nat) :
    Act L V → Option (St L V)
  | .call c => invoke code s p c
  | .go => go eqv s p
  | .panic => panics s p
  | .drop g => dropGuard s p g

/-- Locks are taken in the order `dep`, as in `Verif.Model.Locks`: a helper of field `j` called while keeping a guard on
field `i` needs `dep i j`. -/
def Allowed (dep : L → L → Prop) (s : St L V) (p : Nat) : Act L V → Prop
  | .call (.helper j _ _ _) | .call (.clone j) => ∀ g ∈ s.c.held p, dep g.1 j
  | .call (.eq i j) => (∀ g ∈ s.c.held p, dep g.1 i ∧ dep g.1 j) ∧ dep i j
  | _ => True

/-- Every schedule of any number of threads keeping to the order `dep`. -/
inductive Reach (code : L → Kind → Option Body) (eqv : Option V → Option V → Bool) (dep : L → L → Prop)
    (v₀ : L → Option V) : St L V → Prop where
  | init : Reach code eqv dep v₀ (init v₀)
  | step {s s' p a} : Reach code eqv dep v₀ s → Allowed dep s p a → step code eqv s p a = some s' →
      Reach code eqv dep v₀ s'

/-- Run a finite schedule; `none` if an action is not enabled. -/
def run (code : L → Kind → Option Body) (eqv : Option V → Option V → Bool) (s : St L V) :
    List (Nat × Act L V) → Option (St L V)
  | [] => some s
  | (p, a) :: rest => (step code eqv s p a).bind fun s' => run code eqv s' rest

end

end Verif.Model.LockCalls
