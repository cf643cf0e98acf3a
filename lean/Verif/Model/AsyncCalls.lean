import Verif.Model.Async
import Verif.Model.Calls
/-!
# The generated helpers of an async lazy field, run by several tasks

`Verif.Model.Method` has the bodies of the helpers (/repo/fieldx_derive/src/codegen/sync.rs 63-111, 212-370, 465-647 with
the `.await` of /repo/fieldx_derive/src/codegen/sync/impl_async.rs 61-63), `Verif.Model.Async` the container they call, in
small steps. Here the bodies are run, operation by operation, by any number of processes on one field; between any two
steps of one process the others may make any steps of theirs. As in `Verif.Model.Async` a process is one chain of calls
and guards.

A helper is an `async fn`, only the predicate is not. Calling a method of the proxy gives a future (`Cur.fut`), awaiting it
calls the container. The future of a helper can be dropped where it awaits: `cancel`. Then the future of the container is
dropped with it.

A guard which is not part of the result of a chain is dropped at the end of the chain (sync.rs 256: the local `rlock`;
527: a temporary), also when the helper returns early by `?` or unwinds.

Simplifications: as in `Verif.Model.Calls`. Building a future and its first poll are one step of the caller: a future which
is dropped before it is polled has done nothing, and is not a call here.
-/

namespace Verif.Model.AsyncCalls
open Verif.Spec Verif.Spec.Calls Verif.Model Verif.Model.Args Verif.Model.Method
open Verif.Model.Calls (getKind userCode ranOf linRes decisive outcome)

/-- The value of a chain so far. -/
inductive Cur (V E : Type) where
  /-- `self.f` -/
  | self
  /-- mapped guard returned by call `g` of the container, when the value was `v` -/
  | guard (g : CallId) (v : V)
  /-- `FXWrLockGuardAsync` -/
  | wguard
  /-- the future of the call `op` of the proxy which operation `m` of the body makes, not yet awaited -/
  | fut (m : MOp) (op : Op V)
  /-- `*guard` -/
  | place (g : CallId)
  | own (v : V)
  | old (o : Option V)
  | bool (b : Bool)
  | ok (a : Cur V E)
  | err (e : E)
deriving DecidableEq, Repr

/-- Does the value keep the guard? -/
def Cur.keeps {V E : Type} : Cur V E → Bool
  | .guard _ _ | .wguard => true
  | .ok a => a.keeps
  | _ => false

/-- What the caller sees of it. -/
def Cur.seen {V E : Type} : Cur V E → Ret V E
  | .own v | .guard _ v => .value v
  | .old o => .old o
  | .bool b => .bool b
  | .ok a => a.seen
  | .err e => .error e
  | .self | .wguard | .fut _ _ | .place _ => .unit

/-- A running helper: the call, whether its user code panics, the second chain of the body, the value of the first chain
if that is what is returned, and the builder run made so far. `dec`: the result, once the call took effect (bookkeeping,
no counterpart in /repo). -/
structure Frame (V E : Type) where
  kind : Kind
  arg  : V
  boom : Bool
  next : Option (List MOp)
  retPre : Bool
  kept : Option (Cur V E) := none
  ran  : Option (Outcome V E) := none
  dec  : Option (Res V E) := none

/-- Where a process is. -/
inductive Pc (V E : Type) where
  | idle
  /-- keeps the guard which a helper returned -/
  | keeps
  /-- in a helper, between two operations of its body -/
  | run (f : Frame V E) (todo : List MOp) (a : Cur V E)
  /-- in a helper, inside the call on the container which the operation `m` makes -/
  | wait (f : Frame V E) (m : MOp) (todo : List MOp)
  /-- leaving a helper early, by `?` or by unwinding -/
  | stop (f : Frame V E) (r : Ret V E)
  /-- inside a call on the guard kept -/
  | use (u : Call V) (dec : Option (Res V E))

/-- The container with the processes around it and the log of the calls of the users. -/
structure St (V E : Type) where
  c   : Async.St V E
  pc  : Nat → Pc V E
  seq : Nat → Nat
  log : List (LEv (Call V) (Res V E) Unit)

section
variable {V E : Type}

/-- A new field (/repo/fieldx/src/async/fxproxy.rs 123-129). -/
def init (v₀ : Option V) : St V E := { c := Async.init v₀, pc := fun _ => .idle, seq := fun _ => 0, log := [] }

/-- Identity of the call process `p` is in. -/
def St.me (s : St V E) (p : Nat) : CallId := ⟨p, s.seq p⟩

/-- Move process `p`. -/
def St.to (s : St V E) (p : Nat) (c : Pc V E) : St V E := { s with pc := upd s.pc p c }

/-- The call of process `p` takes effect. -/
def St.lin (s : St V E) (p : Nat) (call : Call V) (r : Res V E) : St V E :=
  { s with log := s.log ++ [.lin (s.me p) call r] }

/-- The call of process `p` returns. -/
def St.ret (s : St V E) (p : Nat) (c : Pc V E) (r : Res V E) : St V E :=
  { s with log := s.log ++ [.res (s.me p) r], seq := upd s.seq p (s.seq p + 1), pc := upd s.pc p c }

/-- The future of process `p` is dropped: no answer. -/
def St.quit (s : St V E) (p : Nat) : St V E :=
  { s with log := s.log ++ [.cancel (s.me p)], seq := upd s.seq p (s.seq p + 1), pc := upd s.pc p .idle }

/-- The call of process `p` begins. -/
def St.begin (s : St V E) (p : Nat) (call : Call V) (c : Pc V E) : St V E :=
  { s with log := s.log ++ [.inv (s.me p) call], pc := upd s.pc p c }

/-- The call of the user. -/
def Frame.call (f : Frame V E) : Call V := .helper f.kind f.arg f.boom

/-- What the next operation of a body does. -/
inductive Next (V E : Type) where
  | now (a : Cur V E)
  /-- call the container, for operation `m` of the body -/
  | call (m : MOp) (op : Op V)
  | early (e : E)
  | stuck

/-- The next operation: `read`, `write`, `clear`, `is_set` of the proxy, `store` and `clear` of its write guard
(/repo/fieldx/src/async/fxproxy.rs 143-248), awaiting, reading the place behind a guard, and what needs no call. -/
def next (arg : V) : MOp → Cur V E → Next V E
  | .lazyRead rc mu fa, .self => .now (.fut (.lazyRead rc mu fa) (.get (getKind mu fa)))
  | .write, .self => .now (.fut .write .writer)
  | .clear, .self => .now (.fut .clear .clear)
  | .await, .fut m op => .call m op
  | .isSet, .self => .call .isSet .isSet
  | .storeV, .wguard => .call .storeV (.store arg)
  | .clear, .wguard => .call .clear .take
  | .star, .guard g _ => .now (.place g)
  | .clone, .place g => .call .clone (.deref g)
  | .copyVal, .place g => .call .copyVal (.deref g)
  | .question, .ok a => .now a
  | .question, .err e => .early e
  | .okWrap, a => .now (.ok a)
  | _, _ => .stuck

/-- The value of the chain after call `g` on the container, made for operation `m`, gave `r`; `none`: it panicked. -/
def got (m : MOp) (g : CallId) (r : Ret V E) : Option (Cur V E) :=
  match m, r with
  | .lazyRead _ _ fa, .value v => some (if fa then .ok (.guard g v) else .guard g v)
  | .lazyRead _ _ _, .error e => some (.err e)
  | .write, .unit => some .wguard
  | .clone, .value v | .copyVal, .value v => some (.own v)
  | _, .old o => some (.old o)
  | _, .bool b => some (.bool b)
  | _, _ => none

/-- The result with which the running call of the container took effect in the step from `c` to `c'` (bookkeeping). -/
def decided (c c' : Async.St V E) : Option (Res V E) := (c'.log.drop c.log.length).findSome? linRes

/-- The answer which process `p` got from the container in the step from `c` to `c'`. -/
def answered (c c' : Async.St V E) (p : Nat) : Option (Res V E) :=
  if c'.seq p = c.seq p then none
  else match c'.log.getLast? with
    | some (.res _ r) => some r
    | _ => none

/-- The deciding call took effect in the step from `c` to `c'`. -/
def note (s : St V E) (p : Nat) (f : Frame V E) (m : MOp) (todo : List MOp) (c c' : Async.St V E) : St V E × Frame V E :=
  match decided c c' with
  | some r =>
    if decisive m todo then
      (s.lin p f.call (outcome f.boom todo r), { f with dec := some (outcome f.boom todo r) })
    else (s, f)
  | none => (s, f)

/-- The container made a step, from `s.c` to `c'`, inside the call which process `p` makes for operation `m`. -/
def settle (s : St V E) (p : Nat) (f : Frame V E) (m : MOp) (todo : List MOp) (c' : Async.St V E) : St V E :=
  let (s', f') := note s p f m todo s.c c'
  let s' := { s' with c := c' }
  match answered s.c c' p with
  | none => s'.to p (.wait f' m todo)
  | some r =>
    let f' := { f' with ran := ranOf m r f'.ran }
    match got m (s.c.me p) r.ret with
    | some a => s'.to p (.run f' todo a)
    | none => s'.to p (.stop f' .panicked)

/-- The call on the guard kept goes on, from `s.c` to `c'`. -/
def settleUse (s : St V E) (p : Nat) (u : Call V) (dec : Option (Res V E)) (c' : Async.St V E) : St V E :=
  let (s', dec) := match decided s.c c' with
    | some r => (s.lin p u r, some r)
    | none => (s, dec)
  let s' := { s' with c := c' }
  match answered s.c c' p with
  | none => s'.to p (.use u dec)
  | some r => s'.ret p .keeps r

/-- The value which the helper returns. -/
def Frame.result (f : Frame V E) (a : Cur V E) : Cur V E := if f.retPre then f.kept.getD a else a

/-- One step of a helper. -/
def goRun (s : St V E) (p : Nat) (f : Frame V E) : List MOp → Cur V E → Option (St V E)
  | m :: todo, a =>
    if f.boom && userCode m then
      -- the `clone` of an accessor panics after the accessor took effect, the `into` of a setter before
      match f.dec with
      | some _ => some (s.to p (.stop f .panicked))
      | none => some ((s.lin p f.call ⟨f.ran, .panicked⟩).to p (.stop { f with dec := some ⟨f.ran, .panicked⟩ } .panicked))
    else match next f.arg m a with
      | .now b => some (s.to p (.run f todo b))
      | .early e => some (s.to p (.stop f (.error e)))
      | .call m' op => (Async.invoke s.c p op).map fun c' => { s with c := c' }.to p (.wait f m' todo)
      | .stuck => none
  | [], a =>
    match if a.keeps then none else Async.dropGuard s.c p with
    -- the guard is not part of the value: it is dropped
    | some c' => some { s with c := c' }
    | none =>
      match f.next with
      | some main => some (s.to p (.run { f with next := none, kept := some a } main .self))
      | none =>
        let b := f.result a
        some (s.ret p (if b.keeps then .keeps else .idle) ⟨f.ran, b.seen⟩)

/-- One step of the code of process `p`. -/
def go (s : St V E) (p : Nat) : Option (St V E) :=
  match s.pc p with
  | .idle | .keeps => none
  | .run f todo a => goRun s p f todo a
  | .wait f m todo => (Async.go s.c p).map (settle s p f m todo)
  | .use u dec => (Async.go s.c p).map (settleUse s p u dec)
  | .stop f r =>
    match Async.dropGuard s.c p with
    | some c' => some { s with c := c' }
    | none => some (s.ret p .idle ⟨f.ran, r⟩)

/-- The user's builder ends with `o`. -/
def finish (s : St V E) (p : Nat) (o : Outcome V E) : Option (St V E) :=
  match s.pc p with
  | .wait f m todo => (Async.builderReturns s.c p o).map (settle s p f m todo)
  | _ => none

/-- Use of a guard: the call on the container. -/
def useOp (c : Async.Pc V E) : Call V → Option (Op V)
  | .deref =>
    match c with
    | .gRead g | .gMut g => some (.deref g)
    | _ => none
  | .assign v =>
    match c with
    | .gMut g => some (.assign g v)
    | _ => none
  | .store v => some (.store v)
  | .take => some .take
  | .helper _ _ _ => none

/-- Begin of a call. `code`: the bodies of the helpers which the field has. -/
def invoke (code : Kind → Option Body) (s : St V E) (p : Nat) (call : Call V) : Option (St V E) :=
  match s.pc p, call with
  | .idle, .helper k v boom =>
    (code k).map fun b =>
      let f : Frame V E :=
        { kind := k, arg := v, boom := boom, next := b.pre.map fun _ => b.main, retPre := b.retPre }
      s.begin p call (.run f (b.pre.getD b.main) .self)
  | .keeps, u =>
    (useOp (s.c.pc p) u).bind fun op =>
      (Async.invoke s.c p op).map fun c' => { s with c := c' }.begin p u (.use u none)
  | _, _ => none

/-- The user drops the guard kept. -/
def dropGuard (s : St V E) (p : Nat) : Option (St V E) :=
  match s.pc p with
  | .keeps => (Async.dropGuard s.c p).map fun c' => { s with c := c' }.to p .idle
  | _ => none

/-- The future of the helper is dropped where it awaits the container, and the future of the container with it. -/
def cancel (s : St V E) (p : Nat) : Option (St V E) :=
  match s.pc p with
  | .wait _ _ _ => (Async.cancel s.c p).map fun c' => { s with c := c' }.quit p
  | _ => none

/-- What can happen next to a process. -/
inductive Act (V E : Type) where
  | call (c : Call V)
  | go
  | finish (o : Outcome V E)
  | drop
  | cancel

/-- The transition function. -/
def step (code : Kind → Option Body) (s : St V E) (p : Nat) : Act V E → Option (St V E)
  | .call c => invoke code s p c
  | .go => go s p
  | .finish o => finish s p o
  | .drop => dropGuard s p
  | .cancel => cancel s p

/-- Every schedule. -/
inductive Reach (code : Kind → Option Body) (v₀ : Option V) : St V E → Prop where
  | init : Reach code v₀ (init v₀)
  | step {s s' p a} : Reach code v₀ s → step code s p a = some s' → Reach code v₀ s'

/-- Run a finite schedule; `none` if an action is not enabled. -/
def run (code : Kind → Option Body) (s : St V E) : List (Nat × Act V E) → Option (St V E)
  | [] => some s
  | (p, a) :: rest => (step code s p a).bind fun s' => run code s' rest

end

end Verif.Model.AsyncCalls
