import Verif.Model.Method
import Verif.Model.Sync
import Verif.Spec.Calls
/-!
# The generated helpers of a sync lazy field, run by several threads

`Verif.Model.Method` has the bodies of the helpers (/repo/fieldx_derive/src/codegen/sync.rs 63-111, 212-370, 465-647),
`Verif.Model.Sync` the container they call, in small steps. Here the bodies are run, operation by operation, by any number
of processes on one field; between any two steps of one process the others may make any steps of theirs. As in
`Verif.Model.Sync` a process is one chain of calls and guards.

A guard which is not part of the result of a chain is dropped at the end of the chain (sync.rs 256: the local `rlock`;
527: a temporary), also when the helper returns early by `?` or unwinds.

Simplifications: the self reference of an `rc` object can be upgraded (somebody calls the helper on it); whether user code
called by a helper is going to panic is chosen when the helper is called (`boom`): the `clone` of the value
(sync.rs 244, 257) and the `into` of the argument (sync.rs 527, evaluated after `write()`).
-/

namespace Verif.Model.Calls
open Verif.Spec Verif.Spec.Calls Verif.Model Verif.Model.Args Verif.Model.Method

/-- The value of a chain so far. -/
inductive Cur (V E : Type) where
  /-- `self.f` -/
  | self
  /-- mapped guard returned by call `g` of the container, when the value was `v` -/
  | guard (g : CallId) (v : V)
  /-- `FXWrLockGuardSync` -/
  | wguard
  /-- `*guard` -/
  | place (g : CallId)
  | own (v : V)
  | old (o : Option V)
  | bool (b : Bool)
  | ok (a : Cur V E)
  | err (e : E)
deriving DecidableEq, Repr

/-- Does the value keep the guard? -/
def Cur.keeps {V E : Type} : Cur V E → Bool
  | .guard _ _ | .wguard => true
  | .ok a => a.keeps
  | _ => false

/-- What the caller sees of it. -/
def Cur.seen {V E : Type} : Cur V E → Ret V E
  | .own v | .guard _ v => .value v
  | .old o => .old o
  | .bool b => .bool b
  | .ok a => a.seen
  | .err e => .error e
  | .self | .wguard | .place _ => .unit

/-- A running helper: the call, whether its user code panics, the second chain of the body, the value of the first chain
if that is what is returned, and the builder run made so far. `dec`: the result, once the call took effect (bookkeeping,
no counterpart in /repo). -/
structure Frame (V E : Type) where
  kind : Kind
  arg  : V
  boom : Bool
  next : Option (List MOp)
  retPre : Bool
  kept : Option (Cur V E) := none
  ran  : Option (Outcome V E) := none
  dec  : Option (Res V E) := none

/-- Where a process is. -/
inductive Pc (V E : Type) where
  | idle
  /-- keeps the guard which a helper returned -/
  | keeps
  /-- in a helper, between two operations of its body -/
  | run (f : Frame V E) (todo : List MOp) (a : Cur V E)
  /-- in a helper, inside the call on the container which the operation `m` makes -/
  | wait (f : Frame V E) (m : MOp) (todo : List MOp)
  /-- leaving a helper early, by `?` or by unwinding -/
  | stop (f : Frame V E) (r : Ret V E)
  /-- inside a call on the guard kept -/
  | use (u : Call V) (dec : Option (Res V E))

/-- The container with the processes around it and the log of the calls of the users. -/
structure St (V E : Type) where
  c   : Sync.St V E
  pc  : Nat → Pc V E
  seq : Nat → Nat
  log : List (LEv (Call V) (Res V E) Unit)

section
variable {V E : Type}

/-- A new field (/repo/fieldx/src/sync/fxproxy.rs 108-114). -/
def init (v₀ : Option V) : St V E := { c := Sync.init v₀, pc := fun _ => .idle, seq := fun _ => 0, log := [] }

/-- Identity of the call process `p` is in. -/
def St.me (s : St V E) (p : Nat) : CallId := ⟨p, s.seq p⟩

/-- Move process `p`. -/
def St.to (s : St V E) (p : Nat) (c : Pc V E) : St V E := { s with pc := upd s.pc p c }

/-- The call of process `p` takes effect. -/
def St.lin (s : St V E) (p : Nat) (call : Call V) (r : Res V E) : St V E :=
  { s with log := s.log ++ [.lin (s.me p) call r] }

/-- The call of process `p` returns. -/
def St.ret (s : St V E) (p : Nat) (c : Pc V E) (r : Res V E) : St V E :=
  { s with log := s.log ++ [.res (s.me p) r], seq := upd s.seq p (s.seq p + 1), pc := upd s.pc p c }

/-- The call of process `p` begins. -/
def St.begin (s : St V E) (p : Nat) (call : Call V) (c : Pc V E) : St V E :=
  { s with log := s.log ++ [.inv (s.me p) call], pc := upd s.pc p c }

/-- The call of the user. -/
def Frame.call (f : Frame V E) : Call V := .helper f.kind f.arg f.boom

/-- The reading method: /repo/fieldx_derive/src/codegen/sync.rs 53-61 `read_method_name`. -/
def getKind (mutable fallible : Bool) : GetKind :=
  match mutable, fallible with
  | false, false => .read
  | false, true => .tryRead
  | true, false => .readMut
  | true, true => .tryReadMut

/-- What the next operation of a body does. -/
inductive Next (V E : Type) where
  | now (a : Cur V E)
  | call (op : Op V)
  | early (e : E)
  | stuck

/-- The next operation: `read`, `write`, `clear`, `is_set` of the proxy, `store` and `clear` of its write guard
(/repo/fieldx/src/sync/fxproxy.rs 128-241), reading the place behind a guard, and what needs no call. -/
def next (arg : V) : MOp → Cur V E → Next V E
  | .lazyRead _ mu fa, .self => .call (.get (getKind mu fa))
  | .write, .self => .call .writer
  | .clear, .self => .call .clear
  | .isSet, .self => .call .isSet
  | .storeV, .wguard => .call (.store arg)
  | .clear, .wguard => .call .take
  | .star, .guard g _ => .now (.place g)
  | .clone, .place g => .call (.deref g)
  | .copyVal, .place g => .call (.deref g)
  | .question, .ok a => .now a
  | .question, .err e => .early e
  | .okWrap, a => .now (.ok a)
  | _, _ => .stuck

/-- Operations which run code of the user: `clone` of the value, `into` of the argument. -/
def userCode : MOp → Bool
  | .clone | .storeV => true
  | _ => false

/-- The value of the chain after call `g` on the container, made for operation `m`, gave `r`; `none`: it panicked. -/
def got (m : MOp) (g : CallId) (r : Ret V E) : Option (Cur V E) :=
  match m, r with
  | .lazyRead _ _ fa, .value v => some (if fa then .ok (.guard g v) else .guard g v)
  | .lazyRead _ _ _, .error e => some (.err e)
  | .write, .unit => some .wguard
  | .clone, .value v | .copyVal, .value v => some (.own v)
  | _, .old o => some (.old o)
  | _, .bool b => some (.bool b)
  | _, _ => none

/-- The builder run which the answer `r` for operation `m` reports. -/
def ranOf (m : MOp) (r : Res V E) (old : Option (Outcome V E)) : Option (Outcome V E) :=
  match m with
  | .lazyRead _ _ _ => r.ran
  | _ => old

/-- The result which an event of the container shows (bookkeeping). -/
def linRes : Ev V E → Option (Res V E)
  | .lin _ _ r => some r
  | _ => none

/-- The result with which the running call of the container took effect in the step from `c` to `c'` (bookkeeping). -/
def decided (c c' : Sync.St V E) : Option (Res V E) := (c'.log.drop c.log.length).findSome? linRes

/-- The answer which process `p` got from the container in the step from `c` to `c'`. -/
def answered (c c' : Sync.St V E) (p : Nat) : Option (Res V E) :=
  if c'.seq p = c.seq p then none
  else match c'.log.getLast? with
    | some (.res _ r) => some r
    | _ => none

/-- Does the helper take effect with the call made for `m` (bookkeeping)? -/
def decisive (m : MOp) (todo : List MOp) : Bool :=
  match m with
  | .lazyRead _ _ _ | .storeV | .clear | .isSet => true
  | .write => todo.isEmpty
  | _ => false

/-- The result of the helper when the deciding call has result `r` (bookkeeping): a clone to come may panic. -/
def outcome (boom : Bool) (todo : List MOp) (r : Res V E) : Res V E :=
  match r.ret with
  | .value _ => if boom && todo.contains .clone then ⟨r.ran, .panicked⟩ else r
  | _ => r

/-- The deciding call took effect in the step from `c` to `c'`. -/
def note (s : St V E) (p : Nat) (f : Frame V E) (m : MOp) (todo : List MOp) (c c' : Sync.St V E) : St V E × Frame V E :=
  match decided c c' with
  | some r =>
    if decisive m todo then
      (s.lin p f.call (outcome f.boom todo r), { f with dec := some (outcome f.boom todo r) })
    else (s, f)
  | none => (s, f)

/-- The container made a step, from `s.c` to `c'`, inside the call which process `p` makes for operation `m`. -/
def settle (s : St V E) (p : Nat) (f : Frame V E) (m : MOp) (todo : List MOp) (c' : Sync.St V E) : St V E :=
  let (s', f') := note s p f m todo s.c c'
  let s' := { s' with c := c' }
  match answered s.c c' p with
  | none => s'.to p (.wait f' m todo)
  | some r =>
    let f' := { f' with ran := ranOf m r f'.ran }
    match got m (s.c.me p) r.ret with
    | some a => s'.to p (.run f' todo a)
    | none => s'.to p (.stop f' .panicked)

/-- The call on the guard kept goes on, from `s.c` to `c'`. -/
def settleUse (s : St V E) (p : Nat) (u : Call V) (dec : Option (Res V E)) (c' : Sync.St V E) : St V E :=
  let (s', dec) := match decided s.c c' with
    | some r => (s.lin p u r, some r)
    | none => (s, dec)
  let s' := { s' with c := c' }
  match answered s.c c' p with
  | none => s'.to p (.use u dec)
  | some r => s'.ret p .keeps r

/-- The value which the helper returns. -/
def Frame.result (f : Frame V E) (a : Cur V E) : Cur V E := if f.retPre then f.kept.getD a else a

/-- One step of a helper. -/
def goRun (s : St V E) (p : Nat) (f : Frame V E) : List MOp → Cur V E → Option (St V E)
  | m :: todo, a =>
    if f.boom && userCode m then
      -- the `clone` of an accessor panics after the accessor took effect, the `into` of a setter before
      match f.dec with
      | some _ => some (s.to p (.stop f .panicked))
      | none => some ((s.lin p f.call ⟨f.ran, .panicked⟩).to p (.stop { f with dec := some ⟨f.ran, .panicked⟩ } .panicked))
    else match next f.arg m a with
      | .now b => some (s.to p (.run f todo b))
      | .early e => some (s.to p (.stop f (.error e)))
      | .call op => (Sync.invoke s.c p op).map fun c' => { s with c := c' }.to p (.wait f m todo)
      | .stuck => none
  | [], a =>
    match if a.keeps then none else Sync.dropGuard s.c p with
    -- the guard is not part of the value: it is dropped
    | some c' => some { s with c := c' }
    | none =>
      match f.next with
      | some main => some (s.to p (.run { f with next := none, kept := some a } main .self))
      | none =>
        let b := f.result a
        some (s.ret p (if b.keeps then .keeps else .idle) ⟨f.ran, b.seen⟩)

/-- One step of the code of process `p`. -/
def go (s : St V E) (p : Nat) : Option (St V E) :=
  match s.pc p with
  | .idle | .keeps => none
  | .run f todo a => goRun s p f todo a
  | .wait f m todo => (Sync.go s.c p).map (settle s p f m todo)
  | .use u dec => (Sync.go s.c p).map (settleUse s p u dec)
  | .stop f r =>
    match Sync.dropGuard s.c p with
    | some c' => some { s with c := c' }
    | none => some (s.ret p .idle ⟨f.ran, r⟩)

/-- The user's builder ends with `o`. -/
def finish (s : St V E) (p : Nat) (o : Outcome V E) : Option (St V E) :=
  match s.pc p with
  | .wait f m todo => (Sync.builderReturns s.c p o).map (settle s p f m todo)
  | _ => none

/-- Use of a guard: the call on the container. -/
def useOp (c : Sync.Pc V E) : Call V → Option (Op V)
  | .deref =>
    match c with
    | .gRead g | .gMut g => some (.deref g)
    | _ => none
  | .assign v =>
    match c with
    | .gMut g => some (.assign g v)
    | _ => none
  | .store v => some (.store v)
  | .take => some .take
  | .helper _ _ _ => none

/-- Begin of a call. `code`: the bodies of the helpers which the field has. -/
def invoke (code : Kind → Option Body) (s : St V E) (p : Nat) (call : Call V) : Option (St V E) :=
  match s.pc p, call with
  | .idle, .helper k v boom =>
    (code k).map fun b =>
      let f : Frame V E :=
        { kind := k, arg := v, boom := boom, next := b.pre.map fun _ => b.main, retPre := b.retPre }
      s.begin p call (.run f (b.pre.getD b.main) .self)
  | .keeps, u =>
    (useOp (s.c.pc p) u).bind fun op =>
      (Sync.invoke s.c p op).map fun c' => { s with c := c' }.begin p u (.use u none)
  | _, _ => none

/-- The user drops the guard kept. -/
def dropGuard (s : St V E) (p : Nat) : Option (St V E) :=
  match s.pc p with
  | .keeps => (Sync.dropGuard s.c p).map fun c' => { s with c := c' }.to p .idle
  | _ => none

/-- What can happen next to a process. -/
inductive Act (V E : Type) where
  | call (c : Call V)
  | go
  | finish (o : Outcome V E)
  | drop

/-- The transition function. -/
def step (code : Kind → Option Body) (s : St V E) (p : Nat) : Act V E → Option (St V E)
  | .call c => invoke code s p c
  | .go => go s p
  | .finish o => finish s p o
  | .drop => dropGuard s p

/-- Every schedule. -/
inductive Reach (code : Kind → Option Body) (v₀ : Option V) : St V E → Prop where
  | init : Reach code v₀ (init v₀)
  | step {s s' p a} : Reach code v₀ s → step code s p a = some s' → Reach code v₀ s'

/-- Run a finite schedule; `none` if an action is not enabled. -/
def run (code : Kind → Option Body) (s : St V E) : List (Nat × Act V E) → Option (St V E)
  | [] => some s
  | (p, a) :: rest => (step code s p a).bind fun s' => run code s' rest

end

end Verif.Model.Calls
