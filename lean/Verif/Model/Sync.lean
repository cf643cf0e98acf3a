import Verif.Model.Lazy
import Verif.Model.RwLock
/-!
# The sync lazy container, small steps

Model of `FXProxySync` and `FXWrLockGuardSync`, /repo/fieldx/src/sync/fxproxy.rs 68-269. Any number of processes work on
one field. A process stands for one chain of calls and guards: a thread that holds several guards at the same time is
several processes here, so every real execution is an execution of the model.

The stored value, the `is_set` flag, and the lock are separate cells; each step reads or writes one of them.
The second lock, around the builder (lines 74, 112, 148, 250, 254), is only ever read-locked after construction and
always holds `Some`, so it never blocks and `panic!("Builder is not set")` (line 153) cannot be reached: it is left out.
The builder itself is user code: it may run for any time and end with any `Outcome`.
-/

namespace Verif.Model.Sync
open Verif.Spec Verif.Model

/-- Where a process is. `r*`: inside `read_or_init` and its callers; `g*`: holding a guard; `x*`: exclusive calls;
`w*`: a call on the write guard; `s*`: clone, comparison, debug; `i*`: `is_set`. -/
inductive Pc (V E : Type) where
  | idle
  /-- line 142, waiting for the upgradable guard -/
  | rStart (k : GetKind)
  /-- line 143, upgradable guard held, about to test `is_none` -/
  | rHaveU (k : GetKind)
  /-- line 144, `upgrade` in progress -/
  | rUpg (k : GetKind)
  /-- line 146, write guard held, about to test again -/
  | rHaveW (k : GetKind)
  /-- line 150, builder running under the write guard -/
  | rBuild (k : GetKind)
  /-- line 150, builder returned a value, about to store it -/
  | rSet (k : GetKind) (v : V)
  /-- line 151, value stored, flag not yet -/
  | rFlag (k : GetKind) (v : V)
  /-- line 150 `?` or unwinding: write guard about to be dropped -/
  | rFail (k : GetKind) (o : Outcome V E)
  /-- line 156, about to downgrade to the upgradable guard -/
  | rDown (k : GetKind) (ran : Option (Outcome V E))
  /-- `read_or_init` returned the upgradable guard -/
  | rReady (k : GetKind) (ran : Option (Outcome V E))
  /-- lines 178, 198: second `upgrade`, for the mutable forms -/
  | rUpg2 (k : GetKind) (ran : Option (Outcome V E))
  /-- lines 169, 179, 189, 199: about to map the guard, `unwrap` of the option -/
  | rMap (k : GetKind) (ran : Option (Outcome V E))
  | gRead (g : CallId)
  | gMut (g : CallId)
  | gWrite (g : CallId)
  /-- dereferencing a mapped guard (`m`: mutable) -/
  | gDeref (g : CallId) (m : Bool)
  | gDone (g : CallId) (m : Bool) (op : Op V) (v : V)
  /-- overwriting through the mutable mapped guard -/
  | gAsg (g : CallId) (v : V)
  /-- lines 205, 215: waiting to claim the exclusive bit -/
  | xStart (x : XKind V)
  /-- exclusive bit claimed, waiting for readers -/
  | xWait (x : XKind V)
  | xHave (x : XKind V)
  /-- flag written (lines 209, 233), value not yet (210, 234) -/
  | xVal (t : Option V)
  | xRel (t : Option V) (old : Option V)
  | wHave (g : CallId) (t : Option V)
  | wVal (g : CallId) (t : Option V)
  | wRet (g : CallId) (t : Option V) (old : Option V)
  /-- lines 249, 265, 95: waiting for the shared guard -/
  | sStart
  | sHave
  /-- value copied (line 252), flag not yet (253) -/
  | sVal (o : Option V)
  | sBoth (o : Option V) (b : Bool)
  | iStart
  | iDone (b : Bool)
  /-- a mapped guard pointed at nothing: would be undefined behaviour; shown unreachable -/
  | ub
deriving DecidableEq, Repr

/-- State of the container (lines 68-75) with all processes around it, and the log. -/
structure St (V E : Type) where
  value : Option V
  flag  : Bool
  lk    : Lock
  pc    : Nat → Pc V E
  seq   : Nat → Nat
  log   : List (Ev V E)

section
variable {V E : Type}

/-- `new_default` (lines 108-114). -/
def init (v₀ : Option V) : St V E :=
  { value := v₀, flag := v₀.isSome, lk := .free, pc := fun _ => .idle, seq := fun _ => 0, log := [] }

/-- Identity of the call process `p` is in. -/
def St.me (s : St V E) (p : Nat) : CallId := ⟨p, s.seq p⟩

/-- Move process `p`. -/
def St.to (s : St V E) (p : Nat) (c : Pc V E) : St V E := { s with pc := upd s.pc p c }

/-- Append to the log. -/
def St.ev (s : St V E) (e : Ev V E) : St V E := { s with log := s.log ++ [e] }

/-- The call of process `p` takes effect. -/
def St.lin (s : St V E) (p : Nat) (op : Op V) (r : Res V E) : St V E := s.ev (.lin (s.me p) op r)

/-- The call of process `p` returns `r`; the process goes on at `c`. -/
def St.ret (s : St V E) (p : Nat) (c : Pc V E) (r : Res V E) : St V E :=
  { s with log := s.log ++ [.res (s.me p) r], seq := upd s.seq p (s.seq p + 1), pc := upd s.pc p c }

/-- The call `op` of process `p` begins at `c`. -/
def St.begin (s : St V E) (p : Nat) (op : Op V) (c : Pc V E) : St V E :=
  { s with log := s.log ++ [.inv (s.me p) op], pc := upd s.pc p c }

/-- Begin of a call. Calls on the container need no guard; calls on a guard need that guard. -/
def invoke (s : St V E) (p : Nat) (op : Op V) : Option (St V E) :=
  match s.pc p, op with
  | .idle, .get k      => some (s.begin p op (.rStart k))
  | .idle, .set v      => some (s.begin p op (.xStart (.put (some v))))
  | .idle, .clear      => some (s.begin p op (.xStart (.put none)))
  | .idle, .writer     => some (s.begin p op (.xStart .writer))
  | .idle, .isSet      => some (s.begin p op .iStart)
  | .idle, .snapshot   => some (s.begin p op .sStart)
  | .gWrite g, .store v => some (s.begin p op (.wHave g (some v)))
  | .gWrite g, .take    => some (s.begin p op (.wHave g none))
  | .gRead g, .deref g' => if g = g' then some (s.begin p op (.gDeref g false)) else none
  | .gMut g, .deref g'  => if g = g' then some (s.begin p op (.gDeref g true)) else none
  | .gMut g, .assign g' v => if g = g' then some (s.begin p op (.gAsg g v)) else none
  | _, _ => none

/-- The guard which a finished access holds: shared for `read`/`try_read` (lines 166-171, 186-191), exclusive for
`read_mut`/`try_read_mut` (176-181, 196-201). -/
def heldGuard (m : Bool) (g : CallId) : Pc V E := if m then .gMut g else .gRead g

/-- One step of the code of process `p`. `none`: blocked, or nothing to do. -/
def go (s : St V E) (p : Nat) : Option (St V E) :=
  match s.pc p with
  | .idle => none
  -- line 142
  | .rStart k => (s.lk.tryUpgradable p).map fun l => { s with lk := l }.to p (.rHaveU k)
  -- lines 143-144, 158-160
  | .rHaveU k =>
    match s.value with
    | none => some ({ s with lk := s.lk.upgradeClaim p }.to p (.rUpg k))
    | some v => some ((s.lin p (.get k) ⟨none, getRet k (.ok v)⟩).to p (.rReady k none))
  -- line 144
  | .rUpg k => if s.lk.drained then some (s.to p (.rHaveW k)) else none
  -- lines 146-149
  | .rHaveW k =>
    match s.value with
    | none => some ((s.ev (.other (.bstart (s.me p)))).to p (.rBuild k))
    | some v => some ((s.lin p (.get k) ⟨none, getRet k (.ok v)⟩).to p (.rDown k none))
  | .rBuild _ => none
  -- line 150
  | .rSet k v => some ({ s with value := some v }.to p (.rFlag k v))
  -- line 151
  | .rFlag k v =>
    some (({ s with flag := true }.lin p (.get k) ⟨some (.ok v), getRet k (.ok v)⟩).to p (.rDown k (some (.ok v))))
  -- lines 150 (`?`, unwinding), 135, 168, 178, 188, 198
  | .rFail k o => some ({ s with lk := s.lk.dropWrite }.ret p .idle ⟨some o, getRet k o⟩)
  -- line 156
  | .rDown k ran => some ({ s with lk := s.lk.downgradeToUpg p }.to p (.rReady k ran))
  -- lines 135, 168, 178, 188, 198
  | .rReady k ran =>
    match k with
    | .lazyInit => some ({ s with lk := s.lk.dropUpg }.ret p .idle ⟨ran, .unit⟩)
    | .read | .tryRead => some ({ s with lk := s.lk.downgradeToShared p }.to p (.rMap k ran))
    | .readMut | .tryReadMut => some ({ s with lk := s.lk.upgradeClaim p }.to p (.rUpg2 k ran))
  -- lines 178, 198
  | .rUpg2 k ran => if s.lk.drained then some (s.to p (.rMap k ran)) else none
  -- lines 169, 179, 189, 199
  | .rMap k ran =>
    match s.value with
    | some v => some (s.ret p (heldGuard k.mutable (s.me p)) ⟨ran, .value v⟩)
    | none =>
      some ({ s with lk := if k.mutable then s.lk.dropWrite else s.lk.dropShared p }.ret p .idle ⟨ran, .panicked⟩)
  | .gRead _ | .gMut _ | .gWrite _ => none
  -- `Deref` of MappedRwLockReadGuard / MappedRwLockWriteGuard
  | .gDeref g m =>
    match s.value with
    | some v => some ((s.lin p (.deref g) ⟨none, .value v⟩).to p (.gDone g m (.deref g) v))
    | none => some (s.to p .ub)
  | .gDone g m _ v => some (s.ret p (heldGuard m g) ⟨none, .value v⟩)
  -- `DerefMut` of MappedRwLockWriteGuard, `mem::replace` through it
  | .gAsg g v =>
    match s.value with
    | some w =>
      some (({ s with value := some v }.lin p (.assign g v) ⟨none, .value w⟩).to p (.gDone g true (.assign g v) w))
    | none => some (s.to p .ub)
  -- lines 205, 215
  | .xStart x => (s.lk.claim p).map fun l => { s with lk := l }.to p (.xWait x)
  | .xWait x => if s.lk.drained then some (s.to p (.xHave x)) else none
  -- line 205 (guard returned), 209, 233
  | .xHave .writer => some ((s.lin p .writer ⟨none, .unit⟩).ret p (.gWrite (s.me p)) ⟨none, .unit⟩)
  | .xHave (.put t) =>
    some (({ s with flag := t.isSome }.lin p (XKind.op (.put t)) ⟨none, .old s.value⟩).to p (.xVal t))
  -- lines 210, 234
  | .xVal t => some ({ s with value := t }.to p (.xRel t s.value))
  -- drop of the write guard, lines 217, 206
  | .xRel _ old => some ({ s with lk := s.lk.dropWrite }.ret p .idle ⟨none, .old old⟩)
  -- lines 233, 239 with 209
  | .wHave g t =>
    some (({ s with flag := t.isSome }.lin p (guardOp t) ⟨none, .old s.value⟩).to p (.wVal g t))
  -- lines 234, 239 with 210
  | .wVal g t => some ({ s with value := t }.to p (.wRet g t s.value))
  | .wRet g _ old => some (s.ret p (.gWrite g) ⟨none, .old old⟩)
  -- line 249 (and 265, 266, 95)
  | .sStart => (s.lk.tryShared p).map fun l => { s with lk := l }.to p .sHave
  -- line 252
  | .sHave => some ((s.lin p .snapshot ⟨none, .snap s.value s.value.isSome⟩).to p (.sVal s.value))
  -- line 253
  | .sVal o => some (s.to p (.sBoth o s.flag))
  | .sBoth o b => some ({ s with lk := s.lk.dropShared p }.ret p .idle ⟨none, .snap o b⟩)
  -- line 129
  | .iStart => some ((s.lin p .isSet ⟨none, .bool s.flag⟩).to p (.iDone s.flag))
  | .iDone b => some (s.ret p .idle ⟨none, .bool b⟩)
  | .ub => none

/-- The user's builder ends with `o` (lines 37-39, 62-64, 150). On `Err` and on panic the call is decided; the write guard
is dropped next. -/
def builderReturns (s : St V E) (p : Nat) (o : Outcome V E) : Option (St V E) :=
  match s.pc p with
  | .rBuild k =>
    let s' := s.ev (.other (.bend (s.me p) o))
    match o with
    | .ok v => some (s'.to p (.rSet k v))
    | o => some ((s'.lin p (.get k) ⟨some o, getRet k o⟩).to p (.rFail k o))
  | _ => none

/-- The user drops the guard (normally or while unwinding). -/
def dropGuard (s : St V E) (p : Nat) : Option (St V E) :=
  match s.pc p with
  | .gRead g => some (({ s with lk := s.lk.dropShared p }.ev (.other (.drop g))).to p .idle)
  | .gMut g => some (({ s with lk := s.lk.dropWrite }.ev (.other (.drop g))).to p .idle)
  | .gWrite g => some (({ s with lk := s.lk.dropWrite }.ev (.other (.drop g))).to p .idle)
  | _ => none

/-- What can happen next to a process. -/
inductive Act (V E : Type) where
  | call (op : Op V)
  | go
  | finish (o : Outcome V E)
  | drop
deriving DecidableEq, Repr

/-- The transition function. -/
def step (s : St V E) (p : Nat) : Act V E → Option (St V E)
  | .call op => invoke s p op
  | .go => go s p
  | .finish o => builderReturns s p o
  | .drop => dropGuard s p

/-- Every schedule: any process, any enabled action, any number of times. -/
inductive Reach (v₀ : Option V) : St V E → Prop where
  | init : Reach v₀ (init v₀)
  | step {s s' p a} : Reach v₀ s → step s p a = some s' → Reach v₀ s'

/-- Run a finite schedule; `none` if an action is not enabled. -/
def run (s : St V E) : List (Nat × Act V E) → Option (St V E)
  | [] => some s
  | (p, a) :: rest => (step s p a).bind fun s' => run s' rest

/-- The container which `clone` assembles from the content and the flag it read (lines 251-255). -/
def cloneOf (o : Option V) (b : Bool) : St V E :=
  { value := o, flag := b, lk := .free, pc := fun _ => .idle, seq := fun _ => 0, log := [] }

/-- No call is running in process `p`: it is outside the container or just keeps a guard. -/
def Pc.resting : Pc V E → Bool
  | .idle | .gRead _ | .gMut _ | .gWrite _ => true
  | _ => false

end

end Verif.Model.Sync
