import Verif.Model.Lazy
/-!
# The async lazy container, small steps

Model of `FXProxyAsync` and `FXWrLockGuardAsync`, /repo/fieldx/src/async/fxproxy.rs 81-265. Any number of tasks work on
one field; a task which keeps several guards is several processes here (as in `Model/Sync.lean`).

A future can be dropped where it awaits: at `write().await` (lines 154, 213, 223), at `builder.read().await` (line 157),
and while the user's builder runs (line 159). Between these points the code runs without suspension.
The lock around the builder is only ever read-locked after construction, so line 157 never blocks for good; it is kept
as a program point because the task may be suspended and cancelled there.
`blocking_read` (lines 109, 257, 273) panics when called on an async worker thread; the model covers calls from outside.
-/

namespace Verif.Model.Async
open Verif.Spec Verif.Model

/-- `tokio::sync::RwLock` (third party, DESIGN.md section 1): shared holders and the exclusive holder. -/
structure ALock where
  shared : List Nat
  wr     : Option Nat
deriving DecidableEq, Repr

/-- `RwLock::new` (async/fxproxy.rs 126). -/
def ALock.free : ALock := ⟨[], none⟩

/-- `RwLock::write` (154, 213, 223): granted when nobody holds the lock. -/
def ALock.tryWrite (l : ALock) (p : Nat) : Option ALock :=
  if l.wr = none ∧ l.shared = [] then some { l with wr := some p } else none

/-- `RwLock::blocking_read` (257): granted when there is no exclusive holder. -/
def ALock.tryShared (l : ALock) (p : Nat) : Option ALock :=
  if l.wr = none then some { l with shared := p :: l.shared } else none

/-- Drop of a shared guard. -/
def ALock.dropShared (l : ALock) (p : Nat) : ALock := { l with shared := l.shared.erase p }

/-- Drop of the exclusive guard. -/
def ALock.dropWrite (l : ALock) : ALock := { l with wr := none }

/-- `RwLockWriteGuard::downgrade` (173, 193). -/
def ALock.downgrade (l : ALock) (p : Nat) : ALock := ⟨p :: l.shared, none⟩

/-- Where a process is; names as in `Model/Sync.lean`. -/
inductive Pc (V E : Type) where
  | idle
  /-- line 154, awaiting the write guard -/
  | rStart (k : GetKind)
  /-- line 155, write guard held, about to test `is_none` -/
  | rHave (k : GetKind)
  /-- line 157, awaiting the read guard of the builder lock -/
  | rCb (k : GetKind)
  /-- line 159, the builder's future running under the write guard -/
  | rBuild (k : GetKind)
  /-- line 159, builder returned a value, about to store it -/
  | rSet (k : GetKind) (v : V)
  /-- line 160, value stored, flag not yet -/
  | rFlag (k : GetKind) (v : V)
  /-- line 159 `?` or unwinding: write guard about to be dropped -/
  | rFail (k : GetKind) (o : Outcome V E)
  /-- line 165, `read_or_init` returned the write guard -/
  | rReady (k : GetKind) (ran : Option (Outcome V E))
  /-- lines 174, 184, 194, 207: about to map the guard, `unwrap` of the option -/
  | rMap (k : GetKind) (ran : Option (Outcome V E))
  | gRead (g : CallId)
  | gMut (g : CallId)
  | gWrite (g : CallId)
  | gDeref (g : CallId) (m : Bool)
  | gDone (g : CallId) (m : Bool) (op : Op V) (v : V)
  | gAsg (g : CallId) (v : V)
  /-- lines 213, 223: awaiting the write guard -/
  | xStart (x : XKind V)
  | xHave (x : XKind V)
  /-- flag written (lines 217, 241), value not yet (218, 242) -/
  | xVal (t : Option V)
  | xRel (t : Option V) (old : Option V)
  | wHave (g : CallId) (t : Option V)
  | wVal (g : CallId) (t : Option V)
  | wRet (g : CallId) (t : Option V) (old : Option V)
  /-- lines 257, 109: waiting for the shared guard (blocking, not an await point) -/
  | sStart
  | sHave
  /-- value copied (line 260), flag not yet (261) -/
  | sVal (o : Option V)
  | sBoth (o : Option V) (b : Bool)
  | iStart
  | iDone (b : Bool)
  /-- a mapped guard pointed at nothing; shown unreachable -/
  | ub
deriving DecidableEq, Repr

/-- State of the container (lines 81-88) with all processes around it, and the log. -/
structure St (V E : Type) where
  value : Option V
  flag  : Bool
  lk    : ALock
  pc    : Nat → Pc V E
  seq   : Nat → Nat
  log   : List (Ev V E)

section
variable {V E : Type}

/-- `new_default` (lines 123-129). -/
def init (v₀ : Option V) : St V E :=
  { value := v₀, flag := v₀.isSome, lk := .free, pc := fun _ => .idle, seq := fun _ => 0, log := [] }

/-- Identity of the call process `p` is in. -/
def St.me (s : St V E) (p : Nat) : CallId := ⟨p, s.seq p⟩

/-- Move process `p`. -/
def St.to (s : St V E) (p : Nat) (c : Pc V E) : St V E := { s with pc := upd s.pc p c }

/-- Append to the log. -/
def St.ev (s : St V E) (e : Ev V E) : St V E := { s with log := s.log ++ [e] }

/-- The call of process `p` takes effect. -/
def St.lin (s : St V E) (p : Nat) (op : Op V) (r : Res V E) : St V E := s.ev (.lin (s.me p) op r)

/-- The call of process `p` returns `r`; the process goes on at `c`. -/
def St.ret (s : St V E) (p : Nat) (c : Pc V E) (r : Res V E) : St V E :=
  { s with log := s.log ++ [.res (s.me p) r], seq := upd s.seq p (s.seq p + 1), pc := upd s.pc p c }

/-- The future of process `p` is dropped: no answer. -/
def St.quit (s : St V E) (p : Nat) : St V E :=
  { s with log := s.log ++ [.cancel (s.me p)], seq := upd s.seq p (s.seq p + 1), pc := upd s.pc p .idle }

/-- The call `op` of process `p` begins at `c`. -/
def St.begin (s : St V E) (p : Nat) (op : Op V) (c : Pc V E) : St V E :=
  { s with log := s.log ++ [.inv (s.me p) op], pc := upd s.pc p c }

/-- Begin of a call (the future is created and first polled). -/
def invoke (s : St V E) (p : Nat) (op : Op V) : Option (St V E) :=
  match s.pc p, op with
  | .idle, .get k      => some (s.begin p op (.rStart k))
  | .idle, .set v      => some (s.begin p op (.xStart (.put (some v))))
  | .idle, .clear      => some (s.begin p op (.xStart (.put none)))
  | .idle, .writer     => some (s.begin p op (.xStart .writer))
  | .idle, .isSet      => some (s.begin p op .iStart)
  | .idle, .snapshot   => some (s.begin p op .sStart)
  | .gWrite g, .store v => some (s.begin p op (.wHave g (some v)))
  | .gWrite g, .take    => some (s.begin p op (.wHave g none))
  | .gRead g, .deref g' => if g = g' then some (s.begin p op (.gDeref g false)) else none
  | .gMut g, .deref g'  => if g = g' then some (s.begin p op (.gDeref g true)) else none
  | .gMut g, .assign g' v => if g = g' then some (s.begin p op (.gAsg g v)) else none
  | _, _ => none

/-- The guard which a finished access holds (171-176, 191-196: shared; 181-186, 201-209: exclusive). -/
def heldGuard (m : Bool) (g : CallId) : Pc V E := if m then .gMut g else .gRead g

/-- One step of the code of process `p`. `none`: pending, or nothing to do. -/
def go (s : St V E) (p : Nat) : Option (St V E) :=
  match s.pc p with
  | .idle => none
  -- line 154
  | .rStart k => (s.lk.tryWrite p).map fun l => { s with lk := l }.to p (.rHave k)
  -- line 155, 165
  | .rHave k =>
    match s.value with
    | none => some (s.to p (.rCb k))
    | some v => some ((s.lin p (.get k) ⟨none, getRet k (.ok v)⟩).to p (.rReady k none))
  -- line 157-158
  | .rCb k => some ((s.ev (.other (.bstart (s.me p)))).to p (.rBuild k))
  | .rBuild _ => none
  -- line 159
  | .rSet k v => some ({ s with value := some v }.to p (.rFlag k v))
  -- line 160
  | .rFlag k v =>
    some (({ s with flag := true }.lin p (.get k) ⟨some (.ok v), getRet k (.ok v)⟩).to p (.rReady k (some (.ok v))))
  -- lines 159 (`?`, unwinding), 150, 173, 183, 193, 206
  | .rFail k o => some ({ s with lk := s.lk.dropWrite }.ret p .idle ⟨some o, getRet k o⟩)
  -- lines 150, 173, 183, 193, 206
  | .rReady k ran =>
    match k with
    | .lazyInit => some ({ s with lk := s.lk.dropWrite }.ret p .idle ⟨ran, .unit⟩)
    | .read | .tryRead => some ({ s with lk := s.lk.downgrade p }.to p (.rMap k ran))
    | .readMut | .tryReadMut => some (s.to p (.rMap k ran))
  -- lines 174, 184, 194, 207
  | .rMap k ran =>
    match s.value with
    | some v => some (s.ret p (heldGuard k.mutable (s.me p)) ⟨ran, .value v⟩)
    | none =>
      some ({ s with lk := if k.mutable then s.lk.dropWrite else s.lk.dropShared p }.ret p .idle ⟨ran, .panicked⟩)
  | .gRead _ | .gMut _ | .gWrite _ => none
  -- `Deref` of RwLockReadGuard / RwLockMappedWriteGuard
  | .gDeref g m =>
    match s.value with
    | some v => some ((s.lin p (.deref g) ⟨none, .value v⟩).to p (.gDone g m (.deref g) v))
    | none => some (s.to p .ub)
  | .gDone g m _ v => some (s.ret p (heldGuard m g) ⟨none, .value v⟩)
  -- `DerefMut` of RwLockMappedWriteGuard, `mem::replace` through it
  | .gAsg g v =>
    match s.value with
    | some w =>
      some (({ s with value := some v }.lin p (.assign g v) ⟨none, .value w⟩).to p (.gDone g true (.assign g v) w))
    | none => some (s.to p .ub)
  -- lines 213, 223
  | .xStart x => (s.lk.tryWrite p).map fun l => { s with lk := l }.to p (.xHave x)
  -- line 213 (guard returned), 217, 241
  | .xHave .writer => some ((s.lin p .writer ⟨none, .unit⟩).ret p (.gWrite (s.me p)) ⟨none, .unit⟩)
  | .xHave (.put t) =>
    some (({ s with flag := t.isSome }.lin p (XKind.op (.put t)) ⟨none, .old s.value⟩).to p (.xVal t))
  -- lines 218, 242
  | .xVal t => some ({ s with value := t }.to p (.xRel t s.value))
  -- drop of the write guard, lines 225, 214
  | .xRel _ old => some ({ s with lk := s.lk.dropWrite }.ret p .idle ⟨none, .old old⟩)
  -- lines 241, 247 with 217
  | .wHave g t =>
    some (({ s with flag := t.isSome }.lin p (guardOp t) ⟨none, .old s.value⟩).to p (.wVal g t))
  -- lines 242, 247 with 218
  | .wVal g t => some ({ s with value := t }.to p (.wRet g t s.value))
  | .wRet g _ old => some (s.ret p (.gWrite g) ⟨none, .old old⟩)
  -- line 257 (and 109)
  | .sStart => (s.lk.tryShared p).map fun l => { s with lk := l }.to p .sHave
  -- line 260
  | .sHave => some ((s.lin p .snapshot ⟨none, .snap s.value s.value.isSome⟩).to p (.sVal s.value))
  -- line 261
  | .sVal o => some (s.to p (.sBoth o s.flag))
  | .sBoth o b => some ({ s with lk := s.lk.dropShared p }.ret p .idle ⟨none, .snap o b⟩)
  -- line 144
  | .iStart => some ((s.lin p .isSet ⟨none, .bool s.flag⟩).to p (.iDone s.flag))
  | .iDone b => some (s.ret p .idle ⟨none, .bool b⟩)
  | .ub => none

/-- The user's builder ends with `o` (lines 47-49, 76-78, 159). -/
def builderReturns (s : St V E) (p : Nat) (o : Outcome V E) : Option (St V E) :=
  match s.pc p with
  | .rBuild k =>
    let s' := s.ev (.other (.bend (s.me p) o))
    match o with
    | .ok v => some (s'.to p (.rSet k v))
    | o => some ((s'.lin p (.get k) ⟨some o, getRet k o⟩).to p (.rFail k o))
  | _ => none

/-- The user drops the guard. -/
def dropGuard (s : St V E) (p : Nat) : Option (St V E) :=
  match s.pc p with
  | .gRead g => some (({ s with lk := s.lk.dropShared p }.ev (.other (.drop g))).to p .idle)
  | .gMut g => some (({ s with lk := s.lk.dropWrite }.ev (.other (.drop g))).to p .idle)
  | .gWrite g => some (({ s with lk := s.lk.dropWrite }.ev (.other (.drop g))).to p .idle)
  | _ => none

/-- The future of the call is dropped at an await point: a pending lock request disappears, a held write guard is
dropped, a running builder is dropped with it. -/
def cancel (s : St V E) (p : Nat) : Option (St V E) :=
  match s.pc p with
  | .rStart _ | .xStart _ => some (s.quit p)
  | .rCb _ => some ({ s with lk := s.lk.dropWrite }.quit p)
  | .rBuild _ => some (({ s with lk := s.lk.dropWrite }.ev (.other (.abort (s.me p)))).quit p)
  | _ => none

/-- What can happen next to a process. -/
inductive Act (V E : Type) where
  | call (op : Op V)
  | go
  | finish (o : Outcome V E)
  | drop
  | cancel
deriving DecidableEq, Repr

/-- The transition function. -/
def step (s : St V E) (p : Nat) : Act V E → Option (St V E)
  | .call op => invoke s p op
  | .go => go s p
  | .finish o => builderReturns s p o
  | .drop => dropGuard s p
  | .cancel => cancel s p

/-- Every schedule: any process, any enabled action, any number of times. -/
inductive Reach (v₀ : Option V) : St V E → Prop where
  | init : Reach v₀ (init v₀)
  | step {s s' p a} : Reach v₀ s → step s p a = some s' → Reach v₀ s'

/-- Run a finite schedule; `none` if an action is not enabled. -/
def run (s : St V E) : List (Nat × Act V E) → Option (St V E)
  | [] => some s
  | (p, a) :: rest => (step s p a).bind fun s' => run s' rest

/-- The container which `clone` assembles from the content and the flag it read (lines 259-263). -/
def cloneOf (o : Option V) (b : Bool) : St V E :=
  { value := o, flag := b, lk := .free, pc := fun _ => .idle, seq := fun _ => 0, log := [] }

/-- No call is running in process `p`: it is outside the container or just keeps a guard. -/
def Pc.resting : Pc V E → Bool
  | .idle | .gRead _ | .gMut _ | .gWrite _ => true
  | _ => false

end

end Verif.Model.Async
