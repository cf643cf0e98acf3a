import Verif.Spec.Ordered
import Verif.Model.Sync
import Verif.Model.Async
/-!
# The lazy containers without a global order of memory accesses

`Model/Sync.lean` and `Model/Async.lean` let every load of the flag see the newest store. Here it need not: an atomic load
may see any store, unless a later one happens before the load, or an earlier load of the process (or one which happens
before) has seen a later one. The content of the lock is ordinary memory; that it is never accessed without order is a
theorem (`RaceFree`), not an assumption.

* Loads of the flag: `Ordering::SeqCst` (/repo/fieldx/src/sync/fxproxy.rs 129, async/fxproxy.rs 144). Stores: `SeqCst` (151,
  209; async 160, 217) and `Release` (233; async 241). Here a load may synchronise with the store it sees or not, that is less.
* Locks: whoever takes a lock knows everything the last exclusive holders knew when they released it; whoever takes it
  exclusively also everything the shared holders knew. Not more.
* Anything else by which threads synchronise (channels, other locks, `join`): `post` and `take`. Several processes which are one
  thread pass on what they know in this way too.

The container is the one of the base model; what is added is what everybody knows, and what loads of the flag give.
-/

namespace Verif.Model.Weak
open Verif.Spec Verif.Model

/-- What a process holds: nothing, a shared or upgradable guard, the claim to exclusive access while others still read, or
exclusive access. -/
inductive Mode where
  | none | shared | claimed | excl
deriving DecidableEq, Repr

/-- What a process has got from a load of the flag: the answer of `is_set`, or the second half of what `clone` reads. -/
inductive Got (V : Type) where
  | none
  | isSet
  | snap (o : Option V)
deriving DecidableEq, Repr

/-- A base model, with what its steps do to flag, content and lock. -/
structure Machine (σ A V E : Type) where
  step    : σ → Nat → A → Option σ
  log     : σ → List (Ev V E)
  mode    : σ → Nat → Mode
  got     : σ → Nat → Got V
  /-- the step stores this value to the flag -/
  stores  : σ → Nat → A → Option Bool
  /-- the step loads the flag -/
  loads   : σ → Nat → A → Bool
  /-- the step accesses the content; `true`: it writes -/
  touches : σ → Nat → A → Option Bool

/-- Knowledge: the events which happened before, and the index of the newest store of the flag which can be known from them. -/
structure Know where
  past : List Nat
  seen : Nat
deriving DecidableEq, Repr

/-- Both together. -/
def Know.join (a b : Know) : Know := ⟨a.past ++ b.past, max a.seen b.seen⟩

/-- State. `know`: of each process. `wk`, `rk`: what exclusive and shared holders have left in the lock. `flag`: all values of
the flag, in modification order, with what the storing process knew. `mail`: what has been posted elsewhere. `read`: what the
last load of the flag gave to each process. `now`: the number of the next event. -/
structure St (σ V E : Type) where
  base : σ
  know : Nat → Know
  wk   : Know
  rk   : Know
  flag : List (Bool × Know)
  mail : List Know
  read : Nat → Bool
  log  : List (OEv (Op V) (Res V E))
  acc  : List Access
  now  : Nat

/-- Actions: one of the base model, or synchronisation elsewhere. If it loads the flag, the store with index `k` is seen; if
`q`, the load synchronises with that store. Loads and stores are written with `SeqCst` or `Release` and do so
(sync/fxproxy.rs 129, 151, 209, 233; async/fxproxy.rs 144, 160, 217, 241); it will turn out not to matter. -/
inductive Act (A : Type) where
  | run (a : A) (k : Nat) (q : Bool)
  | post
  | take (i : Nat)
deriving DecidableEq, Repr

section
variable {σ A V E : Type}

/-- A new container: one store of the flag, `AtomicBool::new` (sync/fxproxy.rs 110, async/fxproxy.rs 125). -/
def init (b : σ) (f : Bool) : St σ V E :=
  { base := b, know := fun _ => ⟨[], 0⟩, wk := ⟨[], 0⟩, rk := ⟨[], 0⟩, flag := [(f, ⟨[], 0⟩)], mail := [],
    read := fun _ => false, log := [], acc := [], now := 0 }

/-- What the lock gives to a process whose hold changes from `m` to `m'`. -/
def acquire (s : St σ V E) (k : Know) (m m' : Mode) : Know :=
  let k := if m = .none ∧ m' ≠ .none then k.join s.wk else k
  if m ≠ .excl ∧ m' = .excl then k.join s.rk else k

/-- What a call answers which has loaded `b` from the flag (sync/fxproxy.rs 129, 253; async/fxproxy.rs 144, 261). -/
def answer (g : Got V) (b : Bool) (r : Res V E) : Res V E :=
  match g with
  | .none => r
  | .isSet => ⟨none, .bool b⟩
  | .snap o => ⟨none, .snap o b⟩

/-- The event as the user sees it. -/
def shown (g : Got V) (b : Bool) : HEv (Op V) (Res V E) → HEv (Op V) (Res V E)
  | .inv i op => .inv i op
  | .res i r => .res i (answer g b r)

/-- One action of process `p`. -/
def step (M : Machine σ A V E) (s : St σ V E) (p : Nat) : Act A → Option (St σ V E)
  | .run a k q =>
    (M.step s.base p a).bind fun b =>
      let m := M.mode s.base p
      let m' := M.mode b p
      -- taking the lock
      let k₀ := acquire s (s.know p) m m'
      -- loading the flag
      let old := M.loads s.base p a
      match s.flag[k]? with
      | some (v, kw) =>
        if old = true → k₀.seen ≤ k then
          let k₁ := if old then (if q then k₀.join kw else k₀).join ⟨[], k⟩ else k₀
          -- this event
          let k₂ : Know := ⟨s.now :: k₁.past, k₁.seen⟩
          -- storing to the flag
          let k₃ : Know := if (M.stores s.base p a).isSome then ⟨k₂.past, s.flag.length⟩ else k₂
          some
            { base := b
              know := upd s.know p k₃
              -- releasing the lock
              wk := if m = .excl ∧ m' ≠ .excl then s.wk.join k₁ else s.wk
              rk := if m ≠ .excl ∧ m ≠ .none ∧ m' = .none then s.rk.join k₁ else s.rk
              flag := s.flag ++ ((M.stores s.base p a).map fun b => (b, k₃)).toList
              mail := s.mail
              read := if old then upd s.read p v else s.read
              log := s.log ++ ((hist (M.log b)).drop (hist (M.log s.base)).length).map
                fun e => ⟨s.now, k₁.past, shown (M.got s.base p) (s.read p) e⟩
              acc := s.acc ++ ((M.touches s.base p a).map fun w => ⟨s.now, k₁.past, w⟩).toList
              now := s.now + 1 }
        else none
      | none => none
  | .post => some { s with mail := s.mail ++ [s.know p] }
  | .take i => (s.mail[i]?).map fun k => { s with know := upd s.know p ((s.know p).join k) }

/-- Every schedule, every choice of the loads. -/
inductive Reach (M : Machine σ A V E) (b : σ) (f : Bool) : St σ V E → Prop where
  | init : Reach M b f (init b f)
  | step {s s' p a} : Reach M b f s → step M s p a = some s' → Reach M b f s'

/-- Run a finite schedule; `none` if an action is not enabled. -/
def run (M : Machine σ A V E) (s : St σ V E) : List (Nat × Act A) → Option (St σ V E)
  | [] => some s
  | (p, a) :: rest => (step M s p a).bind fun s' => run M s' rest

end

/-! ## The sync container -/

/-- What a process holds at each point of /repo/fieldx/src/sync/fxproxy.rs 142-217, 232-268. -/
def modeS {V E : Type} : Sync.Pc V E → Mode
  -- waiting for the lock, or without it: 142, 205, 215, 249, 129
  | .idle | .rStart _ | .xStart _ | .sStart | .iStart | .iDone _ | .ub => .none
  -- `upgradable_read` 142, 156
  | .rHaveU _ | .rReady _ _ => .shared
  -- `upgrade` 144, 178, 198, `write` 205, 215: not all readers gone
  | .rUpg _ | .rUpg2 _ _ | .xWait _ => .claimed
  | .rHaveW _ | .rBuild _ | .rSet _ _ | .rFlag _ _ | .rFail _ _ | .rDown _ _ => .excl
  -- `downgrade` 168, 188 or `upgrade` 178, 198
  | .rMap k _ => if k.mutable then .excl else .shared
  | .gRead _ => .shared
  | .gMut _ | .gWrite _ | .gAsg _ _ => .excl
  | .gDeref _ m | .gDone _ m _ _ => if m then .excl else .shared
  | .xHave _ | .xVal _ | .xRel _ _ | .wHave _ _ | .wVal _ _ | .wRet _ _ _ => .excl
  | .sHave | .sVal _ | .sBoth _ _ => .shared

/-- `FXProxySync` (sync/fxproxy.rs 68-269). -/
def sync {V E : Type} : Machine (Sync.St V E) (Sync.Act V E) V E where
  step := Sync.step
  log := Sync.St.log
  mode s p := modeS (s.pc p)
  -- 129; 253
  got s p := match s.pc p with
    | .iDone _ => .isSet
    | .sBoth o _ => .snap o
    | _ => .none
  -- 151; 209, 233
  stores s p a := match a, s.pc p with
    | .go, .rFlag _ _ => some true
    | .go, .xHave (.put t) => some t.isSome
    | .go, .wHave _ t => some t.isSome
    | _, _ => none
  -- 129; 253
  loads s p a := match a, s.pc p with
    | .go, .iStart => true
    | .go, .sVal _ => true
    | _, _ => false
  touches s p a := match a, s.pc p with
    -- 143, 146; 169, 179, 189, 199; dereferencing a guard; 252
    | .go, .rHaveU _ | .go, .rHaveW _ | .go, .rMap _ _ | .go, .gDeref _ _ | .go, .sHave => some false
    -- 150; 210, 234; writing through a guard
    | .go, .rSet _ _ | .go, .xVal _ | .go, .wVal _ _ | .go, .gAsg _ _ => some true
    | _, _ => none

/-! ## The async container -/

/-- What a process holds at each point of /repo/fieldx/src/async/fxproxy.rs 149-225, 240-265. -/
def modeA {V E : Type} : Async.Pc V E → Mode
  -- waiting for the lock, or without it: 154, 213, 223, 257, 144
  | .idle | .rStart _ | .xStart _ | .sStart | .iStart | .iDone _ | .ub => .none
  -- `write` 154
  | .rHave _ | .rCb _ | .rBuild _ | .rSet _ _ | .rFlag _ _ | .rFail _ _ | .rReady _ _ => .excl
  -- `downgrade` 173, 193, or still the write guard
  | .rMap k _ => if k.mutable then .excl else .shared
  | .gRead _ => .shared
  | .gMut _ | .gWrite _ | .gAsg _ _ => .excl
  | .gDeref _ m | .gDone _ m _ _ => if m then .excl else .shared
  | .xHave _ | .xVal _ | .xRel _ _ | .wHave _ _ | .wVal _ _ | .wRet _ _ _ => .excl
  | .sHave | .sVal _ | .sBoth _ _ => .shared

/-- `FXProxyAsync` (async/fxproxy.rs 81-265). -/
def async {V E : Type} : Machine (Async.St V E) (Async.Act V E) V E where
  step := Async.step
  log := Async.St.log
  mode s p := modeA (s.pc p)
  -- 144; 261
  got s p := match s.pc p with
    | .iDone _ => .isSet
    | .sBoth o _ => .snap o
    | _ => .none
  -- 160; 217, 241
  stores s p a := match a, s.pc p with
    | .go, .rFlag _ _ => some true
    | .go, .xHave (.put t) => some t.isSome
    | .go, .wHave _ t => some t.isSome
    | _, _ => none
  -- 144; 261
  loads s p a := match a, s.pc p with
    | .go, .iStart => true
    | .go, .sVal _ => true
    | _, _ => false
  touches s p a := match a, s.pc p with
    -- 155; 174, 184, 194, 207; dereferencing a guard; 260
    | .go, .rHave _ | .go, .rMap _ _ | .go, .gDeref _ _ | .go, .sHave => some false
    -- 159; 218, 242; writing through a guard
    | .go, .rSet _ _ | .go, .xVal _ | .go, .wVal _ _ | .go, .gAsg _ _ => some true
    | _, _ => none

end Verif.Model.Weak
