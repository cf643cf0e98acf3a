/-!
# Reader-writer lock with an upgradable mode

Model of `parking_lot::RwLock` (third party, see DESIGN.md section 1) as used by
/repo/fieldx/src/sync/fxproxy.rs 142, 144, 156, 168, 178, 205, 215, 249, 265-266.
Holders are process numbers. The exclusive bit is claimed first (`claim`, `upgradeClaim`); the claimer then waits until
there is no shared holder (`drained`). Blocking is `none`: the call cannot proceed in this state.
-/

namespace Verif.Model

/-- Lock word: shared holders, holder of the upgradable guard, owner of the exclusive bit. -/
structure Lock where
  shared : List Nat
  upg    : Option Nat
  wr     : Option Nat
deriving DecidableEq, Repr

/-- `RwLock::new` (sync/fxproxy.rs 111). -/
def Lock.free : Lock := ⟨[], none, none⟩

/-- `RwLock::read` (sync/fxproxy.rs 249, 265, 266): blocked while the exclusive bit is claimed. -/
def Lock.tryShared (l : Lock) (p : Nat) : Option Lock :=
  if l.wr = none then some { l with shared := p :: l.shared } else none

/-- Drop of a shared guard. -/
def Lock.dropShared (l : Lock) (p : Nat) : Lock := { l with shared := l.shared.erase p }

/-- `RwLock::upgradable_read` (sync/fxproxy.rs 142): blocked by an exclusive or another upgradable holder. -/
def Lock.tryUpgradable (l : Lock) (p : Nat) : Option Lock :=
  if l.wr = none ∧ l.upg = none then some { l with upg := some p } else none

/-- Drop of an upgradable guard. -/
def Lock.dropUpg (l : Lock) : Lock := { l with upg := none }

/-- First phase of `RwLock::write` (sync/fxproxy.rs 205, 215): claim the exclusive bit. -/
def Lock.claim (l : Lock) (p : Nat) : Option Lock :=
  if l.wr = none ∧ l.upg = none then some { l with wr := some p } else none

/-- First phase of `RwLockUpgradableReadGuard::upgrade` (sync/fxproxy.rs 144, 178, 198): the upgradable hold becomes the
exclusive bit in one atomic operation. -/
def Lock.upgradeClaim (l : Lock) (p : Nat) : Lock := { l with upg := none, wr := some p }

/-- Second phase of `write` and `upgrade`: all shared holders are gone. -/
def Lock.drained (l : Lock) : Bool := l.shared.isEmpty

/-- `RwLockWriteGuard::downgrade_to_upgradable` (sync/fxproxy.rs 156). -/
def Lock.downgradeToUpg (l : Lock) (p : Nat) : Lock := { l with wr := none, upg := some p }

/-- `RwLockUpgradableReadGuard::downgrade` (sync/fxproxy.rs 168, 188). -/
def Lock.downgradeToShared (l : Lock) (p : Nat) : Lock := { l with upg := none, shared := p :: l.shared }

/-- Drop of an exclusive guard. -/
def Lock.dropWrite (l : Lock) : Lock := { l with wr := none }

end Verif.Model
