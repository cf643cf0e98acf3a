import Verif.Model.Sync
import Verif.Proof.LogLin
/-!
# Invariant of the sync lazy container (helper lemmas)
-/

namespace Verif.Proof.Sync
open Verif.Spec Verif.Model Verif.Model.Sync

variable {V E : Type}

/-! The async container is embedded into the machine of the sync one (`AsyncSim.lean`). For this the machine is given one
more kind of step, a call abandoned where it waits or builds. No sync code does this; `Reach` does not contain it. -/

/-- The call of process `p` is over without an answer. -/
def quit (s : St V E) (p : Nat) : St V E :=
  { s with log := s.log ++ [.cancel (s.me p)], seq := upd s.seq p (s.seq p + 1), pc := upd s.pc p .idle }

/-- Abandon the call of process `p`. -/
def abandon (s : St V E) (p : Nat) : Option (St V E) :=
  match s.pc p with
  | .rStart _ | .xStart _ => some (quit s p)
  | .rHaveW _ => some (quit { s with lk := s.lk.dropWrite } p)
  | .rBuild _ => some (quit ({ s with lk := s.lk.dropWrite }.ev (.other (.abort (s.me p)))) p)
  | _ => none

/-- Reachable when calls may be abandoned. -/
inductive ReachC (v₀ : Option V) : St V E → Prop where
  | init : ReachC v₀ (init v₀)
  | step {s s' p a} : ReachC v₀ s → step s p a = some s' → ReachC v₀ s'
  | abandon {s s' p} : ReachC v₀ s → abandon s p = some s' → ReachC v₀ s'

theorem reach_c {v₀ : Option V} {s : St V E} (h : Reach v₀ s) : ReachC v₀ s := by
  induction h with
  | init => exact .init
  | step _ hs ih => exact .step ih hs

/-- Program points at which the process holds a shared guard. -/
def holdsS : Pc V E → Bool
  | .rMap k _ => !k.mutable
  | .gRead _ | .sHave | .sVal _ | .sBoth _ _ => true
  | .gDeref _ m | .gDone _ m _ _ => !m
  | _ => false

/-- ... the upgradable guard. -/
def holdsU : Pc V E → Bool
  | .rHaveU _ | .rReady _ _ => true
  | _ => false

/-- ... exclusive access, all readers gone. -/
def excl : Pc V E → Bool
  | .rHaveW _ | .rBuild _ | .rSet _ _ | .rFlag _ _ | .rFail _ _ | .rDown _ _ | .gMut _ | .gWrite _
  | .gAsg _ _ | .xHave _ | .xVal _ | .xRel _ _ | .wHave _ _ | .wVal _ _ | .wRet _ _ _ => true
  | .rMap k _ => k.mutable
  | .gDeref _ m | .gDone _ m _ _ => m
  | _ => false

/-- ... the exclusive bit, waiting for readers. -/
def claiming : Pc V E → Bool
  | .rUpg _ | .rUpg2 _ _ | .xWait _ => true
  | _ => false

/-- ... flag and value differ for the moment. -/
def mid : Pc V E → Bool
  | .rFlag _ _ | .xVal _ | .wVal _ _ => true
  | _ => false

/-- The builder run recorded by a call which found or made the value `v`. -/
def ranOk (ran : Option (Outcome V E)) (v : Option V) : Prop :=
  v.isSome = true ∧ ∀ o, ran = some o → o.value? = v

/-- What a program point says about value and flag. -/
def memAt (v : Option V) (f : Bool) : Pc V E → Prop
  | .rUpg _ | .rHaveW _ | .rBuild _ | .rSet _ _ => v = none
  | .rFail _ o => v = none ∧ o.value? = none
  | .rFlag _ w => v = some w ∧ f = false
  | .rDown _ ran | .rReady _ ran => ranOk ran v
  | .rMap k ran => ranOk ran v ∧ k ≠ .lazyInit
  | .rUpg2 k ran => ranOk ran v ∧ k.mutable = true
  | .gRead _ | .gMut _ | .gDeref _ _ | .gAsg _ _ => v.isSome = true
  | .gDone g m op w => (op = .deref g ∧ v = some w) ∨ ∃ u, op = .assign g u ∧ m = true ∧ v = some u
  | .xVal t | .wVal _ t => f = t.isSome
  | .xRel t _ | .wRet _ t _ => v = t
  | .sVal o => o = v
  | .sBoth o b => o = v ∧ b = v.isSome
  | .ub => False
  | _ => True

/-- Lock and memory bookkeeping. -/
structure Core (s : St V E) : Prop where
  wr : ∀ p, s.lk.wr = some p ↔ (excl (s.pc p) || claiming (s.pc p)) = true
  upg : ∀ p, s.lk.upg = some p ↔ holdsU (s.pc p) = true
  sh : ∀ p, p ∈ s.lk.shared ↔ holdsS (s.pc p) = true
  nodup : s.lk.shared.Nodup
  wu : s.lk.wr = none ∨ s.lk.upg = none
  ex : ∀ p, excl (s.pc p) = true → s.lk.shared = []
  mem : ∀ p, memAt s.value s.flag (s.pc p)
  quiet : (∀ p, mid (s.pc p) = false) → s.flag = s.value.isSome

theorem core_init (v₀ : Option V) : Core (init v₀ : St V E) := by
  constructor <;> simp [init, Lock.free, holdsS, holdsU, excl, claiming, memAt]

/-- A process holding no lock says nothing about memory. -/
theorem memAt_free {v v' : Option V} {f f' : Bool} {c : Pc V E} (hS : holdsS c = false) (hU : holdsU c = false)
    (hE : excl c = false) (hC : claiming c = false) (h : memAt v f c) : memAt v' f' c := by
  cases c <;> simp_all [holdsS, holdsU, excl, claiming, memAt]

/-- While one process has exclusive access nobody else holds anything. -/
theorem Core.alone {s : St V E} (h : Core s) {p q : Nat} (hp : excl (s.pc p) = true) (hq : q ≠ p) :
    holdsS (s.pc q) = false ∧ holdsU (s.pc q) = false ∧ excl (s.pc q) = false ∧ claiming (s.pc q) = false := by
  have h1 := (h.wr p).2 (by simp [hp])
  have h2 := h.ex p hp
  have h3 := h.sh q
  have h4 := h.upg q
  have h5 := h.wr q
  have h6 := h.wu
  refine ⟨?_, ?_, ?_, ?_⟩
  · rw [h2] at h3; simpa using h3
  · rw [h1] at h6; simp at h6; rw [h6] at h4; simpa using h4
  · rw [h1] at h5; simp [Ne.symm hq] at h5; exact h5.1
  · rw [h1] at h5; simp [Ne.symm hq] at h5; exact h5.2

theorem mid_excl {c : Pc V E} (h : mid c = true) : excl c = true := by
  cases c <;> simp_all [mid, excl]

set_option linter.unusedSimpArgs false
set_option maxHeartbeats 1000000 in
theorem core_go {s s' : St V E} {p} (h : Core s) (hs : go s p = some s') : Core s' := by
  have hal := @Core.alone V E s h p
  obtain ⟨hwr, hupg, hsh, hnd, hwu, hex, hmem, hq⟩ := h
  have hmp := hmem p
  have hshp := hsh p
  have hwrp := hwr p
  have hupgp := hupg p
  have hexp := hex p
  have hmf := @memAt_free V E
  have hme := @mid_excl V E
  have hqp : mid (s.pc p) = false → (∀ q, q ≠ p → mid (s.pc q) = false) → s.flag = s.value.isSome := by
    intro h1 h2; apply hq; intro q; by_cases hqp : q = p
    · rw [hqp, h1]
    · exact h2 q hqp
  unfold go at hs
  split at hs <;> rename_i hpc
  all_goals try (repeat' split at hs)
  all_goals first
    | (simp at hs; done)
    | (simp only [Option.map_eq_some_iff, Lock.tryUpgradable, Lock.claim, Lock.tryShared] at hs
       obtain ⟨l, hl, rfl⟩ := hs
       split at hl <;> simp at hl
       subst hl)
    | (simp only [Option.some.injEq] at hs
       subst hs)
  all_goals rw [hpc] at hmp hshp hwrp hupgp hexp hal hqp
  all_goals simp [holdsS, holdsU, excl, claiming, memAt, mid] at hmp hshp hwrp hupgp hexp
  all_goals refine ⟨fun q => ?_, fun q => ?_, fun q => ?_, ?_, ?_, fun q => ?_, fun q => ?_, ?_⟩
  all_goals simp only [St.to, St.ret, St.lin, St.ev, Lock.upgradeClaim, Lock.dropWrite, Lock.dropUpg, Lock.dropShared, Lock.downgradeToUpg, Lock.downgradeToShared, heldGuard]
  all_goals try (by_cases hqe : q = p)
  all_goals first
   | (simp only [upd, hqe, if_false]; first | exact hwr q | exact hupg q | exact hsh q | exact hmem q | exact hex q)
   | (subst hqe; simp [upd, holdsS, holdsU, excl, claiming, mid, memAt, *]; done)
   | (intro hm; apply hqp rfl; intro q hqe; have hm := hm q; simpa [upd, hqe] using hm)
   | (intro hm; have hm := hm p; simp [upd, mid] at hm; done)
   | grind [upd, holdsS, holdsU, excl, claiming, mid, memAt, ranOk, Lock.drained, GetKind.mutable, Outcome.value?]

set_option maxHeartbeats 1000000 in
theorem core_invoke {s s' : St V E} {p op} (h : Core s) (hs : invoke s p op = some s') : Core s' := by
  obtain ⟨hwr, hupg, hsh, hnd, hwu, hex, hmem, hq⟩ := h
  have hmp := hmem p
  have hshp := hsh p
  have hwrp := hwr p
  have hupgp := hupg p
  have hexp := hex p
  have hqp : mid (s.pc p) = false → (∀ q, q ≠ p → mid (s.pc q) = false) → s.flag = s.value.isSome := by
    intro h1 h2; apply hq; intro q; by_cases hqp : q = p
    · rw [hqp, h1]
    · exact h2 q hqp
  unfold invoke at hs
  split at hs <;> rename_i hpc
  all_goals try split at hs
  all_goals first
    | (simp at hs; done)
    | (simp only [Option.some.injEq] at hs
       subst hs)
  all_goals rw [hpc] at hmp hshp hwrp hupgp hexp hqp
  all_goals simp [holdsS, holdsU, excl, claiming, memAt, mid] at hmp hshp hwrp hupgp hexp
  all_goals refine ⟨fun q => ?_, fun q => ?_, fun q => ?_, hnd, hwu, fun q => ?_, fun q => ?_, ?_⟩
  all_goals simp only [St.begin]
  all_goals try (by_cases hqe : q = p)
  all_goals first
   | (simp only [upd, hqe, if_false]; first | exact hwr q | exact hupg q | exact hsh q | exact hmem q | exact hex q)
   | (subst hqe; simp [upd, holdsS, holdsU, excl, claiming, mid, memAt, *]; done)
   | (intro hm; apply hqp rfl; intro q hqe; have hm := hm q; simpa [upd, hqe] using hm)

set_option maxHeartbeats 1000000 in
theorem core_finish {s s' : St V E} {p o} (h : Core s) (hs : builderReturns s p o = some s') : Core s' := by
  obtain ⟨hwr, hupg, hsh, hnd, hwu, hex, hmem, hq⟩ := h
  have hmp := hmem p
  have hshp := hsh p
  have hwrp := hwr p
  have hupgp := hupg p
  have hexp := hex p
  have hqp : mid (s.pc p) = false → (∀ q, q ≠ p → mid (s.pc q) = false) → s.flag = s.value.isSome := by
    intro h1 h2; apply hq; intro q; by_cases hqp : q = p
    · rw [hqp, h1]
    · exact h2 q hqp
  unfold builderReturns at hs
  split at hs <;> rename_i hpc
  all_goals try (dsimp only at hs; split at hs)
  all_goals first
    | (simp at hs; done)
    | (simp only [Option.some.injEq] at hs
       subst hs)
  all_goals rw [hpc] at hmp hshp hwrp hupgp hexp hqp
  all_goals simp [holdsS, holdsU, excl, claiming, memAt, mid] at hmp hshp hwrp hupgp hexp
  all_goals refine ⟨fun q => ?_, fun q => ?_, fun q => ?_, hnd, hwu, fun q => ?_, fun q => ?_, ?_⟩
  all_goals simp only [St.to, St.lin, St.ev]
  all_goals try (by_cases hqe : q = p)
  all_goals first
   | (simp only [upd, hqe, if_false]; first | exact hwr q | exact hupg q | exact hsh q | exact hmem q | exact hex q)
   | (subst hqe; simp [upd, holdsS, holdsU, excl, claiming, mid, memAt, *]; done)
   | (intro hm; apply hqp rfl; intro q hqe; have hm := hm q; simpa [upd, hqe] using hm)
   | (cases o <;> grind [upd, memAt, Outcome.value?])

set_option maxHeartbeats 1000000 in
theorem core_drop {s s' : St V E} {p} (h : Core s) (hs : dropGuard s p = some s') : Core s' := by
  obtain ⟨hwr, hupg, hsh, hnd, hwu, hex, hmem, hq⟩ := h
  have hmp := hmem p
  have hshp := hsh p
  have hwrp := hwr p
  have hupgp := hupg p
  have hexp := hex p
  have hqp : mid (s.pc p) = false → (∀ q, q ≠ p → mid (s.pc q) = false) → s.flag = s.value.isSome := by
    intro h1 h2; apply hq; intro q; by_cases hqp : q = p
    · rw [hqp, h1]
    · exact h2 q hqp
  unfold dropGuard at hs
  split at hs <;> rename_i hpc
  all_goals first
    | (simp at hs; done)
    | (simp only [Option.some.injEq] at hs
       subst hs)
  all_goals rw [hpc] at hmp hshp hwrp hupgp hexp hqp
  all_goals simp [holdsS, holdsU, excl, claiming, memAt, mid] at hmp hshp hwrp hupgp hexp
  all_goals refine ⟨fun q => ?_, fun q => ?_, fun q => ?_, ?_, ?_, fun q => ?_, fun q => ?_, ?_⟩
  all_goals simp only [St.to, St.ev, Lock.dropWrite, Lock.dropShared]
  all_goals try (by_cases hqe : q = p)
  all_goals first
   | (simp only [upd, hqe, if_false]; first | exact hwr q | exact hupg q | exact hsh q | exact hmem q | exact hex q)
   | (subst hqe; simp [upd, holdsS, holdsU, excl, claiming, mid, memAt, *]; done)
   | (intro hm; apply hqp rfl; intro q hqe; have hm := hm q; simpa [upd, hqe] using hm)
   | grind [upd, holdsS, holdsU, excl, claiming, mid, memAt]

set_option maxHeartbeats 1000000 in
theorem core_abandon {s s' : St V E} {p} (h : Core s) (hs : abandon s p = some s') : Core s' := by
  obtain ⟨hwr, hupg, hsh, hnd, hwu, hex, hmem, hq⟩ := h
  have hmp := hmem p
  have hshp := hsh p
  have hwrp := hwr p
  have hupgp := hupg p
  have hexp := hex p
  have hqp : mid (s.pc p) = false → (∀ q, q ≠ p → mid (s.pc q) = false) → s.flag = s.value.isSome := by
    intro h1 h2; apply hq; intro q; by_cases hqp : q = p
    · rw [hqp, h1]
    · exact h2 q hqp
  unfold abandon at hs
  split at hs <;> rename_i hpc
  all_goals first
    | (simp at hs; done)
    | (simp only [Option.some.injEq] at hs
       subst hs)
  all_goals rw [hpc] at hmp hshp hwrp hupgp hexp hqp
  all_goals simp [holdsS, holdsU, excl, claiming, memAt, mid] at hmp hshp hwrp hupgp hexp
  all_goals refine ⟨fun q => ?_, fun q => ?_, fun q => ?_, ?_, ?_, fun q => ?_, fun q => ?_, ?_⟩
  all_goals simp only [quit, St.to, St.ev, Lock.dropWrite, Lock.dropShared]
  all_goals try (by_cases hqe : q = p)
  all_goals first
   | (simp only [upd, hqe, if_false]; first | exact hwr q | exact hupg q | exact hsh q | exact hmem q | exact hex q)
   | (subst hqe; simp [upd, holdsS, holdsU, excl, claiming, mid, memAt, *]; done)
   | (intro hm; apply hqp rfl; intro q hqe; have hm := hm q; simpa [upd, hqe] using hm)
   | grind [upd, holdsS, holdsU, excl, claiming, mid, memAt]

theorem core_step {s s' : St V E} {p a} (h : Core s) (hs : step s p a = some s') : Core s' := by
  cases a with
  | call op => exact core_invoke h hs
  | go => exact core_go h hs
  | finish o => exact core_finish h hs
  | drop => exact core_drop h hs

theorem core_reachC {v₀ : Option V} {s : St V E} (h : ReachC v₀ s) : Core s := by
  induction h with
  | init => exact core_init _
  | step _ hs ih => exact core_step ih hs
  | abandon _ hs ih => exact core_abandon ih hs

theorem core_reach {v₀ : Option V} {s : St V E} (h : Reach v₀ s) : Core s := core_reachC (reach_c h)

end Verif.Proof.Sync
