import Verif.Proof.SyncInv
/-!
# Progress of the sync lazy container (helper lemmas)
-/

namespace Verif.Proof.Sync
open Verif.Spec Verif.Model Verif.Model.Sync

variable {V E : Type}

/-- Steps a process can still make without beginning a new call. -/
def rank : Pc V E → Nat
  | .idle | .ub => 0
  | .gRead _ | .gMut _ | .gWrite _ => 1
  | .rStart _ => 12 | .rHaveU _ => 11 | .rUpg _ => 10 | .rHaveW _ => 9 | .rBuild _ => 8 | .rSet _ _ => 7
  | .rFlag _ _ => 6 | .rFail _ _ => 1 | .rDown _ _ => 5 | .rReady _ _ => 4 | .rUpg2 _ _ => 3 | .rMap _ _ => 2
  | .gDeref _ _ => 3 | .gDone _ _ _ _ => 2 | .gAsg _ _ => 3
  | .xStart _ => 6 | .xWait _ => 5 | .xHave _ => 4 | .xVal _ => 3 | .xRel _ _ => 1
  | .wHave _ _ => 4 | .wVal _ _ => 3 | .wRet _ _ _ => 2
  | .sStart => 4 | .sHave => 3 | .sVal _ => 2 | .sBoth _ _ => 1
  | .iStart => 2 | .iDone _ => 1

theorem rank_le (c : Pc V E) : rank c ≤ 12 := by cases c <;> simp [rank]

theorem rank_held (m : Bool) (g : CallId) : rank (heldGuard m g : Pc V E) = 1 := by cases m <;> rfl

set_option linter.unusedSimpArgs false
/-- A step which begins no call uses up rank of its process and leaves the others alone. -/
theorem rank_step {s s' : St V E} {p a} (ha : ∀ op, a ≠ .call op) (hs : step s p a = some s') :
    rank (s'.pc p) < rank (s.pc p) ∧ ∀ q, q ≠ p → s'.pc q = s.pc q := by
  cases a with
  | call op => exact absurd rfl (ha op)
  | go =>
    simp only [step, go] at hs
    split at hs <;> rename_i hpc
    all_goals try (repeat' split at hs)
    all_goals first
      | (simp at hs; done)
      | (simp only [Option.map_eq_some_iff, Lock.tryUpgradable, Lock.claim, Lock.tryShared] at hs
         obtain ⟨l, hl, rfl⟩ := hs
         split at hl <;> simp at hl
         subst hl)
      | (simp only [Option.some.injEq] at hs
         subst hs)
    all_goals refine ⟨?_, by intro q hq; simp [St.to, St.ret, St.lin, St.ev, upd, hq]⟩
    all_goals
      rw [hpc]
      simp [St.to, St.ret, St.lin, St.ev, upd, rank_held]
      simp [rank]
  | finish o =>
    simp only [step, builderReturns] at hs
    split at hs <;> rename_i hpc
    all_goals try split at hs
    all_goals first
      | (simp at hs; done)
      | (simp only [Option.some.injEq] at hs
         subst hs)
    all_goals refine ⟨?_, by intro q hq; simp [St.to, St.ret, St.lin, St.ev, upd, hq]⟩
    all_goals
      rw [hpc]
      simp [St.to, St.ret, St.lin, St.ev, upd, rank]
  | drop =>
    simp only [step, dropGuard] at hs
    split at hs <;> rename_i hpc
    all_goals first
      | (simp at hs; done)
      | (simp only [Option.some.injEq] at hs
         subst hs)
    all_goals refine ⟨?_, by intro q hq; simp [St.to, St.ret, St.lin, St.ev, upd, hq]⟩
    all_goals
      rw [hpc]
      simp [St.to, St.ret, St.lin, St.ev, upd, rank]

/-- Total rank over a list of processes. -/
def total (s : St V E) (ps : List Nat) : Nat := (ps.map fun p => rank (s.pc p)).sum

theorem total_le (s : St V E) (ps : List Nat) : total s ps ≤ 12 * ps.length := by
  induction ps with
  | nil => simp [total]
  | cons p ps ih =>
    have := rank_le (s.pc p)
    simp only [total, List.map_cons, List.sum_cons, List.length_cons] at ih ⊢
    omega

theorem total_step {s s' : St V E} {p a} {ps : List Nat} (ha : ∀ op, a ≠ .call op) (hs : step s p a = some s')
    (hn : ps.Nodup) (hp : p ∈ ps) : total s' ps < total s ps := by
  obtain ⟨h1, h2⟩ := rank_step ha hs
  induction ps with
  | nil => simp at hp
  | cons q ps ih =>
    simp only [List.nodup_cons] at hn
    simp only [total, List.map_cons, List.sum_cons] at ih ⊢
    by_cases hq : q = p
    · subst hq
      have : ps.map (fun p => rank (s'.pc p)) = ps.map (fun p => rank (s.pc p)) := by
        apply List.map_congr_left
        intro r hr
        rw [h2 r (by rintro rfl; exact hn.1 hr)]
      rw [this]; omega
    · have := ih hn.2 (by simpa [Ne.symm hq] using hp)
      rw [h2 q hq]; omega

/-- Points which wait for the lock. -/
def waiting : Pc V E → Bool
  | .rStart _ | .xStart _ | .sStart | .rUpg _ | .rUpg2 _ _ | .xWait _ => true
  | _ => false

/-- Only waiting for the lock, a running builder, or the user holds a process up. -/
theorem go_enabled {s : St V E} {q : Nat} (hw : waiting (s.pc q) = false) (hr : (s.pc q).resting = false)
    (hb : ∀ k, s.pc q ≠ .rBuild k) (hu : s.pc q ≠ .ub) : ∃ s', go s q = some s' := by
  unfold go
  cases hc : s.pc q
  all_goals simp [hc, waiting, Pc.resting] at hw hr hb hu
  all_goals first
    | (exact ⟨_, rfl⟩)
    | (cases hv : s.value <;> exact ⟨_, rfl⟩)
    | (rename_i k ran; cases k <;> exact ⟨_, rfl⟩)
    | (rename_i x; cases x <;> exact ⟨_, rfl⟩)

/-- Nobody is blocked for good: without outstanding guards and running builders some process can go on. -/
theorem progress {s : St V E} (h : Core s) {p : Nat} (hp : s.pc p ≠ .idle)
    (hrest : ∀ q, s.pc q ≠ .idle → (s.pc q).resting = false) (hb : ∀ q k, s.pc q ≠ .rBuild k) :
    ∃ q s', go s q = some s' := by
  have hub : ∀ q, s.pc q ≠ .ub := by
    intro q hq; have := h.mem q; rw [hq] at this; exact this
  have hgo : ∀ q, s.pc q ≠ .idle → waiting (s.pc q) = false → ∃ q s', go s q = some s' := fun q h1 h2 =>
    ⟨q, go_enabled h2 (hrest q h1) (hb q) (hub q)⟩
  have hsh : ∀ q, holdsS (s.pc q) = true → ∃ q s', go s q = some s' := by
    intro q hq
    apply hgo q
    · intro hc; rw [hc] at hq; cases hq
    · revert hq; cases s.pc q <;> simp [holdsS, waiting]
  cases hwr : s.lk.wr with
  | some q =>
    have h1 := (h.wr q).1 hwr
    by_cases he : excl (s.pc q) = true
    · apply hgo q
      · intro hc; rw [hc] at he; cases he
      · revert he; cases s.pc q <;> simp [excl, waiting]
    · have hc : claiming (s.pc q) = true := by simpa [he] using h1
      cases hs : s.lk.shared with
      | nil =>
        refine ⟨q, ?_⟩
        unfold go
        revert hc
        cases s.pc q <;> simp [claiming, Lock.drained, hs]
      | cons r rs =>
        exact hsh r ((h.sh r).1 (by simp [hs]))
  | none =>
    cases hupg : s.lk.upg with
    | some q =>
      have h1 := (h.upg q).1 hupg
      apply hgo q
      · intro hc; rw [hc] at h1; cases h1
      · revert h1; cases s.pc q <;> simp [holdsU, waiting]
    | none =>
      by_cases hw : waiting (s.pc p) = true
      · refine ⟨p, ?_⟩
        have h1 := h.wr p
        rw [hwr] at h1
        unfold go
        revert hw h1
        cases s.pc p <;>
          simp [waiting, excl, claiming, Lock.tryUpgradable, Lock.claim, Lock.tryShared, hwr, hupg]
      · exact hgo p hp (by simpa using hw)

/-- If anybody is inside the container something can happen without new calls. -/
theorem progress_any {s : St V E} (h : Core s) {p : Nat} (hp : s.pc p ≠ .idle) (o : Outcome V E) :
    ∃ q a s', (a = .go ∨ a = .drop ∨ a = .finish o) ∧ step s q a = some s' := by
  by_cases hr : ∃ q, s.pc q ≠ .idle ∧ (s.pc q).resting = true
  · obtain ⟨q, h1, h2⟩ := hr
    refine ⟨q, .drop, ?_⟩
    simp only [step, dropGuard]
    revert h1 h2
    cases s.pc q <;> simp [Pc.resting]
  · by_cases hb : ∃ q k, s.pc q = .rBuild k
    · obtain ⟨q, k, hb⟩ := hb
      refine ⟨q, .finish o, ?_⟩
      simp only [step, builderReturns, hb]
      cases o <;> simp
    · have h1 : ∀ q, s.pc q ≠ .idle → (s.pc q).resting = false := by
        intro q hq
        cases hx : (s.pc q).resting
        · rfl
        · exact absurd ⟨q, hq, hx⟩ hr
      have h2 : ∀ q k, s.pc q ≠ .rBuild k := fun q k hq => hb ⟨q, k, hq⟩
      obtain ⟨q, s', h3⟩ := progress h hp h1 h2
      exact ⟨q, .go, s', .inl rfl, h3⟩

end Verif.Proof.Sync
