import Verif.Proof.AsyncMixedCycle
import Verif.Props.AsyncLocks
/-!
# Lazy and lock-protected fields of async structs together: order of arrival (helper lemmas)
-/

namespace Verif.Proof.AsyncMixed
open Verif.Spec Verif.Model Verif.Model.AsyncMixed
open Verif.Model.Async (ALock)

set_option linter.unusedSectionVars false
set_option linter.unusedSimpArgs false
variable {F L V W E : Type} [DecidableEq F] [DecidableEq L] {eqv : W → W → Bool} {dep : F ⊕ L → F ⊕ L → Prop}
  {v₀ : F → Option V} {w₀ : L → W} {s s' : St F L V W E}

/-- Call `q` has a guard of container `r`. -/
def Has (s : St F L V W E) (r : F ⊕ L) (q : Nat) : Prop := q ∈ (lockOf s r).shared ∨ (lockOf s r).wr = some q

/-- Only who waits gets a guard of a lazy container. -/
theorem lazy_gain {v : Option V} {o o' : Async.St V E} {p q : Nat} {b : Async.Act V E} (hr : Async.Reach v o)
    (hs : Async.step o p b = some o') (h : q ∈ o'.lk.shared ∨ o'.lk.wr = some q)
    (hn : ¬ (q ∈ o.lk.shared ∨ o.lk.wr = some q)) : q = p ∧ b = .go ∧ AsyncMulti.queued (o.pc p) = true := by
  have h0 := Proof.Async.inv_reach hr
  have h1 := Proof.Async.inv_reach (.step hr hs)
  rw [h0.sh, h0.wr] at hn
  rw [h1.sh, h1.wr] at h
  have hq : q = p := by
    apply Classical.byContradiction
    intro hne
    rw [AsyncMulti.others hs hne] at h
    exact hn h
  subst hq
  refine ⟨rfl, ?_⟩
  cases b with
  | go =>
    refine ⟨rfl, ?_⟩
    simp only [Async.step, Async.go] at hs
    cases hpc : o.pc q <;> simp [hpc, Proof.Async.emb, Proof.Sync.holdsS, Proof.Async.holdsW] at hn hs <;>
      first
      | rfl
      | (subst hs; simp [Async.St.to, Async.St.ret, Async.St.lin, Async.St.ev, Proof.Async.emb, Proof.Sync.holdsS,
          Proof.Async.holdsW] at h)
  | call op =>
    exfalso
    simp only [Async.step, Async.invoke] at hs
    cases hpc : o.pc q <;> cases op <;>
      simp [hpc, Proof.Async.emb, Proof.Sync.holdsS, Proof.Async.holdsW] at hn hs <;>
      (subst hs; simp [Async.St.begin, Proof.Async.emb, Proof.Sync.holdsS, Proof.Async.holdsW] at h)
  | finish r =>
    exfalso
    simp only [Async.step, Async.builderReturns] at hs
    cases hpc : o.pc q <;> simp [hpc, Proof.Async.emb, Proof.Sync.holdsS, Proof.Async.holdsW] at hn hs
  | drop =>
    exfalso
    simp only [Async.step, Async.dropGuard] at hs
    cases hpc : o.pc q <;> simp [hpc, Proof.Async.emb, Proof.Sync.holdsS, Proof.Async.holdsW] at hn hs
  | cancel =>
    exfalso
    simp only [Async.step, Async.cancel] at hs
    cases hpc : o.pc q <;> simp [hpc, Proof.Async.emb, Proof.Sync.holdsS, Proof.Async.holdsW] at hn hs <;>
      (subst hs; simp [Async.St.quit, Proof.Async.emb, Proof.Sync.holdsS, Proof.Async.holdsW] at h)

/-- What an action on a lazy call does. -/
theorem fstep_lazy {i : F} {p : Nat} {b : FAct L V W E} (h : fstep eqv s (.lazy i p) b = some s') :
    ∃ b' o, Async.step (s.obj i) p b' = some o ∧ s' = put s i p o ∧
      (b' = .go → AsyncMulti.queued ((s.obj i).pc p) = true → (s.queue i).head? = some p) := by
  cases b <;> simp only [fstep] at h
  case go =>
    split at h
    · rename_i hc
      simp only [Option.map_eq_some_iff] at h
      obtain ⟨o, ho, rfl⟩ := h
      refine ⟨.go, o, ho, rfl, fun _ hq => ?_⟩
      rcases hc with hc | hc
      · rw [hc] at hq; cases hq
      · exact hc
    · cases h
  case panic | useLock | dropLock => cases h
  case use op =>
    simp only [Option.map_eq_some_iff] at h
    obtain ⟨o, ho, rfl⟩ := h
    exact ⟨.call op, o, ho, rfl, nofun⟩
  case finish r =>
    simp only [Option.map_eq_some_iff] at h
    obtain ⟨o, ho, rfl⟩ := h
    exact ⟨.finish r, o, ho, rfl, nofun⟩
  case drop =>
    simp only [Option.map_eq_some_iff] at h
    obtain ⟨o, ho, rfl⟩ := h
    exact ⟨.drop, o, ho, rfl, nofun⟩
  case cancel =>
    simp only [Option.map_eq_some_iff] at h
    obtain ⟨o, ho, rfl⟩ := h
    exact ⟨.cancel, o, ho, rfl, nofun⟩

theorem fstep_lock {p : Nat} {b : FAct L V W E} (h : fstep eqv s (.lock p) b = some s') :
    ∃ b' l, AsyncLocks.step eqv s.lk p b' = some l ∧ s' = { s with lk := l } := by
  rcases fstep_cases h with ⟨i, p, o, b', hf, _⟩ | ⟨q, l, b', hf, h1, h2, _⟩
  · cases hf
  · cases hf; exact ⟨b', l, h1, h2⟩

theorem step_states {t : Nat} {f : Fr F} {b : FAct L V W E} (h : step eqv s t (.act f b) = some s') :
    ∃ s₁, fstep eqv s f b = some s₁ ∧ (∀ r, lockOf s' r = lockOf s₁ r) ∧ ∀ r, waiting s' r = waiting s₁ r := by
  obtain ⟨s₁, h1, h2, h3, h4⟩ := (acted h).on
  refine ⟨s₁, h1, ?_, ?_⟩ <;> intro r <;> cases r <;> simp [lockOf, waiting, h2, h3, h4]

/-- Only the first of the queue gets a guard. -/
theorem step_gain {t : Nat} {a : Act F L V W E} (hi : Inv eqv v₀ w₀ s) (h : step eqv s t a = some s') {r : F ⊕ L} {q : Nat}
    (hq : Has s' r q) (hn : ¬ Has s r q) : (waiting s r).head? = some q := by
  cases a with
  | call j op =>
    exfalso
    simp only [step] at h
    split at h
    case isFalse => cases h
    simp only [Option.map_eq_some_iff] at h
    obtain ⟨o, ho, rfl⟩ := h
    have ho' : Async.step (s.obj j) s.next (.call op) = some o := ho
    cases r with
    | inr k => exact hn hq
    | inl i =>
      by_cases hij : i = j
      · subst hij
        simp only [Has, lockOf, upd_same] at hq hn
        exact nomatch (lazy_gain (hi.pool.obj i) ho' hq hn).2.1
      · simp only [Has, lockOf, upd_other _ _ hij] at hq hn
        exact hn hq
  | lock op =>
    simp only [step] at h
    split at h
    case isFalse => cases h
    simp only [Option.map_eq_some_iff] at h
    obtain ⟨l, hl, rfl⟩ := h
    have hl' : AsyncLocks.step eqv s.lk s.next (.call op) = some l := hl
    cases r with
    | inl i => exact absurd hq hn
    | inr k => exact (Props.AsyncLocks.gain_step hl' hq hn).2
  | fork c =>
    obtain ⟨_, rfl⟩ := forked h
    exfalso; apply hn; cases r <;> exact hq
  | ret =>
    obtain ⟨u, _, _, _, rfl⟩ := returned h
    exfalso; apply hn; cases r <;> exact hq
  | act f b =>
    obtain ⟨s₁, h1, h2, _⟩ := step_states h
    simp only [Has, h2] at hq
    cases f with
    | lazy j p =>
      obtain ⟨b', o, h3, rfl, h4⟩ := fstep_lazy h1
      cases r with
      | inr k => exact absurd hq hn
      | inl i =>
        by_cases hij : i = j
        · subst hij
          simp only [Has, lockOf, put, upd_same] at hq hn
          obtain ⟨rfl, h5, h6⟩ := lazy_gain (hi.pool.obj i) h3 hq hn
          exact h4 h5 h6
        · simp only [Has, lockOf, put, upd_other _ _ hij] at hq hn
          exact absurd hq hn
    | lock p =>
      obtain ⟨b', l, h3, rfl⟩ := fstep_lock h1
      cases r with
      | inl i => exact absurd hq hn
      | inr k => exact (Props.AsyncLocks.gain_step h3 hq hn).2

/-- Who waits and is acted upon looks different afterwards. -/
theorem waiting_moves {f : Fr F} {b : FAct L V W E} (h : fstep eqv s f b = some s') {r : F ⊕ L} (hw : wants (look s f) = some r) :
    look s' f ≠ look s f := by
  intro he
  cases hb : repeats b
  · have := fstep_rank h hb
    rw [he] at this
    exact Nat.lt_irrefl _ this
  · cases f with
    | lazy i p =>
      simp only [look, wants] at hw
      split at hw
      · rename_i hq
        cases b <;> simp [repeats] at hb <;> simp only [fstep] at h
        · simp only [Option.map_eq_some_iff] at h
          obtain ⟨o, ho, _⟩ := h
          rename_i op
          revert hq ho
          cases hpc : (s.obj i).pc p <;> simp [AsyncMulti.queued] <;> cases op <;> simp [Async.invoke, hpc]
        · cases h
      · cases hw
    | lock p =>
      simp only [look, wants, Option.map_eq_some_iff] at hw
      obtain ⟨k, hk, _⟩ := hw
      rcases fstep_cases h with ⟨_, _, _, _, hf, _⟩ | ⟨q, l, b', hf, h1, h2, _⟩
      · cases hf
      · cases hf
        subst h2
        simp only [look, View.lock.injEq] at he
        exact Props.AsyncLocks.waiting_moves hk h1 he.1

/-- How queues change: somebody new at the end, somebody leaves, or both. -/
theorem step_queue {t : Nat} {a : Act F L V W E} (hi : Inv eqv v₀ w₀ s) (h : step eqv s t a = some s') {r : F ⊕ L} {p : Nat}
    (hw : wants (look s (frame r p)) = some r) (hsame : look s' (frame r p) = look s (frame r p)) :
    waiting s' r = waiting s r ∨ ∃ x, x ≠ p ∧
      (waiting s' r = waiting s r ++ [x] ∨ waiting s' r = (waiting s r).erase x ∨ waiting s' r = (waiting s r).erase x ++ [x]) := by
  have hp : p < s.next := by
    have hg : gone (look s (frame r p)) = false := by
      cases hx : gone (look s (frame r p))
      · rfl
      · exfalso
        cases r with
        | inl i =>
          rw [frame, look, gone_lazy] at hx
          simp [frame, look, hx, wants, AsyncMulti.queued] at hw
        | inr k =>
          rw [frame, look, gone_lock] at hx
          simp [frame, look, hx, wants, AsyncLocks.wants] at hw
    obtain ⟨u, hu⟩ := hi.owner _ hg
    have := (hi.inside u _ hu).1
    cases r <;> exact this
  cases a with
  | call j op =>
    simp only [step] at h
    split at h
    case isFalse => cases h
    simp only [Option.map_eq_some_iff] at h
    obtain ⟨o, ho, rfl⟩ := h
    cases r with
    | inr k => exact .inl rfl
    | inl i =>
      by_cases hij : i = j
      · subst hij
        simp only [waiting, upd_same]
        split
        · exact .inr ⟨s.next, by omega, .inl rfl⟩
        · exact .inl rfl
      · simp only [waiting, upd_other _ _ hij]; exact .inl trivial
  | lock op =>
    simp only [step] at h
    split at h
    case isFalse => cases h
    simp only [Option.map_eq_some_iff] at h
    obtain ⟨l, hl, rfl⟩ := h
    have hl' : AsyncLocks.step eqv s.lk s.next (.call op) = some l := hl
    cases r with
    | inl i => exact .inl rfl
    | inr k =>
      rcases Props.AsyncLocks.queue_step hl' k with h1 | h1 | h1 | h1
      · exact .inl h1
      · exact .inr ⟨s.next, by omega, .inl h1⟩
      · exact .inr ⟨s.next, by omega, .inr (.inl h1)⟩
      · exact .inr ⟨s.next, by omega, .inr (.inr h1)⟩
  | fork c =>
    obtain ⟨_, rfl⟩ := forked h
    left; cases r <;> rfl
  | ret =>
    obtain ⟨u, _, _, _, rfl⟩ := returned h
    left; cases r <;> rfl
  | act f b =>
    have hon := (acted h).on
    obtain ⟨s₁, h1, _, h2⟩ := step_states h
    rw [h2]
    have hne : f ≠ frame r p := by
      rintro rfl
      obtain ⟨s₂, e1, e2, e3, _⟩ := hon
      exact waiting_moves e1 hw (by rw [← hsame]; exact (look_congr e2 e3 _).symm)
    cases f with
    | lazy j q =>
      obtain ⟨b', o, h3, rfl, h4⟩ := fstep_lazy h1
      cases r with
      | inr k => exact .inl rfl
      | inl i =>
        by_cases hij : i = j
        · subst hij
          have hqp : q ≠ p := by rintro rfl; exact hne rfl
          simp only [waiting, put, upd_same]
          split
          · exact .inl rfl
          · exact .inr ⟨q, hqp, .inr (.inl rfl)⟩
        · simp only [waiting, put, upd_other _ _ hij]; exact .inl trivial
    | lock q =>
      obtain ⟨b', l, h3, rfl⟩ := fstep_lock h1
      cases r with
      | inl i => exact .inl rfl
      | inr k =>
        have hqp : q ≠ p := by rintro rfl; exact hne rfl
        rcases Props.AsyncLocks.queue_step h3 k with h4 | h4 | h4 | h4
        · exact .inl h4
        · exact .inr ⟨q, hqp, .inl h4⟩
        · exact .inr ⟨q, hqp, .inr (.inl h4)⟩
        · exact .inr ⟨q, hqp, .inr (.inr h4)⟩

end Verif.Proof.AsyncMixed
