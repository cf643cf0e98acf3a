import Verif.Model.AsyncFallible
import Verif.Proof.Fallible
import Verif.Proof.AsyncFields
/-!
# Async lazy fields with builders which may fail: one container (helper lemmas)
-/

namespace Verif.Proof.AsyncFallible
open Verif.Spec Verif.Model Verif.Model.AsyncMulti Verif.Model.AsyncFallible Verif.Proof.AsyncMulti
open Verif.Model.Fallible (looking feed asks)
open Verif.Proof.Fields (isStart)
open Verif.Proof.AsyncFields (isAbort isEnd running running_excl storing storing_running one_writer)
open Verif.Proof.Fallible (fine failed_ret)

set_option linter.unusedSectionVars false
variable {F V E : Type} [DecidableEq F]

/-! ## One container when nobody sets or clears -/

/-- Where a process can be when only looking calls are made and builders end with `r`. -/
def calm (r : Outcome V E) : Async.Pc V E → Prop
  | .rSet _ v | .rFlag _ v | .gDone _ _ _ v => r = .ok v
  | .rFail _ o => o = r
  | .gWrite _ | .gAsg _ _ | .xStart _ | .xHave _ | .xVal _ | .xRel _ _ | .wHave _ _ | .wVal _ _ | .wRet _ _ _
  | .ub => False
  | _ => True

/-- A container with initial content `c` whose builder ends with `r`, with looking calls only. -/
structure Calm (c : Option V) (r : Outcome V E) (s : Async.St V E) : Prop where
  val : ∀ v, s.value = some v → r = .ok v
  pcs : ∀ p, calm r (s.pc p)
  once : r.value?.isSome = true → s.log.countP isStart ≤ s.log.countP isAbort + 1
  under : r.value?.isSome = true → s.log.countP isAbort < s.log.countP isStart → s.value = none →
    ∃ p, running (s.pc p) = true
  done : r.value?.isSome = true → s.log.countP isEnd ≤ 1
  stored : r.value?.isSome = true → 0 < s.log.countP isEnd → s.value = none → ∃ p, storing (s.pc p) = true
  given : c ≠ none → s.log.countP isStart = 0 ∧ s.log.countP isEnd = 0 ∧ s.value ≠ none
  ans : ∀ id a v, LEv.res id a ∈ s.log → a.ret = .value v → s.value = some v
  lin : ∀ id k a, LEv.lin id (.get k) a ∈ s.log → a.ret = getRet k r ∧ (∀ o, a.ran = some o → o = r) ∧
    (r.value? = none → a.ran = some r)
  deref : ∀ id g a, LEv.lin id (.deref g) a ∈ s.log → ∃ v, r = .ok v ∧ a.ret = .value v

theorem calm_init (c : Option V) (r : Outcome V E) (h : ∀ v, c = some v → r = .ok v) :
    Calm c r (Async.init c : Async.St V E) := by
  refine ⟨h, ?_, ?_, ?_, ?_, ?_, ?_, ?_, ?_, ?_⟩ <;> simp [Async.init, calm]

/-- Steps which neither store a value nor start, end or abort a builder. -/
theorem calm_keep {c : Option V} {r : Outcome V E} {s s' : Async.St V E} {p : Nat} (h : Calm c r s)
    (hv : s'.value = s.value) (hl : s'.log.countP isStart = s.log.countP isStart)
    (hab : s'.log.countP isAbort = s.log.countP isAbort)
    (hen : s'.log.countP isEnd = s.log.countP isEnd)
    (hr : ∀ e ∈ s'.log, e ∈ s.log ∨ fine r s.value e)
    (hp : ∀ q, q ≠ p → s'.pc q = s.pc q) (hc : calm r (s'.pc p)) (hrun : running (s.pc p) = false) : Calm c r s' := by
  obtain ⟨hval, hpcs, honce, hund, hdone, hst, hgiv, hans, hlin, hder⟩ := h
  refine ⟨by rw [hv]; exact hval, fun q => ?_, by rw [hl, hab]; exact honce, ?_, by rw [hen]; exact hdone, ?_,
    by rw [hl, hen, hv]; exact hgiv, ?_, ?_, ?_⟩
  · by_cases hq : q = p
    · subst hq; exact hc
    · rw [hp q hq]; exact hpcs q
  · rw [hl, hv, hab]
    intro h0 h1 h2
    obtain ⟨q, hq⟩ := hund h0 h1 h2
    refine ⟨q, ?_⟩
    by_cases hqp : q = p
    · subst hqp; rw [hrun] at hq; cases hq
    · rw [hp q hqp]; exact hq
  · rw [hen, hv]
    intro h0 h1 h2
    obtain ⟨q, hq⟩ := hst h0 h1 h2
    refine ⟨q, ?_⟩
    by_cases hqp : q = p
    · subst hqp; rw [storing_running hq] at hrun; cases hrun
    · rw [hp q hqp]; exact hq
  · intro id a v h1 h2
    rw [hv]
    rcases hr _ h1 with h3 | h3
    · exact hans id a v h3 h2
    · exact h3 v h2
  · intro id k a h1
    rcases hr _ h1 with h3 | h3
    · exact hlin id k a h3
    · exact h3
  · intro id k a h1
    rcases hr _ h1 with h3 | h3
    · exact hder id k a h3
    · exact h3

/-- A builder run starts. -/
theorem calm_start {c : Option V} {r : Outcome V E} {s : Async.St V E} {p : Nat} {k : GetKind} (hc : Proof.Async.Inv s)
    (h : Calm c r s) (hp : s.pc p = .rCb k) :
    Calm c r ((s.ev (.other (.bstart (s.me p)))).to p (.rBuild k)) := by
  have hv : s.value = none := by have := hc.mem p; rw [hp] at this; exact this
  have hno : ∀ q, running (s.pc q) = false := by
    intro q
    rw [← Bool.not_eq_true]
    intro hq
    have := one_writer hc (p := p) (q := q) (by rw [hp]; rfl) (running_excl hq)
    subst this; rw [hp] at hq; cases hq
  have hz : r.value?.isSome = true → s.log.countP isStart ≤ s.log.countP isAbort := by
    intro h0
    apply Classical.byContradiction
    intro hne
    obtain ⟨q, hq⟩ := h.under h0 (by omega) hv
    rw [hno q] at hq; cases hq
  have hz' : r.value?.isSome = true → s.log.countP isEnd = 0 := by
    intro h0
    apply Classical.byContradiction
    intro hne
    obtain ⟨q, hq⟩ := h.stored h0 (by omega) hv
    have := hno q
    rw [storing_running hq] at this; cases this
  refine ⟨h.val, ?_, ?_, ?_, ?_, ?_, ?_, ?_, ?_, ?_⟩
  · intro q
    by_cases hq : q = p
    · subst hq; simp [Async.St.to, upd, calm]
    · simp only [Async.St.to, Async.St.ev, upd, hq, if_false]; exact h.pcs q
  · intro h0
    have := hz h0
    simp [Async.St.to, Async.St.ev, isStart, isAbort]; omega
  · intro _ _ _
    exact ⟨p, by simp [Async.St.to, upd, running]⟩
  · intro h0
    simp [Async.St.to, Async.St.ev, isEnd, hz' h0]
  · intro h0
    simp [Async.St.to, Async.St.ev, isEnd, hz' h0]
  · intro hne; exact absurd hv (h.given hne).2.2
  · intro id a v h1 h2
    simp [Async.St.to, Async.St.ev] at h1
    exact h.ans id a v h1 h2
  · intro id k a h1
    simp [Async.St.to, Async.St.ev] at h1
    exact h.lin id k a h1
  · intro id k a h1
    simp [Async.St.to, Async.St.ev] at h1
    exact h.deref id k a h1

/-- The value of the builder is stored. -/
theorem calm_set {c : Option V} {r : Outcome V E} {s : Async.St V E} {p : Nat} {k : GetKind} {v : V}
    (hc : Proof.Async.Inv s) (h : Calm c r s) (hp : s.pc p = .rSet k v) :
    Calm c r ({ s with value := some v }.to p (.rFlag k v)) := by
  have hk := h.pcs p
  have hm := hc.mem p
  rw [hp] at hk hm
  simp only [Proof.Async.emb, Proof.Sync.memAt] at hm
  simp only [calm] at hk
  refine ⟨?_, ?_, h.once, ?_, h.done, ?_, ?_, ?_, h.lin, h.deref⟩
  · intro w hw
    simp [Async.St.to] at hw
    exact hw ▸ hk
  · intro q
    by_cases hq : q = p
    · subst hq; simp only [Async.St.to, upd, if_true]; exact hk
    · simp only [Async.St.to, upd, hq, if_false]; exact h.pcs q
  · intro _ _ hw; simp [Async.St.to] at hw
  · intro _ _ hw; simp [Async.St.to] at hw
  · intro hne; exact absurd hm (h.given hne).2.2
  · intro id a w h1 h2
    have := h.ans id a w h1 h2
    rw [hm] at this; cases this

set_option linter.unusedSimpArgs false
set_option maxHeartbeats 2000000 in
theorem calm_go {c : Option V} {r : Outcome V E} {s s' : Async.St V E} {p : Nat} (hc : Proof.Async.Inv s)
    (h : Calm c r s) (hs : Async.go s p = some s') : Calm c r s' := by
  have hmp := hc.mem p
  have hval := h.val
  have hpp := h.pcs p
  have hoth := fun q (hq : q ≠ p) => others (a := .go) hs hq
  have hkeep := fun s' => @calm_keep V E c r s s' p h
  unfold Async.go at hs
  split at hs <;> rename_i hpc
  all_goals try (repeat' split at hs)
  all_goals first
    | (simp at hs; done)
    | (simp only [Option.map_eq_some_iff, Async.ALock.tryWrite, Async.ALock.tryShared] at hs
       obtain ⟨l, hl, rfl⟩ := hs
       split at hl <;> simp at hl
       subst hl)
    | (simp only [Option.some.injEq] at hs
       subst hs)
  all_goals first
    | exact calm_start hc h hpc
    | exact calm_set hc h hpc
    | skip
  all_goals rw [hpc] at hpp hmp hkeep
  all_goals simp [calm, Proof.Async.emb, Proof.Sync.memAt, GetKind.mutable] at hpp hmp
  all_goals refine hkeep _ rfl ?_ ?_ ?_ ?_ hoth ?_ ?_
  all_goals clear hkeep hoth
  all_goals try simp [Async.St.to, Async.St.ret, Async.St.lin, Async.St.ev, isStart, isEnd, isAbort, upd, calm, running, Async.heldGuard, GetKind.mutable]
  all_goals try (intro e h1; exact .inl h1)
  all_goals try (rintro e (h1 | rfl) <;> first | exact .inl h1 | (right; simp [fine]; done) | (right; simp only [fine]))
  all_goals grind [Proof.Sync.ranOk, calm, getRet, Outcome.value?, failed_ret]

set_option maxHeartbeats 1000000 in
theorem calm_call {c : Option V} {r : Outcome V E} {s s' : Async.St V E} {p : Nat} {op : Op V} (h : Calm c r s)
    (hop : looking op = true ∨ ∃ g, op = .deref g) (hs : Async.step s p (.call op) = some s') : Calm c r s' := by
  have hpp := h.pcs p
  have hoth := fun q (hq : q ≠ p) => others hs hq
  have hkeep := fun s' => @calm_keep V E c r s s' p h
  simp only [Async.step, Async.invoke] at hs
  split at hs <;> rename_i hpc
  all_goals try split at hs
  all_goals first
    | (simp at hs; done)
    | (simp only [Option.some.injEq] at hs
       subst hs)
  all_goals simp [looking] at hop
  all_goals rw [hpc] at hpp hkeep
  all_goals simp [calm] at hpp
  all_goals refine hkeep _ rfl ?_ ?_ ?_ ?_ hoth ?_ ?_
  all_goals clear hkeep hoth
  all_goals try simp [Async.St.begin, isStart, isEnd, isAbort, upd, calm, running]
  all_goals (rintro e (h1 | rfl) <;> first | exact .inl h1 | (right; simp [fine]; done))

theorem calm_finish {c : Option V} {r : Outcome V E} {s s' : Async.St V E} {p : Nat} (hc : Proof.Async.Inv s)
    (h : Calm c r s) (hs : Async.step s p (.finish r) = some s') : Calm c r s' := by
  have hpp := h.pcs p
  have hm := hc.mem p
  have hoth := fun q (hq : q ≠ p) => others hs hq
  simp only [Async.step, Async.builderReturns] at hs
  split at hs <;> rename_i hpc
  · rw [hpc] at hpp hm
    simp only [Proof.Async.emb, Proof.Sync.memAt] at hm
    have hz : r.value?.isSome = true → s.log.countP isEnd = 0 := by
      intro h0
      apply Classical.byContradiction
      intro hne
      obtain ⟨q, hq⟩ := h.stored h0 (by omega) hm
      have := one_writer hc (p := p) (q := q) (by rw [hpc]; rfl) (running_excl (storing_running hq))
      subst this; rw [hpc] at hq; cases hq
    split at hs
    all_goals
      simp only [Option.some.injEq] at hs
      subst hs
      refine ⟨h.val, ?_, ?_, ?_, ?_, ?_, ?_, ?_, ?_, ?_⟩
    · intro q
      by_cases hq : q = p
      · subst hq; simp [Async.St.to, upd, calm]
      · rw [hoth q hq]; exact h.pcs q
    · simpa [Async.St.to, Async.St.ev, isStart, isAbort] using h.once
    · intro _ _ _
      exact ⟨p, by simp [Async.St.to, upd, running]⟩
    · intro h0; simp [Async.St.to, Async.St.ev, isEnd, hz h0]
    · intro _ _ _
      exact ⟨p, by simp [Async.St.to, upd, storing]⟩
    · intro hne; exact absurd hm (h.given hne).2.2
    · intro id a v h1 h2
      simp [Async.St.to, Async.St.ev] at h1
      exact h.ans id a v h1 h2
    · intro id k a h1
      simp [Async.St.to, Async.St.ev] at h1
      exact h.lin id k a h1
    · intro id k a h1
      simp [Async.St.to, Async.St.ev] at h1
      exact h.deref id k a h1
    · intro q
      by_cases hq : q = p
      · subst hq; simp [Async.St.to, upd, calm]
      · rw [hoth q hq]; exact h.pcs q
    · intro h0; cases r <;> simp_all [Outcome.value?]
    · intro h0; cases r <;> simp_all [Outcome.value?]
    · intro h0; cases r <;> simp_all [Outcome.value?]
    · intro h0; cases r <;> simp_all [Outcome.value?]
    · intro hne; exact absurd hm (h.given hne).2.2
    · intro id a v h1 h2
      simp [Async.St.to, Async.St.ev, Async.St.lin] at h1
      exact h.ans id a v h1 h2
    · intro id k' a h1
      simp only [Async.St.to, Async.St.ev, Async.St.lin, List.mem_append, List.mem_singleton, LEv.lin.injEq,
        Op.get.injEq, reduceCtorEq, or_false] at h1
      rcases h1 with h1 | ⟨_, rfl, rfl⟩
      · exact h.lin id k' a h1
      · simp
    · intro id k a h1
      simp [Async.St.to, Async.St.ev, Async.St.lin] at h1
      exact h.deref id k a h1
  · cases hs

theorem calm_drop {c : Option V} {r : Outcome V E} {s s' : Async.St V E} {p : Nat} (h : Calm c r s)
    (hs : Async.step s p .drop = some s') : Calm c r s' := by
  have hpp := h.pcs p
  have hoth := fun q (hq : q ≠ p) => others hs hq
  have hkeep := fun s' => @calm_keep V E c r s s' p h
  simp only [Async.step, Async.dropGuard] at hs
  split at hs <;> rename_i hpc
  all_goals first
    | (simp at hs; done)
    | (simp only [Option.some.injEq] at hs
       subst hs)
  all_goals rw [hpc] at hpp hkeep
  all_goals simp [calm] at hpp
  all_goals refine hkeep _ rfl ?_ ?_ ?_ ?_ hoth ?_ ?_
  all_goals simp [Async.St.ev, Async.St.to, isStart, isEnd, isAbort, upd, calm, running]
  all_goals
    rintro e (h1 | rfl)
    · exact .inl h1
    · right; trivial

theorem calm_cancel {c : Option V} {r : Outcome V E} {s s' : Async.St V E} {p : Nat} (hc : Proof.Async.Inv s)
    (h : Calm c r s) (hs : Async.step s p .cancel = some s') : Calm c r s' := by
  have hpp := h.pcs p
  have hm := hc.mem p
  have hoth := fun q (hq : q ≠ p) => others hs hq
  have hkeep := fun s' => @calm_keep V E c r s s' p h
  simp only [Async.step, Async.cancel] at hs
  split at hs <;> rename_i hpc
  case h_4 =>
    simp only [Option.some.injEq] at hs
    subst hs
    rw [hpc] at hm
    simp only [Proof.Async.emb, Proof.Sync.memAt] at hm
    have ho := h.once
    refine ⟨h.val, ?_, ?_, ?_, ?_, ?_, ?_, ?_, ?_, ?_⟩
    · intro q
      by_cases hq : q = p
      · subst hq; simp [Async.St.quit, upd, calm]
      · rw [hoth q hq]; exact h.pcs q
    · intro h0
      have := ho h0
      simp [Async.St.quit, Async.St.ev, isStart, isAbort]; omega
    · intro h0 h1 _
      have := ho h0
      simp [Async.St.quit, Async.St.ev, List.countP_cons, isStart, isAbort] at h1; omega
    · intro h0
      simpa [Async.St.quit, Async.St.ev, isEnd] using h.done h0
    · intro h0 h1 h2
      have h1' : 0 < s.log.countP isEnd := by simpa [Async.St.quit, Async.St.ev, List.countP_cons, isEnd, -List.countP_pos_iff] using h1
      obtain ⟨q, hq⟩ := h.stored h0 h1' hm
      have := one_writer hc (p := p) (q := q) (by rw [hpc]; rfl) (running_excl (storing_running hq))
      subst this; rw [hpc] at hq; cases hq
    · intro hne; exact absurd hm (h.given hne).2.2
    · intro id a v h1 h2
      simp [Async.St.quit, Async.St.ev] at h1
      exact h.ans id a v h1 h2
    · intro id k a h1
      simp [Async.St.quit, Async.St.ev] at h1
      exact h.lin id k a h1
    · intro id k a h1
      simp [Async.St.quit, Async.St.ev] at h1
      exact h.deref id k a h1
  all_goals first
    | (simp at hs; done)
    | (simp only [Option.some.injEq] at hs
       subst hs)
  all_goals rw [hpc] at hpp hkeep
  all_goals refine hkeep _ rfl ?_ ?_ ?_ ?_ hoth ?_ ?_
  all_goals simp [Async.St.quit, isStart, isEnd, isAbort, upd, calm, running]
  all_goals
    rintro e (h1 | rfl)
    · exact .inl h1
    · right; trivial

/-! ## What a builder's call answers -/

/-- Where a call through the entry point `q` can be. -/
def asked (q : GetKind) : Async.Pc V E → Prop
  | .rStart k | .rHave k | .rCb k | .rBuild k | .rSet k _ | .rFlag k _ | .rFail k _ | .rReady k _ | .rMap k _ => k = q
  | .gRead _ | .gMut _ | .gDeref _ _ | .gDone _ _ _ _ => q ≠ .lazyInit
  | _ => False

theorem asked_inside {q : GetKind} {c : Async.Pc V E} (h : asked q c) : gone c = false := by
  cases c <;> simp_all [asked, gone]

set_option maxHeartbeats 1000000 in
/-- A step of a call goes on, or the call is over and answers what the builder says. -/
theorem asked_go {c : Option V} {r : Outcome V E} {s s' : Async.St V E} {p : Nat} {q : GetKind} (hc : Proof.Async.Inv s)
    (h : Calm c r s) (hf : asked q (s.pc p)) (hs : Async.go s p = some s') :
    asked q (s'.pc p) ∨ (gone (s'.pc p) = true ∧ answered s' = some (getRet q r)) := by
  have hm := hc.mem p
  have hp := h.pcs p
  have hval := h.val
  unfold Async.go at hs
  split at hs <;> rename_i hpc
  all_goals rw [hpc] at hf hm hp
  all_goals simp only [asked] at hf
  all_goals try (repeat' split at hs)
  all_goals first
    | (simp at hs; done)
    | (simp only [Option.map_eq_some_iff, Async.ALock.tryWrite, Async.ALock.tryShared] at hs
       obtain ⟨l, hl, rfl⟩ := hs
       split at hl <;> simp at hl
       subst hl)
    | (simp only [Option.some.injEq] at hs
       subst hs)
  all_goals simp [calm, Proof.Async.emb, Proof.Sync.memAt, Proof.Sync.ranOk] at hm hp
  all_goals simp [Async.St.to, Async.St.ret, Async.St.lin, Async.St.ev, upd, asked, gone, answered, Async.heldGuard, hf, hp]
  all_goals grind [asked, gone, getRet, Option.isSome_iff_exists]

theorem asked_use {s s' : Async.St V E} {p : Nat} {g : CallId} {q : GetKind} (hf : asked q (s.pc p))
    (hs : Async.step s p (.call (.deref g)) = some s') : asked q (s'.pc p) := by
  simp only [Async.step, Async.invoke] at hs
  split at hs <;> rename_i hpc hop
  all_goals try split at hs
  all_goals simp at *
  all_goals (rw [hpc] at hf; subst hs; simpa [Async.St.begin, upd, asked] using hf)

theorem asked_call {s s' : Async.St V E} {p : Nat} {q : GetKind} (hs : Async.step s p (.call (.get q)) = some s') :
    asked q (s'.pc p) := by
  simp only [Async.step, Async.invoke] at hs
  cases hpc : s.pc p <;> simp [hpc] at hs
  subst hs
  simp [asked, upd, Async.St.begin]

theorem asked_finish {s s' : Async.St V E} {p : Nat} {o : Outcome V E} {q : GetKind} (hf : asked q (s.pc p))
    (hs : Async.step s p (.finish o) = some s') : asked q (s'.pc p) := by
  simp only [Async.step, Async.builderReturns] at hs
  split at hs <;> rename_i hpc
  · rw [hpc] at hf
    split at hs
    all_goals
      simp only [Option.some.injEq] at hs
      subst hs
      simpa [Async.St.lin, Async.St.ev, Async.St.to, upd, asked] using hf
  · cases hs

/-- When a guard is dropped the call is over, and the guard was for the value the builder gave. -/
theorem asked_drop {c : Option V} {r : Outcome V E} {s s' : Async.St V E} {p : Nat} (hc : Proof.Async.Inv s)
    (h : Calm c r s) (hs : Async.step s p .drop = some s') :
    gone (s'.pc p) = true ∧ ∃ v, s.value = some v ∧ ∀ q, asked q (s.pc p) → Ret.value v = getRet q r := by
  have hm := hc.mem p
  have hp := h.pcs p
  have hval := h.val
  simp only [Async.step, Async.dropGuard] at hs
  split at hs <;> rename_i hpc
  all_goals first
    | (simp at hs; done)
    | (simp only [Option.some.injEq] at hs
       subst hs)
  all_goals rw [hpc] at hm hp ⊢
  all_goals simp only [calm, Proof.Async.emb, Proof.Sync.memAt, Option.isSome_iff_exists] at hm hp
  all_goals
    obtain ⟨v, hv⟩ := hm
    refine ⟨by simp [Async.St.to, upd, gone], v, hv, ?_⟩
    intro q hq
    rw [hval v hv]
    simp only [asked] at hq
    cases q <;> simp_all [getRet]

theorem cancel_gone {s s' : Async.St V E} {p : Nat} (hs : Async.step s p .cancel = some s') : gone (s'.pc p) = true := by
  simp only [Async.step, Async.cancel] at hs
  split at hs
  all_goals first
    | (simp at hs; done)
    | (simp only [Option.some.injEq] at hs; subst hs; simp [Async.St.quit, upd, gone])

end Verif.Proof.AsyncFallible
