import Verif.Model.Fallible
import Verif.Proof.Fields
/-!
# Lazy fields with builders which may fail: evaluation and one container (helper lemmas)
-/

namespace Verif.Proof.Fallible
open Verif.Spec Verif.Model Verif.Model.Multi Verif.Model.Fallible Verif.Proof.Multi
open Verif.Proof.Fields (isStart running running_excl)

set_option linter.unusedSectionVars false
variable {F V E : Type} [DecidableEq F]

/-! ## Sequential evaluation -/

/-- End of a program when the fields come to `ρ`. -/
def value (ρ : F → Outcome V E) : Code F V E → Outcome V E
  | .ret o => o
  | .read q j k => value ρ (k (getRet q (ρ j)))

/-- What a field comes to: its initial content, or else the end `o` of its builder. -/
def orElse (c : Option V) (o : Outcome V E) : Outcome V E :=
  match c with
  | some v => .ok v
  | none => o

/-- `ρ` gives every field its initial content, or else what its builder makes of `ρ`. -/
def Solves (bld : F → Code F V E) (v₀ : F → Option V) (ρ : F → Outcome V E) : Prop :=
  ∀ i, ρ i = orElse (v₀ i) (value ρ (bld i))

/-- End of a program which only reads fields for which an end is given. -/
def valueOn {P : F → Prop} (ρ : ∀ j, P j → Outcome V E) : (pr : Code F V E) → pr.Reads P → Outcome V E
  | .ret o, _ => o
  | .read q j k, h => valueOn ρ (k (getRet q (ρ j h.1))) (h.2 _)

theorem valueOn_eq {P : F → Prop} (ρ : F → Outcome V E) (pr : Code F V E) (h : pr.Reads P) :
    valueOn (fun j _ => ρ j) pr h = value ρ pr := by
  induction pr with
  | ret v => rfl
  | read q j k ih => exact ih _ _

theorem solution {dep : F → F → Prop} (hwf : WellFounded fun j i => dep i j) {bld : F → Code F V E}
    (hr : ∀ i, (bld i).Reads (dep i)) (v₀ : F → Option V) : ∃ ρ, Solves bld v₀ ρ := by
  let f : (i : F) → ((j : F) → dep i j → Outcome V E) → Outcome V E :=
    fun i ih => orElse (v₀ i) (valueOn ih (bld i) (hr i))
  refine ⟨hwf.fix f, ?_⟩
  intro i
  rw [hwf.fix_eq]
  simp only [f]
  rw [valueOn_eq]

/-- Evaluation from contents which agree with a solution ends as the solution says. -/
theorem runs_value {bld : F → Code F V E} {v₀ : F → Option V} {ρ : F → Outcome V E} (hρ : Solves bld v₀ ρ)
    {σ σ' : F → Option V} {pr : Code F V E} {o : Outcome V E} (h : Runs bld σ pr o σ')
    (h0 : ∀ i u, v₀ i = some u → σ i = some u) (hσ : ∀ i u, σ i = some u → ρ i = .ok u) :
    o = value ρ pr ∧ (∀ i u, v₀ i = some u → σ' i = some u) ∧ (∀ i u, σ' i = some u → ρ i = .ok u) := by
  induction h with
  | ret => exact ⟨rfl, h0, hσ⟩
  | hit h1 _ ih =>
    obtain ⟨h2, h3, h4⟩ := ih h0 hσ
    refine ⟨?_, h3, h4⟩
    rw [h2, value, hσ _ _ h1]
  | @miss σ σ₁ σ' q j k o w h1 _ _ ih1 ih2 =>
    obtain ⟨h2, h3, h4⟩ := ih1 h0 hσ
    have hv : v₀ j = none := by
      cases hv : v₀ j with
      | none => rfl
      | some x => rw [h0 _ _ hv] at h1; cases h1
    have hu : o = ρ j := by rw [h2, hρ j, hv]; rfl
    obtain ⟨h5, h6, h7⟩ := ih2 (by
        intro i x hx
        unfold keep
        split
        · split
          · rename_i hi; subst hi; rw [hv] at hx; cases hx
          · exact h3 i x hx
        · exact h3 i x hx) (by
        intro i x hx
        unfold keep at hx
        split at hx
        · split at hx
          · rename_i hi; subst hi; cases hx; exact hu.symm
          · exact h4 i x hx
        · exact h4 i x hx)
    refine ⟨?_, h6, h7⟩
    rw [h5, hu]; rfl

/-- Acyclic evaluation always comes to an end. -/
theorem runs_total {dep : F → F → Prop} (hwf : WellFounded fun j i => dep i j) {bld : F → Code F V E}
    (hr : ∀ i, (bld i).Reads (dep i)) (i : F) : ∀ σ, ∃ o σ', Runs bld σ (bld i) o σ' := by
  induction i using hwf.induction with
  | _ i ih =>
    have key : ∀ (pr : Code F V E), pr.Reads (dep i) → ∀ σ, ∃ o σ', Runs bld σ pr o σ' := by
      intro pr
      induction pr with
      | ret o => exact fun _ σ => ⟨o, σ, .ret⟩
      | read q j k ihk =>
        intro hrd σ
        cases hj : σ j with
        | some u =>
          obtain ⟨w, σ₂, h4⟩ := ihk _ (hrd.2 _) σ
          exact ⟨w, σ₂, .hit hj h4⟩
        | none =>
          obtain ⟨o, σ₁, h1⟩ := ih j hrd.1 σ
          obtain ⟨w, σ₂, h4⟩ := ihk _ (hrd.2 _) (keep σ₁ j o)
          exact ⟨w, σ₂, .miss hj h1 h4⟩
    exact key (bld i) (hr i)

/-- What a field yields is what the solution says. -/
theorem yields_value {bld : F → Code F V E} {v₀ : F → Option V} {ρ : F → Outcome V E} (hρ : Solves bld v₀ ρ) {i : F}
    {o : Outcome V E} (h : Yields bld v₀ i o) : o = ρ i := by
  have hσ : ∀ i u, v₀ i = some u → ρ i = .ok u := fun i u hu => by rw [hρ i, hu]; rfl
  cases h with
  | has h => exact (hσ _ _ h).symm
  | built h h1 => rw [(runs_value hρ h1 (fun _ _ h => h) hσ).1, hρ i, h]; rfl

theorem yields_total {dep : F → F → Prop} (hwf : WellFounded fun j i => dep i j) {bld : F → Code F V E}
    (hr : ∀ i, (bld i).Reads (dep i)) (v₀ : F → Option V) (i : F) : ∃ o, Yields bld v₀ i o := by
  cases hi : v₀ i with
  | some u => exact ⟨_, .has hi⟩
  | none => obtain ⟨o, σ, h⟩ := runs_total hwf hr i v₀; exact ⟨o, .built hi h⟩

/-! ## One container when nobody sets or clears -/

/-- Where a process can be when only looking calls are made and builders end with `r`. -/
def calm (r : Outcome V E) : Sync.Pc V E → Prop
  | .rSet _ v | .rFlag _ v | .gDone _ _ _ v => r = .ok v
  | .rFail _ o => o = r
  | .gWrite _ | .gAsg _ _ | .xStart _ | .xWait _ | .xHave _ | .xVal _ | .xRel _ _ | .wHave _ _ | .wVal _ _ | .wRet _ _ _
  | .ub => False
  | _ => True

/-- A container with initial content `c` whose builder ends with `r`, with looking calls only. -/
structure Calm (c : Option V) (r : Outcome V E) (s : Sync.St V E) : Prop where
  val : ∀ v, s.value = some v → r = .ok v
  pcs : ∀ p, calm r (s.pc p)
  once : r.value?.isSome = true → s.log.countP isStart ≤ 1
  under : r.value?.isSome = true → 0 < s.log.countP isStart → s.value = none → ∃ p, running (s.pc p) = true
  given : c ≠ none → s.log.countP isStart = 0 ∧ s.value ≠ none
  ans : ∀ id a v, LEv.res id a ∈ s.log → a.ret = .value v → s.value = some v
  lin : ∀ id k a, LEv.lin id (.get k) a ∈ s.log → a.ret = getRet k r ∧ (∀ o, a.ran = some o → o = r) ∧
    (r.value? = none → a.ran = some r)
  deref : ∀ id g a, LEv.lin id (.deref g) a ∈ s.log → ∃ v, r = .ok v ∧ a.ret = .value v

theorem calm_init (c : Option V) (r : Outcome V E) (h : ∀ v, c = some v → r = .ok v) :
    Calm c r (Sync.init c : Sync.St V E) := by
  refine ⟨h, ?_, ?_, ?_, ?_, ?_, ?_, ?_⟩ <;> simp [Sync.init, calm]

/-- What a new entry of the log may say. -/
def fine (r : Outcome V E) (v : Option V) : Ev V E → Prop
  | .res _ a => ∀ w, a.ret = .value w → v = some w
  | .lin _ (.get k) a => a.ret = getRet k r ∧ (∀ o, a.ran = some o → o = r) ∧ (r.value? = none → a.ran = some r)
  | .lin _ (.deref _) a => ∃ v, r = .ok v ∧ a.ret = .value v
  | _ => True

/-- Steps which neither store a value nor start a builder. -/
theorem calm_keep {c : Option V} {r : Outcome V E} {s s' : Sync.St V E} {p : Nat} (h : Calm c r s)
    (hv : s'.value = s.value) (hl : s'.log.countP isStart = s.log.countP isStart)
    (hr : ∀ e ∈ s'.log, e ∈ s.log ∨ fine r s.value e)
    (hp : ∀ q, q ≠ p → s'.pc q = s.pc q) (hc : calm r (s'.pc p))
    (hrun : running (s.pc p) = true → r.value?.isSome = true → running (s'.pc p) = true) : Calm c r s' := by
  obtain ⟨hval, hpcs, honce, hund, hgiv, hans, hlin, hder⟩ := h
  refine ⟨by rw [hv]; exact hval, fun q => ?_, by rw [hl]; exact honce, ?_, by rw [hl, hv]; exact hgiv, ?_, ?_, ?_⟩
  · by_cases hq : q = p
    · subst hq; exact hc
    · rw [hp q hq]; exact hpcs q
  · rw [hl, hv]
    intro h0 h1 h2
    obtain ⟨q, hq⟩ := hund h0 h1 h2
    refine ⟨q, ?_⟩
    by_cases hqp : q = p
    · subst hqp; exact hrun hq h0
    · rw [hp q hqp]; exact hq
  · intro id a v h1 h2
    rw [hv]
    rcases hr _ h1 with h3 | h3
    · exact hans id a v h3 h2
    · exact h3 v h2
  · intro id k a h1
    rcases hr _ h1 with h3 | h3
    · exact hlin id k a h3
    · exact h3
  · intro id k a h1
    rcases hr _ h1 with h3 | h3
    · exact hder id k a h3
    · exact h3

/-- A builder run starts. -/
theorem calm_start {c : Option V} {r : Outcome V E} {s : Sync.St V E} {p : Nat} {k : GetKind} (hc : Proof.Sync.Core s)
    (h : Calm c r s) (hp : s.pc p = .rHaveW k) (hv : s.value = none) :
    Calm c r ((s.ev (.other (.bstart (s.me p)))).to p (.rBuild k)) := by
  have hz : r.value?.isSome = true → s.log.countP isStart = 0 := by
    intro h0
    apply Classical.byContradiction
    intro hne
    obtain ⟨q, hq⟩ := h.under h0 (by omega) hv
    by_cases hqp : q = p
    · subst hqp; rw [hp] at hq; cases hq
    · have := (hc.alone (p := p) (q := q) (by rw [hp]; rfl) hqp).2.2.1
      rw [running_excl hq] at this; cases this
  refine ⟨h.val, ?_, ?_, ?_, ?_, ?_, ?_, ?_⟩
  · intro q
    by_cases hq : q = p
    · subst hq; simp [Sync.St.to, upd, calm]
    · simp only [Sync.St.to, Sync.St.ev, upd, hq, if_false]; exact h.pcs q
  · intro h0; simp [Sync.St.to, Sync.St.ev, hz h0, isStart]
  · intro _ _ _
    exact ⟨p, by simp [Sync.St.to, upd, running]⟩
  · intro hne; exact absurd hv (h.given hne).2
  · intro id a v h1 h2
    simp [Sync.St.to, Sync.St.ev] at h1
    exact h.ans id a v h1 h2
  · intro id k a h1
    simp [Sync.St.to, Sync.St.ev] at h1
    exact h.lin id k a h1
  · intro id k a h1
    simp [Sync.St.to, Sync.St.ev] at h1
    exact h.deref id k a h1

/-- The value of the builder is stored. -/
theorem calm_set {c : Option V} {r : Outcome V E} {s : Sync.St V E} {p : Nat} {k : GetKind} {v : V}
    (hc : Proof.Sync.Core s) (h : Calm c r s) (hp : s.pc p = .rSet k v) :
    Calm c r ({ s with value := some v }.to p (.rFlag k v)) := by
  have hk := h.pcs p
  have hm := hc.mem p
  rw [hp] at hk hm
  simp only [Proof.Sync.memAt] at hm
  simp only [calm] at hk
  refine ⟨?_, ?_, h.once, ?_, ?_, ?_, h.lin, h.deref⟩
  · intro w hw
    simp [Sync.St.to] at hw
    exact hw ▸ hk
  · intro q
    by_cases hq : q = p
    · subst hq; simp only [Sync.St.to, upd, if_true]; exact hk
    · simp only [Sync.St.to, upd, hq, if_false]; exact h.pcs q
  · intro _ _ hw; simp [Sync.St.to] at hw
  · intro hne; exact absurd hm (h.given hne).2
  · intro id a w h1 h2
    have := h.ans id a w h1 h2
    rw [hm] at this; cases this

theorem failed_ret {k : GetKind} {o : Outcome V E} {w : V} (h : o.value? = none) : getRet k o ≠ .value w := by
  cases o <;> cases k <;> simp_all [Outcome.value?, getRet]

set_option linter.unusedSimpArgs false
set_option maxHeartbeats 2000000 in
theorem calm_go {c : Option V} {r : Outcome V E} {s s' : Sync.St V E} {p : Nat} (hc : Proof.Sync.Core s) (h : Calm c r s)
    (hs : Sync.go s p = some s') : Calm c r s' := by
  have hmp := hc.mem p
  have hval := h.val
  have hpp := h.pcs p
  have hoth := fun q (hq : q ≠ p) => others (a := .go) hs hq
  have hkeep := fun s' => @calm_keep V E c r s s' p h
  unfold Sync.go at hs
  split at hs <;> rename_i hpc
  all_goals try (repeat' split at hs)
  all_goals first
    | (simp at hs; done)
    | (simp only [Option.map_eq_some_iff, Lock.tryUpgradable, Lock.claim, Lock.tryShared] at hs
       obtain ⟨l, hl, rfl⟩ := hs
       split at hl <;> simp at hl
       subst hl)
    | (simp only [Option.some.injEq] at hs
       subst hs)
  all_goals first
    | exact calm_start hc h hpc (by assumption)
    | exact calm_set hc h hpc
    | skip
  all_goals rw [hpc] at hpp hmp hkeep
  all_goals simp [calm, Proof.Sync.memAt, GetKind.mutable] at hpp hmp
  all_goals refine hkeep _ rfl ?_ ?_ hoth ?_ ?_
  all_goals clear hkeep hoth
  all_goals try simp [Sync.St.to, Sync.St.ret, Sync.St.lin, Sync.St.ev, isStart, upd, calm, running, Sync.heldGuard, GetKind.mutable]
  all_goals try (intro e h1; exact .inl h1)
  all_goals try (rintro e (h1 | rfl) <;> first | exact .inl h1 | (right; simp [fine]; done) | (right; simp only [fine]))
  all_goals grind [Proof.Sync.ranOk, calm, getRet, Outcome.value?, failed_ret]

set_option maxHeartbeats 1000000 in
theorem calm_call {c : Option V} {r : Outcome V E} {s s' : Sync.St V E} {p : Nat} {op : Op V} (h : Calm c r s)
    (hop : looking op = true ∨ ∃ g, op = .deref g) (hs : Sync.step s p (.call op) = some s') : Calm c r s' := by
  have hpp := h.pcs p
  have hoth := fun q (hq : q ≠ p) => others hs hq
  have hkeep := fun s' => @calm_keep V E c r s s' p h
  simp only [Sync.step, Sync.invoke] at hs
  split at hs <;> rename_i hpc
  all_goals try split at hs
  all_goals first
    | (simp at hs; done)
    | (simp only [Option.some.injEq] at hs
       subst hs)
  all_goals simp [looking] at hop
  all_goals rw [hpc] at hpp hkeep
  all_goals simp [calm] at hpp
  all_goals refine hkeep _ rfl ?_ ?_ hoth ?_ ?_
  all_goals clear hkeep hoth
  all_goals try simp [Sync.St.begin, isStart, upd, calm, running]
  all_goals (rintro e (h1 | rfl) <;> first | exact .inl h1 | (right; simp [fine]; done))

theorem calm_finish {c : Option V} {r : Outcome V E} {s s' : Sync.St V E} {p : Nat} (h : Calm c r s)
    (hs : Sync.step s p (.finish r) = some s') : Calm c r s' := by
  have hpp := h.pcs p
  have hoth := fun q (hq : q ≠ p) => others hs hq
  have hkeep := fun s' => @calm_keep V E c r s s' p h
  simp only [Sync.step, Sync.builderReturns] at hs
  split at hs <;> rename_i hpc
  · rw [hpc] at hpp hkeep
    split at hs
    all_goals
      simp only [Option.some.injEq] at hs
      subst hs
      refine hkeep _ rfl ?_ ?_ hoth ?_ ?_
    all_goals simp [Sync.St.lin, Sync.St.ev, Sync.St.to, isStart, upd, calm, running]
    · rintro e (h1 | rfl)
      · exact .inl h1
      · right; trivial
    · rintro e (h1 | rfl | rfl)
      · exact .inl h1
      · right; trivial
      · right; simp [fine]
    · cases r <;> simp_all [Outcome.value?]
  · cases hs

theorem calm_drop {c : Option V} {r : Outcome V E} {s s' : Sync.St V E} {p : Nat} (h : Calm c r s)
    (hs : Sync.step s p .drop = some s') : Calm c r s' := by
  have hpp := h.pcs p
  have hoth := fun q (hq : q ≠ p) => others hs hq
  have hkeep := fun s' => @calm_keep V E c r s s' p h
  simp only [Sync.step, Sync.dropGuard] at hs
  split at hs <;> rename_i hpc
  all_goals first
    | (simp at hs; done)
    | (simp only [Option.some.injEq] at hs
       subst hs)
  all_goals rw [hpc] at hpp hkeep
  all_goals simp [calm] at hpp
  all_goals refine hkeep _ rfl ?_ ?_ hoth ?_ ?_
  all_goals simp [Sync.St.ev, Sync.St.to, isStart, upd, calm, running]
  all_goals
    rintro e (h1 | rfl)
    · exact .inl h1
    · right; trivial

/-! ## What a builder's call answers -/

/-- Where a call through the entry point `q` can be. -/
def asked (q : GetKind) : Sync.Pc V E → Prop
  | .rStart k | .rHaveU k | .rUpg k | .rHaveW k | .rBuild k | .rSet k _ | .rFlag k _ | .rFail k _ | .rDown k _
  | .rReady k _ | .rUpg2 k _ | .rMap k _ => k = q
  | .gRead _ | .gMut _ | .gDeref _ _ | .gDone _ _ _ _ => q ≠ .lazyInit
  | _ => False

theorem asked_inside {q : GetKind} {c : Sync.Pc V E} (h : asked q c) : gone c = false := by
  cases c <;> simp_all [asked, gone]

set_option maxHeartbeats 1000000 in
/-- A step of a call goes on, or the call is over and answers what the builder says. -/
theorem asked_go {c : Option V} {r : Outcome V E} {s s' : Sync.St V E} {p : Nat} {q : GetKind} (hc : Proof.Sync.Core s)
    (h : Calm c r s) (hf : asked q (s.pc p)) (hs : Sync.go s p = some s') :
    asked q (s'.pc p) ∨ (gone (s'.pc p) = true ∧ answered s' = some (getRet q r)) := by
  have hm := hc.mem p
  have hp := h.pcs p
  have hval := h.val
  unfold Sync.go at hs
  split at hs <;> rename_i hpc
  all_goals rw [hpc] at hf hm hp
  all_goals simp only [asked] at hf
  all_goals try (repeat' split at hs)
  all_goals first
    | (simp at hs; done)
    | (simp only [Option.map_eq_some_iff, Lock.tryUpgradable, Lock.claim, Lock.tryShared] at hs
       obtain ⟨l, hl, rfl⟩ := hs
       split at hl <;> simp at hl
       subst hl)
    | (simp only [Option.some.injEq] at hs
       subst hs)
  all_goals simp [calm, Proof.Sync.memAt, Proof.Sync.ranOk] at hm hp
  all_goals simp [Sync.St.to, Sync.St.ret, Sync.St.lin, Sync.St.ev, upd, asked, gone, answered, Sync.heldGuard, hf, hp]
  all_goals grind [asked, gone, getRet, Option.isSome_iff_exists]

theorem asked_use {s s' : Sync.St V E} {p : Nat} {g : CallId} {q : GetKind} (hf : asked q (s.pc p))
    (hs : Sync.step s p (.call (.deref g)) = some s') : asked q (s'.pc p) := by
  simp only [Sync.step, Sync.invoke] at hs
  split at hs <;> rename_i hpc hop
  all_goals try split at hs
  all_goals simp at *
  all_goals (rw [hpc] at hf; subst hs; simpa [Sync.St.begin, upd, asked] using hf)

theorem asked_call {s s' : Sync.St V E} {p : Nat} {q : GetKind} (hs : Sync.step s p (.call (.get q)) = some s') :
    asked q (s'.pc p) := by
  simp only [Sync.step, Sync.invoke] at hs
  cases hpc : s.pc p <;> simp [hpc] at hs
  subst hs
  simp [asked, upd, Sync.St.begin]

theorem asked_finish {s s' : Sync.St V E} {p : Nat} {o : Outcome V E} {q : GetKind} (hf : asked q (s.pc p))
    (hs : Sync.step s p (.finish o) = some s') : asked q (s'.pc p) := by
  simp only [Sync.step, Sync.builderReturns] at hs
  split at hs <;> rename_i hpc
  · rw [hpc] at hf
    split at hs
    all_goals
      simp only [Option.some.injEq] at hs
      subst hs
      simpa [Sync.St.lin, Sync.St.ev, Sync.St.to, upd, asked] using hf
  · cases hs

/-- When a guard is dropped the call is over, and the guard was for the value the builder gave. -/
theorem asked_drop {c : Option V} {r : Outcome V E} {s s' : Sync.St V E} {p : Nat} (hc : Proof.Sync.Core s)
    (h : Calm c r s) (hs : Sync.step s p .drop = some s') :
    gone (s'.pc p) = true ∧ ∃ v, s.value = some v ∧ ∀ q, asked q (s.pc p) → Ret.value v = getRet q r := by
  have hm := hc.mem p
  have hp := h.pcs p
  have hval := h.val
  simp only [Sync.step, Sync.dropGuard] at hs
  split at hs <;> rename_i hpc
  all_goals first
    | (simp at hs; done)
    | (simp only [Option.some.injEq] at hs
       subst hs)
  all_goals rw [hpc] at hm hp ⊢
  all_goals simp only [calm, Proof.Sync.memAt, Option.isSome_iff_exists] at hm hp
  all_goals
    obtain ⟨v, hv⟩ := hm
    refine ⟨by simp [Sync.St.to, upd, gone], v, hv, ?_⟩
    intro q hq
    rw [hval v hv]
    simp only [asked] at hq
    cases q <;> simp_all [getRet]

end Verif.Proof.Fallible
