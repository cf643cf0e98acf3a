import Verif.Proof.AsyncFieldsTerm
/-!
# Values of async lazy fields which depend on each other: C75

Model: `Verif.Model.AsyncMulti`, tasks which only read, builders which follow a program (`PReach`). Futures may be dropped at any
await. The yardstick is the single-threaded evaluation `Spec.Eval`.
-/

namespace Verif.Props.AsyncFields
open Verif.Spec Verif.Model Verif.Model.AsyncMulti Verif.Proof.AsyncMulti Verif.Proof.AsyncFields
open Verif.Proof.Fields (Solves solution eval_value eval_total isStart)

variable {F V E : Type} [DecidableEq F] {dep : F → F → Prop} {bld : F → Prog F V} {v₀ : F → Option V} {s : PSt F V E}

/-- Number of builder runs which have been started. -/
def builderRuns (l : List (Ev V E)) : Nat :=
  l.countP fun
    | .other (.bstart _) => true
    | _ => false

/-- Number of builder runs which have ended by themselves. -/
def builderEnds (l : List (Ev V E)) : Nat :=
  l.countP fun
    | .other (.bend _ _) => true
    | _ => false

/-- Number of builder runs which have been dropped. -/
def builderAborts (l : List (Ev V E)) : Nat :=
  l.countP fun
    | .other (.abort _) => true
    | _ => false

/-! ## C75 async lazy values do not depend on the schedule -/

/-- Whatever the schedule and whichever futures were dropped, a field that has a value has the one of single-threaded evaluation. -/
theorem C75_value (hwf : WellFounded fun j i => dep i j) (hr : ∀ i, (bld i).Reads (dep i)) (h : PReach bld v₀ s)
    {i : F} {v w : V} {σ : F → Option V} (he : Eval bld v₀ (.read i .ret) v σ) (hv : (s.m.obj i).value = some w) :
    w = v := by
  obtain ⟨ρ, hρ⟩ := solution hwf hr v₀
  have h1 := (eval_value hρ he (fun _ _ h => h) (fun i u hu => by rw [hρ i, hu]; rfl)).1
  rw [h1]
  exact ((pinv_reach hr hρ h).calm i).val w hv

/-- Every value handed out by an accessor is that of single-threaded evaluation, and the field keeps it. -/
theorem C75_answers (hwf : WellFounded fun j i => dep i j) (hr : ∀ i, (bld i).Reads (dep i)) (h : PReach bld v₀ s)
    {i : F} {v w : V} {σ : F → Option V} (he : Eval bld v₀ (.read i .ret) v σ) {id : CallId} {a : Res V E}
    (ha : LEv.res id a ∈ (s.m.obj i).log) (hw : a.ret = .value w) : w = v ∧ (s.m.obj i).value = some v := by
  obtain ⟨ρ, hρ⟩ := solution hwf hr v₀
  have h1 := ((pinv_reach hr hρ h).calm i).ans id a w ha hw
  have h2 := C75_value hwf hr h he h1
  exact ⟨h2, h2 ▸ h1⟩

/-- Each builder ends at most once, all its runs but one have been dropped, and no builder is started for a field which was
given a value. -/
theorem C75_built_once (hwf : WellFounded fun j i => dep i j) (hr : ∀ i, (bld i).Reads (dep i)) (h : PReach bld v₀ s)
    (i : F) : builderEnds (s.m.obj i).log ≤ 1 ∧
      builderRuns (s.m.obj i).log ≤ builderAborts (s.m.obj i).log + 1 ∧
      ((v₀ i).isSome = true → builderRuns (s.m.obj i).log = 0) := by
  obtain ⟨ρ, hρ⟩ := solution hwf hr v₀
  have hc := (pinv_reach hr hρ h).calm i
  have h1 : builderRuns (s.m.obj i).log = (s.m.obj i).log.countP isStart := rfl
  have h2 : builderEnds (s.m.obj i).log = (s.m.obj i).log.countP isEnd := rfl
  have h3 : builderAborts (s.m.obj i).log = (s.m.obj i).log.countP isAbort := rfl
  rw [h1, h2, h3]
  exact ⟨hc.done, hc.once, fun hs => (hc.given (by intro hn; rw [hn] at hs; cases hs)).1⟩

/-- Reading comes to an end: a run in which tasks go on with what they have begun, or drop futures, is finite, unless
futures are dropped again and again for ever. -/
theorem C75_no_endless_run (hwf : WellFounded fun j i => dep i j) (hr : ∀ i, (bld i).Reads (dep i))
    (f : Nat → PSt F V E) (h0 : PReach bld v₀ (f 0))
    (hf : ∀ n, ∃ t a, (inner (f n) t a ∨ a = .cancel) ∧ pstep bld (f n) t a = some (f (n + 1))) (N : Nat) :
    ∃ n t, N ≤ n ∧ pstep bld (f n) t .cancel = some (f (n + 1)) := by
  apply Classical.byContradiction
  intro hno
  have hreach : ∀ n, PReach bld v₀ (f n) := by
    intro n
    induction n with
    | zero => exact h0
    | succ n ih => obtain ⟨t, a, _, h⟩ := hf n; exact .step ih h
  refine no_endless (f := fun n => f (N + n)) hwf hr (hreach N) fun n => ?_
  obtain ⟨t, a, h1, h2⟩ := hf (N + n)
  rcases h1 with h1 | rfl
  · exact ⟨t, a, h1, h2⟩
  · exact absurd ⟨N + n, t, by omega, h2⟩ hno

/-- And it ends well: when nobody can go on, everybody is out. -/
theorem C75_ends_outside (hwf : WellFounded fun j i => dep i j) (hr : ∀ i, (bld i).Reads (dep i)) (h : PReach bld v₀ s)
    (hend : ∀ t a, inner s t a → pstep bld s t a = none) (t : Nat) : s.m.stack t = [] := by
  obtain ⟨ρ, hρ⟩ := solution hwf hr v₀
  apply Classical.byContradiction
  intro ht
  obtain ⟨t', a, s', h1, h2⟩ := inner_enabled hwf (pinv_reach hr hρ h) ht
  rw [hend t' a h1] at h2
  cases h2

/-! ### Concrete case: field 0 adds fields 1 and 2, field 1 doubles field 2, field 2 was given 5 -/

/-- The builders. -/
def demoBld : Fin 3 → Prog (Fin 3) Nat
  | 0 => .read 1 fun a => .read 2 fun b => .ret (a + b)
  | 1 => .read 2 fun a => .ret (2 * a)
  | 2 => .ret 0

/-- Later fields come first. -/
def demoDep (i j : Fin 3) : Prop := i.1 < j.1

theorem demoDep_wf : WellFounded fun j i => demoDep i j := by
  have : Subrelation (fun j i => demoDep i j) (InvImage (· < ·) fun i : Fin 3 => 3 - i.1) := by
    intro j i h
    simp only [InvImage, demoDep] at h ⊢
    omega
  exact this.wf (InvImage.wf _ Nat.lt_wfRel.wf)

theorem demo_reads : ∀ i, (demoBld i).Reads (demoDep i)
  | 0 => ⟨by unfold demoDep; decide, fun _ => ⟨by unfold demoDep; decide, fun _ => trivial⟩⟩
  | 1 => ⟨by unfold demoDep; decide, fun _ => trivial⟩
  | 2 => trivial

/-- Initial contents. -/
def demoInit : Fin 3 → Option Nat := fun i => if i = 2 then some 5 else none

/-- Run a schedule. -/
def prun (bld : F → Prog F V) (s : PSt F V E) : List (Nat × Act F V E) → Option (PSt F V E)
  | [] => some s
  | (t, a) :: rest => (pstep bld s t a).bind fun s' => prun bld s' rest

theorem preach_run {s₀ s : PSt F V E} (h₀ : PReach bld v₀ s₀) {sch : List (Nat × Act F V E)}
    (h : prun bld s₀ sch = some s) : PReach bld v₀ s := by
  induction sch generalizing s₀ with
  | nil => simp [prun] at h; exact h ▸ h₀
  | cons x sch ih =>
    obtain ⟨t, a⟩ := x
    simp only [prun, Option.bind_eq_some_iff] at h
    obtain ⟨s₁, h1, h2⟩ := h
    exact ih (.step h₀ h1) h2

/-- `n` steps of the code of task `t`. -/
def gos (t n : Nat) : List (Nat × Act (Fin 3) Nat Nat) := List.replicate n (t, .go)

/-- Task 0 reads field 0; while its builder reads field 1, whose builder reads field 2, task 1 reads field 1 too and has to
wait. Task 0 is dropped. Task 1 gets its turn, builds field 1 anew, and task 2 reads field 0 with that. -/
def demoRun : List (Nat × Act (Fin 3) Nat Nat) :=
  [(0, .call 0 (.get .read))] ++ gos 0 3 ++ [(0, .call 1 (.get .read))] ++ gos 0 3 ++ [(1, .call 1 (.get .tryRead)),
    (0, .call 2 (.get .read)), (0, .cancel), (0, .cancel)] ++ gos 1 3 ++ [(0, .cancel), (2, .call 0 (.get .read)),
    (1, .call 2 (.get .read))] ++ gos 1 4 ++ gos 2 3 ++ [(1, .drop), (1, .finish .panic), (2, .call 1 (.get .read))] ++
    gos 1 4 ++ [(1, .drop)] ++ gos 2 4 ++ [(2, .drop), (2, .call 2 (.get .read))] ++ gos 2 4 ++ [(2, .drop),
    (2, .finish .panic)] ++ gos 2 4

example : ∃ s : PSt (Fin 3) Nat Nat, PReach demoBld demoInit s ∧ (s.m.obj 0).value = some 15 ∧
    (s.m.obj 1).value = some 10 ∧ s.m.stack 0 = [] ∧ s.m.stack 1 = [] ∧ s.m.stack 2 = [(0, 4)] ∧
    builderRuns (s.m.obj 1).log = 2 ∧ builderAborts (s.m.obj 1).log = 1 ∧ builderEnds (s.m.obj 1).log = 1 ∧
    LEv.res ⟨4, 0⟩ ⟨some (.ok 15), .value 15⟩ ∈ (s.m.obj 0).log := by
  have h : ∃ s, prun demoBld (⟨init demoInit, fun _ => .ret 0⟩ : PSt (Fin 3) Nat Nat) demoRun = some s ∧
      (s.m.obj 0).value = some 15 ∧ (s.m.obj 1).value = some 10 ∧ s.m.stack 0 = [] ∧ s.m.stack 1 = [] ∧
      s.m.stack 2 = [(0, 4)] ∧ builderRuns (s.m.obj 1).log = 2 ∧ builderAborts (s.m.obj 1).log = 1 ∧
      builderEnds (s.m.obj 1).log = 1 ∧
      (s.m.obj 0).log.contains (LEv.res ⟨4, 0⟩ ⟨some (.ok 15), .value 15⟩) = true :=
    ⟨_, rfl, rfl, rfl, rfl, rfl, rfl, rfl, rfl, rfl, by decide +kernel⟩
  obtain ⟨s, h1, h2, h3, h4, h5, h6, h7, h8, h9, h10⟩ := h
  exact ⟨s, preach_run (.init _) h1, h2, h3, h4, h5, h6, h7, h8, h9, by simpa using h10⟩

-- single-threaded evaluation of field 0 gives 15 as well
example : ∃ σ, Eval demoBld demoInit (.read 0 .ret) 15 σ :=
  ⟨_, .miss rfl (.miss rfl (.hit (u := 5) rfl .ret) (.hit (u := 5) rfl .ret)) .ret⟩

/-! ### A run without end: a builder whose read of another field is dropped again and again -/

/-- The builder of `true` reads `false`. -/
def pairBld : Bool → Prog Bool Nat
  | true => .read false .ret
  | false => .ret 0

/-- Where the run comes by: task 0 in the builder of `true`, about to read `false`, nobody else there. -/
structure Resting (s : PSt Bool Nat Nat) : Prop where
  stack : s.m.stack 0 = [(true, 0)]
  pc : (s.m.obj true).pc 0 = .rBuild .read
  code : s.code 0 = .read false .ret
  fresh : ∀ q, (s.m.obj false).pc q = .idle
  next : 0 < s.m.next

/-- The call and its end. -/
theorem resting_round {s : PSt Bool Nat Nat} (h : Resting s) :
    ∃ s₁ s₂, pstep pairBld s 0 (.call false (.get .read)) = some s₁ ∧ s₁.m.stack 0 ≠ [] ∧
      pstep pairBld s₁ 0 .cancel = some s₂ ∧ Resting s₂ := by
  have hne : s.m.next ≠ 0 := Nat.ne_of_gt h.next
  refine ⟨_, _, by simp [pstep, mayCall, h.stack, h.code, fetching, step, userTurn, h.pc, building, Async.invoke, h.fresh]; rfl,
    by simp [upd], by simp [pstep, step, upd, Async.St.begin, Async.cancel]; rfl, ?_⟩
  refine ⟨?_, ?_, ?_, ?_, ?_⟩
  · simp [settle, upd, Async.St.quit, gone, h.stack]
  · simp [settle, upd, h.pc]
  · simp [upd, hne.symm, h.code]
  · intro q
    simp only [settle, upd, if_true, Async.St.quit, Async.St.begin]
    split
    · rfl
    · simp [h.fresh]
  · simp [settle]

theorem resting_start : ∃ s : PSt Bool Nat Nat, PReach pairBld (fun _ => none) s ∧ Resting s := by
  have h : ∃ s, prun pairBld (⟨init fun _ => none, fun _ => .ret 0⟩ : PSt Bool Nat Nat)
      [(0, .call true (.get .read)), (0, .go), (0, .go), (0, .go)] = some s ∧ s.m.stack 0 = [(true, 0)] ∧
      (s.m.obj true).pc 0 = .rBuild .read ∧ s.code 0 = .read false .ret ∧ (∀ q, (s.m.obj false).pc q = .idle) ∧
      s.m.next = 1 := ⟨_, rfl, rfl, rfl, rfl, fun _ => rfl, rfl⟩
  obtain ⟨s, h1, h2, h3, h4, h5, h6⟩ := h
  exact ⟨s, preach_run (.init _) h1, h2, h3, h4, h5, by omega⟩

-- such a run, as `C75_no_endless_run` has it
example : ∃ f : Nat → PSt Bool Nat Nat, PReach pairBld (fun _ => none) (f 0) ∧
    ∀ n, ∃ t a, (inner (f n) t a ∨ a = .cancel) ∧ pstep pairBld (f n) t a = some (f (n + 1)) := by
  obtain ⟨s, hs, hr⟩ := resting_start
  let nxt : PSt Bool Nat Nat → PSt Bool Nat Nat := fun s =>
    if s.m.stack 0 = [(true, 0)] then (pstep pairBld s 0 (.call false (.get .read))).getD s
    else (pstep pairBld s 0 .cancel).getD s
  let f : Nat → PSt Bool Nat Nat := fun n => Nat.rec s (fun _ s => nxt s) n
  have key : ∀ n, Resting (f n) ∨ ∃ s, Resting s ∧ pstep pairBld s 0 (.call false (.get .read)) = some (f n) := by
    intro n
    induction n with
    | zero => exact .inl hr
    | succ n ih =>
      rcases ih with h | ⟨s₀, h, hp⟩
      · refine .inr ⟨f n, h, ?_⟩
        obtain ⟨s₁, _, h1, _⟩ := resting_round h
        have : f (n + 1) = s₁ := by change nxt (f n) = s₁; simp [nxt, h.stack, h1]
        rw [this]; exact h1
      · left
        obtain ⟨s₁, s₂, h1, _, h2, h3⟩ := resting_round h
        rw [h1] at hp
        simp only [Option.some.injEq] at hp
        have hst : s₁.m.stack 0 ≠ [(true, 0)] := by
          intro hc
          have : s₁.m.stack 0 = [(false, s₀.m.next), (true, 0)] := by
            simp only [pstep, mayCall, h.stack, h.code, fetching, step, userTurn, h.pc, building, Async.invoke, h.fresh] at h1
            simp at h1
            subst h1
            simp [upd, h.stack]
          rw [this] at hc; simp at hc
        have : f (n + 1) = s₂ := by change nxt (f n) = s₂; rw [← hp]; simp [nxt, hst, h2]
        rw [this]; exact h3
  refine ⟨f, hs, fun n => ⟨0, ?_⟩⟩
  rcases key n with h | ⟨s₀, h, hp⟩
  · obtain ⟨s₁, _, h1, _⟩ := resting_round h
    refine ⟨_, .inl (by simp [inner, h.stack]), h1.trans ?_⟩
    change _ = some (nxt (f n))
    simp [nxt, h.stack, h1]
  · obtain ⟨s₁, s₂, h1, _, h2, h3⟩ := resting_round h
    rw [h1] at hp
    simp only [Option.some.injEq] at hp
    refine ⟨.cancel, .inr rfl, ?_⟩
    have hst : s₁.m.stack 0 ≠ [(true, 0)] := by
      intro hc
      have : s₁.m.stack 0 = [(false, s₀.m.next), (true, 0)] := by
        simp only [pstep, mayCall, h.stack, h.code, fetching, step, userTurn, h.pc, building, Async.invoke, h.fresh] at h1
        simp at h1
        subst h1
        simp [upd, h.stack]
      rw [this] at hc; simp at hc
    change _ = some (nxt (f n))
    rw [← hp]
    simp [nxt, hst, h2]

end Verif.Props.AsyncFields
