import Verif.Proof.FieldsTerm
/-!
# Values of lazy fields which depend on each other: C16

Model: `Verif.Model.Multi`, threads which only read, builders which follow a program (`PReach`). The yardstick is the
single-threaded evaluation `Spec.Eval`.
-/

namespace Verif.Props.Fields
open Verif.Spec Verif.Model Verif.Model.Multi Verif.Proof.Multi Verif.Proof.Fields

variable {F V E : Type} [DecidableEq F] {dep : F → F → Prop} {bld : F → Prog F V} {v₀ : F → Option V} {s : PSt F V E}

/-- Number of builder runs which have been started. -/
def builderRuns (l : List (Ev V E)) : Nat :=
  l.countP fun
    | .other (.bstart _) => true
    | _ => false

/-! ## C16 lazy values do not depend on the schedule -/

/-- Single-threaded evaluation gives every field a value. -/
theorem C16_sequential_value (hwf : WellFounded fun j i => dep i j) (hr : ∀ i, (bld i).Reads (dep i))
    (v₀ : F → Option V) (i : F) : ∃ v σ, Eval bld v₀ (.read i .ret) v σ :=
  eval_total hwf hr i v₀

/-- Whatever the schedule, a field that has a value has the one of single-threaded evaluation. -/
theorem C16_value (hwf : WellFounded fun j i => dep i j) (hr : ∀ i, (bld i).Reads (dep i)) (h : PReach bld v₀ s)
    {i : F} {v w : V} {σ : F → Option V} (he : Eval bld v₀ (.read i .ret) v σ) (hv : (s.m.obj i).value = some w) :
    w = v := by
  obtain ⟨ρ, hρ⟩ := solution hwf hr v₀
  have h1 := (eval_value hρ he (fun _ _ h => h) (fun i u hu => by rw [hρ i, hu]; rfl)).1
  rw [h1]
  exact ((pinv_reach hr hρ h).calm i).val w hv

/-- Every value handed out by an accessor is that of single-threaded evaluation, and the field keeps it. -/
theorem C16_answers (hwf : WellFounded fun j i => dep i j) (hr : ∀ i, (bld i).Reads (dep i)) (h : PReach bld v₀ s)
    {i : F} {v w : V} {σ : F → Option V} (he : Eval bld v₀ (.read i .ret) v σ) {id : CallId} {a : Res V E}
    (ha : LEv.res id a ∈ (s.m.obj i).log) (hw : a.ret = .value w) : w = v ∧ (s.m.obj i).value = some v := by
  obtain ⟨ρ, hρ⟩ := solution hwf hr v₀
  have h1 := ((pinv_reach hr hρ h).calm i).ans id a w ha hw
  have h2 := C16_value hwf hr h he h1
  exact ⟨h2, h2 ▸ h1⟩

/-- Each builder is started at most once, and never for a field which was given a value. -/
theorem C16_built_once (hwf : WellFounded fun j i => dep i j) (hr : ∀ i, (bld i).Reads (dep i)) (h : PReach bld v₀ s)
    (i : F) : builderRuns (s.m.obj i).log ≤ 1 ∧ ((v₀ i).isSome = true → builderRuns (s.m.obj i).log = 0) := by
  obtain ⟨ρ, hρ⟩ := solution hwf hr v₀
  have hc := (pinv_reach hr hρ h).calm i
  have he : builderRuns (s.m.obj i).log = (s.m.obj i).log.countP isStart := rfl
  rw [he]
  exact ⟨hc.once, fun hs => (hc.given (by intro hn; rw [hn] at hs; cases hs)).1⟩

/-- Reading comes to an end: there is no endless run in which threads go on with what they have begun. -/
theorem C16_no_endless_run (hwf : WellFounded fun j i => dep i j) (hr : ∀ i, (bld i).Reads (dep i))
    (f : Nat → PSt F V E) (h0 : PReach bld v₀ (f 0)) :
    ¬ ∀ n, ∃ t a, inner (f n) t a ∧ pstep bld (f n) t a = some (f (n + 1)) :=
  fun hf => no_endless hwf hr h0 hf

/-- And it ends well: when nobody can go on, everybody is out. -/
theorem C16_ends_outside (hwf : WellFounded fun j i => dep i j) (hr : ∀ i, (bld i).Reads (dep i)) (h : PReach bld v₀ s)
    (hend : ∀ t a, inner s t a → pstep bld s t a = none) (t : Nat) : s.m.stack t = [] := by
  obtain ⟨ρ, hρ⟩ := solution hwf hr v₀
  apply Classical.byContradiction
  intro ht
  obtain ⟨t', a, s', h1, h2⟩ := inner_enabled hwf (pinv_reach hr hρ h) ht
  rw [hend t' a h1] at h2
  cases h2

/-! ### Concrete case: field 0 adds fields 1 and 2, field 1 doubles field 2, field 2 was given 5 -/

/-- The builders. -/
def demoBld : Fin 3 → Prog (Fin 3) Nat
  | 0 => .read 1 fun a => .read 2 fun b => .ret (a + b)
  | 1 => .read 2 fun a => .ret (2 * a)
  | 2 => .ret 0

/-- Later fields come first. -/
def demoDep (i j : Fin 3) : Prop := i.1 < j.1

theorem demoDep_wf : WellFounded fun j i => demoDep i j := by
  have : Subrelation (fun j i => demoDep i j) (InvImage (· < ·) fun i : Fin 3 => 3 - i.1) := by
    intro j i h
    simp only [InvImage, demoDep] at h ⊢
    omega
  exact this.wf (InvImage.wf _ Nat.lt_wfRel.wf)

theorem demo_reads : ∀ i, (demoBld i).Reads (demoDep i)
  | 0 => ⟨by unfold demoDep; decide, fun _ => ⟨by unfold demoDep; decide, fun _ => trivial⟩⟩
  | 1 => ⟨by unfold demoDep; decide, fun _ => trivial⟩
  | 2 => trivial

/-- Initial contents. -/
def demoInit : Fin 3 → Option Nat := fun i => if i = 2 then some 5 else none

/-- Run a schedule. -/
def prun (bld : F → Prog F V) (s : PSt F V E) : List (Nat × Act F V E) → Option (PSt F V E)
  | [] => some s
  | (t, a) :: rest => (pstep bld s t a).bind fun s' => prun bld s' rest

theorem preach_run {s₀ s : PSt F V E} (h₀ : PReach bld v₀ s₀) {sch : List (Nat × Act F V E)}
    (h : prun bld s₀ sch = some s) : PReach bld v₀ s := by
  induction sch generalizing s₀ with
  | nil => simp [prun] at h; exact h ▸ h₀
  | cons x sch ih =>
    obtain ⟨t, a⟩ := x
    simp only [prun, Option.bind_eq_some_iff] at h
    obtain ⟨s₁, h1, h2⟩ := h
    exact ih (.step h₀ h1) h2

/-- `n` steps of the code of thread `t`. -/
def gos (t n : Nat) : List (Nat × Act (Fin 3) Nat Nat) := List.replicate n (t, .go)

/-- Thread 0 reads field 0; while its builder reads field 1, thread 1 reads field 1 too and has to wait for the value. -/
def demoRun : List (Nat × Act (Fin 3) Nat Nat) :=
  [(0, .call 0 (.get .read))] ++ gos 0 4 ++ [(0, .call 1 (.get .read))] ++ gos 0 4 ++ [(1, .call 1 (.get .tryRead)),
    (0, .call 2 (.get .read))] ++ gos 0 4 ++ [(0, .drop), (0, .finish .panic)] ++ gos 0 4 ++ gos 1 2 ++ gos 0 1 ++
    [(0, .drop), (0, .call 2 (.get .read))] ++ gos 0 4 ++ gos 1 2 ++ [(0, .drop), (0, .finish .panic)] ++ gos 0 5

example : ∃ s : PSt (Fin 3) Nat Nat, PReach demoBld demoInit s ∧ (s.m.obj 0).value = some 15 ∧
    (s.m.obj 1).value = some 10 ∧ s.m.stack 0 = [(0, 0)] ∧ s.m.stack 1 = [(1, 2)] ∧
    builderRuns (s.m.obj 1).log = 1 ∧ LEv.res ⟨2, 0⟩ ⟨none, .value 10⟩ ∈ (s.m.obj 1).log := by
  have h : ∃ s, prun demoBld (⟨init demoInit, fun _ => .ret 0⟩ : PSt (Fin 3) Nat Nat) demoRun = some s ∧
      (s.m.obj 0).value = some 15 ∧ (s.m.obj 1).value = some 10 ∧ s.m.stack 0 = [(0, 0)] ∧ s.m.stack 1 = [(1, 2)] ∧
      builderRuns (s.m.obj 1).log = 1 ∧ (s.m.obj 1).log.contains (LEv.res ⟨2, 0⟩ ⟨none, .value 10⟩) = true :=
    ⟨_, rfl, rfl, rfl, rfl, rfl, rfl, by decide +kernel⟩
  obtain ⟨s, h1, h2, h3, h4, h5, h6, h7⟩ := h
  exact ⟨s, preach_run (.init _) h1, h2, h3, h4, h5, h6, by simpa using h7⟩

-- single-threaded evaluation of field 0 gives 15 as well
example : ∃ σ, Eval demoBld demoInit (.read 0 .ret) 15 σ :=
  ⟨_, .miss rfl (.miss rfl (.hit (u := 5) rfl .ret) (.hit (u := 5) rfl .ret)) .ret⟩

end Verif.Props.Fields
