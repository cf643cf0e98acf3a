import Verif.Proof.FallibleFields
import Verif.Proof.LogThms
/-!
# Lazy fields which depend on each other, with builders which may fail: C86

Model: `Verif.Model.Fallible`, threads which only look, builders which follow a program and may end with an error or a
panic (`CReach`). The yardstick is the single-threaded evaluation `Spec.Yields`.
-/

namespace Verif.Props.Fallible
open Verif.Spec Verif.Model Verif.Model.Multi Verif.Model.Fallible Verif.Proof Verif.Proof.Multi
  Verif.Proof.Fallible

variable {F V E : Type} [DecidableEq F] {dep : F → F → Prop} {bld : F → Code F V E} {v₀ : F → Option V} {s : CSt F V E}

/-- Number of builder runs which have been started. -/
def builderRuns (l : List (Ev V E)) : Nat :=
  l.countP fun
    | .other (.bstart _) => true
    | _ => false

/-! ## C86 results of lazy fields do not depend on the schedule, failures included -/

/-- Single-threaded evaluation lets every field come to exactly one end: a value, an error, or a panic. -/
theorem C86_sequential (hwf : WellFounded fun j i => dep i j) (hr : ∀ i, (bld i).Reads (dep i)) (v₀ : F → Option V)
    (i : F) : ∃ o, Yields bld v₀ i o ∧ ∀ o', Yields bld v₀ i o' → o' = o := by
  obtain ⟨ρ, hρ⟩ := solution hwf hr v₀
  obtain ⟨o, ho⟩ := yields_total hwf hr v₀ i
  exact ⟨o, ho, fun o' ho' => by rw [yields_value hρ ho', yields_value hρ ho]⟩

/-- Whatever the schedule, a field that has a value has the one of single-threaded evaluation; a field whose builder fails
there never has one. -/
theorem C86_value (hwf : WellFounded fun j i => dep i j) (hr : ∀ i, (bld i).Reads (dep i)) (h : CReach bld v₀ s)
    {i : F} {o : Outcome V E} {w : V} (he : Yields bld v₀ i o) (hv : (s.m.obj i).value = some w) : o = .ok w := by
  obtain ⟨ρ, hρ⟩ := solution hwf hr v₀
  rw [yields_value hρ he]
  exact ((cinv_reach hr hρ h).calm i).val w hv

/-- Whatever the schedule, every answer of an entry point is that of single-threaded evaluation: value, error, or panic.
If the call ran the builder, the builder ended the same way; if the field fails, it did run it. -/
theorem C86_answers (hwf : WellFounded fun j i => dep i j) (hr : ∀ i, (bld i).Reads (dep i)) (h : CReach bld v₀ s)
    {i : F} {o : Outcome V E} (he : Yields bld v₀ i o) {id : CallId} {k : GetKind} {a : Res V E}
    (hk : LEv.inv id (.get k) ∈ (s.m.obj i).log) (ha : LEv.res id a ∈ (s.m.obj i).log) :
    a.ret = getRet k o ∧ (∀ o', a.ran = some o' → o' = o) ∧ (o.value? = none → a.ran = some o) := by
  obtain ⟨ρ, hρ⟩ := solution hwf hr v₀
  have hinv := cinv_reach hr hρ h
  rw [yields_value hρ he]
  obtain ⟨hD, _⟩ := Proof.Sync.logInv_reachC (Proof.Sync.reach_c ((inv_reach hinv.reach).obj i))
  obtain ⟨op, h1, h2⟩ := hD.facts.res_lin id _ (mem_hist_res.2 ha)
  have h5 := hD.inv_unique (mem_hist_inv.1 h1) hk
  subst h5
  exact (hinv.calm i).lin id k a (mem_lins.1 h2)

/-- What is seen through a guard is the value of single-threaded evaluation. -/
theorem C86_guards (hwf : WellFounded fun j i => dep i j) (hr : ∀ i, (bld i).Reads (dep i)) (h : CReach bld v₀ s)
    {i : F} {o : Outcome V E} (he : Yields bld v₀ i o) {id g : CallId} {a : Res V E}
    (hk : LEv.inv id (.deref g) ∈ (s.m.obj i).log) (ha : LEv.res id a ∈ (s.m.obj i).log) :
    ∃ v, o = .ok v ∧ a.ret = .value v ∧ (s.m.obj i).value = some v := by
  obtain ⟨ρ, hρ⟩ := solution hwf hr v₀
  have hinv := cinv_reach hr hρ h
  rw [yields_value hρ he]
  obtain ⟨hD, _⟩ := Proof.Sync.logInv_reachC (Proof.Sync.reach_c ((inv_reach hinv.reach).obj i))
  obtain ⟨op, h1, h2⟩ := hD.facts.res_lin id _ (mem_hist_res.2 ha)
  have h5 := hD.inv_unique (mem_hist_inv.1 h1) hk
  subst h5
  obtain ⟨v, h3, h4⟩ := (hinv.calm i).deref id g a (mem_lins.1 h2)
  exact ⟨v, h3, h4, (hinv.calm i).ans id a v ha h4⟩

/-- A builder which comes to a value is started at most once, and no builder is started for a field which was given a
value. -/
theorem C86_built_once (hwf : WellFounded fun j i => dep i j) (hr : ∀ i, (bld i).Reads (dep i)) (h : CReach bld v₀ s)
    {i : F} {o : Outcome V E} (he : Yields bld v₀ i o) :
    (∀ v, o = .ok v → builderRuns (s.m.obj i).log ≤ 1) ∧
    ((v₀ i).isSome = true → builderRuns (s.m.obj i).log = 0) := by
  obtain ⟨ρ, hρ⟩ := solution hwf hr v₀
  have hc := (cinv_reach hr hρ h).calm i
  have hb : builderRuns (s.m.obj i).log = (s.m.obj i).log.countP Proof.Fields.isStart := rfl
  rw [hb]
  refine ⟨?_, fun hs => (hc.given (by intro hn; rw [hn] at hs; cases hs)).1⟩
  rintro v rfl
  exact hc.once (by rw [← yields_value hρ he]; rfl)

/-- Looking comes to an end, also when builders fail and are run again: there is no endless run in which threads go on with
what they have begun. -/
theorem C86_no_endless_run (hwf : WellFounded fun j i => dep i j) (hr : ∀ i, (bld i).Reads (dep i))
    (f : Nat → CSt F V E) (h0 : CReach bld v₀ (f 0)) :
    ¬ ∀ n, ∃ t a, inside (f n) t a ∧ cstep bld (f n) t a = some (f (n + 1)) :=
  fun hf => no_endless hwf hr h0 hf

/-- And it ends well: when nobody can go on, everybody is out. -/
theorem C86_ends_outside (hwf : WellFounded fun j i => dep i j) (hr : ∀ i, (bld i).Reads (dep i)) (h : CReach bld v₀ s)
    (hend : ∀ t a, inside s t a → cstep bld s t a = none) (t : Nat) : s.m.stack t = [] := by
  obtain ⟨ρ, hρ⟩ := solution hwf hr v₀
  apply Classical.byContradiction
  intro ht
  obtain ⟨t', a, s', h1, h2⟩ := inside_enabled hwf (cinv_reach hr hρ h) ht
  rw [hend t' a h1] at h2
  cases h2

/-! ### Concrete case: field 0 tries field 1, which fails, and takes field 2 instead; field 3 lets the failure through -/

/-- The builders. Field 1 fails with 7 plus what field 2 has; field 0 catches the error; field 3 reads field 1 by the entry
point which panics and lets the panic through. -/
def demoBld : Fin 4 → Code (Fin 4) Nat Nat
  | 0 => .read .tryRead 1 fun
    | .error e => .read .read 2 fun
      | .value v => .ret (.ok (e + v))
      | _ => .ret .panic
    | .value v => .ret (.ok v)
    | _ => .ret .panic
  | 1 => .read .readMut 2 fun
    | .value v => .ret (.err (7 + v))
    | _ => .ret .panic
  | 2 => .ret (.ok 5)
  | 3 => .read .read 1 fun
    | .value v => .ret (.ok v)
    | _ => .ret .panic

/-- Field 2 comes first, then 1, then the others. -/
def demoDep (i j : Fin 4) : Prop := (j = 2 ∧ i ≠ 2) ∨ (j = 1 ∧ (i = 0 ∨ i = 3))

theorem demoDep_wf : WellFounded fun j i => demoDep i j := by
  have : Subrelation (fun j i => demoDep i j) (InvImage (· < ·) fun i : Fin 4 => if i = 2 then 0 else if i = 1 then 1 else 2) := by
    intro j i h
    revert h
    revert i j
    simp only [InvImage, demoDep]
    decide
  exact this.wf (InvImage.wf _ Nat.lt_wfRel.wf)

theorem demo_reads : ∀ i, (demoBld i).Reads (demoDep i)
  | 0 => by
    refine ⟨by unfold demoDep; decide, fun r => ?_⟩
    cases r <;> try trivial
    refine ⟨by unfold demoDep; decide, fun r => ?_⟩
    cases r <;> trivial
  | 1 => by
    refine ⟨by unfold demoDep; decide, fun r => ?_⟩
    cases r <;> trivial
  | 2 => trivial
  | 3 => by
    refine ⟨by unfold demoDep; decide, fun r => ?_⟩
    cases r <;> trivial

/-- Run a schedule. -/
def crun (bld : F → Code F V E) (s : CSt F V E) : List (Nat × Act F V E) → Option (CSt F V E)
  | [] => some s
  | (t, a) :: rest => (cstep bld s t a).bind fun s' => crun bld s' rest

theorem creach_run {s₀ s : CSt F V E} (h₀ : CReach bld v₀ s₀) {sch : List (Nat × Act F V E)}
    (h : crun bld s₀ sch = some s) : CReach bld v₀ s := by
  induction sch generalizing s₀ with
  | nil => simp [crun] at h; exact h ▸ h₀
  | cons x sch ih =>
    obtain ⟨t, a⟩ := x
    simp only [crun, Option.bind_eq_some_iff] at h
    obtain ⟨s₁, h1, h2⟩ := h
    exact ih (.step h₀ h1) h2

/-- `n` steps of the code of thread `t`. -/
def gos (t n : Nat) : List (Nat × Act (Fin 4) Nat Nat) := List.replicate n (t, .go)

/-- Thread 0 reads field 0, whose builder runs that of field 1, which runs that of field 2. Thread 1 tries field 1 while
this goes on, and has to run its builder again. Then thread 1 reads field 3 and gets a panic. -/
def demoRun : List (Nat × Act (Fin 4) Nat Nat) :=
  [(0, .call 0 (.get .tryRead))] ++ gos 0 4 ++ [(0, .call 1 (.get .tryRead))] ++ gos 0 4 ++
    [(1, .call 1 (.get .tryRead)), (0, .call 2 (.get .readMut))] ++ gos 0 4 ++ [(0, .finish .panic)] ++ gos 0 6 ++
    [(0, .drop), (0, .finish .panic)] ++ gos 0 1 ++ gos 1 4 ++ [(1, .call 2 (.get .readMut))] ++ gos 1 5 ++
    [(1, .drop), (0, .call 2 (.get .read))] ++ gos 0 4 ++ [(0, .drop), (0, .finish .panic), (1, .finish .panic)] ++
    gos 1 1 ++ gos 0 5 ++ [(1, .call 3 (.get .lazyInit))] ++ gos 1 4 ++ [(1, .call 1 (.get .read))] ++ gos 1 4 ++
    [(1, .call 2 (.get .readMut))] ++ gos 1 5 ++ [(1, .drop), (1, .finish .panic)] ++ gos 1 1 ++ [(1, .finish .panic)] ++
    gos 1 1

example : ∃ s : CSt (Fin 4) Nat Nat, CReach demoBld (fun _ => none) s ∧ (s.m.obj 0).value = some 17 ∧
    (s.m.obj 1).value = none ∧ (s.m.obj 2).value = some 5 ∧ (s.m.obj 3).value = none ∧ s.m.stack 0 = [(0, 0)] ∧
    s.m.stack 1 = [] ∧ builderRuns (s.m.obj 1).log = 3 ∧ builderRuns (s.m.obj 2).log = 1 ∧
    LEv.inv ⟨2, 0⟩ (.get .tryRead) ∈ (s.m.obj 1).log ∧
    LEv.res ⟨2, 0⟩ ⟨some (.err 12), .error 12⟩ ∈ (s.m.obj 1).log ∧
    LEv.res ⟨6, 0⟩ ⟨some .panic, .panicked⟩ ∈ (s.m.obj 3).log := by
  have h : ∃ s, crun demoBld (⟨init fun _ => none, fun _ => .ret .panic⟩ : CSt (Fin 4) Nat Nat) demoRun = some s ∧
      (s.m.obj 0).value = some 17 ∧
      (s.m.obj 1).value = none ∧ (s.m.obj 2).value = some 5 ∧ (s.m.obj 3).value = none ∧ s.m.stack 0 = [(0, 0)] ∧
      s.m.stack 1 = [] ∧ builderRuns (s.m.obj 1).log = 3 ∧ builderRuns (s.m.obj 2).log = 1 ∧
      (s.m.obj 1).log.contains (LEv.inv ⟨2, 0⟩ (.get .tryRead)) = true ∧
      (s.m.obj 1).log.contains (LEv.res ⟨2, 0⟩ ⟨some (.err 12), .error 12⟩) = true ∧
      (s.m.obj 3).log.contains (LEv.res ⟨6, 0⟩ ⟨some .panic, .panicked⟩) = true :=
    ⟨_, rfl, rfl, rfl, rfl, rfl, rfl, rfl, rfl, rfl, by decide +kernel, by decide +kernel, by decide +kernel⟩
  obtain ⟨s, h1, h2, h3, h4, h5, h6, h7, h8, h9, h10, h11, h12⟩ := h
  exact ⟨s, creach_run (.init _) h1, h2, h3, h4, h5, h6, h7, h8, h9, by simpa using h10, by simpa using h11,
    by simpa using h12⟩

-- single-threaded evaluation of field 0 gives 17 as well, that of field 1 the error, that of field 3 a panic
example : Yields demoBld (fun _ => none) 0 (.ok 17) :=
  .built rfl (.miss rfl (.miss rfl .ret .ret) (.hit (u := 5) rfl .ret))

example : Yields demoBld (fun _ => none) 1 (.err 12) := .built rfl (.miss rfl .ret .ret)

example : Yields demoBld (fun _ => none) 3 .panic := .built rfl (.miss rfl (.miss rfl .ret .ret) .ret)

end Verif.Props.Fallible
