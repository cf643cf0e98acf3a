import Verif.Proof.AsyncFallibleFields
import Verif.Proof.LogThms
import Verif.Props.Fallible
/-!
# Async lazy fields which depend on each other, with builders which may fail: C87

Model: `Verif.Model.AsyncFallible`, tasks which only look, builders which follow a program and may end with an error or a
panic (`CReach`). Futures may be dropped at any await. The yardstick is the single-threaded evaluation `Spec.Yields`, as in
C86.
-/

namespace Verif.Props.AsyncFallible
open Verif.Spec Verif.Model Verif.Model.AsyncMulti Verif.Model.AsyncFallible Verif.Proof Verif.Proof.AsyncMulti
  Verif.Proof.AsyncFallible
open Verif.Proof.Fallible (solution yields_value)
open Verif.Props.Fallible (demoBld demoDep demoDep_wf demo_reads)

variable {F V E : Type} [DecidableEq F] {dep : F → F → Prop} {bld : F → Code F V E} {v₀ : F → Option V} {s : CSt F V E}

/-- Number of builder runs which have ended by themselves. -/
def builderEnds (l : List (Ev V E)) : Nat :=
  l.countP fun
    | .other (.bend _ _) => true
    | _ => false

/-- Number of builder runs which have been dropped. -/
def builderAborts (l : List (Ev V E)) : Nat :=
  l.countP fun
    | .other (.abort _) => true
    | _ => false

/-- Number of builder runs which have been started. -/
def builderRuns (l : List (Ev V E)) : Nat :=
  l.countP fun
    | .other (.bstart _) => true
    | _ => false

/-! ## C87 results of async lazy fields do not depend on the schedule, failures included -/

/-- Whatever the schedule and whichever futures were dropped, a field that has a value has the one of single-threaded
evaluation; a field whose builder fails there never has one. -/
theorem C87_value (hwf : WellFounded fun j i => dep i j) (hr : ∀ i, (bld i).Reads (dep i)) (h : CReach bld v₀ s)
    {i : F} {o : Outcome V E} {w : V} (he : Yields bld v₀ i o) (hv : (s.m.obj i).value = some w) : o = .ok w := by
  obtain ⟨ρ, hρ⟩ := solution hwf hr v₀
  rw [yields_value hρ he]
  exact ((cinv_reach hr hρ h).calm i).val w hv

/-- Whatever the schedule and whichever futures were dropped, every answer of an entry point is that of single-threaded
evaluation: value, error, or panic. If the call ran the builder, the builder ended the same way; if the field fails, it did
run it. -/
theorem C87_answers (hwf : WellFounded fun j i => dep i j) (hr : ∀ i, (bld i).Reads (dep i)) (h : CReach bld v₀ s)
    {i : F} {o : Outcome V E} (he : Yields bld v₀ i o) {id : CallId} {k : GetKind} {a : Res V E}
    (hk : LEv.inv id (.get k) ∈ (s.m.obj i).log) (ha : LEv.res id a ∈ (s.m.obj i).log) :
    a.ret = getRet k o ∧ (∀ o', a.ran = some o' → o' = o) ∧ (o.value? = none → a.ran = some o) := by
  obtain ⟨ρ, hρ⟩ := solution hwf hr v₀
  have hinv := cinv_reach hr hρ h
  rw [yields_value hρ he]
  obtain ⟨L, hL, _⟩ := Proof.Async.sim ((inv_reach hinv.reach).obj i)
  obtain ⟨hD, _⟩ := Proof.Sync.logInv_reachC hL
  obtain ⟨op, h1, h2⟩ := hD.facts.res_lin id _ (mem_hist_res.2 ha)
  have h5 := hD.inv_unique (mem_hist_inv.1 h1) hk
  subst h5
  exact (hinv.calm i).lin id k a (mem_lins.1 h2)

/-- What is seen through a guard is the value of single-threaded evaluation. -/
theorem C87_guards (hwf : WellFounded fun j i => dep i j) (hr : ∀ i, (bld i).Reads (dep i)) (h : CReach bld v₀ s)
    {i : F} {o : Outcome V E} (he : Yields bld v₀ i o) {id g : CallId} {a : Res V E}
    (hk : LEv.inv id (.deref g) ∈ (s.m.obj i).log) (ha : LEv.res id a ∈ (s.m.obj i).log) :
    ∃ v, o = .ok v ∧ a.ret = .value v ∧ (s.m.obj i).value = some v := by
  obtain ⟨ρ, hρ⟩ := solution hwf hr v₀
  have hinv := cinv_reach hr hρ h
  rw [yields_value hρ he]
  obtain ⟨L, hL, _⟩ := Proof.Async.sim ((inv_reach hinv.reach).obj i)
  obtain ⟨hD, _⟩ := Proof.Sync.logInv_reachC hL
  obtain ⟨op, h1, h2⟩ := hD.facts.res_lin id _ (mem_hist_res.2 ha)
  have h5 := hD.inv_unique (mem_hist_inv.1 h1) hk
  subst h5
  obtain ⟨v, h3, h4⟩ := (hinv.calm i).deref id g a (mem_lins.1 h2)
  exact ⟨v, h3, h4, (hinv.calm i).ans id a v ha h4⟩

/-- A builder which comes to a value does so at most once, all its runs but one have been dropped, and no builder is started
for a field which was given a value. -/
theorem C87_built_once (hwf : WellFounded fun j i => dep i j) (hr : ∀ i, (bld i).Reads (dep i)) (h : CReach bld v₀ s)
    {i : F} {o : Outcome V E} (he : Yields bld v₀ i o) :
    (∀ v, o = .ok v → builderEnds (s.m.obj i).log ≤ 1 ∧
      builderRuns (s.m.obj i).log ≤ builderAborts (s.m.obj i).log + 1) ∧
    ((v₀ i).isSome = true → builderRuns (s.m.obj i).log = 0) := by
  obtain ⟨ρ, hρ⟩ := solution hwf hr v₀
  have hc := (cinv_reach hr hρ h).calm i
  have h1 : builderRuns (s.m.obj i).log = (s.m.obj i).log.countP Proof.Fields.isStart := rfl
  have h2 : builderEnds (s.m.obj i).log = (s.m.obj i).log.countP Proof.AsyncFields.isEnd := rfl
  have h3 : builderAborts (s.m.obj i).log = (s.m.obj i).log.countP Proof.AsyncFields.isAbort := rfl
  rw [h1, h2, h3]
  refine ⟨?_, fun hs => (hc.given (by intro hn; rw [hn] at hs; cases hs)).1⟩
  rintro v rfl
  have h0 : (ρ i).value?.isSome = true := by rw [← yields_value hρ he]; rfl
  exact ⟨hc.done h0, hc.once h0⟩

/-- Looking comes to an end, also when builders fail and are run again: a run in which tasks go on with what they have begun,
or drop futures, is finite, unless futures are dropped again and again for ever. -/
theorem C87_no_endless_run (hwf : WellFounded fun j i => dep i j) (hr : ∀ i, (bld i).Reads (dep i))
    (f : Nat → CSt F V E) (h0 : CReach bld v₀ (f 0))
    (hf : ∀ n, ∃ t a, (inside (f n) t a ∨ a = .cancel) ∧ cstep bld (f n) t a = some (f (n + 1))) (N : Nat) :
    ∃ n t, N ≤ n ∧ cstep bld (f n) t .cancel = some (f (n + 1)) := by
  apply Classical.byContradiction
  intro hno
  have hreach : ∀ n, CReach bld v₀ (f n) := by
    intro n
    induction n with
    | zero => exact h0
    | succ n ih => obtain ⟨t, a, _, h⟩ := hf n; exact .step ih h
  refine no_endless (f := fun n => f (N + n)) hwf hr (hreach N) fun n => ?_
  obtain ⟨t, a, h1, h2⟩ := hf (N + n)
  rcases h1 with h1 | rfl
  · exact ⟨t, a, h1, h2⟩
  · exact absurd ⟨N + n, t, by omega, h2⟩ hno

/-- And it ends well: when nobody can go on, everybody is out. -/
theorem C87_ends_outside (hwf : WellFounded fun j i => dep i j) (hr : ∀ i, (bld i).Reads (dep i)) (h : CReach bld v₀ s)
    (hend : ∀ t a, inside s t a → cstep bld s t a = none) (t : Nat) : s.m.stack t = [] := by
  obtain ⟨ρ, hρ⟩ := solution hwf hr v₀
  apply Classical.byContradiction
  intro ht
  obtain ⟨t', a, s', h1, h2⟩ := inside_enabled hwf (cinv_reach hr hρ h) ht
  rw [hend t' a h1] at h2
  cases h2

/-! ### Concrete case: the fields of C86, with futures dropped -/

/-- Run a schedule. -/
def crun (bld : F → Code F V E) (s : CSt F V E) : List (Nat × Act F V E) → Option (CSt F V E)
  | [] => some s
  | (t, a) :: rest => (cstep bld s t a).bind fun s' => crun bld s' rest

theorem creach_run {s₀ s : CSt F V E} (h₀ : CReach bld v₀ s₀) {sch : List (Nat × Act F V E)}
    (h : crun bld s₀ sch = some s) : CReach bld v₀ s := by
  induction sch generalizing s₀ with
  | nil => simp [crun] at h; exact h ▸ h₀
  | cons x sch ih =>
    obtain ⟨t, a⟩ := x
    simp only [crun, Option.bind_eq_some_iff] at h
    obtain ⟨s₁, h1, h2⟩ := h
    exact ih (.step h₀ h1) h2

/-- `n` steps of the code of task `t`. -/
def gos (t n : Nat) : List (Nat × Act (Fin 4) Nat Nat) := List.replicate n (t, .go)

/-- Task 0 reads field 0, whose builder runs that of field 1, which runs that of field 2. That call is dropped and made again.
Task 1 tries field 1 while this goes on, and has to run its builder again. Then task 1 reads field 3 and gets a panic. -/
def demoRun : List (Nat × Act (Fin 4) Nat Nat) :=
  [(0, .call 0 (.get .tryRead))] ++ gos 0 3 ++ [(0, .call 1 (.get .tryRead))] ++ gos 0 3 ++
    [(1, .call 1 (.get .tryRead)), (0, .call 2 (.get .readMut))] ++ gos 0 3 ++ [(0, .cancel), (0, .call 2 (.get .readMut))] ++
    gos 0 3 ++ [(0, .finish .panic)] ++ gos 0 4 ++
    [(0, .drop), (0, .finish .panic)] ++ gos 0 1 ++ gos 1 3 ++ [(1, .call 2 (.get .readMut))] ++ gos 1 4 ++
    [(1, .drop), (0, .call 2 (.get .read))] ++ gos 0 4 ++ [(0, .drop), (0, .finish .panic), (1, .finish .panic)] ++
    gos 1 1 ++ gos 0 4 ++ [(1, .call 3 (.get .lazyInit))] ++ gos 1 3 ++ [(1, .call 1 (.get .read))] ++ gos 1 3 ++
    [(1, .call 2 (.get .readMut))] ++ gos 1 4 ++ [(1, .drop), (1, .finish .panic)] ++ gos 1 1 ++ [(1, .finish .panic)] ++
    gos 1 1

example : ∃ s : CSt (Fin 4) Nat Nat, CReach demoBld (fun _ => none) s ∧ (s.m.obj 0).value = some 17 ∧
    (s.m.obj 1).value = none ∧ (s.m.obj 2).value = some 5 ∧ (s.m.obj 3).value = none ∧ s.m.stack 0 = [(0, 0)] ∧
    s.m.stack 1 = [] ∧ builderRuns (s.m.obj 1).log = 3 ∧ builderRuns (s.m.obj 2).log = 2 ∧
    builderAborts (s.m.obj 2).log = 1 ∧
    LEv.inv ⟨2, 0⟩ (.get .tryRead) ∈ (s.m.obj 1).log ∧
    LEv.res ⟨2, 0⟩ ⟨some (.err 12), .error 12⟩ ∈ (s.m.obj 1).log ∧
    LEv.res ⟨7, 0⟩ ⟨some .panic, .panicked⟩ ∈ (s.m.obj 3).log := by
  have h : ∃ s, crun demoBld (⟨init fun _ => none, fun _ => .ret .panic⟩ : CSt (Fin 4) Nat Nat) demoRun = some s ∧
      (s.m.obj 0).value = some 17 ∧
      (s.m.obj 1).value = none ∧ (s.m.obj 2).value = some 5 ∧ (s.m.obj 3).value = none ∧ s.m.stack 0 = [(0, 0)] ∧
      s.m.stack 1 = [] ∧ builderRuns (s.m.obj 1).log = 3 ∧ builderRuns (s.m.obj 2).log = 2 ∧
      builderAborts (s.m.obj 2).log = 1 ∧
      (s.m.obj 1).log.contains (LEv.inv ⟨2, 0⟩ (.get .tryRead)) = true ∧
      (s.m.obj 1).log.contains (LEv.res ⟨2, 0⟩ ⟨some (.err 12), .error 12⟩) = true ∧
      (s.m.obj 3).log.contains (LEv.res ⟨7, 0⟩ ⟨some .panic, .panicked⟩) = true :=
    ⟨_, rfl, rfl, rfl, rfl, rfl, rfl, rfl, rfl, rfl, rfl, by decide +kernel, by decide +kernel, by decide +kernel⟩
  obtain ⟨s, h1, h2, h3, h4, h5, h6, h7, h8, h9, h10, h11, h12, h13⟩ := h
  exact ⟨s, creach_run (.init _) h1, h2, h3, h4, h5, h6, h7, h8, h9, h10, by simpa using h11, by simpa using h12,
    by simpa using h13⟩

-- what single-threaded evaluation gives for these fields is beside C86; they depend on each other without cycles
example : (WellFounded fun j i => demoDep i j) ∧ ∀ i, (demoBld i).Reads (demoDep i) := ⟨demoDep_wf, demo_reads⟩

/-! ### A run without end: a builder whose read of another field is dropped again and again -/

/-- What the builder of `true` does with the answer of `false`. -/
def pairRest : Ret Nat Nat → Code Bool Nat Nat
  | .error e => .ret (.err e)
  | _ => .ret .panic

/-- The builder of `true` tries `false`, whose builder fails, and passes the error on. -/
def pairBld : Bool → Code Bool Nat Nat
  | true => .read .tryRead false pairRest
  | false => .ret (.err 3)

/-- Where the run comes by: task 0 in the builder of `true`, about to read `false`, nobody else there. -/
structure Resting (s : CSt Bool Nat Nat) : Prop where
  stack : s.m.stack 0 = [(true, 0)]
  pc : (s.m.obj true).pc 0 = .rBuild .read
  code : s.code 0 = .read .tryRead false pairRest
  fresh : ∀ q, (s.m.obj false).pc q = .idle
  next : 0 < s.m.next

/-- The call and its end. -/
theorem resting_round {s : CSt Bool Nat Nat} (h : Resting s) :
    ∃ s₁ s₂, cstep pairBld s 0 (.call false (.get .tryRead)) = some s₁ ∧ s₁.m.stack 0 ≠ [] ∧
      cstep pairBld s₁ 0 .cancel = some s₂ ∧ Resting s₂ := by
  have hne : s.m.next ≠ 0 := Nat.ne_of_gt h.next
  refine ⟨_, _, by simp [cstep, mayLook, h.stack, h.code, Fallible.asks, step, userTurn, h.pc, building, Async.invoke, h.fresh]; rfl,
    by simp [upd], by simp [cstep, step, upd, Async.St.begin, Async.cancel]; rfl, ?_⟩
  refine ⟨?_, ?_, ?_, ?_, ?_⟩
  · simp [settle, upd, Async.St.quit, gone, h.stack]
  · simp [settle, upd, h.pc]
  · simp [upd, hne.symm, h.code]
  · intro q
    simp only [settle, upd, if_true, Async.St.quit, Async.St.begin]
    split
    · rfl
    · simp [h.fresh]
  · simp [settle]

theorem resting_start : ∃ s : CSt Bool Nat Nat, CReach pairBld (fun _ => none) s ∧ Resting s := by
  have h : ∃ s, crun pairBld (⟨init fun _ => none, fun _ => .ret .panic⟩ : CSt Bool Nat Nat)
      [(0, .call true (.get .read)), (0, .go), (0, .go), (0, .go)] = some s ∧ s.m.stack 0 = [(true, 0)] ∧
      (s.m.obj true).pc 0 = .rBuild .read ∧ s.code 0 = .read .tryRead false pairRest ∧ (∀ q, (s.m.obj false).pc q = .idle) ∧
      s.m.next = 1 := ⟨_, rfl, rfl, rfl, rfl, fun _ => rfl, rfl⟩
  obtain ⟨s, h1, h2, h3, h4, h5, h6⟩ := h
  exact ⟨s, creach_run (.init _) h1, h2, h3, h4, h5, by omega⟩

-- such a run, as `C87_no_endless_run` has it
example : ∃ f : Nat → CSt Bool Nat Nat, CReach pairBld (fun _ => none) (f 0) ∧
    ∀ n, ∃ t a, (inside (f n) t a ∨ a = .cancel) ∧ cstep pairBld (f n) t a = some (f (n + 1)) := by
  obtain ⟨s, hs, hr⟩ := resting_start
  let nxt : CSt Bool Nat Nat → CSt Bool Nat Nat := fun s =>
    if s.m.stack 0 = [(true, 0)] then (cstep pairBld s 0 (.call false (.get .tryRead))).getD s
    else (cstep pairBld s 0 .cancel).getD s
  let f : Nat → CSt Bool Nat Nat := fun n => Nat.rec s (fun _ s => nxt s) n
  have key : ∀ n, Resting (f n) ∨ ∃ s, Resting s ∧ cstep pairBld s 0 (.call false (.get .tryRead)) = some (f n) := by
    intro n
    induction n with
    | zero => exact .inl hr
    | succ n ih =>
      rcases ih with h | ⟨s₀, h, hp⟩
      · refine .inr ⟨f n, h, ?_⟩
        obtain ⟨s₁, _, h1, _⟩ := resting_round h
        have : f (n + 1) = s₁ := by change nxt (f n) = s₁; simp [nxt, h.stack, h1]
        rw [this]; exact h1
      · left
        obtain ⟨s₁, s₂, h1, _, h2, h3⟩ := resting_round h
        rw [h1] at hp
        simp only [Option.some.injEq] at hp
        have hst : s₁.m.stack 0 ≠ [(true, 0)] := by
          intro hc
          have : s₁.m.stack 0 = [(false, s₀.m.next), (true, 0)] := by
            simp only [cstep, mayLook, h.stack, h.code, Fallible.asks, step, userTurn, h.pc, building, Async.invoke, h.fresh] at h1
            simp at h1
            subst h1
            simp [upd, h.stack]
          rw [this] at hc; simp at hc
        have : f (n + 1) = s₂ := by change nxt (f n) = s₂; rw [← hp]; simp [nxt, hst, h2]
        rw [this]; exact h3
  refine ⟨f, hs, fun n => ⟨0, ?_⟩⟩
  rcases key n with h | ⟨s₀, h, hp⟩
  · obtain ⟨s₁, _, h1, _⟩ := resting_round h
    refine ⟨_, .inl (by simp [inside, h.stack]), h1.trans ?_⟩
    change _ = some (nxt (f n))
    simp [nxt, h.stack, h1]
  · obtain ⟨s₁, s₂, h1, _, h2, h3⟩ := resting_round h
    rw [h1] at hp
    simp only [Option.some.injEq] at hp
    refine ⟨.cancel, .inr rfl, ?_⟩
    have hst : s₁.m.stack 0 ≠ [(true, 0)] := by
      intro hc
      have : s₁.m.stack 0 = [(false, s₀.m.next), (true, 0)] := by
        simp only [cstep, mayLook, h.stack, h.code, Fallible.asks, step, userTurn, h.pc, building, Async.invoke, h.fresh] at h1
        simp at h1
        subst h1
        simp [upd, h.stack]
      rw [this] at hc; simp at hc
    change _ = some (nxt (f n))
    rw [← hp]
    simp [nxt, hst, h2]

end Verif.Props.AsyncFallible
