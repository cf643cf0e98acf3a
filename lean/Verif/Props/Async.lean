import Verif.Proof.Cancel
/-!
# Properties of the async lazy container: C11 – C14, C45 – C51

Model: `Verif.Model.Async` (/repo/fieldx/src/async/fxproxy.rs). `Reach v₀ s`: some schedule of any number of tasks, each
cancelled at any await point or not, leads from a container created with content `v₀` to `s`. Log and sequential object as
for the sync container; `cancel i`: the future of call `i` was dropped, `abort i`: its running builder went with it.
-/

namespace Verif.Props.Async
open Verif.Spec Verif.Model Verif.Model.Async Verif.Proof Verif.Proof.Async

variable {V E : Type} {v₀ : Option V} {s : St V E}

/-! ## A concrete execution used in the examples -/

/-- `n` steps of the code of process `p`. -/
def gos (p n : Nat) : List (Nat × Act Nat Nat) := List.replicate n (p, .go)

/-- Task 0 is cancelled while its builder runs, task 2 while waiting for the lock; task 1 builds 5, looks at its guard and
drops it; task 3 clones; task 2 clears; task 0 fails to build, then builds 7 by `get_mut` and overwrites it with 8. -/
def demo : List (Nat × Act Nat Nat) :=
  [(0, .call (.get .read))] ++ gos 0 3 ++ [(2, .call .clear), (2, .cancel), (0, .cancel)] ++
  [(1, .call (.get .read)), (3, .call .isSet)] ++ gos 1 3 ++ gos 3 2 ++ [(1, .finish (.ok 5))] ++ gos 1 4 ++
  [(1, .call (.deref ⟨1, 0⟩)), (3, .call .snapshot)] ++ gos 3 4 ++ gos 1 2 ++ [(1, .drop)] ++
  [(2, .call .clear)] ++ gos 2 4 ++
  [(0, .call (.get .tryRead))] ++ gos 0 3 ++ [(0, .finish (.err 9))] ++ gos 0 1 ++
  [(0, .call (.get .readMut))] ++ gos 0 3 ++ [(0, .finish (.ok 7))] ++ gos 0 4 ++
  [(0, .call (.assign ⟨0, 2⟩ 8))] ++ gos 0 2

/-- The log of `demo`. -/
def demoLog : List (Ev Nat Nat) :=
  [ .inv ⟨0, 0⟩ (.get .read), .other (.bstart ⟨0, 0⟩), .inv ⟨2, 0⟩ .clear, .cancel ⟨2, 0⟩, .other (.abort ⟨0, 0⟩),
    .cancel ⟨0, 0⟩,
    .inv ⟨1, 0⟩ (.get .read), .inv ⟨3, 0⟩ .isSet, .other (.bstart ⟨1, 0⟩),
    .lin ⟨3, 0⟩ .isSet ⟨none, .bool false⟩, .res ⟨3, 0⟩ ⟨none, .bool false⟩,
    .other (.bend ⟨1, 0⟩ (.ok 5)), .lin ⟨1, 0⟩ (.get .read) ⟨some (.ok 5), .value 5⟩,
    .res ⟨1, 0⟩ ⟨some (.ok 5), .value 5⟩,
    .inv ⟨1, 1⟩ (.deref ⟨1, 0⟩), .inv ⟨3, 1⟩ .snapshot,
    .lin ⟨3, 1⟩ .snapshot ⟨none, .snap (some 5) true⟩, .res ⟨3, 1⟩ ⟨none, .snap (some 5) true⟩,
    .lin ⟨1, 1⟩ (.deref ⟨1, 0⟩) ⟨none, .value 5⟩, .res ⟨1, 1⟩ ⟨none, .value 5⟩, .other (.drop ⟨1, 0⟩),
    .inv ⟨2, 1⟩ .clear, .lin ⟨2, 1⟩ .clear ⟨none, .old (some 5)⟩, .res ⟨2, 1⟩ ⟨none, .old (some 5)⟩,
    .inv ⟨0, 1⟩ (.get .tryRead), .other (.bstart ⟨0, 1⟩), .other (.bend ⟨0, 1⟩ (.err 9)),
    .lin ⟨0, 1⟩ (.get .tryRead) ⟨some (.err 9), .error 9⟩, .res ⟨0, 1⟩ ⟨some (.err 9), .error 9⟩,
    .inv ⟨0, 2⟩ (.get .readMut), .other (.bstart ⟨0, 2⟩), .other (.bend ⟨0, 2⟩ (.ok 7)),
    .lin ⟨0, 2⟩ (.get .readMut) ⟨some (.ok 7), .value 7⟩, .res ⟨0, 2⟩ ⟨some (.ok 7), .value 7⟩,
    .inv ⟨0, 3⟩ (.assign ⟨0, 2⟩ 8), .lin ⟨0, 3⟩ (.assign ⟨0, 2⟩ 8) ⟨none, .value 7⟩, .res ⟨0, 3⟩ ⟨none, .value 7⟩ ]

theorem demo_reach : ∃ s : St Nat Nat, Reach none s ∧ s.log = demoLog ∧ s.value = some 8 ∧ s.flag = true ∧
    s.pc 0 = .gMut ⟨0, 2⟩ := by
  have h : (run (init none) demo).map (fun s => (s.log, s.value, s.flag, s.pc 0)) =
    some (demoLog, some 8, true, .gMut ⟨0, 2⟩) := by decide
  rw [Option.map_eq_some_iff] at h
  obtain ⟨s, h1, h2⟩ := h
  simp only [Prod.mk.injEq] at h2
  exact ⟨s, reach_run .init h1, h2⟩

/-! ## C11 single initialisation under cancellation -/

/-- While a builder runs memory is empty, the predicate is false, and no other builder runs. -/
theorem C11_memory_empty_while_building (h : Reach v₀ s) {p : Nat} {k : GetKind} (hp : s.pc p = .rBuild k) :
    s.value = none ∧ s.flag = false ∧ ∀ q k', s.pc q = .rBuild k' → q = p := by
  have hc := inv_reach h
  have h1 := hc.mem p
  rw [hp] at h1
  have h1 : s.value = none := h1
  refine ⟨h1, ?_, ?_⟩
  · rw [hc.quiet (hc.no_mid (p := p) (by rw [hp]; rfl) (by rw [hp]; exact .inl rfl)), h1]; rfl
  · intro q k' hq
    have h2 := (hc.wr p).2 (by rw [hp]; rfl)
    have h3 := (hc.wr q).2 (by rw [hq]; rfl)
    rw [h2] at h3
    exact (Option.some.inj h3).symm

/-- The builder is started only when the calls that took effect so far left the field empty; until that run ends or is
dropped the field stays empty. -/
theorem C11_builder_runs_only_when_empty (h : Reach v₀ s) {l₁ l₂ l₃ : List (Ev V E)} {i : CallId}
    (hl : s.log = l₁ ++ .other (.bstart i) :: (l₂ ++ l₃)) (hn : ∀ o, .other (.bend i o) ∉ l₂)
    (ha : .other (.abort i) ∉ l₂) :
    ∀ c, Legal CellStep v₀ (lins (l₁ ++ .other (.bstart i) :: l₂)) c → c = none := by
  obtain ⟨L, hr, _⟩ := sim h
  exact Sync.build_only_when_empty hr hl hn ha

/-- A run ends, or is dropped with its task, before another begins. -/
theorem C11_no_two_runs_overlap (h : Reach v₀ s) {l₁ l₂ l₃ : List (Ev V E)} {i j : CallId}
    (hl : s.log = l₁ ++ .other (.bstart i) :: (l₂ ++ .other (.bstart j) :: l₃)) :
    (∃ o, .other (.bend i o) ∈ l₂) ∨ .other (.abort i) ∈ l₂ := by
  obtain ⟨L, hr, _⟩ := sim h
  exact Sync.no_overlap hr hl

/-- Between two runs which gave a value some call emptied the field. -/
theorem C11_clear_between_builds (h : Reach v₀ s) {l₁ l₂ l₃ : List (Ev V E)} {i j : CallId} {v w : V}
    (hl : s.log = l₁ ++ .other (.bend i (.ok v)) :: (l₂ ++ .other (.bend j (.ok w)) :: l₃)) :
    ∃ c op u, (op = .clear ∨ op = .take) ∧ .lin c op ⟨none, .old (some u)⟩ ∈ l₂ := by
  obtain ⟨L, hr, _⟩ := sim h
  exact Sync.clear_between hr hl

-- the run of task 0 is dropped before that of task 1 begins; the clear of task 2 lies between the builds of 5 and 7
example : ∃ s : St Nat Nat, Reach none s ∧
    (∃ l₁ l₂ l₃, s.log = l₁ ++ .other (.bstart ⟨0, 0⟩) :: (l₂ ++ .other (.bstart ⟨1, 0⟩) :: l₃) ∧
      .other (.abort ⟨0, 0⟩) ∈ l₂) ∧
    ∃ l₁ l₂ l₃, s.log = l₁ ++ .other (.bend ⟨1, 0⟩ (.ok 5)) :: (l₂ ++ .other (.bend ⟨0, 2⟩ (.ok 7)) :: l₃) ∧
      .lin ⟨2, 1⟩ .clear ⟨none, .old (some 5)⟩ ∈ l₂ := by
  obtain ⟨s, h, hl, _⟩ := demo_reach
  refine ⟨s, h, ⟨demoLog.take 1, (demoLog.drop 2).take 6, demoLog.drop 9, by rw [hl]; decide, by decide⟩,
    demoLog.take 11, (demoLog.drop 12).take 19, demoLog.drop 32, by rw [hl]; decide, by decide⟩

/-! ## C12 linearizability under cancellation -/

/-- Every history of calls on an async lazy field, with any of them cancelled anywhere, is well formed and linearizable
with respect to the optional cell with build-on-read. -/
theorem C12_async_linearizable (h : Reach v₀ s) :
    WellFormed (hist s.log) ∧ Linearizable CellStep v₀ (hist s.log) := by
  obtain ⟨L, hr, _⟩ := sim h
  exact Sync.linearizable hr

/-- A cancelled call had no effect at all and gave no answer. -/
theorem C12_cancelled_no_effect (h : Reach v₀ s) {i : CallId} (hi : .cancel i ∈ s.log) :
    (∀ op r, .lin i op r ∉ s.log) ∧ ∀ r, .res i r ∉ s.log := by
  obtain ⟨L, hr, _⟩ := sim h
  obtain ⟨hD, _⟩ := Sync.logInv_reachC hr
  exact (hD.cancelled hi).2

/-- The calls fit together as if the cancelled ones had never been made. -/
theorem C12_cancelled_never_made (h : Reach v₀ s) :
    WellFormed (without (abandoned s.log) (hist s.log)) ∧
      Linearizable CellStep v₀ (without (abandoned s.log) (hist s.log)) := by
  obtain ⟨L, hr, _⟩ := sim h
  obtain ⟨hD, c, hL, _⟩ := Sync.logInv_reachC hr
  exact ⟨keys_without (hD.wellFormed), hD.linearizable_without hL⟩

/-- The step which drops a future changes neither the value nor the predicate. -/
theorem C12_cancel_changes_nothing {p : Nat} {s' : St V E} (hs : step s p .cancel = some s') :
    s'.value = s.value ∧ s'.flag = s.flag ∧ lins s'.log = lins s.log := by
  simp only [step, cancel] at hs
  split at hs
  all_goals first
    | (simp at hs; done)
    | (simp only [Option.some.injEq] at hs
       subst hs)
  all_goals simp [St.quit, St.ev, lins]

example : ∃ s : St Nat Nat, Reach none s ∧ .cancel ⟨0, 0⟩ ∈ s.log ∧ .cancel ⟨2, 0⟩ ∈ s.log ∧
    .inv ⟨0, 0⟩ (.get .read) ∈ s.log ∧ .res ⟨1, 0⟩ ⟨some (.ok 5), .value 5⟩ ∈ s.log := by
  obtain ⟨s, h, hl, _⟩ := demo_reach
  exact ⟨s, h, by rw [hl]; decide, by rw [hl]; decide, by rw [hl]; decide, by rw [hl]; decide⟩

-- the history without the two cancelled calls
example : ∃ s : St Nat Nat, Reach none s ∧ abandoned s.log = [⟨2, 0⟩, ⟨0, 0⟩] ∧
    (without (abandoned s.log) (hist s.log)).length + 2 = (hist s.log).length := by
  obtain ⟨s, h, hl, _⟩ := demo_reach
  exact ⟨s, h, by rw [hl]; decide, by rw [hl]; decide⟩

/-! ## C13 a cancelled, failed or panicked build leaves no trace -/

/-- When the builder ends with `Err` or a panic the field is empty and the predicate false; the call then drops its write
guard without waiting, after which the task holds nothing and the field is still empty. -/
theorem C13_failure_leaves_no_trace (h : Reach v₀ s) {p : Nat} {o : Outcome V E} {s₁ : St V E} (ho : o.value? = none)
    (hs : step s p (.finish o) = some s₁) :
    s₁.value = none ∧ s₁.flag = false ∧
    ∃ s₂, step s₁ p .go = some s₂ ∧ s₂.pc p = .idle ∧ s₂.value = none ∧ s₂.flag = false ∧
      s₂.lk.wr = none ∧ p ∉ s₂.lk.shared := by
  have hr₁ : Reach v₀ s₁ := .step h hs
  have hk : ∃ k, s₁.pc p = .rFail k o := by
    simp only [step, builderReturns] at hs
    split at hs
    · rename_i k _
      cases o with
      | ok v => simp [Outcome.value?] at ho
      | err e => simp at hs; subst hs; exact ⟨k, by simp [St.to]⟩
      | panic => simp at hs; subst hs; exact ⟨k, by simp [St.to]⟩
    · simp at hs
  obtain ⟨k, hk⟩ := hk
  have hc₁ := inv_reach hr₁
  have h1 := hc₁.mem p
  rw [hk] at h1
  have h2 : s₁.value = none := h1.1
  have h3 : s₁.flag = false := by
    rw [hc₁.quiet (hc₁.no_mid (p := p) (by rw [hk]; rfl) (by rw [hk]; exact .inl rfl)), h2]; rfl
  refine ⟨h2, h3, ?_⟩
  have hgo : step s₁ p .go = some ({ s₁ with lk := s₁.lk.dropWrite }.ret p .idle ⟨some o, getRet k o⟩) := by
    simp [step, go, hk]
  refine ⟨_, hgo, by simp [St.ret], h2, h3, rfl, ?_⟩
  intro hu
  have := (hc₁.sh p).1 hu
  rw [hk] at this; cases this

/-- When the task is cancelled while its builder runs, at once the field is empty, the predicate false, and the lock
free. -/
theorem C13_cancelled_build_leaves_no_trace (h : Reach v₀ s) {p : Nat} {k : GetKind} (hp : s.pc p = .rBuild k)
    {s₁ : St V E} (hs : step s p .cancel = some s₁) :
    s₁.value = none ∧ s₁.flag = false ∧ s₁.pc p = .idle ∧ s₁.lk = .free := by
  obtain ⟨h1, h2, _⟩ := C11_memory_empty_while_building h hp
  have hc := inv_reach h
  have h3 := hc.alone (by rw [(hc.wr p).2 (by rw [hp]; rfl)]; simp)
  simp only [step, cancel, hp, Option.some.injEq] at hs
  subst hs
  refine ⟨h1, h2, by simp [St.quit], ?_⟩
  simp [St.quit, St.ev, ALock.dropWrite, ALock.free, h3]

/-- Wherever a call is cancelled, its task holds no lock afterwards. -/
theorem C13_cancelled_holds_no_lock (h : Reach v₀ s) {p : Nat} {s₁ : St V E} (hs : step s p .cancel = some s₁) :
    s₁.pc p = .idle ∧ s₁.lk.wr ≠ some p ∧ p ∉ s₁.lk.shared := by
  have hc := inv_reach (.step h hs)
  have h1 : s₁.pc p = .idle := by
    simp only [step, cancel] at hs
    split at hs
    all_goals first
      | (simp at hs; done)
      | (simp only [Option.some.injEq] at hs
         subst hs)
    all_goals simp [St.quit]
  refine ⟨h1, ?_, ?_⟩
  · intro h2; have := (hc.wr p).1 h2; rw [h1] at this; cases this
  · intro h2; have := (hc.sh p).1 h2; rw [h1] at this; cases this

/-- After a failed run the next access runs the builder again, unless a value was stored in between. -/
theorem C13_builder_runs_again_after_failure (h : Reach v₀ s) {l₁ l₂ l₃ : List (Ev V E)} {i j : CallId} {k k' : GetKind}
    {o : Outcome V E} {x r} (ho : o.value? = none)
    (hl : s.log = l₁ ++ .lin i (.get k) ⟨some o, x⟩ :: (l₂ ++ .lin j (.get k') r :: l₃))
    (hn : ∀ c op r', .lin c op r' ∈ l₂ → (∀ v, op ≠ .set v ∧ op ≠ .store v) ∧ ∀ v, r'.ran ≠ some (.ok v)) :
    ∃ o', r.ran = some o' := by
  obtain ⟨L, hr, _⟩ := sim h
  exact Sync.builds_again hr ho hl hn

/-- After a run dropped by cancellation the next access runs the builder again, unless a value was stored in between. -/
theorem C13_builder_runs_again_after_cancel (h : Reach v₀ s) {l₁ l₂ l₃ : List (Ev V E)} {i j : CallId} {k' : GetKind} {r}
    (hl : s.log = l₁ ++ .other (.abort i) :: (l₂ ++ .lin j (.get k') r :: l₃))
    (hn : ∀ c op r', .lin c op r' ∈ l₂ → (∀ v, op ≠ .set v ∧ op ≠ .store v) ∧ ∀ v, r'.ran ≠ some (.ok v)) :
    ∃ o', r.ran = some o' := by
  obtain ⟨L, hr, _⟩ := sim h
  exact Sync.builds_again_abort hr hl hn

-- in `demo` the run of task 0 is dropped, and the access of task 1 runs the builder; later task 0 fails and tries again
example : ∃ s : St Nat Nat, Reach none s ∧
    (∃ l₁ l₂ l₃, s.log = l₁ ++ .other (.abort ⟨0, 0⟩) ::
      (l₂ ++ .lin ⟨1, 0⟩ (.get .read) ⟨some (.ok 5), .value 5⟩ :: l₃) ∧
      ∀ c op r', .lin c op r' ∈ l₂ → op = .isSet ∧ r'.ran = none) ∧
    (∃ l₁ l₂ l₃, s.log = l₁ ++ .lin ⟨0, 1⟩ (.get .tryRead) ⟨some (.err 9), .error 9⟩ ::
      (l₂ ++ .lin ⟨0, 2⟩ (.get .readMut) ⟨some (.ok 7), .value 7⟩ :: l₃) ∧ ∀ c op r', .lin c op r' ∉ l₂) := by
  obtain ⟨s, h, hl, _⟩ := demo_reach
  refine ⟨s, h, ⟨demoLog.take 4, (demoLog.drop 5).take 7, demoLog.drop 13, by rw [hl]; decide, ?_⟩,
    ⟨demoLog.take 27, (demoLog.drop 28).take 4, demoLog.drop 33, by rw [hl]; decide, ?_⟩⟩
  · intro c op r' hm
    simp [demoLog] at hm
    simp [hm]
  · intro c op r' hm
    simp [demoLog] at hm

-- a builder running in task 0, which can be cancelled there or end in a panic
example : ∃ s s₁ s₂ : St Nat Nat, Reach none s ∧ s.pc 0 = .rBuild .read ∧ step s 0 .cancel = some s₁ ∧
    step s 0 (.finish .panic) = some s₂ := by
  refine ⟨_, _, _, reach_run (sch := demo.take 4) .init rfl, rfl, rfl, rfl⟩

/-! ## C14 (async) reading again while holding the guard: false -/

/-- The accessor of an async lazy field always asks for the write lock. While the guard of `p` lives, an accessor call `r`
of the same task (which therefore cannot drop the guard of `p` before `r` answers) makes no progress whatever the rest of
the world does: the task is stuck until it is cancelled. -/
theorem C14_async_reread_blocks {s' : St V E} (h : Reach v₀ s) {p r : Nat} {g : CallId} {k : GetKind}
    (hp : s.pc p = .gRead g) (hr : s.pc r = .rStart k) {sch : List (Nat × Act V E)}
    (hsch : ∀ x ∈ sch, x.1 ≠ p ∧ (x.1 = r → x.2 ≠ .cancel)) (hrun : run s sch = some s') :
    s'.pc r = .rStart k ∧ ∀ r', .res (s.me r) r' ∉ s'.log := by
  have h1 := blocked_run h hp hr hsch hrun
  refine ⟨h1.2, ?_⟩
  intro r' hm
  obtain ⟨L, hR, _⟩ := sim (reach_run h hrun)
  have h2 := (Sync.runInv_reachC hR).past _ _ hm
  have h3 : s'.seq r = s.seq r := by
    clear hR h2 hm
    induction sch generalizing s with
    | nil => simp [run] at hrun; rw [hrun]
    | cons x sch ih =>
      obtain ⟨q, a⟩ := x
      simp only [run, Option.bind_eq_some_iff] at hrun
      obtain ⟨s₁, h4, h5⟩ := hrun
      have hx := hsch (q, a) (by simp)
      have hrun1 : run s [(q, a)] = some s₁ := by simp [run, h4]
      have hb := blocked_run h hp hr (sch := [(q, a)]) (fun y hy => hsch y (by simp at hy; simp [hy])) hrun1
      rw [ih (.step h h4) hb.1 hb.2 (fun y hy => hsch y (by simp [hy])) h5]
      by_cases hq : q = r
      · exfalso
        subst hq
        have hc := hx.2 rfl
        cases a with
        | cancel => exact hc rfl
        | call op => simp only [step, invoke, hr] at h4; simp at h4
        | finish o => simp only [step, builderReturns, hr] at h4; simp at h4
        | drop => simp only [step, dropGuard, hr] at h4; simp at h4
        | go =>
          simp only [step, go, hr, ALock.tryWrite] at h4
          have h6 := ((inv_reach h).sh p).2 (by rw [hp]; rfl)
          split at h4
          · rename_i h7; rw [h7.2] at h6; simp at h6
          · simp at h4
      · exact seq_other h4 hq
  have h4 : (s.me r).seq < s'.seq r := h2.2
  rw [h3] at h4
  exact Nat.lt_irrefl _ h4

/-- Hence the property fails: there is a reachable state with an initialised field and one read guard, nobody waiting to
write, in which another accessor call can be made and then never completes, as long as the guard is kept. -/
theorem C14_async_reread_false : ∃ s : St Nat Nat, Reach none s ∧ s.value = some 5 ∧ s.pc 0 = .gRead ⟨0, 0⟩ ∧
    (∀ q, q ≠ 0 → s.pc q = .idle) ∧
    ∃ s₁, step s 1 (.call (.get .read)) = some s₁ ∧
      ∀ sch s', (∀ x ∈ sch, x.1 ≠ 0 ∧ (x.1 = 1 → x.2 ≠ .cancel)) → run s₁ sch = some s' →
        ∀ r', .res (s.me 1) r' ∉ s'.log := by
  have hr := reach_run (v₀ := none) (sch := [(0, .call (.get .read))] ++ gos 0 3 ++ [(0, .finish (.ok 5))] ++ gos 0 4)
    .init rfl
  refine ⟨_, hr, rfl, rfl, ?_, _, rfl, ?_⟩
  · intro q hq
    simp [St.begin, St.to, St.ret, St.lin, St.ev, upd, init, hq]
  · intro sch s' hsch hrun
    exact (C14_async_reread_blocks (k := .read) (.step (p := 1) (a := .call (.get .read)) hr rfl) rfl rfl hsch hrun).2

/-- What holds instead: with no guard outstanding and nobody inside, an accessor call on an initialised field completes
without waiting. Missing from the full property: the case of an outstanding read guard, which is false. -/
theorem C14_async_read_partial {r : Nat} {v : V} (h : Reach v₀ s) (hv : s.value = some v) (ho : ∀ q, s.pc q = .idle) :
    ∃ s', run s [(r, .call (.get .read)), (r, .go), (r, .go), (r, .go), (r, .go)] = some s' ∧
      s'.pc r = .gRead (s.me r) ∧ .res (s.me r) ⟨none, .value v⟩ ∈ s'.log := by
  have hc := inv_reach h
  have hwr : s.lk.wr = none := by
    cases hw : s.lk.wr with
    | none => rfl
    | some q =>
      have := (hc.wr q).1 hw
      rw [ho q] at this; cases this
  have hsh : s.lk.shared = [] := by
    cases hw : s.lk.shared with
    | nil => rfl
    | cons q l =>
      have := (hc.sh q).1 (by rw [hw]; simp)
      rw [ho q] at this; cases this
  simp [run, step, invoke, go, ho, hv, hwr, hsh, St.begin, St.to, St.lin, St.ev, St.ret, St.me, ALock.tryWrite,
    heldGuard, GetKind.mutable]

example : ∃ s : St Nat Nat, Reach none s ∧ s.value = some 5 ∧ ∀ q, s.pc q = .idle := by
  refine ⟨_, reach_run (v₀ := none)
    (sch := [(0, .call (.get .lazyInit))] ++ gos 0 3 ++ [(0, .finish (.ok 5))] ++ gos 0 3) .init rfl, rfl, ?_⟩
  intro q
  by_cases hq : q = 0
  · subst hq; rfl
  · simp [St.begin, St.to, St.ret, St.lin, St.ev, upd, init, hq]

/-! ## C45 the predicate agrees with the value -/

/-- Whenever nobody has the write lock the predicate tells whether there is a value. -/
theorem C45_async_flag_agrees (h : Reach v₀ s) (hw : s.lk.wr = none) : s.flag = s.value.isSome := by
  have hc := inv_reach h
  apply hc.quiet
  intro p
  cases hm : Sync.mid (emb (s.pc p)) with
  | false => rfl
  | true =>
    have := (hc.wr p).2 (by rw [(holdsW_emb _).1, Sync.mid_excl hm]; rfl)
    rw [hw] at this; cases this

/-- While anyone holds a guard on the value the predicate is true. -/
theorem C45_async_flag_true_under_guard (h : Reach v₀ s) {p : Nat} {g : CallId}
    (hp : s.pc p = .gRead g ∨ s.pc p = .gMut g) : s.flag = true ∧ s.value.isSome = true := by
  have hc := inv_reach h
  have h1 := hc.mem p
  have h2 := hc.quiet (hc.no_mid (p := p) (by rcases hp with hp | hp <;> rw [hp] <;> rfl)
    (by rcases hp with hp | hp <;> rw [hp]; exact .inr rfl; exact .inl rfl))
  have h3 : s.value.isSome = true := by rcases hp with hp | hp <;> rw [hp] at h1 <;> exact h1
  exact ⟨by rw [h2, h3], h3⟩

example : ∃ s : St Nat Nat, Reach none s ∧ s.pc 0 = .gMut ⟨0, 2⟩ := by
  obtain ⟨s, h, _, _, _, hp⟩ := demo_reach
  exact ⟨s, h, hp⟩

/-! ## C46 a read guard shows one value -/

/-- From the return of an accessor with a read guard to the drop of the guard no call changed the field. -/
theorem C46_async_no_change_under_guard (h : Reach v₀ s) {l₁ l₂ : List (Ev V E)} {g : CallId} {ran v} {k : GetKind}
    (hl : s.log = l₁ ++ .res g ⟨ran, .value v⟩ :: l₂) (hg : .inv g (.get k) ∈ l₁) (hk : k.mutable = false)
    (hd : .other (.drop g) ∉ l₂) :
    Legal CellStep v₀ (lins l₁) (some v) ∧ ∀ c, Legal CellStep v₀ (lins s.log) c → c = some v := by
  obtain ⟨L, hr, _⟩ := sim h
  exact Sync.guard_no_change hr hl hg hk hd

/-- Every dereference of the guard gives the value which the accessor returned. -/
theorem C46_async_deref_same_value (h : Reach v₀ s) {l₁ l₂ : List (Ev V E)} {g i : CallId} {ran v r} {k : GetKind}
    (hl : s.log = l₁ ++ .res g ⟨ran, .value v⟩ :: l₂) (hg : .inv g (.get k) ∈ l₁) (hk : k.mutable = false)
    (hd : .other (.drop g) ∉ l₂) (hi : .inv i (.deref g) ∈ l₂) (hr : .res i r ∈ s.log) : r = ⟨none, .value v⟩ := by
  obtain ⟨L, hR, _⟩ := sim h
  exact Sync.deref_same hR hl hg hk hd hi hr

/-- No exclusive guard coexists with a read guard. -/
theorem C46_async_no_exclusive_beside_guard (h : Reach v₀ s) {p q : Nat} {g g' : CallId} (hp : s.pc p = .gRead g) :
    s.pc q ≠ .gMut g' ∧ s.pc q ≠ .gWrite g' := by
  have hc := inv_reach h
  have h1 := (hc.sh p).2 (by rw [hp]; rfl)
  constructor <;> intro hq <;> have h2 := hc.alone (by rw [(hc.wr q).2 (by rw [hq]; rfl)]; simp) <;> rw [h2] at h1 <;>
    simp at h1

example : ∃ s : St Nat Nat, Reach none s ∧ ∃ l₁ l₂, s.log = l₁ ++ .res ⟨1, 0⟩ ⟨some (.ok 5), .value 5⟩ :: l₂ ∧
    .inv ⟨1, 0⟩ (.get .read) ∈ l₁ ∧ .other (.drop ⟨1, 0⟩) ∉ l₂ ∧ .inv ⟨1, 1⟩ (.deref ⟨1, 0⟩) ∈ l₂ ∧
    .res ⟨1, 1⟩ ⟨none, .value 5⟩ ∈ s.log := by
  have h : (run (init none) (demo.take 27)).map (fun s => s.log) = some (demoLog.take 20) := by decide
  rw [Option.map_eq_some_iff] at h
  obtain ⟨s, h1, h2⟩ := h
  exact ⟨s, reach_run .init h1, demoLog.take 13, (demoLog.take 20).drop 14, by rw [h2]; decide, by decide, by decide,
    by decide, by rw [h2]; decide⟩

/-! ## C47 errors come from this call's own builder run -/

/-- One call runs the builder at most once; a run without an end belongs to a call still under way or cancelled. -/
theorem C47_async_at_most_one_run (h : Reach v₀ s) (i : CallId) :
    builderEvents i s.log = [] ∨ builderEvents i s.log = [.bstart i] ∨
      (∃ o, builderEvents i s.log = [.bstart i, .bend i o]) ∨
      (builderEvents i s.log = [.bstart i, .abort i] ∧ .cancel i ∈ s.log) := by
  obtain ⟨L, hr, _⟩ := sim h
  exact Sync.one_run hr i

/-- A fallible accessor answers `Err(e)` only if the builder, run by this very call, returned `Err(e)`. -/
theorem C47_async_error_is_own (h : Reach v₀ s) {i : CallId} {ran : Option (Outcome V E)} {e : E}
    (hi : .res i ⟨ran, .error e⟩ ∈ s.log) :
    ran = some (.err e) ∧ builderEvents i s.log = [.bstart i, .bend i (.err e)] := by
  obtain ⟨L, hr, _⟩ := sim h
  exact Sync.error_own hr hi

/-- An accessor which returns a value either found it, without any builder run, or built exactly this value itself. -/
theorem C47_async_value_found_or_built (h : Reach v₀ s) {i : CallId} {k : GetKind} {ran : Option (Outcome V E)} {v : V}
    (hk : .inv i (.get k) ∈ s.log) (hi : .res i ⟨ran, .value v⟩ ∈ s.log) :
    (ran = none ∧ builderEvents i s.log = []) ∨
    (ran = some (.ok v) ∧ builderEvents i s.log = [.bstart i, .bend i (.ok v)]) := by
  obtain ⟨L, hr, _⟩ := sim h
  exact Sync.found_or_built hr hk hi

example : ∃ s : St Nat Nat, Reach none s ∧ .res ⟨0, 1⟩ ⟨some (.err 9), .error 9⟩ ∈ s.log ∧
    .inv ⟨1, 0⟩ (.get .read) ∈ s.log ∧ .res ⟨1, 0⟩ ⟨some (.ok 5), .value 5⟩ ∈ s.log := by
  obtain ⟨s, h, hl, _⟩ := demo_reach
  exact ⟨s, h, by rw [hl]; decide, by rw [hl]; decide, by rw [hl]; decide⟩

/-! ## C48 only accessors run the builder -/

/-- A call other than an accessor never makes a builder run. -/
theorem C48_async_others_never_build (h : Reach v₀ s) {i : CallId} {op : Op V} (hi : .inv i op ∈ s.log)
    (hop : ∀ k, op ≠ .get k) : builderEvents i s.log = [] := by
  obtain ⟨L, hr, _⟩ := sim h
  exact Sync.others_no_build hr hi hop

example : ∃ s : St Nat Nat, Reach none s ∧ .inv ⟨2, 1⟩ .clear ∈ s.log ∧ .inv ⟨3, 1⟩ .snapshot ∈ s.log := by
  obtain ⟨s, h, hl, _⟩ := demo_reach
  exact ⟨s, h, by rw [hl]; decide, by rw [hl]; decide⟩

/-! ## C49 an async lazy field cannot wedge -/

/-- If no user guard is outstanding and no builder is running, some unfinished call can go on. -/
theorem C49_async_progress (h : Reach v₀ s) {p : Nat} (hp : s.pc p ≠ .idle)
    (hg : ∀ q g, s.pc q ≠ .gRead g ∧ s.pc q ≠ .gMut g ∧ s.pc q ≠ .gWrite g) (hb : ∀ q k, s.pc q ≠ .rBuild k) :
    ∃ q s', step s q .go = some s' := by
  refine progress (inv_reach h) hp ?_ hb
  intro q hq
  have h1 := hg q
  revert hq h1
  cases s.pc q <;> simp [Pc.resting]

/-- From any reachable state every run without new calls that cannot be extended ends with nobody inside, after at most
nine steps per task, whoever was cancelled on the way. -/
theorem C49_async_cannot_wedge {s' : St V E} (h : Reach v₀ s) {ps : List Nat} (hps : ps.Nodup)
    (hid : ∀ p, p ∉ ps → s.pc p = .idle)
    {sch : List (Nat × Act V E)} (hc : ∀ x ∈ sch, ∀ op, x.2 ≠ .call op) (hr : run s sch = some s') (o : Outcome V E)
    (hmax : ∀ q a, (∀ op, a ≠ .call op) → step s' q a = none) :
    sch.length ≤ 9 * ps.length ∧ ∀ p, s'.pc p = .idle := by
  refine ⟨bounded hps hid hc hr, ?_⟩
  intro p
  apply Classical.byContradiction
  intro hp
  obtain ⟨q, a, s₂, ha, h2⟩ := progress_any (inv_reach (reach_run h hr)) hp o
  have : ∀ op, a ≠ .call op := by intro op; rcases ha with rfl | rfl | rfl <;> simp
  rw [hmax q a this] at h2
  cases h2

example : ∃ s : St Nat Nat, Reach none s ∧ s.pc 0 = .rCb .read ∧ s.pc 1 = .rStart .tryRead ∧ s.pc 2 = .xStart (.put none) ∧
    (∀ q, q ∉ [0, 1, 2] → s.pc q = .idle) := by
  refine ⟨_, reach_run (sch := [(0, .call (.get .read)), (1, .call (.get .tryRead)), (2, .call .clear), (0, .go), (0, .go)])
    .init rfl, rfl, rfl, rfl, ?_⟩
  intro q hq
  simp only [List.mem_cons, List.not_mem_nil, or_false, not_or] at hq
  simp [St.begin, St.to, upd, init, hq]

/-! ## C50 values are neither lost nor duplicated -/

/-- When no call is under way: the values that went in by the answered calls (and the initial one) are, counted with
multiplicity, exactly the values handed out plus the one in the field. In particular a cancelled call lost nothing. -/
theorem C50_async_conservation (h : Reach v₀ s) (hq : ∀ p, (s.pc p).resting = true) :
    (v₀.toList ++ (completed (hist s.log)).flatMap entered).Perm
      ((completed (hist s.log)).flatMap handedOut ++ s.value.toList) := by
  obtain ⟨L, hr, _⟩ := sim h
  refine Sync.conservation hr ?_
  intro p
  have := hq p
  change (emb (s.pc p)).resting = true
  revert this
  cases s.pc p <;> simp [Pc.resting, emb, Model.Sync.Pc.resting]

example : ∃ s : St Nat Nat, Reach none s ∧ (completed (hist s.log)).flatMap entered = [5, 7, 8] ∧
    (completed (hist s.log)).flatMap handedOut = [5, 7] ∧ s.value = some 8 := by
  obtain ⟨s, h, hl, hv, _⟩ := demo_reach
  exact ⟨s, h, by rw [hl]; decide, by rw [hl]; decide, hv⟩

/-! ## C51 clone is a consistent snapshot -/

/-- What `clone` read is consistent, is the content of the original at some moment between call and return, and the new
container is exactly a fresh container with that content. -/
theorem C51_async_clone_consistent (h : Reach v₀ s) {l₁ l₂ : List (Ev V E)} {i : CallId} {ran : Option (Outcome V E)}
    {o : Option V} {b : Bool} (hl : s.log = l₁ ++ .res i ⟨ran, .snap o b⟩ :: l₂) :
    b = o.isSome ∧ (cloneOf o b : St V E) = init o ∧
    ∃ la lb, l₁ = la ++ lb ∧ .inv i .snapshot ∈ la ∧ Legal CellStep v₀ (lins la) o := by
  obtain ⟨L, hr, _⟩ := sim h
  obtain ⟨h1, _, h2⟩ := Sync.clone_consistent hr hl
  exact ⟨h1, by rw [h1]; rfl, h2⟩

example : ∃ s : St Nat Nat, Reach none s ∧ ∃ l₁ l₂, s.log = l₁ ++ .res ⟨3, 1⟩ ⟨none, .snap (some 5) true⟩ :: l₂ := by
  obtain ⟨s, h, hl, _⟩ := demo_reach
  exact ⟨s, h, demoLog.take 17, demoLog.drop 18, by rw [hl]; decide⟩

end Verif.Props.Async
