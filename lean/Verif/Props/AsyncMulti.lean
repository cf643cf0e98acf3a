import Verif.Proof.AsyncMulti
/-!
# Several async lazy fields: C73, C74

Model: `Verif.Model.AsyncMulti`, one container (`Verif.Model.Async`, /repo/fieldx/src/async/fxproxy.rs) per field, tasks with
stacks of calls. `Reach dep keep v₀ s`: some schedule of any number of tasks leads from a new object with contents `v₀` to
`s`, where the builder of field `i` makes calls on field `j` only if `dep i j`, and tasks call fields while keeping a guard
only if `keep`. What tasks and builders call, how often, how builders end, and which futures are dropped where they await is
arbitrary. Whoever waits for a lock waits in a queue.
-/

namespace Verif.Props.AsyncMulti
open Verif.Spec Verif.Model Verif.Model.AsyncMulti Verif.Proof.AsyncMulti

variable {F V E : Type} [DecidableEq F] {dep : F → F → Prop} {keep : Bool} {v₀ : F → Option V} {s : St F V E}

theorem reach_run {s₀ s : St F V E} (h₀ : Reach (fun _ _ => True) keep v₀ s₀) {sch : List (Nat × Act F V E)}
    (h : run keep s₀ sch = some s) : Reach (fun _ _ => True) keep v₀ s := by
  induction sch generalizing s₀ with
  | nil => simp [run] at h; exact h ▸ h₀
  | cons x sch ih =>
    obtain ⟨t, a⟩ := x
    simp only [run, Option.bind_eq_some_iff] at h
    obtain ⟨s₁, h1, h2⟩ := h
    exact ih (.step h₀ (by cases a <;> simp [Allowed]) h1) h2

/-- Is the next step within the dependencies? -/
def allowedB (depB : F → F → Bool) (s : St F V E) (t : Nat) : Act F V E → Bool
  | .call j _ => match inBuilder s t with
    | some i => depB i j
    | none => true
  | _ => true

/-- Run a schedule, checking dependencies on the way. -/
def runDep (depB : F → F → Bool) (keep : Bool) (s : St F V E) : List (Nat × Act F V E) → Option (St F V E)
  | [] => some s
  | (t, a) :: rest =>
    if allowedB depB s t a then (step keep s t a).bind fun s' => runDep depB keep s' rest else none

theorem reach_runDep {depB : F → F → Bool} {s₀ s : St F V E} (h₀ : Reach (fun i j => depB i j = true) keep v₀ s₀)
    {sch : List (Nat × Act F V E)} (h : runDep depB keep s₀ sch = some s) :
    Reach (fun i j => depB i j = true) keep v₀ s := by
  induction sch generalizing s₀ with
  | nil => simp [runDep] at h; exact h ▸ h₀
  | cons x sch ih =>
    obtain ⟨t, a⟩ := x
    simp only [runDep] at h
    split at h
    · rename_i hal
      simp only [Option.bind_eq_some_iff] at h
      obtain ⟨s₁, h1, h2⟩ := h
      refine ih (.step h₀ ?_ h1) h2
      cases a with
      | call j op =>
        intro i hi
        simpa [allowedB, hi] using hal
      | _ => trivial
    · cases h

/-- `n` steps of the code of task `t`. -/
def gos {F : Type} (t n : Nat) : List (Nat × Act F Nat Nat) := List.replicate n (t, .go)

/-! ## C73 acyclic lazy dependencies never deadlock -/

/-- If the dependencies have no cycle (`j` before `i` when the builder of `i` calls `j`) and nobody calls a field while
keeping a guard, then never is everybody who is inside stuck, though only the first in the queue of a lock may take it, and
whichever futures have been dropped. -/
theorem C73_no_deadlock (hwf : WellFounded fun j i => dep i j) (h : Reach dep false v₀ s) : ¬ Deadlock s := by
  rintro ⟨⟨t, ht⟩, hall⟩
  cases hst : s.stack t with
  | nil => exact ht hst
  | cons f rest =>
    obtain ⟨i, p⟩ := f
    obtain ⟨t', h1, h2⟩ := unblocked (inv_reach h) (deep_reach h) hwf i t p rest hst
    exact h2 (hall t' h1)

theorem run_inv {s s' : St F V E} {sch : List (Nat × Act F V E)} (h : Reach dep keep v₀ s)
    (hq : ∀ x ∈ sch, quiet x.2 = true) (hr : run keep s sch = some s') : Reach dep keep v₀ s' := by
  induction sch generalizing s with
  | nil => simp [run] at hr; exact hr ▸ h
  | cons x sch ih =>
    obtain ⟨t, a⟩ := x
    simp only [run, Option.bind_eq_some_iff] at hr
    obtain ⟨s₁, h1, h2⟩ := hr
    refine ih (.step h ?_ h1) (fun x hx => hq x (.tail _ hx)) h2
    have := hq (t, a) (.head _)
    cases a <;> simp [quiet] at this <;> trivial

/-- Every call completes: once nothing new is begun, whatever steps are taken in whatever order, futures being dropped or
not, after at most nine steps for each pending call everybody is out; and nobody needs to be cancelled for that. `ts` lists
the tasks that are inside. -/
theorem C73_every_call_completes {s' : St F V E} (hwf : WellFounded fun j i => dep i j) (h : Reach dep false v₀ s)
    {ts : List Nat} (hn : ts.Nodup) (hts : ∀ t, t ∉ ts → s.stack t = []) {sch : List (Nat × Act F V E)}
    (hq : ∀ x ∈ sch, quiet x.2 = true) (hr : run false s sch = some s') :
    sch.length ≤ 9 * (ts.map fun t => (s.stack t).length).sum ∧
    ((∀ t a, quiet a = true → a ≠ .cancel → step false s' t a = none) → ∀ t, s'.stack t = []) := by
  refine ⟨?_, ?_⟩
  · have key : ∀ (sch : List (Nat × Act F V E)) (s : St F V E), Inv v₀ s → (∀ t, t ∉ ts → s.stack t = []) →
        (∀ x ∈ sch, quiet x.2 = true) → run false s sch = some s' → sch.length ≤ total s ts := by
      intro sch
      induction sch with
      | nil => intros; simp
      | cons x sch ih =>
        intro s hi hts hq hr
        obtain ⟨t, a⟩ := x
        simp only [run, Option.bind_eq_some_iff] at hr
        obtain ⟨s₁, h1, h2⟩ := hr
        have ha := hq (t, a) (.head _)
        obtain ⟨h3, h4⟩ := quiet_stack ha h1
        have ht : t ∈ ts := by
          apply Classical.byContradiction
          intro ht; exact h3 (hts t ht)
        have := ih s₁ (inv_step hi h1) (fun t' ht' => by
            rw [h4 t' (by rintro rfl; exact ht' ht)]; exact hts t' ht')
          (fun x hx => hq x (.tail _ hx)) h2
        have := total_step hi ha h1 hn ht
        simp only [List.length_cons]
        omega
    refine Nat.le_trans (key sch s (inv_reach h) hts hq hr) ?_
    simp only [total]
    clear hn hts key
    induction ts with
    | nil => simp
    | cons t ts ih =>
      have := weight_le s t
      simp only [List.map_cons, List.sum_cons]
      omega
  · intro hmax t
    apply Classical.byContradiction
    intro ht
    have h' := run_inv h hq hr
    obtain ⟨t', a, s₂, h1, h3, h2⟩ := quiet_enabled (inv_reach h') (deep_reach h') hwf ht
    rw [hmax t' a h1 h3] at h2
    cases h2

/-- Three fields; the builder of 0 calls 1, that of 1 calls 2. -/
def chain : Fin 3 → Fin 3 → Bool := fun i j => decide (j.1 = i.1 + 1)

theorem chain_wf : WellFounded fun j i => chain i j = true := by
  have : Subrelation (fun j i => chain i j = true) (InvImage (· < ·) fun i : Fin 3 => 3 - i.1) := by
    intro j i h
    simp [chain] at h
    simp only [InvImage]
    omega
  exact this.wf (InvImage.wf _ Nat.lt_wfRel.wf)

/-- Task 0 reads field 0, whose builder reads 1, whose builder reads 2; task 1 clears field 1, task 2 wants to change
field 0, task 3 reads field 0: all have to wait, 3 behind 2. Task 4 asks whether field 2 is set. -/
def nestedRun : List (Nat × Act (Fin 3) Nat Nat) :=
  [(0, .call 0 (.get .read))] ++ gos 0 3 ++ [(0, .call 1 (.get .read))] ++ gos 0 3 ++ [(1, .call 1 .clear),
    (0, .call 2 (.get .read)), (2, .call 0 (.get .readMut)), (3, .call 0 (.get .read))] ++ gos 0 3 ++ [(4, .call 2 .isSet)]

-- a state with five tasks inside, three of them blocked, to which the theorems apply
example : ∃ s : St (Fin 3) Nat Nat, Reach (fun i j => chain i j = true) false (fun _ => none) s ∧
    s.stack 0 = [(2, 3), (1, 1), (0, 0)] ∧ s.queue 0 = [4, 5] ∧ Blocked s 1 ∧ Blocked s 2 ∧ Blocked s 3 ∧
    s.stack 4 = [(2, 6)] ∧ ¬ Deadlock s := by
  have h : ∃ s, runDep chain false (init fun _ => none) nestedRun = some s ∧
      s.stack 0 = [(2, 3), (1, 1), (0, 0)] ∧ s.stack 1 = [(1, 2)] ∧ s.stack 2 = [(0, 4)] ∧ s.stack 3 = [(0, 5)] ∧
      s.stack 4 = [(2, 6)] ∧ s.queue 0 = [4, 5] ∧
      (s.obj 1).pc 2 = .xStart (.put none) ∧ (s.obj 0).pc 4 = .rStart .readMut ∧ (s.obj 0).pc 5 = .rStart .read ∧
      (Async.go (s.obj 1) 2).isNone = true ∧ (Async.go (s.obj 0) 4).isNone = true ∧ turn s 0 5 = false :=
    ⟨_, rfl, rfl, rfl, rfl, rfl, rfl, rfl, rfl, rfl, rfl, rfl, rfl, rfl⟩
  obtain ⟨s, h1, h2, h3, h4, h5, h6, hq, h7, h8, h9, h10, h11, h12⟩ := h
  have hr := reach_runDep .init h1
  exact ⟨s, hr, h2, hq, ⟨1, 2, [], h3, by simp [h7, building], by simp [h7, holding], .inr h10⟩,
    ⟨0, 4, [], h4, by simp [h8, building], by simp [h8, holding], .inr h11⟩,
    ⟨0, 5, [], h5, by simp [h9, building], by simp [h9, holding], .inl h12⟩, h6, C73_no_deadlock chain_wf hr⟩

/-- In the same state task 0 is dropped, task 2 gives up waiting, and the others go on. -/
def droppedRun : List (Nat × Act (Fin 3) Nat Nat) :=
  nestedRun ++ [(0, .cancel), (0, .cancel), (2, .cancel), (0, .cancel)] ++ gos 3 3 ++ gos 1 4 ++ [(3, .call 1 (.get .read))]

-- task 3 has got its turn and is in the builder of 0, waiting for nothing; task 1 is out; field 1 is as new
example : ∃ s : St (Fin 3) Nat Nat, Reach (fun i j => chain i j = true) false (fun _ => none) s ∧
    s.stack 0 = [] ∧ s.stack 1 = [] ∧ s.stack 2 = [] ∧ s.stack 3 = [(1, 7), (0, 5)] ∧ s.queue 0 = [] ∧
    ¬ Blocked s 3 ∧ ¬ Deadlock s := by
  have h : ∃ s, runDep chain false (init fun _ => none) droppedRun = some s ∧
      s.stack 0 = [] ∧ s.stack 1 = [] ∧ s.stack 2 = [] ∧ s.stack 3 = [(1, 7), (0, 5)] ∧ s.queue 0 = [] ∧
      turn s 1 7 = true ∧ (Async.go (s.obj 1) 7).isNone = false :=
    ⟨_, rfl, rfl, rfl, rfl, rfl, rfl, rfl, rfl⟩
  obtain ⟨s, h1, h2, h3, h4, h5, h6, h7, h8⟩ := h
  have hr := reach_runDep .init h1
  refine ⟨s, hr, h2, h3, h4, h5, h6, ?_, C73_no_deadlock chain_wf hr⟩
  rintro ⟨i, p, rest, h9, _, _, h10⟩
  rw [h5] at h9
  simp only [List.cons.injEq, Prod.mk.injEq] at h9
  obtain ⟨⟨rfl, rfl⟩, rfl⟩ := h9
  rcases h10 with h10 | h10
  · rw [h7] at h10; cases h10
  · rw [h8] at h10; cases h10

/-- Dependencies with a cycle deadlock: the builders of two fields read each other, two tasks read one each. -/
theorem C73_cycle_deadlocks : ∃ s : St Bool Nat Nat, Reach (fun i j => (i != j) = true) false (fun _ => none) s ∧ Deadlock s := by
  have h : ∃ s, runDep (fun i j => i != j) false (init fun _ => none)
      ([(0, .call true (.get .read))] ++ gos 0 3 ++ [(1, .call false (.get .read))] ++ gos 1 3 ++
        [(0, .call false (.get .read)), (1, .call true (.get .read))]) = some s ∧
      s.stack 0 = [(false, 2), (true, 0)] ∧ s.stack 1 = [(true, 3), (false, 1)] ∧
      (∀ t, s.stack (t + 2) = []) ∧ (s.obj false).pc 2 = .rStart .read ∧ (s.obj true).pc 3 = .rStart .read ∧
      (Async.go (s.obj false) 2).isNone = true ∧ (Async.go (s.obj true) 3).isNone = true :=
    ⟨_, rfl, rfl, rfl, fun t => rfl, rfl, rfl, rfl, rfl⟩
  obtain ⟨s, h1, h2, h3, h4, h5, h6, h7, h8⟩ := h
  refine ⟨s, reach_runDep .init h1, ⟨0, by simp [h2]⟩, ?_⟩
  intro t ht
  match t with
  | 0 => exact ⟨_, _, _, h2, by simp [h5, building], by simp [h5, holding], .inr h7⟩
  | 1 => exact ⟨_, _, _, h3, by simp [h6, building], by simp [h6, holding], .inr h8⟩
  | t + 2 => exact absurd (h4 t) ht

/-- Keeping a guard of one field while calling another can deadlock, though no builder calls anything: two tasks each
keep the guard from `get_mut` on one field and read the other. -/
theorem C73_kept_guard_deadlocks : ∃ s : St Bool Nat Nat,
    Reach (fun _ _ => False) true (fun _ => some 0) s ∧ Deadlock s := by
  have h : ∃ s, runDep (fun _ _ => false) true (init fun _ => some 0)
      ([(0, .call true (.get .readMut))] ++ gos 0 4 ++ [(1, .call false (.get .readMut))] ++ gos 1 4 ++
        [(0, .call false (.get .read)), (1, .call true (.get .read))]) = some s ∧
      s.stack 0 = [(false, 2), (true, 0)] ∧ s.stack 1 = [(true, 3), (false, 1)] ∧
      (∀ t, s.stack (t + 2) = []) ∧ (s.obj false).pc 2 = .rStart .read ∧ (s.obj true).pc 3 = .rStart .read ∧
      (Async.go (s.obj false) 2).isNone = true ∧ (Async.go (s.obj true) 3).isNone = true :=
    ⟨_, rfl, rfl, rfl, fun t => rfl, rfl, rfl, rfl, rfl⟩
  obtain ⟨s, h1, h2, h3, h4, h5, h6, h7, h8⟩ := h
  refine ⟨s, by simpa using reach_runDep .init h1, ⟨0, by simp [h2]⟩, ?_⟩
  intro t ht
  match t with
  | 0 => exact ⟨_, _, _, h2, by simp [h5, building], by simp [h5, holding], .inr h7⟩
  | 1 => exact ⟨_, _, _, h3, by simp [h6, building], by simp [h6, holding], .inr h8⟩
  | t + 2 => exact absurd (h4 t) ht

/-- Anything that can happen later, but task `t` is not cancelled. -/
inductive Later (keep : Bool) (t : Nat) : St F V E → St F V E → Prop where
  | refl (s₀ : St F V E) : Later keep t s₀ s₀
  | step {s₀ s₁ s₂ t' a} : Later keep t s₀ s₁ → (t' = t → a ≠ .cancel) → AsyncMulti.step keep s₁ t' a = some s₂ →
      Later keep t s₀ s₂

/-- A builder which calls its own field (any call but the predicate) blocks for ever unless it is itself cancelled, whatever
the other tasks do and whoever else is cancelled. -/
theorem C73_self_call_blocks {s₁ s₂ : St F V E} {t : Nat} {i : F} {p : Nat} {rest : List (F × Nat)} {op : Op V}
    (h : Reach dep keep v₀ s) (hst : s.stack t = (i, p) :: rest) (hb : building ((s.obj i).pc p) = true)
    (hop : op ≠ .isSet) (hs : step keep s t (.call i op) = some s₁) (hl : Later keep t s₁ s₂) :
    Blocked s₂ t ∧ s₂.stack t = s₁.stack t := by
  have hi := inv_reach h
  have hi₁ := inv_step hi hs
  have hk : Stuck s₁ t i p s.next ((i, p) :: rest) := by
    rcases step_cases hs with ⟨j, op', o, hj, hu, ho, rfl⟩ | ⟨_, _, _, _, _, _, hb', _⟩
    · simp only [Act.call.injEq] at hj
      obtain ⟨rfl, rfl⟩ := hj
      have hne : p ≠ s.next := by
        have := (hi.inside t i p (by rw [hst]; exact .head _)).1
        omega
      refine ⟨by simp [upd, hst], .head _, ?_, ?_⟩
      · simp only [upd, if_true]
        simp only [Async.step, Async.invoke] at ho
        have hidle : (s.obj i).pc s.next = .idle := by
          rw [← gone_iff]
          cases hg : gone ((s.obj i).pc s.next)
          · obtain ⟨t'', h3⟩ := hi.owner i _ hg
            have := (hi.inside _ _ _ h3).1
            omega
          · rfl
        rw [hidle] at ho
        cases op <;> simp at ho hop <;> subst ho <;> simp [Async.St.begin, upd, queued]
      · simp only [upd, if_true]
        rw [others ho hne]; exact hb
    · simp [lower] at hb'
  have : Inv v₀ s₂ ∧ Stuck s₂ t i p s.next ((i, p) :: rest) := by
    induction hl with
    | refl => exact ⟨hi₁, hk⟩
    | step _ hnc h2 ih => exact ⟨inv_step ih.1 h2, stuck_step ih.1 ih.2 hnc h2⟩
  exact ⟨stuck_blocked this.1 this.2, by rw [this.2.top, hk.top]⟩

-- a builder about to call its own field; another task keeps asking the predicate meanwhile
example : ∃ s s₁ s₂ : St Unit Nat Nat, Reach (fun _ _ => True) false (fun _ => none) s ∧ s.stack 0 = [((), 0)] ∧
    building ((s.obj ()).pc 0) = true ∧ step false s 0 (.call () (.get .read)) = some s₁ ∧
    step false s₁ 1 (.call () .isSet) = some s₂ := by
  have h : ∃ s, run false (init fun _ => none) ([(0, .call () (.get .read))] ++ gos 0 3) = some s ∧
      s.stack 0 = [((), 0)] ∧ building ((s.obj ()).pc 0) = true ∧ ∃ s₁ s₂, step false s 0 (.call () (.get .read)) = some s₁ ∧
      step false s₁ 1 (.call () .isSet) = some s₂ := ⟨_, rfl, rfl, rfl, _, _, rfl, rfl⟩
  obtain ⟨s, h1, h2, h3, s₁, s₂, h4, h5⟩ := h
  exact ⟨s, s₁, s₂, reach_run .init h1, h2, h3, h4, h5⟩

/-! ## C74 dropping a task releases everything it holds -/

/-- Is the process suspended: at an await (async/fxproxy.rs 154, 157, 159, 213, 223), or back at the user with a guard? -/
def suspended : Async.Pc V E → Bool
  | .rStart _ | .xStart _ | .rCb _ | .rBuild _ | .gRead _ | .gMut _ | .gWrite _ => true
  | _ => false

/-- Whatever a task is in, through however many builders and guards: if its innermost call is suspended, the task can be
dropped, each of its calls and guards by one `cancel` or `drop`. Afterwards it is out, every container has the value and the
flag it had, everybody who holds or waits for a lock belongs to another task, and the other tasks are where they were. -/
theorem C74_drop_task (h : Reach dep keep v₀ s) (t : Nat)
    (ht : ∀ i p rest, s.stack t = (i, p) :: rest → suspended ((s.obj i).pc p) = true) :
    ∃ sch s', (∀ x ∈ sch, x.1 = t ∧ (x.2 = .cancel ∨ x.2 = .drop)) ∧ sch.length = (s.stack t).length ∧
      run keep s sch = some s' ∧ s'.stack t = [] ∧ (∀ t', t' ≠ t → s'.stack t' = s.stack t') ∧
      (∀ i, (s'.obj i).value = (s.obj i).value ∧ (s'.obj i).flag = (s.obj i).flag) ∧
      ∀ i p, p ∈ (s'.obj i).lk.shared ∨ (s'.obj i).lk.wr = some p ∨ p ∈ s'.queue i → ∃ t', t' ≠ t ∧ (i, p) ∈ s'.stack t' := by
  obtain ⟨sch, s', h1, h2, h3, h4, h5, h6⟩ := drop_task t (s.stack t) s (inv_reach h) (user_reach h) rfl
    (fun i p rest hst => by have := ht i p rest hst; revert this; cases (s.obj i).pc p <;> simp [suspended, droppable])
  refine ⟨sch, s', h1, h2, h3, h4, h5, h6, ?_⟩
  have hi : Inv v₀ s' := inv_reach (run_inv h (fun x hx => by rcases (h1 x hx).2 with h | h <;> rw [h] <;> rfl) h3)
  intro i p hp
  have hc := Proof.Async.inv_reach (hi.obj i)
  have hg : gone ((s'.obj i).pc p) = false := by
    rcases hp with hp | hp | hp
    · have := (hc.sh p).1 hp
      revert this; cases (s'.obj i).pc p <;> simp [gone, Proof.Async.emb, Proof.Sync.holdsS]
    · have := (hc.wr p).1 hp
      revert this; cases (s'.obj i).pc p <;> simp [gone, Proof.Async.holdsW]
    · have := (hi.waits i p).1 hp
      revert this; cases (s'.obj i).pc p <;> simp [gone, queued]
  obtain ⟨t', ht'⟩ := hi.owner i p hg
  refine ⟨t', ?_, ht'⟩
  rintro rfl
  rw [h4] at ht'; cases ht'

-- a task three builders deep, each under a write lock; it can be dropped
example : ∃ s : St (Fin 3) Nat Nat, Reach (fun i j => chain i j = true) false (fun _ => none) s ∧
    s.stack 0 = [(2, 3), (1, 1), (0, 0)] ∧ suspended ((s.obj 2).pc 3) = true ∧
    (s.obj 0).lk.wr = some 0 ∧ (s.obj 1).lk.wr = some 1 ∧ (s.obj 2).lk.wr = some 3 := by
  have h : ∃ s, runDep chain false (init fun _ => none) nestedRun = some s ∧
      s.stack 0 = [(2, 3), (1, 1), (0, 0)] ∧ suspended ((s.obj 2).pc 3) = true ∧
      (s.obj 0).lk.wr = some 0 ∧ (s.obj 1).lk.wr = some 1 ∧ (s.obj 2).lk.wr = some 3 :=
    ⟨_, rfl, rfl, rfl, rfl, rfl, rfl⟩
  obtain ⟨s, h1, h2⟩ := h
  exact ⟨s, reach_runDep .init h1, h2⟩

end Verif.Props.AsyncMulti
