import Verif.Proof.AsyncMixedQueue
import Verif.Props.Async
import Verif.Props.Mixed
/-!
# Lazy and lock-protected fields of async structs together, tasks with joined branches: C92

Model: `Verif.Model.AsyncMixed`. `Reach eqv dep v₀ w₀ s`: some schedule of any number of tasks, forking into any number of
branches, with calls dropped at any await, leads from the contents `v₀` (lazy) and `w₀` (lock-protected) to `s`, where `b` is
waited for while `a` is in hand, by the same task or by one awaiting it, only if `dep a b`. Lazy containers are `.inl i`, the
others `.inr k`.
-/

namespace Verif.Props.AsyncMixed
open Verif.Spec Verif.Model Verif.Model.AsyncMixed Verif.Proof Verif.Proof.AsyncMixed
open Verif.Props.Mixed (Acyclic layered layered_acyclic both)

set_option linter.unusedSectionVars false
variable {F L V W E : Type} [DecidableEq F] [DecidableEq L] {eqv : W → W → Bool} {dep : F ⊕ L → F ⊕ L → Prop}
  {v₀ : F → Option V} {w₀ : L → W} {s s' : St F L V W E}

/-! ## Each container keeps its guarantees -/

/-- Whatever the tasks do with all the others, in whatever order, and whichever calls are dropped, the calls on one lazy
container are linearizable, ... -/
theorem C92_lazy_linearizable (h : Reach eqv dep v₀ w₀ s) (i : F) :
    WellFormed (hist (s.obj i).log) ∧ Linearizable CellStep (v₀ i) (hist (s.obj i).log) :=
  Props.Async.C12_async_linearizable ((inv_reach h).pool.obj i)

/-- ... its builder does not run twice at once ... -/
theorem C92_builder_runs_alone (h : Reach eqv dep v₀ w₀ s) {i : F} {p q : Nat} {k k' : GetKind}
    (hp : (s.obj i).pc p = .rBuild k) (hq : (s.obj i).pc q = .rBuild k') : q = p ∧ (s.obj i).value = none :=
  have hb := Props.Async.C11_memory_empty_while_building ((inv_reach h).pool.obj i) hp
  ⟨hb.2.2 q k' hq, hb.1⟩

/-- ... and the calls on all lock-protected containers together are linearizable. -/
theorem C92_locks_linearizable (h : Reach eqv dep v₀ w₀ s) : Linearizable (Memory.Step eqv) w₀ (hist s.lk.log) :=
  Props.AsyncLocks.C90_linearizable (inv_reach h).pool.lk

/-! ## Who waits -/

/-- A task that cannot move waits for a task that waits for a task … that can. -/
theorem C92_chain (hac : Acyclic dep) (h : Reach eqv dep v₀ w₀ s) {t : Nat} (ht : Stuck eqv s t) :
    ∃ u, Relation.TransGen (WaitsFor s) t u ∧ Inside s u ∧ ¬ Stuck eqv s u := by
  obtain ⟨u, h1, h2, h3⟩ := chain_inside hac h (stuck_inside ht)
  rcases Relation.reflTransGen_iff_eq_or_transGen.1 h1 with rfl | h1
  · exact absurd ht h3
  · exact ⟨u, h1, h2, h3⟩

/-- Without a cycle in the order no deadlock. -/
theorem C92_no_deadlock (hac : Acyclic dep) (h : Reach eqv dep v₀ w₀ s) : ¬ Deadlock eqv s := by
  rintro ⟨⟨t, ht⟩, hall⟩
  obtain ⟨u, _, h1, h2⟩ := C92_chain hac h (hall t ht)
  exact h2 (hall u h1)

/-- With a cycle there is one, whatever the contents at the beginning; so this is exactly when tasks can deadlock. -/
theorem C92_deadlock_iff : (∃ s : St F L V W E, Reach eqv dep v₀ w₀ s ∧ Deadlock eqv s) ↔ ¬ Acyclic dep := by
  constructor
  · rintro ⟨s, h1, h2⟩ hac
    exact C92_no_deadlock hac h1 h2
  · intro h
    simp only [Acyclic, Classical.not_forall, Classical.not_not] at h
    obtain ⟨r, hr⟩ := h
    exact cycle_deadlock hr

/-- `n` steps from `s` to `s'` in which nothing new is begun and the order is kept to. -/
inductive Winds (eqv : W → W → Bool) (dep : F ⊕ L → F ⊕ L → Prop) : Nat → St F L V W E → St F L V W E → Prop where
  | done {s : St F L V W E} : Winds eqv dep 0 s s
  | step {s s₁ s' : St F L V W E} {n : Nat} {t : Nat} {a : Act F L V W E} : quiet a = true → Allowed dep s t a →
      step eqv s t a = some s₁ → Winds eqv dep n s₁ s' → Winds eqv dep (n + 1) s s'

theorem winds_total {n : Nat} {ts : List Nat} (hn : ts.Nodup) (hw : Winds eqv dep n s s') (h : Reach eqv dep v₀ w₀ s)
    (hts : ∀ t, t ∉ ts → ¬ Inside s t) : n ≤ total s ts ∧ Reach eqv dep v₀ w₀ s' := by
  induction hw with
  | done => exact ⟨by omega, h⟩
  | @step s s₁ s' n t a ha hal hs _ ih =>
    have hi := inv_reach h
    obtain ⟨h1, h2⟩ := ih (.step h hal hs) fun u hu hin => hts u hu (quiet_inside_step hi ha hs hin)
    have := total_step hi ha hs hn hts
    exact ⟨by omega, h2⟩

/-- Every call completes: once nothing new is begun, whatever steps are taken in whatever order, after at most nine steps for
each call or guard and one for each task nothing is left to do, and then everybody is out. Nobody needs to be dropped for
this, and builders may end as they like (`o`). `ts` lists the tasks that are inside. -/
theorem C92_every_call_completes (hac : Acyclic dep) (h : Reach eqv dep v₀ w₀ s) {ts : List Nat} (hn : ts.Nodup)
    (hts : ∀ t, t ∉ ts → ¬ Inside s t) {n : Nat} (hw : Winds eqv dep n s s') (o : Outcome V E) :
    n ≤ (ts.map fun t => 9 * (s.stack t).length + 1).sum ∧
    ((∀ t a, eager o a → Allowed dep s' t a → step eqv s' t a = none) → ∀ t, ¬ Inside s' t) := by
  obtain ⟨h1, h2⟩ := winds_total hn hw h hts
  refine ⟨Nat.le_trans h1 ?_, ?_⟩
  · have hp := (inv_reach h).pool
    unfold total
    clear hn hts h1 h2
    induction ts with
    | nil => simp
    | cons x ts ih =>
      simp only [List.map_cons, List.sum_cons]
      have := weight_le hp x
      omega
  · intro hend t ht
    obtain ⟨u, _, h3, h4⟩ := chain_inside hac h2 ht
    obtain ⟨a, _, h5, h6, h7⟩ := quiet_enabled (dep := dep) (inv_reach h2) h3 h4 o
    rw [hend u a h5 h6] at h7; cases h7

/-! ## First come, first served -/

/-- From `s` to `s'`, by any steps, while frame `f` stands as in `w`. -/
inductive Staying (eqv : W → W → Bool) (f : Fr F) (w : View F L V W E) : St F L V W E → St F L V W E → Prop where
  | refl {s : St F L V W E} : look s f = w → Staying eqv f w s s
  | step {s m q : St F L V W E} {u : Nat} {a : Act F L V W E} : Staying eqv f w s m → step eqv m u a = some q →
      look q f = w → Staying eqv f w s q

/-- While call `p` waits for container `r` nobody gets a guard of it who neither had one nor waited for one when `p` came. -/
theorem C92_no_overtaking {r : F ⊕ L} {p q : Nat} {w : View F L V W E} (h : Reach eqv dep v₀ w₀ s) (hw : wants w = some r)
    (hq : ¬ (q ∈ (lockOf s r).shared ∨ (lockOf s r).wr = some q)) (hn : wants (look s (frame r q)) ≠ some r)
    (hst : Staying eqv (frame r p) w s s') : ¬ (q ∈ (lockOf s' r).shared ∨ (lockOf s' r).wr = some q) := by
  have key : ∀ {m : St F L V W E}, Staying eqv (frame r p) w s m → Inv eqv v₀ w₀ m ∧ ¬ Has m r q ∧
      look m (frame r p) = w ∧ ∃ pre post, waiting m r = pre ++ p :: post ∧ q ∉ pre ∧ q ≠ p := by
    intro m hm
    induction hm with
    | @refl hp =>
      have hi := inv_reach h
      have hm : p ∈ waiting s r := by
        cases r with
        | inl i => exact (wants_iff hi.pool).1 (by rw [hp]; exact hw)
        | inr k => exact (wants_iff hi.pool).1 (by rw [hp]; exact hw)
      obtain ⟨pre, post, hpp⟩ := List.append_of_mem hm
      refine ⟨hi, hq, hp, pre, post, hpp, ?_, ?_⟩
      · intro hm
        exact hn ((wants_iff hi.pool).2 (by rw [hpp]; exact List.mem_append_left _ hm))
      · rintro rfl
        exact hn (by rw [hp]; exact hw)
    | @step m m' v a _ hs hp ih =>
      obtain ⟨hi, h1, h2, pre, post, h3, h4, h5⟩ := ih
      have hhead : (waiting m r).head? ≠ some q := by
        rw [h3]
        cases pre with
        | nil => simpa using fun h => h5 h.symm
        | cons x _ => simp only [List.cons_append, List.head?_cons]; intro h; cases h; exact h4 (.head _)
      refine ⟨inv_step hi hs, fun hq' => hhead (step_gain hi hs hq' h1), hp, ?_⟩
      have herase : ∀ x, x ≠ p → ∃ pre' post', (waiting m r).erase x = pre' ++ p :: post' ∧ q ∉ pre' := by
        intro x hx
        rw [h3, List.erase_append]
        split
        · exact ⟨_, _, rfl, fun h => h4 (List.mem_of_mem_erase h)⟩
        · exact ⟨pre, post.erase x, by rw [List.erase_cons_tail (by simpa using fun h => hx h.symm)], h4⟩
      rcases step_queue hi hs (by rw [h2]; exact hw) (by rw [hp, h2]) with h6 | ⟨x, hx, h6 | h6 | h6⟩
      · exact ⟨pre, post, by rw [h6, h3], h4, h5⟩
      · exact ⟨pre, post ++ [x], by rw [h6, h3]; simp, h4, h5⟩
      · obtain ⟨pre', post', h7, h8⟩ := herase x hx
        exact ⟨pre', post', by rw [h6, h7], h8, h5⟩
      · obtain ⟨pre', post', h7, h8⟩ := herase x hx
        exact ⟨pre', post' ++ [x], by rw [h6, h7]; simp, h8, h5⟩
  exact (key hst).2.1

/-! ## Running schedules which keep to an order -/

/-- `P` holds of task `t` and all which await it, which are at most `n`. -/
def allAbove (s : St F L V W E) (P : Nat → Bool) : Nat → Nat → Bool
  | 0, t => (s.par t).isNone && P t
  | n + 1, t => P t && match s.par t with
    | some u => allAbove s P n u
    | none => true

/-- `P` holds of task `t` and all it awaits, which are nested at most `n` deep. -/
def allBelow (s : St F L V W E) (P : Nat → Bool) : Nat → Nat → Bool
  | 0, t => (s.kids t).isEmpty && P t
  | n + 1, t => P t && (s.kids t).all fun c => allBelow s P n c

theorem above_awaits {P : Nat → Bool} {n u t : Nat} (h : allAbove s P n t = true) (hw : Awaits s u t) : P u = true := by
  induction n generalizing t with
  | zero =>
    simp only [allAbove, Bool.and_eq_true, Option.isNone_iff_eq_none] at h
    rcases Relation.ReflTransGen.cases_tail hw with h1 | ⟨c, _, h1⟩
    · rw [← h1]; exact h.2
    · rw [h.1] at h1; cases h1
  | succ n ih =>
    simp only [allAbove, Bool.and_eq_true] at h
    rcases Relation.ReflTransGen.cases_tail hw with h1 | ⟨c, h0, h1⟩
    · rw [← h1]; exact h.1
    · rw [h1] at h; exact ih h.2 h0

theorem below_awaits (hi : Inv eqv v₀ w₀ s) {P : Nat → Bool} {n u t : Nat} (h : allBelow s P n u = true)
    (hw : Awaits s u t) : P t = true := by
  induction n generalizing u with
  | zero =>
    simp only [allBelow, Bool.and_eq_true, List.isEmpty_iff] at h
    rcases Relation.ReflTransGen.cases_head hw with h1 | ⟨c, h1, _⟩
    · rw [← h1]; exact h.2
    · have := (hi.kids _ _).2 h1
      rw [h.1] at this; cases this
  | succ n ih =>
    simp only [allBelow, Bool.and_eq_true, List.all_eq_true] at h
    rcases Relation.ReflTransGen.cases_head hw with h1 | ⟨c, h1, h2⟩
    · rw [← h1]; exact h.1
    · exact ih (h.2 c ((hi.kids _ _).2 h1)) h2

/-- The order as a test; tasks are nested at most `n` deep. -/
def allowedB (n : Nat) (depB : F ⊕ L → F ⊕ L → Bool) (s : St F L V W E) (t : Nat) : Act F L V W E → Bool
  | .call _ .isSet => true
  | .call j _ => pre s t (.inl j)
  | .lock op => (opTargets op).all (fun k => pre s t (.inr k)) && match op with
    | .eq i j => depB (.inr i) (.inr j)
    | _ => true
  | .ret => match s.par t with
    | some u => allBelow s (fun v => v == t || (s.stack v).all fun f => (targets (look s f)).all fun r =>
        (s.stack t).all fun g => (hand (look s g)).all fun h => depB h r) n u
    | none => true
  | _ => true
where
  pre (s : St F L V W E) (t : Nat) (r : F ⊕ L) : Bool :=
    allAbove s (fun u => (s.stack u).all fun g => (hand (look s g)).all fun h => depB h r) n t

/-- Runs a schedule as long as it keeps to the order. -/
def runDep (eqv : W → W → Bool) (n : Nat) (depB : F ⊕ L → F ⊕ L → Bool) (s : St F L V W E) :
    List (Nat × Act F L V W E) → Option (St F L V W E)
  | [] => some s
  | (t, a) :: rest =>
    if allowedB n depB s t a then (step eqv s t a).bind fun s' => runDep eqv n depB s' rest else none

theorem pre_iff {n : Nat} {depB : F ⊕ L → F ⊕ L → Bool} {t : Nat} {r : F ⊕ L} (h : allowedB.pre n depB s t r = true) :
    Precedes (fun a b => depB a b = true) s t r := by
  intro u hu g hg x hx
  have := above_awaits h hu
  simp only [List.all_eq_true] at this
  exact this g hg x hx

theorem allowed_of (hi : Inv eqv v₀ w₀ s) {n : Nat} {depB : F ⊕ L → F ⊕ L → Bool} {t : Nat} {a : Act F L V W E}
    (h : allowedB n depB s t a = true) : Allowed (fun a b => depB a b = true) s t a := by
  cases a with
  | call j op => cases op <;> first | trivial | exact pre_iff h
  | lock op =>
    simp only [allowedB, Bool.and_eq_true, List.all_eq_true] at h
    refine ⟨fun k hk => pre_iff (h.1 k hk), ?_⟩
    rintro i j rfl
    exact h.2
  | act f b => trivial
  | fork c => trivial
  | ret =>
    intro u hu v hv hvt f hf r hr g hg x hx
    simp only [allowedB, hu] at h
    have := below_awaits hi h hv
    simp only [Bool.or_eq_true, beq_iff_eq, hvt, false_or, List.all_eq_true] at this
    exact this f hf r hr g hg x hx

theorem reach_runDep {n : Nat} {depB : F ⊕ L → F ⊕ L → Bool} {s₀ : St F L V W E}
    (h₀ : Reach eqv (fun a b => depB a b = true) v₀ w₀ s₀) {sch : List (Nat × Act F L V W E)}
    (h : runDep eqv n depB s₀ sch = some s) : Reach eqv (fun a b => depB a b = true) v₀ w₀ s := by
  induction sch generalizing s₀ with
  | nil => simp [runDep] at h; exact h ▸ h₀
  | cons x sch ih =>
    obtain ⟨t, a⟩ := x
    simp only [runDep] at h
    split at h
    · rename_i hal
      simp only [Option.bind_eq_some_iff] at h
      obtain ⟨s₁, h1, h2⟩ := h
      exact ih (.step h₀ (allowed_of (inv_reach h₀) hal) h1) h2
    · cases h

/-- `n` steps of the code of the call `f` of task `t`. -/
def gos {F L : Type} (t : Nat) (f : Fr F) (n : Nat) : List (Nat × Act F L Nat Nat Nat) := List.replicate n (t, .act f .go)

theorem stuck_frame {t : Nat} {f : Fr F} (hf : f ∈ s.stack t) (hu : atUser (look s f) = false)
    (hg : (fstep eqv s f .go).isNone = true) : Stuck eqv s t := .inr ⟨f, hf, hu, hg⟩

/-! ## A struct that keeps to an order -/

/-- Task 2 keeps a read guard of the counter. Task 0 reads the session, whose builder awaits two branches at once,
`join!(read_config(), write_counter())`: the branch 3 returns with a guard of the configuration, the branch 4 waits for the
counter. Task 1 reads the session too. (`layered`: the session may use the configuration and the counter.) -/
def layeredRun : List (Nat × Act Bool Unit Nat Nat Nat) :=
  [(2, .lock (.read ()))] ++ gos 2 (.lock 0) 1 ++
  [(0, .call true (.get .read))] ++ gos 0 (.lazy true 1) 3 ++
  [(0, .fork 3), (0, .fork 4), (3, .call false (.get .read))] ++ gos 3 (.lazy false 2) 4 ++
  [(4, .lock (.write ())), (1, .call true (.get .read)), (3, .ret)]

-- tasks 0 and 1 and the branch 4 are stuck: 1 waits for 0, 0 for 4, 4 for 2; no deadlock, 2 can go on
example : ∃ s : St Bool Unit Nat Nat Nat,
    Reach (fun a b => a == b) (fun a b => layered a b = true) (fun i => if i then none else some 7) (fun _ => 1) s ∧
    Stuck (fun a b => a == b) s 0 ∧ Stuck (fun a b => a == b) s 1 ∧ Stuck (fun a b => a == b) s 4 ∧ WaitsFor s 1 0 ∧
    WaitsFor s 0 4 ∧ WaitsFor s 4 2 ∧ Inside s 2 ∧ ¬ Stuck (fun a b => a == b) s 2 ∧
    s.stack 0 = [.lazy false 2, .lazy true 1] ∧ (∀ t, t ∉ [0, 1, 2, 4] → ¬ Inside s t) := by
  have h : ∃ s, runDep (fun a b => a == b) 2 layered (init (fun i => if i then none else some 7) (fun _ => 1)) layeredRun =
        some s ∧ s.stack 0 = [.lazy false 2, .lazy true 1] ∧ s.stack 1 = [.lazy true 4] ∧ s.stack 2 = [.lock 0] ∧
        s.stack 4 = [.lock 3] ∧ s.kids 0 = [4] ∧ s.kids 2 = [] ∧ s.lk.pc 0 = .idle ∧ s.lk.held 0 = [((), false)] ∧
        s.lk.pc 3 = .wWait () ∧ (s.obj true).pc 4 = .rStart .read ∧ s.queue true = [4] ∧ s.lk.queue () = [3] ∧
        (s.obj true).lk = ⟨[], some 1⟩ ∧ s.lk.lock () = ⟨[0], none⟩ ∧
        (s.stack 3 = [] ∧ s.kids 3 = [] ∧ s.par 3 = none ∧ ∀ t, s.stack (t + 5) = [] ∧ s.kids (t + 5) = [] ∧
        s.par (t + 5) = none) :=
    ⟨_, rfl, rfl, rfl, rfl, rfl, rfl, rfl, rfl, rfl, rfl, rfl, rfl, rfl, rfl, rfl, rfl, rfl, rfl, fun _ => ⟨rfl, rfl, rfl⟩⟩
  obtain ⟨s, h1, h2, h3, h4, h5, h6, h7, h8, h9, h10, h11, h12, h13, h14, h15, h16⟩ := h
  refine ⟨s, reach_runDep .init h1, .inl (by simp [h6]),
    stuck_frame (f := .lazy true 4) (by simp [h3]) (by simp [look, h11, atUser])
      (by simp [fstep, h11, AsyncMulti.queued, h12, Async.go, h14, Async.ALock.tryWrite]),
    stuck_frame (f := .lock 3) (by simp [h5]) (by simp [look, h10, atUser])
      (by simp [fstep, AsyncLocks.go, AsyncLocks.St.exclusive, h10, h13, h15, Async.ALock.tryWrite]),
    .owner (r := .inl true) (p := 4) (q := 1) (by simp [h3, frame]) (by simp [frame, look, h11, wants, AsyncMulti.queued])
      (by simp [waiting, h12]) (by simp [lockOf, h14]) (by simp [h2, frame]),
    .branch (by simp [h6]),
    .reader (r := .inr ()) (p := 3) (q := 0) (by simp [h5, frame]) (by simp [frame, look, h10, wants, AsyncLocks.wants])
      (by simp [waiting, h13]) (by simp [frame, look, h10, wantsAlone, AsyncLocks.wantsAlone]) (by simp [lockOf, h15])
      (by simp [h4, frame]),
    .inl (by simp [h4]), ?_, h2, ?_⟩
  · rintro (h | ⟨f, hf, hu, _⟩)
    · exact h h7
    · simp only [h4, List.mem_singleton] at hf
      subst hf
      simp [look, h8, h9, atUser] at hu
  · obtain ⟨e1, e2, e3, e4⟩ := h16
    intro t ht
    match t with
    | 0 | 1 | 2 | 4 => simp at ht
    | 3 => simp [Inside, e1, e2, e3]
    | t + 5 => simp [Inside, e4]

-- and then everything comes to its end: the guard of the counter is dropped, the branch 4 gets it, the builder goes on
example : ∃ s : St Bool Unit Nat Nat Nat,
    Reach (fun a b => a == b) (fun a b => layered a b = true) (fun i => if i then none else some 7) (fun _ => 1) s ∧
    (s.obj true).value = some 8 ∧ ∀ t, ¬ Inside s t := by
  have h : ∃ s, runDep (fun a b => a == b) 2 layered (init (fun i => if i then none else some 7) (fun _ => 1)) (layeredRun ++
        [(2, .act (.lock 0) (.dropLock ((), false))), (4, .act (.lock 3) .go), (4, .ret),
          (0, .act (.lock 3) (.dropLock ((), true))), (0, .act (.lazy false 2) .drop),
          (0, .act (.lazy true 1) (.finish (.ok 8)))] ++ gos 0 (.lazy true 1) 4 ++ [(0, .act (.lazy true 1) .drop)] ++
        gos 1 (.lazy true 4) 4 ++ [(1, .act (.lazy true 4) .drop)]) =
        some s ∧ (s.obj true).value = some 8 ∧ s.stack 0 = [] ∧ s.stack 1 = [] ∧ s.stack 2 = [] ∧ s.stack 3 = [] ∧
        s.stack 4 = [] ∧ s.kids 0 = [] ∧ s.kids 1 = [] ∧ s.kids 2 = [] ∧ s.kids 3 = [] ∧ s.kids 4 = [] ∧
        s.par 0 = none ∧ s.par 1 = none ∧ s.par 2 = none ∧ s.par 3 = none ∧ s.par 4 = none ∧
        ∀ t, s.stack (t + 5) = [] ∧ s.kids (t + 5) = [] ∧ s.par (t + 5) = none :=
    ⟨_, rfl, rfl, rfl, rfl, rfl, rfl, rfl, rfl, rfl, rfl, rfl, rfl, rfl, rfl, rfl, rfl, rfl, fun _ => ⟨rfl, rfl, rfl⟩⟩
  obtain ⟨s, h1, h2, h3⟩ := h
  refine ⟨s, reach_runDep .init h1, h2, fun t => ?_⟩
  match t with
  | 0 | 1 | 2 | 3 | 4 => simp [Inside, h3]
  | t + 5 => simp [Inside, h3]

/-- Where task 2 keeps a guard of the counter and the branch 4 of task 0 waits for it. -/
def overtakeStart : St Bool Unit Nat Nat Nat :=
  (run (fun a b => a == b) (init (fun i => if i then none else some 7) (fun _ => 1)) layeredRun).getD
    (init (fun _ => none) (fun _ => 1))

-- while the writer waits, a reader who comes later waits too, although it could share the lock with the reading guard
example : ∃ s s' : St Bool Unit Nat Nat Nat,
    Reach (fun a b => a == b) (fun a b => layered a b = true) (fun i => if i then none else some 7) (fun _ => 1) s ∧
    ¬ (5 ∈ (lockOf s (.inr ())).shared ∨ (lockOf s (.inr ())).wr = some 5) ∧
    wants (look s (frame (.inr ()) 5)) ≠ some (.inr ()) ∧
    Staying (fun a b => a == b) (frame (.inr ()) 3) (.lock (.wWait ()) []) s s' ∧
    wants (look s' (frame (.inr ()) 5)) = some (.inr ()) ∧ Stuck (fun a b => a == b) s' 7 ∧ (lockOf s' (.inr ())).shared = [0] := by
  refine ⟨overtakeStart, _, reach_runDep (n := 2) (sch := layeredRun) .init rfl, ?_, by decide,
    .step (u := 7) (a := .lock (.read ())) (.refl rfl) rfl rfl, rfl, .inr ⟨.lock 5, ?_, rfl, rfl⟩, rfl⟩
  · rintro (h | h) <;> revert h <;> decide
  · decide

/-! ## Structs that do not -/

/-- Two tasks, each awaiting `join!(write_a(), write_b())`: the same order in the source does not help, `join!` keeps the
guard of the branch which ends first while the other waits. -/
theorem C92_join_deadlocks : ∃ s : St Empty Bool Nat Nat Nat,
    Reach (fun a b => a == b) (fun a b => (a != b) = true) nofun (fun _ => 1) s ∧ Deadlock (fun a b => a == b) s := by
  have h : ∃ s : St Empty Bool Nat Nat Nat, runDep (fun a b => a == b) 1 (fun a b => a != b) (init nofun (fun _ => 1))
      ([(0, .fork 2), (0, .fork 3), (1, .fork 4), (1, .fork 5), (2, .lock (.write false))] ++ gos 2 (.lock 0) 1 ++
        [(4, .lock (.write false)), (5, .lock (.write true))] ++ gos 5 (.lock 2) 1 ++
        [(3, .lock (.write true)), (2, .ret), (5, .ret)]) = some s ∧
      s.kids 0 = [3] ∧ s.kids 1 = [4] ∧ s.stack 3 = [.lock 3] ∧ s.stack 4 = [.lock 1] ∧
      (s.stack 2 = [] ∧ s.kids 2 = [] ∧ s.par 2 = none ∧ s.stack 5 = [] ∧ s.kids 5 = [] ∧ s.par 5 = none) ∧
      (∀ t, s.stack (t + 6) = [] ∧ s.kids (t + 6) = [] ∧ s.par (t + 6) = none) ∧
      s.stack 0 = [.lock 0] ∧ s.stack 1 = [.lock 2] ∧
      atUser (look s (.lock 3)) = false ∧ (fstep (fun a b => a == b) s (.lock 3) .go).isNone = true ∧
      atUser (look s (.lock 1)) = false ∧ (fstep (fun a b => a == b) s (.lock 1) .go).isNone = true :=
    ⟨_, rfl, rfl, rfl, rfl, rfl, ⟨rfl, rfl, rfl, rfl, rfl, rfl⟩, fun _ => ⟨rfl, rfl, rfl⟩, rfl, rfl, rfl, rfl, rfl, rfl⟩
  obtain ⟨s, h1, h2, h3, h4, h5, h6, h7, _, _, h8, h9, h10, h11⟩ := h
  have hr := reach_runDep .init h1
  refine ⟨s, hr, ⟨0, .inr (.inl (by simp [h2]))⟩, ?_⟩
  intro t ht
  match t with
  | 0 => exact .inl (by simp [h2])
  | 1 => exact .inl (by simp [h3])
  | 3 => exact stuck_frame (by simp [h4]) h8 h9
  | 4 => exact stuck_frame (by simp [h5]) h10 h11
  | 2 | 5 => simp [Inside, h6] at ht
  | t + 6 => simp [Inside, h7] at ht

/-- One task is enough: it keeps the guard from `read_counter()` and reads the lazy field, whose builder calls
`set_counter`. -/
theorem C92_guard_across_builder_deadlocks : ∃ s : St Unit Unit Nat Nat Nat,
    Reach (fun a b => a == b) (fun a b => (both a b || a == b) = true) (fun _ => none) (fun _ => 1) s ∧
    (∀ t, t ≠ 0 → ¬ Inside s t) ∧ Deadlock (fun a b => a == b) s := by
  have h : ∃ s : St Unit Unit Nat Nat Nat, runDep (fun a b => a == b) 0 (fun a b => both a b || a == b)
      (init (fun _ => none) (fun _ => 1))
      ([(0, .lock (.read ()))] ++ gos 0 (.lock 0) 1 ++ [(0, .call () (.get .read))] ++ gos 0 (.lazy () 1) 3 ++
        [(0, .lock (.swap () 2))]) = some s ∧
      s.stack 0 = [.lock 2, .lazy () 1, .lock 0] ∧
      (∀ t, s.stack (t + 1) = [] ∧ s.kids (t + 1) = [] ∧ s.par (t + 1) = none) ∧
      atUser (look s (.lock 2)) = false ∧ (fstep (fun a b => a == b) s (.lock 2) .go).isNone = true :=
    ⟨_, rfl, rfl, fun _ => ⟨rfl, rfl, rfl⟩, rfl, rfl⟩
  obtain ⟨s, h1, h2, h3, h4, h5⟩ := h
  have hout : ∀ t, t ≠ 0 → ¬ Inside s t := by
    intro t ht
    match t with
    | 0 => exact absurd rfl ht
    | t + 1 => simp [Inside, h3]
  refine ⟨s, reach_runDep .init h1, hout, ⟨0, .inl (by simp [h2])⟩, ?_⟩
  intro t ht
  by_cases h0 : t = 0
  · subst h0; exact stuck_frame (by simp [h2]) h4 h5
  · exact absurd ht (hout t h0)

/-- A builder that awaits two accessors of the same lazy field at once, one of them writing: `join!(read_config(),
write_config())` has the guard of the first when the second waits for it. -/
theorem C92_join_in_builder_deadlocks : ∃ s : St Bool Empty Nat Nat Nat,
    Reach (fun a b => a == b) (fun _ _ => True) (fun i => if i then none else some 7) nofun s ∧
    (∃ k, (s.obj true).pc 0 = .rBuild k) ∧ Deadlock (fun a b => a == b) s := by
  have h : ∃ s : St Bool Empty Nat Nat Nat, runDep (fun a b => a == b) 2 (fun _ _ => true)
      (init (fun i => if i then none else some 7) nofun)
      ([(0, .call true (.get .read))] ++ gos 0 (.lazy true 0) 3 ++
        [(0, .fork 1), (0, .fork 2), (1, .call false (.get .read))] ++ gos 1 (.lazy false 1) 4 ++
        [(2, .call false .writer), (1, .ret)]) = some s ∧
      s.kids 0 = [2] ∧ s.stack 2 = [.lazy false 2] ∧ (s.stack 1 = [] ∧ s.kids 1 = [] ∧ s.par 1 = none) ∧
      (∀ t, s.stack (t + 3) = [] ∧ s.kids (t + 3) = [] ∧ s.par (t + 3) = none) ∧
      atUser (look s (.lazy false 2)) = false ∧ (fstep (fun a b => a == b) s (.lazy false 2) .go).isNone = true ∧
      (s.obj true).pc 0 = .rBuild .read :=
    ⟨_, rfl, rfl, rfl, ⟨rfl, rfl, rfl⟩, fun _ => ⟨rfl, rfl, rfl⟩, rfl, rfl, rfl⟩
  obtain ⟨s, h1, h2, h3, h4, h5, h6, h7, h8⟩ := h
  have hr := reach_runDep .init h1
  refine ⟨s, by simpa using hr, ⟨_, h8⟩, ⟨0, .inr (.inl (by simp [h2]))⟩, ?_⟩
  intro t ht
  match t with
  | 0 => exact .inl (by simp [h2])
  | 2 => exact stuck_frame (by simp [h3]) h6 h7
  | 1 => simp [Inside, h4] at ht
  | t + 3 => simp [Inside, h5] at ht

end Verif.Props.AsyncMixed
