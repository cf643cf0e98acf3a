import Verif.Proof.MixedCycle
import Verif.Props.Sync
import Verif.Props.Locks
/-!
# Lazy and lock-protected fields together: C88

Model: `Verif.Model.Mixed`. `Reach eqv dep v₀ w₀ s`: some schedule of any number of threads leads from the contents `v₀`
(lazy) and `w₀` (lock-protected) to `s`, where a thread calls `b` while in a call on `a` or while keeping a guard of `a` only
if `dep a b`. Lazy containers are `.inl i`, the others `.inr k`.
-/

namespace Verif.Props.Mixed
open Verif.Spec Verif.Spec.Memory Verif.Model Verif.Model.Mixed Verif.Proof Verif.Proof.Mixed

set_option linter.unusedSectionVars false
variable {F L V W E : Type} [DecidableEq F] [DecidableEq L] {eqv : W → W → Bool} {dep : F ⊕ L → F ⊕ L → Prop}
  {v₀ : F → Option V} {w₀ : L → W} {s s' : St F L V W E}

/-- No container comes, directly or through others, before itself. -/
def Acyclic {A : Type} (dep : A → A → Prop) : Prop := ∀ r, ¬ Relation.TransGen dep r r

/-! ## Each container keeps its guarantees -/

/-- Whatever the threads do with all the others, and in whatever order, the calls on one lazy container are linearizable, ... -/
theorem C88_lazy_linearizable (h : Reach eqv dep v₀ w₀ s) (i : F) :
    WellFormed (hist (s.obj i).log) ∧ Linearizable CellStep (v₀ i) (hist (s.obj i).log) :=
  Props.Sync.C02_sync_linearizable ((inv_reach h).obj i)

/-- ... its builder does not run twice at once ... -/
theorem C88_builder_runs_alone (h : Reach eqv dep v₀ w₀ s) {i : F} {p q : Nat} {k k' : GetKind}
    (hp : (s.obj i).pc p = .rBuild k) (hq : (s.obj i).pc q = .rBuild k') : q = p ∧ (s.obj i).value = none :=
  have hb := Props.Sync.C01_memory_empty_while_building ((inv_reach h).obj i) hp
  ⟨hb.2.2 q k' hq, hb.1⟩

/-- ... and the calls on all lock-protected containers together are linearizable. -/
theorem C88_locks_linearizable (h : Reach eqv dep v₀ w₀ s) : Linearizable (Memory.Step eqv) w₀ (hist s.lk.log) :=
  Props.Locks.C59_linearizable (inv_reach h).lk

/-! ## Who waits -/

/-- A thread that cannot move waits for a thread that waits for a thread … that can. -/
theorem C88_chain (hac : Acyclic dep) (h : Reach eqv dep v₀ w₀ s) {t : Nat} (ht : Stuck eqv s t) :
    ∃ u, Relation.TransGen (WaitsFor s) t u ∧ Inside s u ∧ ¬ Stuck eqv s u := by
  obtain ⟨r, hr⟩ := stuck_wants (inv_reach h) ht
  exact chain (inv_reach h) (ord_reach h) (wants_wf hac h) r t hr

/-- Without a cycle in the order no deadlock. -/
theorem C88_no_deadlock (hac : Acyclic dep) (h : Reach eqv dep v₀ w₀ s) : ¬ Deadlock eqv s := by
  rintro ⟨⟨t, ht⟩, hall⟩
  obtain ⟨u, _, h1, h2⟩ := C88_chain hac h (hall t ht)
  exact h2 (hall u h1)

/-- With a cycle there is one, whatever the contents at the beginning; so this is exactly when threads can deadlock. -/
theorem C88_deadlock_iff [Nonempty V] : (∃ s : St F L V W E, Reach eqv dep v₀ w₀ s ∧ Deadlock eqv s) ↔ ¬ Acyclic dep := by
  constructor
  · rintro ⟨s, h1, h2⟩ hac
    exact C88_no_deadlock hac h1 h2
  · intro h
    simp only [Acyclic, Classical.not_forall, Classical.not_not] at h
    obtain ⟨r, hr⟩ := h
    exact cycle_deadlock hr

/-! ## Lock-protected fields alone: the exact rule for C61 -/

/-- The order between lock-protected containers, where there are no others. -/
def onlyLocks (dep : L → L → Prop) : Empty ⊕ L → Empty ⊕ L → Prop
  | .inr k, .inr k' => dep k k'
  | _, _ => False

/-- The state without lazy containers. -/
def embed (l : Locks.St L W) : St Empty L Unit W Unit := { obj := nofun, stack := fun _ => [], next := 0, lk := l }

theorem embed_reach {dep : L → L → Prop} {l : Locks.St L W} (h : Locks.Reach eqv dep w₀ l) :
    Reach eqv (onlyLocks dep) nofun w₀ (embed l) := by
  induction h with
  | init =>
    have : embed (Locks.init w₀) = (init nofun w₀ : St Empty L Unit W Unit) := by
      simp only [embed, init]
      congr 1
      funext i; exact i.elim
    rw [this]; exact .init
  | @step l l' t a _ ha hs ih =>
    refine .step (t := t) (a := .lock a) ih ?_ (by simp [step, embed, atRest, hs])
    have hp : ∀ k, (∀ g ∈ l.held t, dep g.1 k) → Precedes (onlyLocks dep) (embed l) t ((embed l).stack t) (.inr k) :=
      fun k h => ⟨by simp [embed], h⟩
    cases a with
    | call op =>
      cases op with
      | eq i j => exact ⟨hp i fun g hg => (ha.1 g hg).1, hp j fun g hg => (ha.1 g hg).2, ha.2⟩
      | _ => first | trivial | exact hp _ ha
    | _ => trivial

theorem reach_lk {dep : L → L → Prop} {v₀ : Empty → Option V} {s : St Empty L V W E}
    (h : Reach eqv (onlyLocks dep) v₀ w₀ s) : Locks.Reach eqv dep w₀ s.lk := by
  induction h with
  | init => exact .init
  | @step s s' t a _ ha hs ih =>
    cases a with
    | lock b =>
      simp only [step] at hs
      split at hs
      · simp only [Option.map_eq_some_iff] at hs
        obtain ⟨l, hl, rfl⟩ := hs
        refine .step ih ?_ hl
        cases b with
        | call op =>
          cases op with
          | eq i j => exact ⟨fun g hg => ⟨ha.1.2 g hg, ha.2.1.2 g hg⟩, ha.2.2⟩
          | _ => first | trivial | exact ha.2
        | _ => trivial
      · cases hs
    | call j op => exact j.elim
    | use f op => exact f.1.elim
    | go f => exact f.1.elim
    | drop f => exact f.1.elim
    | finish o =>
      simp only [step] at hs
      split at hs
      · rename_i f _; exact f.1.elim
      · cases hs

theorem stack_empty (s : St Empty L V W E) (t : Nat) : s.stack t = [] := by
  match h : s.stack t with
  | [] => rfl
  | f :: _ => exact f.1.elim

theorem deadlock_lk (s : St Empty L V W E) : Deadlock eqv s ↔ Locks.Deadlock eqv s.lk := by
  simp [Deadlock, Locks.Deadlock, Inside, Stuck, stack_empty]

/-- Lock-protected fields deadlock exactly if they are used in a cyclic order, the order in which a comparison takes its two
sides included. -/
theorem C61_deadlock_iff {dep : L → L → Prop} :
    (∃ l : Locks.St L W, Locks.Reach eqv dep w₀ l ∧ Locks.Deadlock eqv l) ↔ ¬ Acyclic dep := by
  constructor
  · rintro ⟨l, h1, h2⟩ hac
    refine C88_no_deadlock ?_ (embed_reach h1) ((deadlock_lk _).2 h2)
    have hstep : ∀ {a b : Empty ⊕ L}, Relation.TransGen (onlyLocks dep) a b →
        ∃ k k', a = .inr k ∧ b = .inr k' ∧ Relation.TransGen dep k k' := by
      intro a b h
      induction h with
      | @single b h =>
        match a, b, h with
        | .inr k, .inr k', h => exact ⟨k, k', rfl, rfl, .single h⟩
      | @tail b c _ h ih =>
        obtain ⟨k, k', rfl, rfl, h3⟩ := ih
        match c, h with
        | .inr k'', h => exact ⟨k, k'', rfl, rfl, .tail h3 h⟩
    intro r hr
    obtain ⟨k, k', rfl, h3, h4⟩ := hstep hr
    cases h3
    exact hac k h4
  · intro h
    simp only [Acyclic, Classical.not_forall, Classical.not_not] at h
    obtain ⟨k, hk⟩ := h
    have hr : Relation.TransGen (onlyLocks dep) (.inr k) (.inr k) := by
      have : ∀ {k'}, Relation.TransGen dep k k' → Relation.TransGen (onlyLocks dep) (.inr k) (.inr k') := by
        intro k' h
        induction h with
        | single h => exact .single h
        | tail _ h ih => exact .tail ih h
      exact this hk
    obtain ⟨s, h1, h2⟩ := cycle_deadlock (eqv := eqv) (v₀ := (nofun : Empty → Option Unit)) (w₀ := w₀) (E := Unit) hr
    exact ⟨s.lk, reach_lk h1, (deadlock_lk s).1 h2⟩

/-- `n` steps from `s` to `s'` in which nothing new is begun and the order is kept to. -/
inductive Winds (eqv : W → W → Bool) (dep : F ⊕ L → F ⊕ L → Prop) : Nat → St F L V W E → St F L V W E → Prop where
  | done {s : St F L V W E} : Winds eqv dep 0 s s
  | step {s s₁ s' : St F L V W E} {n : Nat} {t : Nat} {a : Act F L V W E} : quiet a = true → Allowed dep s t a → step eqv s t a = some s₁ → Winds eqv dep n s₁ s' →
      Winds eqv dep (n + 1) s s'

theorem winds_total {n : Nat} {ts : List Nat} (hn : ts.Nodup) (hw : Winds eqv dep n s s') (h : Reach eqv dep v₀ w₀ s)
    (hts : ∀ t, t ∉ ts → ¬ Inside s t) : n ≤ total s ts ∧ Reach eqv dep v₀ w₀ s' := by
  induction hw with
  | done => exact ⟨by omega, h⟩
  | @step s s₁ s' n t a ha hal hs _ ih =>
    have hi := inv_reach h
    have ht : t ∈ ts := by
      apply Classical.byContradiction
      exact fun ht => hts t ht (quiet_inside hi ha hs)
    obtain ⟨h1, h2⟩ := ih (.step h hal hs) (fun u hu hin => by
      have hut : u ≠ t := by rintro rfl; exact hu ht
      refine hts u hu ?_
      have ho := step_other hs hut
      simpa [Inside, Locks.Inside, ho] using hin)
    have := total_step hi ha hs hn ht
    exact ⟨by omega, h2⟩

/-- Every call completes: once nothing new is begun, whatever steps are taken in whatever order, after at most twelve steps
for each lazy call or guard, six for the lock call and one for each lock guard of a thread nothing is left to do, and then
everybody is out. `ts` lists the threads that are inside. -/
theorem C88_every_call_completes (hac : Acyclic dep) (h : Reach eqv dep v₀ w₀ s) {ts : List Nat} (hn : ts.Nodup)
    (hts : ∀ t, t ∉ ts → ¬ Inside s t) {n : Nat} (hw : Winds eqv dep n s s') :
    n ≤ (ts.map fun t => 12 * (s.stack t).length + 6 + (s.lk.held t).length).sum ∧
    ((∀ t a, quiet a = true → Allowed dep s' t a → step eqv s' t a = none) → ∀ t, ¬ Inside s' t) := by
  obtain ⟨h1, h2⟩ := winds_total hn hw h hts
  refine ⟨Nat.le_trans h1 ?_, ?_⟩
  · unfold total
    clear hn hts h1 h2
    induction ts with
    | nil => simp
    | cons x ts ih =>
      simp only [List.map_cons, List.sum_cons]
      have := weight_le s x
      omega
  · intro hend t ht
    have move : ∀ u, Inside s' u → ¬ Stuck eqv s' u → False := by
      intro u hu hs
      obtain ⟨a, s'', h3, h4, h5⟩ := quiet_enabled (inv_reach h2) (ord_reach h2) hu hs
      rw [hend u a h3 h4] at h5; cases h5
    by_cases hs : Stuck eqv s' t
    · obtain ⟨u, _, h3, h4⟩ := C88_chain hac h2 hs
      exact move u h3 h4
    · exact move t ht hs

/-! ## A struct that keeps to an order -/

/-- The order as a test, for running schedules. -/
def allowedB (depB : F ⊕ L → F ⊕ L → Bool) (s : St F L V W E) (t : Nat) : Act F L V W E → Bool
  | .call _ .isSet => true
  | .call j _ => pre s t (s.stack t) (.inl j)
  | .finish _ =>
    match innermost s t with
    | some f => pre s t ((s.stack t).erase f) (.inl f.1)
    | none => true
  | .lock (.call (.get k)) | .lock (.call (.swap k _)) | .lock (.call (.read k)) | .lock (.call (.write k)) =>
    pre s t (s.stack t) (.inr k)
  | .lock (.call (.eq k k')) =>
    pre s t (s.stack t) (.inr k) && pre s t (s.stack t) (.inr k') && depB (.inr k) (.inr k')
  | _ => true
where
  pre (s : St F L V W E) (t : Nat) (fs : List (F × Nat)) (r : F ⊕ L) : Bool :=
    fs.all (fun f => depB (.inl f.1) r) && (s.lk.held t).all fun g => depB (.inr g.1) r

/-- Runs a schedule as long as it keeps to the order. -/
def runDep (eqv : W → W → Bool) (depB : F ⊕ L → F ⊕ L → Bool) (s : St F L V W E) :
    List (Nat × Act F L V W E) → Option (St F L V W E)
  | [] => some s
  | (t, a) :: rest =>
    if allowedB depB s t a then (step eqv s t a).bind fun s' => runDep eqv depB s' rest else none

theorem pre_iff {depB : F ⊕ L → F ⊕ L → Bool} {t : Nat} {fs : List (F × Nat)} {r : F ⊕ L}
    (h : allowedB.pre depB s t fs r = true) : Precedes (fun a b => depB a b = true) s t fs r := by
  simpa [allowedB.pre, Precedes] using h

theorem allowed_of {depB : F ⊕ L → F ⊕ L → Bool} {t : Nat} {a : Act F L V W E} (h : allowedB depB s t a = true) :
    Allowed (fun a b => depB a b = true) s t a := by
  cases a with
  | call j op => cases op <;> first | trivial | exact pre_iff h
  | use f op => trivial
  | go f => trivial
  | drop f => trivial
  | finish o =>
    intro f hf
    simp only [allowedB, hf] at h
    exact pre_iff h
  | lock b =>
    cases b with
    | call op =>
      cases op with
      | eq k k' =>
        simp only [allowedB, Bool.and_eq_true] at h
        exact ⟨pre_iff h.1.1, pre_iff h.1.2, h.2⟩
      | _ => first | trivial | exact pre_iff h
    | _ => trivial

theorem reach_runDep {depB : F ⊕ L → F ⊕ L → Bool} {s₀ : St F L V W E}
    (h₀ : Reach eqv (fun a b => depB a b = true) v₀ w₀ s₀) {sch : List (Nat × Act F L V W E)}
    (h : runDep eqv depB s₀ sch = some s) : Reach eqv (fun a b => depB a b = true) v₀ w₀ s := by
  induction sch generalizing s₀ with
  | nil => simp [runDep] at h; exact h ▸ h₀
  | cons x sch ih =>
    obtain ⟨t, a⟩ := x
    simp only [runDep] at h
    split at h
    · rename_i hal
      simp only [Option.bind_eq_some_iff] at h
      obtain ⟨s₁, h1, h2⟩ := h
      exact ih (.step h₀ (allowed_of hal) h1) h2
    · cases h

/-- `n` steps of the code of the call `f` of thread `t`. -/
def gos {F L : Type} (t : Nat) (f : F × Nat) (n : Nat) : List (Nat × Act F L Nat Nat Nat) := List.replicate n (t, .go f)

/-- `n` steps of the lock call of thread `t`. -/
def locks {F L : Type} (t n : Nat) : List (Nat × Act F L Nat Nat Nat) := List.replicate n (t, .lock .go)

/-- A struct with the lazy fields `false` (configuration) and `true` (session) and one field with `lock`, a counter: the
builder of the session reads the configuration, everything may use the counter, which uses nothing. -/
def layered : Bool ⊕ Unit → Bool ⊕ Unit → Bool
  | .inl true, .inl false => true
  | .inl _, .inr _ => true
  | _, _ => false

theorem layered_acyclic : Acyclic fun a b => layered a b = true := by
  have h : ∀ {a b}, Relation.TransGen (fun a b => layered a b = true) a b → layered a b = true := by
    intro a b h
    induction h with
    | single h => exact h
    | @tail b c _ h ih =>
      revert ih h
      rcases a with (_ | _) | _ <;> rcases b with (_ | _) | _ <;> rcases c with (_ | _) | _ <;> simp [layered]
  intro r hr
  have := h hr
  rcases r with (_ | _) | _ <;> simp [layered] at this

/-- Thread 2 keeps a read guard of the counter. Thread 0 reads the session; its builder takes a guard of the configuration,
keeps it and writes the counter. Thread 1 reads the session too. Thread 3 clears the configuration. -/
def layeredRun : List (Nat × Act Bool Unit Nat Nat Nat) :=
  [(2, .lock (.call (.read ())))] ++ locks 2 1 ++
  [(0, .call true (.get .read))] ++ gos 0 (true, 0) 4 ++
  [(0, .call false (.get .read))] ++ gos 0 (false, 1) 4 ++
  [(0, .lock (.call (.write ())))] ++ locks 0 1 ++
  [(1, .call true (.get .read)), (3, .call false .clear)] ++ gos 3 (false, 3) 1

-- threads 0, 1 and 3 are stuck: 1 waits for 0, 3 for 0, 0 for 2; no deadlock, 2 can go on
example : ∃ s : St Bool Unit Nat Nat Nat,
    Reach (fun a b => a == b) (fun a b => layered a b = true) (fun i => if i then none else some 7) (fun _ => 1) s ∧
    Stuck (fun a b => a == b) s 0 ∧ Stuck (fun a b => a == b) s 1 ∧ Stuck (fun a b => a == b) s 3 ∧ WaitsFor s 1 0 ∧
    WaitsFor s 3 0 ∧ WaitsFor s 0 2 ∧ Inside s 2 ∧ ¬ Stuck (fun a b => a == b) s 2 := by
  have h : ∃ s, runDep (fun a b => a == b) layered (init (fun i => if i then none else some 7) (fun _ => 1)) layeredRun =
        some s ∧ s.stack 0 = [(false, 1), (true, 0)] ∧ s.stack 1 = [(true, 2)] ∧ s.stack 2 = [] ∧
        s.stack 3 = [(false, 3)] ∧ s.lk.pc 0 = .wDrain () ∧ s.lk.pc 2 = .idle ∧ s.lk.held 2 = [((), false)] ∧
        (s.obj true).pc 2 = .rStart .read ∧ (s.obj false).pc 3 = .xWait (.put none) ∧
        (s.obj true).lk = ⟨[], none, some 0⟩ ∧ (s.obj false).lk = ⟨[1], none, some 3⟩ ∧
        s.lk.lock () = ⟨[2], none, some 0⟩ :=
    ⟨_, rfl, rfl, rfl, rfl, rfl, rfl, rfl, rfl, rfl, rfl, rfl, rfl, rfl⟩
  obtain ⟨s, h1, h2, h3, h4, h5, h6, h7, h8, h9, h10, h11, h12, h13⟩ := h
  refine ⟨s, reach_runDep .init h1, .inr ⟨by simp [h6], by simp [Locks.go, h6, h13, Lock.drained]⟩,
    .inl ⟨(true, 2), by simp [h3], by simp [h9, atUser], by simp [Sync.go, h9, h11, Lock.tryUpgradable]⟩,
    .inl ⟨(false, 3), by simp [h5], by simp [h10, atUser], by simp [Sync.go, h10, h12, Lock.drained]⟩,
    .owner (i := true) (p := 2) (q := 0) (by simp [h3]) (by simp [h9, entering]) (by simp [h11]) (by simp [h2]),
    .reader (i := false) (p := 3) (q := 1) (by simp [h5]) (by simp [h10, draining]) (by simp [h12]) (by simp [h2]),
    .lock (.reader (i := ()) (by simp [h6, Locks.draining]) (by simp [h13])), .inr (.inr (by simp [h8])), ?_⟩
  rintro (⟨f, hf, _⟩ | ⟨hf, _⟩)
  · rw [h4] at hf; cases hf
  · exact hf h7

/-! ## Structs that do not -/

/-- Lazy fields and fields with `lock` used under each other. -/
def both : Unit ⊕ Unit → Unit ⊕ Unit → Bool
  | .inl _, .inr _ | .inr _, .inl _ => true
  | _, _ => false

theorem stuck_lazy {t : Nat} {i : F} {p : Nat} (hf : (i, p) ∈ s.stack t) (hu : atUser ((s.obj i).pc p) = false)
    (hg : (Sync.go (s.obj i) p).isNone = true) : Stuck eqv s t :=
  .inl ⟨(i, p), hf, hu, by simpa using hg⟩

theorem stuck_lock {t : Nat} (hf : Model.Mixed.idle (s.lk.pc t) = false) (hg : (Locks.go eqv s.lk t).isNone = true) :
    Stuck eqv s t :=
  .inr ⟨(by intro h; rw [h] at hf; cases hf), by simpa using hg⟩

/-- One thread is enough: it keeps the guard from `read_counter()` and reads the lazy field, whose builder calls
`set_counter`. -/
theorem C88_guard_across_builder_deadlocks : ∃ s : St Unit Unit Nat Nat Nat,
    Reach (fun a b => a == b) (fun a b => (both a b || a == b) = true) (fun _ => none) (fun _ => 1) s ∧ (∀ t, t ≠ 0 → ¬ Inside s t) ∧
    Deadlock (fun a b => a == b) s := by
  have h : ∃ s, runDep (fun a b => a == b) (fun a b => both a b || a == b) (init (fun _ => none) (fun _ => 1))
      ([(0, .lock (.call (.read ())))] ++ locks 0 1 ++ [(0, .call () (.get .read))] ++ gos 0 ((), 0) 4 ++
        [(0, .lock (.call (.swap () 2)))] ++ locks 0 1) = some s ∧ s.stack 0 = [((), 0)] ∧ (∀ t, s.stack (t + 1) = []) ∧
      (∀ t, s.lk.pc (t + 1) = .idle) ∧ (∀ t, s.lk.held (t + 1) = []) ∧
      Model.Mixed.idle (s.lk.pc 0) = false ∧ (Locks.go (fun a b => a == b) s.lk 0).isNone = true :=
    ⟨_, rfl, rfl, fun _ => rfl, fun _ => rfl, fun _ => rfl, rfl, rfl⟩
  obtain ⟨s, h1, h2, h3, h4, h5, h6, h7⟩ := h
  have hout : ∀ t, t ≠ 0 → ¬ Inside s t := by
    intro t ht
    match t with
    | 0 => exact absurd rfl ht
    | t + 1 => simp [Inside, Locks.Inside, h3, h4, h5]
  refine ⟨s, reach_runDep .init h1, hout, ⟨0, .inl (by simp [h2])⟩, ?_⟩
  intro t ht
  by_cases h0 : t = 0
  · subst h0; exact stuck_lock h6 h7
  · exact absurd ht (hout t h0)

/-- Two threads: one keeps the guard from `read_counter()` and reads the lazy field, the other is in the builder of that
field, which calls `set_counter`. -/
theorem C88_guard_meets_builder_deadlocks : ∃ s : St Unit Unit Nat Nat Nat,
    Reach (fun a b => a == b) (fun a b => both a b = true) (fun _ => none) (fun _ => 1) s ∧ Deadlock (fun a b => a == b) s := by
  have h : ∃ s, runDep (fun a b => a == b) both (init (fun _ => none) (fun _ => 1))
      ([(1, .call () (.get .read))] ++ gos 1 ((), 0) 4 ++ [(0, .lock (.call (.read ())))] ++ locks 0 1 ++
        [(0, .call () (.get .read)), (1, .lock (.call (.swap () 2)))] ++ locks 1 1) = some s ∧
      s.stack 0 = [((), 1)] ∧ (∀ t, s.stack (t + 2) = []) ∧
      (∀ t, s.lk.pc (t + 2) = .idle) ∧ (∀ t, s.lk.held (t + 2) = []) ∧
      atUser ((s.obj ()).pc 1) = false ∧ (Sync.go (s.obj ()) 1).isNone = true ∧
      Model.Mixed.idle (s.lk.pc 1) = false ∧ (Locks.go (fun a b => a == b) s.lk 1).isNone = true :=
    ⟨_, rfl, rfl, fun _ => rfl, fun _ => rfl, fun _ => rfl, rfl, rfl, rfl, rfl⟩
  obtain ⟨s, h1, h2, h3, h4, h5, h6, h7, h8, h9⟩ := h
  refine ⟨s, reach_runDep .init h1, ⟨0, .inl (by simp [h2])⟩, ?_⟩
  intro t ht
  match t with
  | 0 => exact stuck_lazy (by simp [h2]) h6 h7
  | 1 => exact stuck_lock h8 h9
  | t + 2 => simp [Inside, Locks.Inside, h3, h4, h5] at ht

/-- Lazy containers used under each other. -/
def lazies : F ⊕ L → F ⊕ L → Bool
  | .inl _, .inl _ => true
  | _, _ => false

/-- Comparing a lazy container with itself while another thread sets it: the comparison takes the shared guard twice. -/
theorem C88_self_comparison_deadlocks : ∃ s : St Unit Unit Nat Nat Nat,
    Reach (fun a b => a == b) (fun a b => lazies a b = true) (fun _ => some 5) (fun _ => 1) s ∧ Deadlock (fun a b => a == b) s := by
  have h : ∃ s : St Unit Unit Nat Nat Nat, runDep (fun a b => a == b) lazies (init (fun _ => some 5) (fun _ => 1))
      ([(0, .call () .snapshot)] ++ gos 0 ((), 0) 1 ++ [(1, .call () (.set 6))] ++ gos 1 ((), 1) 1 ++
        [(0, .call () .snapshot)]) = some s ∧
      s.stack 0 = [((), 2), ((), 0)] ∧ s.stack 1 = [((), 1)] ∧ (∀ t, s.stack (t + 2) = []) ∧
      (∀ t, s.lk.pc (t + 2) = .idle) ∧ (∀ t, s.lk.held (t + 2) = []) ∧
      atUser ((s.obj ()).pc 2) = false ∧ (Sync.go (s.obj ()) 2).isNone = true ∧
      (s.obj ()).pc 1 = .xWait (.put (some 6)) ∧ (s.obj ()).lk = ⟨[0], none, some 1⟩ := by
    refine ⟨_, rfl, ?_⟩
    exact ⟨rfl, rfl, fun _ => rfl, fun _ => rfl, fun _ => rfl, rfl, rfl, rfl, rfl⟩
  obtain ⟨s, h1, h2, h3, h4, h5, h6, h7, h8, h9, h10⟩ := h
  refine ⟨s, reach_runDep .init h1, ⟨0, .inl (by simp [h2])⟩, ?_⟩
  intro t ht
  match t with
  | 0 => exact stuck_lazy (by simp [h2]) h7 h8
  | 1 => exact stuck_lazy (i := ()) (p := 1) (by simp [h3]) (by simp [h9, atUser]) (by simp [Sync.go, h9, h10, Lock.drained])
  | t + 2 => simp [Inside, Locks.Inside, h4, h5, h6] at ht

/-- `a == b` and `b == a` on lazy containers, in two threads, while two more threads set them. -/
theorem C88_crossing_comparisons_deadlock : ∃ s : St Bool Unit Nat Nat Nat,
    Reach (fun a b => a == b) (fun a b => lazies a b = true) (fun _ => some 5) (fun _ => 1) s ∧ Deadlock (fun a b => a == b) s := by
  have h : ∃ s : St Bool Unit Nat Nat Nat, runDep (fun a b => a == b) lazies (init (fun _ => some 5) (fun _ => 1))
      ([(0, .call false .snapshot)] ++ gos 0 (false, 0) 1 ++ [(1, .call true .snapshot)] ++ gos 1 (true, 1) 1 ++
        [(2, .call false (.set 6))] ++ gos 2 (false, 2) 1 ++ [(3, .call true (.set 6))] ++ gos 3 (true, 3) 1 ++
        [(0, .call true .snapshot), (1, .call false .snapshot)]) = some s ∧
      s.stack 0 = [(true, 4), (false, 0)] ∧ s.stack 1 = [(false, 5), (true, 1)] ∧ s.stack 2 = [(false, 2)] ∧
      s.stack 3 = [(true, 3)] ∧ (∀ t, s.stack (t + 4) = []) ∧
      (∀ t, s.lk.pc (t + 4) = .idle) ∧ (∀ t, s.lk.held (t + 4) = []) ∧
      atUser ((s.obj true).pc 4) = false ∧ (Sync.go (s.obj true) 4).isNone = true ∧
      atUser ((s.obj false).pc 5) = false ∧ (Sync.go (s.obj false) 5).isNone = true ∧
      (s.obj false).pc 2 = .xWait (.put (some 6)) ∧ (s.obj false).lk = ⟨[0], none, some 2⟩ ∧
      (s.obj true).pc 3 = .xWait (.put (some 6)) ∧ (s.obj true).lk = ⟨[1], none, some 3⟩ := by
    refine ⟨_, rfl, ?_⟩
    exact ⟨rfl, rfl, rfl, rfl, fun _ => rfl, fun _ => rfl, fun _ => rfl, rfl, rfl, rfl, rfl, rfl, rfl, rfl, rfl⟩
  obtain ⟨s, h1, h2, h3, h4, h5, h6, h7, h8, h9, h10, h11, h12, h13, h14, h15, h16⟩ := h
  refine ⟨s, reach_runDep .init h1, ⟨0, .inl (by simp [h2])⟩, ?_⟩
  intro t ht
  match t with
  | 0 => exact stuck_lazy (by simp [h2]) h9 h10
  | 1 => exact stuck_lazy (by simp [h3]) h11 h12
  | 2 => exact stuck_lazy (i := false) (p := 2) (by simp [h4]) (by simp [h13, atUser]) (by simp [Sync.go, h13, h14, Lock.drained])
  | 3 => exact stuck_lazy (i := true) (p := 3) (by simp [h5]) (by simp [h15, atUser]) (by simp [Sync.go, h15, h16, Lock.drained])
  | t + 4 => simp [Inside, Locks.Inside, h6, h7, h8] at ht

end Verif.Props.Mixed
