import Verif.Proof.TasksLive
import Verif.Props.AsyncCalls
import Verif.Props.AsyncLockCalls
import Verif.Props.AsyncMixed
/-!
# Tasks calling the generated helpers of all fields of async structs: C103

Model: `Verif.Model.Tasks`. `Fields x y lazyCode lockCode`: `x` are lazy fields, `y` lock-protected fields of async structs,
`lazyCode` and `lockCode` hold any of the helpers written for them which the compiler accepts.
`Reach lazyCode lockCode eqv dep v₀ w₀ s`: some schedule of any number of tasks which await those helpers, from builders, in
branches and with guards in hand too, with helpers dropped wherever they await, leads from the contents `v₀` (lazy) and `w₀`
(lock-protected) to `s`, where a helper of `b` is called while `a` is in hand, by the same task or by one awaiting it, only if
`dep a b`. `Trace … s g`: and `g` is the record of all calls.
-/

namespace Verif.Props.Tasks
open Verif.Spec Verif.Model Verif.Model.Args Verif.Model.Tasks
open Verif.Model.Method hiding put
open Verif.Model.AsyncMixed (Fr frame)
open Verif.Model.Whole (whole lazyPart lockPart)
open Verif.Proof Verif.Proof.Tasks
open Verif.Props.Mixed (Acyclic)

set_option linter.unusedSectionVars false
variable {F L V W E : Type} [DecidableEq F] [DecidableEq L] {x : F → FCtx} {y : L → FCtx}
  {lazyCode : F → Kind → Option Body} {lockCode : L → Kind → Option Body} {eqv : Option W → Option W → Bool}
  {dep : F ⊕ L → F ⊕ L → Prop} {v₀ : F → Option V} {w₀ : L → Option W} {s s' : St F L V W E} {g : List (Tagged F L V W E)}

/-- The lazy fields `x` and the lock-protected fields `y`, with the helpers they have. -/
structure Fields (x : F → FCtx) (y : L → FCtx) (lazyCode : F → Kind → Option Body) (lockCode : L → Kind → Option Body) :
    Prop where
  lazy : ∀ i, AsyncCalls.LazyField (x i) (lazyCode i)
  lock : AsyncLockCalls.LockFields y lockCode

/-- What each call of a user means: one operation on the cell of its lazy field (`Verif.Spec.Calls`), or on the plain memory
of the other fields (`Verif.Spec.LockCalls`), which no helper clones in async structs. -/
abbrev Means (x : F → FCtx) (eqv : Option W → Option W → Bool) :
    Spec.Whole.State F (Option V) (L → Option W) → Spec.Whole.Op F (Spec.Calls.Call V) (Spec.LockCalls.Call L W) →
    Spec.Whole.Ret (Res V E) (Memory.Ret (Option W)) → Spec.Whole.State F (Option V) (L → Option W) → Prop :=
  Spec.Whole.Step (fun i => Spec.Calls.CallStep (x i).isFallible (AsyncCalls.cloning (x i)))
    (Spec.LockCalls.CallStep (fun _ => false) (fun _ => false) eqv)

theorem good (h : Fields x y lazyCode lockCode) :
    Good W (fun i => (x i).isFallible) (fun i => AsyncCalls.cloning (x i)) lazyCode lockCode where
  lazy := fun i => AsyncCalls.shapes (h.lazy i)
  lock := AsyncLockCalls.shapes h.lock

/-! ## One history -/

/-- The calls of the users on all fields of all objects, helpers and uses of guards, are linearizable together, with any of
them dropped anywhere: each which was not dropped takes effect at one moment between its begin and its end, as the one
operation which it stands for, and everything is as if those which were dropped had never been made. -/
theorem C103_linearizable (hx : Fields x y lazyCode lockCode) (h : Trace lazyCode lockCode eqv dep v₀ w₀ s g) :
    WellFormed (without (abandoned (whole g)) (hist (whole g))) ∧
    Linearizable (Means x eqv) ⟨v₀, w₀⟩ (without (abandoned (whole g)) (hist (whole g))) := by
  obtain ⟨T, τ, h1, h2, _⟩ := all (good hx) h
  exact ⟨keys_without h1.wellFormed, h1.linearizable_without h2⟩

/-- When nobody is in a helper of a lazy field or keeps a guard of one, the contents of all fields are those the order of the
calls leads to. -/
theorem C103_contents (hx : Fields x y lazyCode lockCode) (h : Trace lazyCode lockCode eqv dep v₀ w₀ s g)
    (hq : ∀ t i p, .lazy i p ∉ s.stack t) :
    Spec.Whole.LinearizesTo (Means x eqv) ⟨v₀, w₀⟩ (without (abandoned (whole g)) (hist (whole g)))
      ⟨fun i => (s.obj i).c.value, s.lk.c.val⟩ := by
  obtain ⟨T, τ, h1, h2, h3⟩ := all (good hx) h
  exact h1.linearizesTo_without (h3 hq ▸ h2)

/-- The record leaves nothing out and adds nothing: what it says of a lazy field is the log of the calls on that field, ... -/
theorem C103_record (hx : Fields x y lazyCode lockCode) (h : Trace lazyCode lockCode eqv dep v₀ w₀ s g) :
    (∀ i, lazyPart i g = (s.obj i).log) ∧ lockPart g = s.lk.log :=
  ⟨(hrec (good hx) h).lazy, (hrec (good hx) h).lock⟩

/-- ... and every schedule has one. -/
theorem C103_recorded : Reach lazyCode lockCode eqv dep v₀ w₀ s ↔ ∃ g, Trace lazyCode lockCode eqv dep v₀ w₀ s g := by
  constructor
  · intro h
    induction h with
    | init => exact ⟨[], .init⟩
    | step _ ha hs ih => exact ⟨_, .step ih.choose_spec ha hs⟩
  · rintro ⟨g, h⟩
    exact trace_reach h

/-- The builder of a lazy field does not run twice at once, whoever runs it, through whichever helpers. -/
theorem C103_builder_runs_alone (hx : Fields x y lazyCode lockCode) (h : Reach lazyCode lockCode eqv dep v₀ w₀ s) {i : F}
    {p q : Nat} {k k' : GetKind} (hp : (s.obj i).c.pc p = .rBuild k) (hq : (s.obj i).c.pc q = .rBuild k') :
    q = p ∧ (s.obj i).c.value = none :=
  have hb := Props.Async.C11_memory_empty_while_building ((inv_reach (good hx) h).pool.obj i).reach hp
  ⟨hb.2.2 q k' hq, hb.1⟩

/-- Dropping a helper which awaits changes no content of any field, answers to nobody, and takes the helper away from its
task; all else the task has stays. -/
theorem C103_cancel (hx : Fields x y lazyCode lockCode) (h : Reach lazyCode lockCode eqv dep v₀ w₀ s) {t : Nat} {f : Fr F}
    (hs : step lazyCode lockCode eqv s t (.act f .cancel) = some s') :
    (∀ i, (s'.obj i).c.value = (s.obj i).c.value) ∧ s'.lk.c.val = s.lk.c.val ∧
    hist (whole (news s s' (.act f .cancel))) = [] ∧ f ∉ s'.stack t ∧ ∀ h, h ≠ f → h ∈ s.stack t → h ∈ s'.stack t := by
  have hi := inv_reach (good hx) h
  have hc := acted hi.pool hs
  obtain ⟨s₁, h1, h2, h3, _⟩ := hc.on
  have hst : gone (look s' f) = true → f ∉ s'.stack t ∧ ∀ h, h ≠ f → h ∈ s.stack t → h ∈ s'.stack t := by
    intro hg
    rw [hc.stack, upd_same, if_pos hg]
    exact ⟨fun hm => ((hi.nodup t).mem_erase_iff.1 hm).1 rfl, fun h hne hm => (List.mem_erase_of_ne hne).2 hm⟩
  cases f with
  | lazy i p =>
    simp only [fstep, Option.map_eq_some_iff] at h1
    obtain ⟨o, ho, rfl⟩ := h1
    have e : s'.obj i = o := by rw [h2]; simp [put]
    simp only [AsyncCalls.step, AsyncCalls.cancel] at ho
    split at ho
    · simp only [Option.map_eq_some_iff] at ho
      obtain ⟨c', hc', rfl⟩ := ho
      refine ⟨fun k => ?_, by rw [h3]; rfl, ?_, hst ?_⟩
      · by_cases hk : k = i
        · subst hk
          rw [e]
          exact (Async.C12_cancel_changes_nothing (s := (s.obj k).c) (p := p) hc').1
        · rw [h2]; simp [put, upd, hk]
      · simp [news, e, AsyncCalls.St.quit, Whole.added, whole, hist, Whole.Tag.ev]
      · rw [look, gone_lazy, e]; simp [AsyncCalls.St.quit]
    · cases ho
  | lock p =>
    simp only [fstep, Option.map_eq_some_iff] at h1
    obtain ⟨l, hl, rfl⟩ := h1
    have e : s'.lk = l := h3
    have hb := hi.pool.base p
    have hloc := hi.pool.lk.loc p
    simp only [AsyncLockCalls.step, AsyncLockCalls.cancel] at hl
    split at hl
    · rename_i f m todo hpc
      simp only [Option.map_eq_some_iff] at hl
      obtain ⟨c', hc', rfl⟩ := hl
      obtain ⟨h4, h5, h6, h7⟩ := AsyncLockCalls.cancel_some hc'
      refine ⟨fun k => by rw [h2], by rw [e]; exact h4, ?_, hst ?_⟩
      · simp [news, e, AsyncLockCalls.St.quit, Whole.added, whole, hist, Whole.Tag.ev]
      · rw [look, gone_lock, e]
        refine ⟨by simp [AsyncLockCalls.St.quit], ?_⟩
        simp only [AsyncLockCalls.St.quit, h7]
        rw [hpc] at hb hloc
        simp only [BaseOk] at hb
        generalize s.lk.c.held p = hd at hloc
        generalize s.lk.c.pc p = z at hloc h6
        cases hloc with
        | acq => exact hb
        | call hg hj _ hx =>
          exfalso
          rcases hx with ⟨rfl, _⟩ | ⟨o, rfl, _⟩
          · have := job_wants hj
            rw [this] at h6; cases h6
          · simp [AsyncLocks.wants] at h6
    · cases hl

/-! ## Waiting -/

/-- A task that cannot move waits for a task that waits for a task … that can. -/
theorem C103_chain (hx : Fields x y lazyCode lockCode) (hac : Acyclic dep) (h : Reach lazyCode lockCode eqv dep v₀ w₀ s)
    {t : Nat} (ht : Stuck lazyCode lockCode eqv s t) :
    ∃ u, Relation.TransGen (WaitsFor s) t u ∧ Inside s u ∧ ¬ Stuck lazyCode lockCode eqv s u := by
  obtain ⟨u, h1, h2, h3⟩ := chain_inside (good hx) hac h (stuck_inside ht)
  rcases Relation.reflTransGen_iff_eq_or_transGen.1 h1 with rfl | h1
  · exact absurd ht h3
  · exact ⟨u, h1, h2, h3⟩

/-- Without a cycle in the order no deadlock. -/
theorem C103_no_deadlock (hx : Fields x y lazyCode lockCode) (hac : Acyclic dep)
    (h : Reach lazyCode lockCode eqv dep v₀ w₀ s) : ¬ Deadlock lazyCode lockCode eqv s := by
  rintro ⟨⟨t, ht⟩, hall⟩
  obtain ⟨u, _, h1, h2⟩ := C103_chain hx hac h (hall t ht)
  exact h2 (hall u h1)

/-- `n` steps from `s` to `s'` in which nothing new is begun and the order is kept to. -/
inductive Winds (lazyCode : F → Kind → Option Body) (lockCode : L → Kind → Option Body) (eqv : Option W → Option W → Bool)
    (dep : F ⊕ L → F ⊕ L → Prop) : Nat → St F L V W E → St F L V W E → Prop where
  | done {s : St F L V W E} : Winds lazyCode lockCode eqv dep 0 s s
  | step {s s₁ s' : St F L V W E} {n : Nat} {t : Nat} {a : Act F L V W E} : quiet a = true → Allowed dep s t a →
      step lazyCode lockCode eqv s t a = some s₁ → Winds lazyCode lockCode eqv dep n s₁ s' →
      Winds lazyCode lockCode eqv dep (n + 1) s s'

theorem winds_total (hx : Fields x y lazyCode lockCode) {n : Nat} {ts : List Nat} (hn : ts.Nodup)
    (hw : Winds lazyCode lockCode eqv dep n s s') (h : Reach lazyCode lockCode eqv dep v₀ w₀ s)
    (hts : ∀ t, t ∉ ts → ¬ Inside s t) : n ≤ total s ts ∧ Reach lazyCode lockCode eqv dep v₀ w₀ s' := by
  induction hw with
  | done => exact ⟨by omega, h⟩
  | @step s s₁ s' n t a ha hal hs _ ih =>
    have hi := inv_reach (good hx) h
    obtain ⟨h1, h2⟩ := ih (.step h hal hs) fun u hu hin => hts u hu (quiet_inside_step hi ha hs hin)
    have := total_step hi ha hs hn hts
    exact ⟨by omega, h2⟩

/-- Every helper completes: once nothing new is begun, whatever steps are taken in whatever order, after at most 64 steps for
each helper or guard and one for each task nothing is left to do, and then everybody is out. Nobody needs to be dropped for
this, and builders may end as they like (`o`). `ts` lists the tasks that are inside. -/
theorem C103_every_call_completes (hx : Fields x y lazyCode lockCode) (hac : Acyclic dep)
    (h : Reach lazyCode lockCode eqv dep v₀ w₀ s) {ts : List Nat} (hn : ts.Nodup) (hts : ∀ t, t ∉ ts → ¬ Inside s t) {n : Nat}
    (hw : Winds lazyCode lockCode eqv dep n s s') (o : Outcome V E) :
    n ≤ (ts.map fun t => 64 * (s.stack t).length + 1).sum ∧
    ((∀ t a, eager o a → Allowed dep s' t a → step lazyCode lockCode eqv s' t a = none) → ∀ t, ¬ Inside s' t) := by
  obtain ⟨h1, h2⟩ := winds_total hx hn hw h hts
  refine ⟨Nat.le_trans h1 ?_, ?_⟩
  · have hp := (inv_reach (good hx) h).pool
    unfold total
    clear hn hts h1 h2
    induction ts with
    | nil => simp
    | cons x ts ih =>
      simp only [List.map_cons, List.sum_cons]
      have := weight_le hp x
      omega
  · intro hend t ht
    obtain ⟨u, _, h3, h4⟩ := chain_inside (good hx) hac h2 ht
    obtain ⟨a, _, h5, h6, h7⟩ := quiet_enabled (dep := dep) (inv_reach (good hx) h2) h3 h4 o
    rw [hend u a h5 h6] at h7; cases h7

/-- When everybody is out nothing is left behind: all locks are free and nobody waits. -/
theorem C103_nothing_left (hx : Fields x y lazyCode lockCode) (h : Reach lazyCode lockCode eqv dep v₀ w₀ s)
    (hout : ∀ t, ¬ Inside s t) (i : F) (j : L) :
    (s.obj i).c.lk = ⟨[], none⟩ ∧ s.queue i = [] ∧ s.lk.c.lock j = ⟨[], none⟩ ∧ s.lk.c.queue j = [] := by
  have hi := inv_reach (good hx) h
  have hgone : ∀ f, gone (look s f) = true := by
    intro f
    cases hg : gone (look s f) with
    | true => rfl
    | false =>
      obtain ⟨t, ht⟩ := hi.owner f hg
      exact absurd (inside_of_mem ht) (hout t)
  have hp : ∀ p, (s.obj i).c.pc p = .idle := by
    intro p
    have hl := (hi.pool.obj i).loc p
    rw [gone_lazy.1 (hgone (.lazy i p))] at hl
    revert hl
    generalize (s.obj i).c.pc p = x
    intro hl
    cases hl; rfl
  have hq : ∀ p, s.lk.c.pc p = .idle ∧ s.lk.c.held p = [] := by
    intro p
    obtain ⟨h1, h2⟩ := gone_lock.1 (hgone (.lock p))
    exact ⟨lidle_idle hi.pool.lk h1, h2⟩
  refine ⟨?_, ?_, ?_, ?_⟩
  · have hc := Verif.Proof.Async.inv_reach (hi.pool.obj i).reach
    have h1 := hc.wr
    have h3 := hc.sh
    simp only [hp] at h1 h3
    generalize (s.obj i).c.lk = k at h1 h3
    obtain ⟨sh, wr⟩ := k
    simp only [Async.ALock.mk.injEq]
    refine ⟨List.eq_nil_iff_forall_not_mem.2 fun p hm => ?_, Option.eq_none_iff_forall_ne_some.2 fun p hm => ?_⟩
    · have := (h3 p).1 hm; cases this
    · have := (h1 p).1 hm; cases this
  · refine List.eq_nil_iff_forall_not_mem.2 fun p hm => ?_
    have := (hi.pool.waits i p).1 hm
    rw [hp] at this; cases this
  · have hc := AsyncLocks.core_reach hi.pool.lk.reach
    have h1 := hc.wr j
    have h3 := hc.sh j
    simp only [hq, AsyncLocks.temps, AsyncLocks.owns] at h1 h3
    generalize s.lk.c.lock j = k at h1 h3
    obtain ⟨sh, wr⟩ := k
    simp only [Async.ALock.mk.injEq]
    refine ⟨List.eq_nil_iff_forall_not_mem.2 fun t ht => ?_, Option.eq_none_iff_forall_ne_some.2 fun t ht => ?_⟩
    · have h4 := h3 t
      have h5 := List.count_pos_iff.2 ht
      simp only [List.count_nil] at h4
      omega
    · have := h1 t
      simp [ht] at this
  · have hc := AsyncLocks.core_reach hi.pool.lk.reach
    refine List.eq_nil_iff_forall_not_mem.2 fun p hm => ?_
    have := (AsyncLocks.queued hc).1 hm
    rw [(hq p).1] at this; cases this

/-! ## Running schedules which keep to an order -/

/-- `P` holds of task `t` and all which await it, which are at most `n`. -/
def allAbove (s : St F L V W E) (P : Nat → Bool) : Nat → Nat → Bool
  | 0, t => (s.par t).isNone && P t
  | n + 1, t => P t && match s.par t with
    | some u => allAbove s P n u
    | none => true

/-- `P` holds of task `t` and all it awaits, which are nested at most `n` deep. -/
def allBelow (s : St F L V W E) (P : Nat → Bool) : Nat → Nat → Bool
  | 0, t => (s.kids t).isEmpty && P t
  | n + 1, t => P t && (s.kids t).all fun c => allBelow s P n c

theorem above_awaits {P : Nat → Bool} {n u t : Nat} (h : allAbove s P n t = true) (hw : Awaits s u t) : P u = true := by
  induction n generalizing t with
  | zero =>
    simp only [allAbove, Bool.and_eq_true, Option.isNone_iff_eq_none] at h
    rcases Relation.ReflTransGen.cases_tail hw with h1 | ⟨c, _, h1⟩
    · rw [← h1]; exact h.2
    · rw [h.1] at h1; cases h1
  | succ n ih =>
    simp only [allAbove, Bool.and_eq_true] at h
    rcases Relation.ReflTransGen.cases_tail hw with h1 | ⟨c, h0, h1⟩
    · rw [← h1]; exact h.1
    · rw [h1] at h; exact ih h.2 h0

theorem below_awaits (hk : ∀ t c, c ∈ s.kids t ↔ s.par c = some t) {P : Nat → Bool} {n u t : Nat}
    (h : allBelow s P n u = true) (hw : Awaits s u t) : P t = true := by
  induction n generalizing u with
  | zero =>
    simp only [allBelow, Bool.and_eq_true, List.isEmpty_iff] at h
    rcases Relation.ReflTransGen.cases_head hw with h1 | ⟨c, h1, _⟩
    · rw [← h1]; exact h.2
    · have := (hk _ _).2 h1
      rw [h.1] at this; cases this
  | succ n ih =>
    simp only [allBelow, Bool.and_eq_true, List.all_eq_true] at h
    rcases Relation.ReflTransGen.cases_head hw with h1 | ⟨c, h1, h2⟩
    · rw [← h1]; exact h.1
    · exact ih (h.2 c ((hk _ _).2 h1)) h2

/-- The order as a test; tasks are nested at most `n` deep. -/
def allowedB (n : Nat) (depB : F ⊕ L → F ⊕ L → Bool) (s : St F L V W E) (t : Nat) : Act F L V W E → Bool
  | .call _ .predicate _ _ => true
  | .call j _ _ _ => pre s t (.inl j)
  | .lock (.helper k _ _ _) | .lock (.clone k) => pre s t (.inr k)
  | .lock (.eq i j) => pre s t (.inr i) && pre s t (.inr j) && depB (.inr i) (.inr j)
  | .ret => match s.par t with
    | some u => allBelow s (fun v => v == t || (s.stack v).all fun f => (targets (look s f)).all fun r =>
        (s.stack t).all fun g => (hand (look s g)).all fun h => depB h r) n u
    | none => true
  | _ => true
where
  pre (s : St F L V W E) (t : Nat) (r : F ⊕ L) : Bool :=
    allAbove s (fun u => (s.stack u).all fun g => (hand (look s g)).all fun h => depB h r) n t

theorem pre_iff {n : Nat} {depB : F ⊕ L → F ⊕ L → Bool} {t : Nat} {r : F ⊕ L} (h : allowedB.pre n depB s t r = true) :
    Precedes (fun a b => depB a b = true) s t r := by
  intro u hu g hg x hx
  have := above_awaits h hu
  simp only [List.all_eq_true] at this
  exact this g hg x hx

theorem allowed_of (hk : ∀ t c, c ∈ s.kids t ↔ s.par c = some t) {n : Nat} {depB : F ⊕ L → F ⊕ L → Bool} {t : Nat}
    {a : Act F L V W E} (h : allowedB n depB s t a = true) : Allowed (fun a b => depB a b = true) s t a := by
  cases a with
  | call j k v b => cases k <;> first | trivial | exact pre_iff h
  | lock c =>
    cases c with
    | eq i j =>
      simp only [allowedB, Bool.and_eq_true] at h
      exact ⟨pre_iff h.1.1, pre_iff h.1.2, h.2⟩
    | _ => first | trivial | exact pre_iff h
  | act f b => trivial
  | fork c => trivial
  | ret =>
    intro u hu v hv hvt f hf r hr g hg x hx
    simp only [allowedB, hu] at h
    have := below_awaits hk h hv
    simp only [Bool.or_eq_true, beq_iff_eq, hvt, false_or, List.all_eq_true] at this
    exact this f hf r hr g hg x hx

/-- Runs a schedule as long as it keeps to the order, with the record; tasks are nested at most `n` deep. -/
def runRec (lazyCode : F → Kind → Option Body) (lockCode : L → Kind → Option Body) (eqv : Option W → Option W → Bool)
    (n : Nat) (depB : F ⊕ L → F ⊕ L → Bool) (s : St F L V W E) (g : List (Tagged F L V W E)) :
    List (Nat × Act F L V W E) → Option (St F L V W E × List (Tagged F L V W E))
  | [] => some (s, g)
  | (t, a) :: rest =>
    if allowedB n depB s t a then
      (step lazyCode lockCode eqv s t a).bind fun s' => runRec lazyCode lockCode eqv n depB s' (g ++ news s s' a) rest
    else none

theorem trace_runRec (hx : Fields x y lazyCode lockCode) {n : Nat} {depB : F ⊕ L → F ⊕ L → Bool} {s₀ : St F L V W E}
    {g₀ : List (Tagged F L V W E)} (h₀ : Trace lazyCode lockCode eqv (fun a b => depB a b = true) v₀ w₀ s₀ g₀)
    {sch : List (Nat × Act F L V W E)} (h : runRec lazyCode lockCode eqv n depB s₀ g₀ sch = some (s, g)) :
    Trace lazyCode lockCode eqv (fun a b => depB a b = true) v₀ w₀ s g := by
  induction sch generalizing s₀ g₀ with
  | nil => simp only [runRec, Option.some.injEq, Prod.mk.injEq] at h; obtain ⟨rfl, rfl⟩ := h; exact h₀
  | cons x sch ih =>
    obtain ⟨t, a⟩ := x
    simp only [runRec] at h
    split at h
    · rename_i hal
      simp only [Option.bind_eq_some_iff] at h
      obtain ⟨s₁, h1, h2⟩ := h
      exact ih (.step h₀ (allowed_of (inv_reach (good hx) (trace_reach h₀)).kids hal) h1) h2
    · cases h

/-- Any number of lazy fields with all helpers, with a cloning accessor (`Props.AsyncCalls.fullField`), and of fields with
`optional` and `lock` with all helpers which the compiler accepts for them (`Props.AsyncLockCalls.flds 0`). -/
theorem fields : Fields (F := F) (L := L) (fun _ => AsyncCalls.fullAsync) (fun _ => AsyncLockCalls.flds 0)
    (fun _ => AsyncCalls.fullCode) (fun _ => AsyncLockCalls.fldCode 0) where
  lazy := fun _ => AsyncCalls.fullField
  lock := ⟨fun _ => AsyncLockCalls.fldFields.sync 0, fun _ => AsyncLockCalls.fldFields.plain 0,
    fun _ => AsyncLockCalls.fldFields.task 0, fun _ => AsyncLockCalls.fldFields.lock 0,
    fun _ => AsyncLockCalls.fldFields.helpers 0⟩

/-- `n` steps of the code of the call `f` of task `t`. -/
def gos {F L : Type} (t : Nat) (f : Fr F) (n : Nat) : List (Nat × Act F L Nat Nat Nat) := List.replicate n (t, .act f .go)

/-- Runs of such fields. -/
abbrev runFields (n : Nat) (depB : F ⊕ L → F ⊕ L → Bool) (v₀ : F → Option Nat) (w₀ : L → Option Nat) :=
  runRec (E := Nat) (fun _ : F => AsyncCalls.fullCode) (fun _ : L => AsyncLockCalls.fldCode 0) AsyncLockCalls.eqo n depB
    (init v₀ w₀) []

/-! ## A struct that keeps to an order -/

/-- The session is not built yet, the configuration is 7, ... -/
def before (i : Bool) : Option Nat := if i then none else some 7

/-- Task 2 reads the counter and keeps the guard. Task 0 reads the session, whose builder awaits two branches,
`join!(self.read_config(), self.set_counter(5))`: branch 3 returns with a guard, branch 4 waits for the counter. Task 1 sets
the session and waits, task 5 reads it and waits. (`layered`: the session may use the configuration and the counter.) -/
def opening : List (Nat × Act Bool Unit Nat Nat Nat) :=
  [(2, .lock (.helper () .reader 0 false))] ++ gos 2 (.lock 0) 4 ++
  [(0, .call true .reader 0 false)] ++ gos 0 (.lazy true 1) 5 ++
  [(0, .fork 3), (0, .fork 4), (3, .call false .reader 0 false)] ++ gos 3 (.lazy false 2) 7 ++
  [(4, .lock (.helper () .setter 5 false))] ++ gos 4 (.lock 3) 2 ++
  [(1, .call true .setter 4 false)] ++ gos 1 (.lazy true 4) 2 ++
  [(5, .call true .reader 0 false)] ++ gos 5 (.lazy true 5) 2 ++ [(3, .ret)]

/-- Task 2 drops its guard, branch 4 sets the counter and returns. The setter of task 1 is dropped. The builder gives 9, task
0 looks at it through its guard; task 5 reads it. Task 1 asks for the counter in the end. -/
def ending : List (Nat × Act Bool Unit Nat Nat Nat) :=
  [(2, .act (.lock 0) (.dropLock ((), false)))] ++ gos 4 (.lock 3) 6 ++
  [(4, .ret), (1, .act (.lazy true 4) .cancel), (0, .act (.lazy false 2) .drop),
    (0, .act (.lazy true 1) (.finish (.ok 9)))] ++ gos 0 (.lazy true 1) 5 ++
  [(0, .act (.lazy true 1) (.use .deref))] ++ gos 0 (.lazy true 1) 2 ++ [(0, .act (.lazy true 1) .drop)] ++
  gos 5 (.lazy true 5) 5 ++ [(5, .act (.lazy true 5) .drop), (1, .lock (.helper () .predicate 0 false))] ++
  gos 1 (.lock 6) 8

theorem stuck_frame {t : Nat} {f : Fr F} (hf : f ∈ s.stack t) (hu : atUser (look s f) = false)
    (hg : (fstep lazyCode lockCode eqv s f .go).isNone = true) : Stuck lazyCode lockCode eqv s t := .inr ⟨f, hf, hu, hg⟩

-- in the middle tasks 0, 1, 5 and branch 4 are stuck: 5 waits for 0, 1 for 0, 0 for 4, 4 for 2; no deadlock, 2 can go on
example : ∃ s : St Bool Unit Nat Nat Nat,
    Reach (fun _ => AsyncCalls.fullCode) (fun _ => AsyncLockCalls.fldCode 0) AsyncLockCalls.eqo
      (fun a b => Mixed.layered a b = true) before (fun _ => some 1) s ∧ Acyclic (fun a b => Mixed.layered a b = true) ∧
    (∀ t ∈ [0, 1, 4, 5], Stuck (fun _ => AsyncCalls.fullCode) (fun _ => AsyncLockCalls.fldCode 0) AsyncLockCalls.eqo s t) ∧
    WaitsFor s 1 0 ∧ WaitsFor s 0 4 ∧ WaitsFor s 4 2 ∧ Inside s 2 ∧
    ¬ Stuck (fun _ => AsyncCalls.fullCode) (fun _ => AsyncLockCalls.fldCode 0) AsyncLockCalls.eqo s 2 ∧
    s.stack 0 = [.lazy false 2, .lazy true 1] ∧ ∀ t, t ∉ [0, 1, 2, 4, 5] → ¬ Inside s t := by
  have h : ∃ x, runFields 2 Mixed.layered before (fun _ => some 1) opening = some x ∧
        x.1.stack 0 = [.lazy false 2, .lazy true 1] ∧ x.1.stack 1 = [.lazy true 4] ∧ x.1.stack 2 = [.lock 0] ∧
        x.1.stack 4 = [.lock 3] ∧ x.1.stack 5 = [.lazy true 5] ∧ x.1.kids 0 = [4] ∧ x.1.kids 2 = [] ∧
        atUser (look x.1 (.lock 0)) = true ∧
        (atUser (look x.1 (.lazy true 4)) = false ∧ (fstep (fun _ => AsyncCalls.fullCode) (fun _ => AsyncLockCalls.fldCode 0)
          AsyncLockCalls.eqo x.1 (.lazy true 4) .go).isNone = true) ∧
        (atUser (look x.1 (.lazy true 5)) = false ∧ (fstep (fun _ => AsyncCalls.fullCode) (fun _ => AsyncLockCalls.fldCode 0)
          AsyncLockCalls.eqo x.1 (.lazy true 5) .go).isNone = true) ∧
        (atUser (look x.1 (.lock 3)) = false ∧ (fstep (fun _ => AsyncCalls.fullCode) (fun _ => AsyncLockCalls.fldCode 0)
          AsyncLockCalls.eqo x.1 (.lock 3) .go).isNone = true) ∧
        (x.1.obj true).c.pc 4 = .xStart .writer ∧ x.1.lk.c.pc 3 = .wWait () ∧ x.1.queue true = [4, 5] ∧
        x.1.lk.c.queue () = [3] ∧ (x.1.obj true).c.lk = ⟨[], some 1⟩ ∧ x.1.lk.c.lock () = ⟨[0], none⟩ ∧
        (x.1.stack 3 = [] ∧ x.1.kids 3 = [] ∧ x.1.par 3 = none) ∧
        ∀ t, x.1.stack (t + 6) = [] ∧ x.1.kids (t + 6) = [] ∧ x.1.par (t + 6) = none :=
    ⟨_, rfl, rfl, rfl, rfl, rfl, rfl, rfl, rfl, rfl, ⟨rfl, rfl⟩, ⟨rfl, rfl⟩, ⟨rfl, rfl⟩, rfl, rfl, rfl, rfl, rfl, rfl,
      ⟨rfl, rfl, rfl⟩, fun _ => ⟨rfl, rfl, rfl⟩⟩
  obtain ⟨⟨s, g⟩, h1, h2, h3, h4, h5, h6, h7, h8, h9, h10, h11, h12, h13, h14, h15, h16, h17, h18, h19, h20⟩ := h
  simp only at h2 h3 h4 h5 h6 h7 h8 h9 h10 h11 h12 h13 h14 h15 h16 h17 h18 h19 h20
  refine ⟨s, C103_recorded.2 ⟨g, trace_runRec fields .init h1⟩, Mixed.layered_acyclic, ?_,
    .owner (r := .inl true) (p := 4) (q := 1) (by simp [containers, h3, frame])
      (by simp [frame, containers, AsyncMixed.look, h13, AsyncMixed.wants, AsyncMulti.queued])
      (by simp [AsyncMixed.waiting, containers, h15]) (by simp [AsyncMixed.lockOf, containers, h17])
      (by simp [containers, h2, frame]),
    .branch (by simp [containers, h7]),
    .reader (r := .inr ()) (p := 3) (q := 0) (by simp [containers, h5, frame])
      (by simp [frame, containers, AsyncMixed.look, h14, AsyncMixed.wants, AsyncLocks.wants])
      (by simp [AsyncMixed.waiting, containers, h16])
      (by simp [frame, containers, AsyncMixed.look, h14, AsyncMixed.wantsAlone, AsyncLocks.wantsAlone])
      (by simp [AsyncMixed.lockOf, containers, h18]) (by simp [containers, h4, frame]),
    .inl (by simp [h4]), ?_, h2, ?_⟩
  · intro t ht
    simp only [List.mem_cons, List.not_mem_nil, or_false] at ht
    rcases ht with rfl | rfl | rfl | rfl
    · exact .inl (by simp [h7])
    · exact stuck_frame (by simp [h3]) h10.1 h10.2
    · exact stuck_frame (by simp [h5]) h12.1 h12.2
    · exact stuck_frame (by simp [h6]) h11.1 h11.2
  · rintro (h | ⟨f, hf, hu, _⟩)
    · exact h h8
    · simp only [h4, List.mem_singleton] at hf
      subst hf
      rw [h9] at hu; cases hu
  · intro t ht
    match t with
    | 0 | 1 | 2 | 4 | 5 => simp at ht
    | 3 => simp [Inside, h19]
    | t + 6 => simp [Inside, h20 t]

/-- What the users see of the whole story, but for the setter which was dropped. -/
def seen : List (HEv (Spec.Whole.Op Bool (Spec.Calls.Call Nat) (Spec.LockCalls.Call Unit Nat))
    (Spec.Whole.Ret (Res Nat Nat) (Memory.Ret (Option Nat)))) :=
  [.inv ⟨1, 0⟩ (.lock (.helper () .reader 0 false)), .res ⟨1, 0⟩ (.lock .unit),
    .inv ⟨2, 0⟩ (.lazy true (.helper .reader 0 false)),
    .inv ⟨4, 0⟩ (.lazy false (.helper .reader 0 false)), .res ⟨4, 0⟩ (.lazy ⟨none, .value 7⟩),
    .inv ⟨7, 0⟩ (.lock (.helper () .setter 5 false)), .inv ⟨10, 0⟩ (.lazy true (.helper .reader 0 false)),
    .res ⟨7, 0⟩ (.lock (.value (some 1))), .res ⟨2, 0⟩ (.lazy ⟨some (.ok 9), .value 9⟩),
    .inv ⟨2, 1⟩ (.lazy true .deref), .res ⟨2, 1⟩ (.lazy ⟨none, .value 9⟩), .res ⟨10, 0⟩ (.lazy ⟨none, .value 9⟩),
    .inv ⟨13, 0⟩ (.lock (.helper () .predicate 0 false)), .res ⟨13, 0⟩ (.lock (.bool true))]

set_option maxRecDepth 4096 in
-- it happens
example : ∃ (s : St Bool Unit Nat Nat Nat) (g : List (Tagged Bool Unit Nat Nat Nat)),
    Trace (fun _ => AsyncCalls.fullCode) (fun _ => AsyncLockCalls.fldCode 0) AsyncLockCalls.eqo
      (fun a b => Mixed.layered a b = true) before (fun _ => some 1) s g ∧
    (∀ t, ¬ Inside s t) ∧ ((s.obj true).c.value, (s.obj false).c.value, s.lk.c.val ()) = (some 9, some 7, some 5) ∧
    without (abandoned (whole g)) (hist (whole g)) = seen ∧ (abandoned (whole g)).length = 1 := by
  have h : ∃ x, runFields 2 Mixed.layered before (fun _ => some 1) (opening ++ ending) = some x ∧
      ((x.1.obj true).c.value, (x.1.obj false).c.value, x.1.lk.c.val ()) = (some 9, some 7, some 5) ∧
      without (abandoned (whole x.2)) (hist (whole x.2)) = seen ∧ (abandoned (whole x.2)).length = 1 ∧
      (∀ t, t < 6 → ¬ Inside x.1 t) ∧
      ∀ t, x.1.stack (t + 6) = [] ∧ x.1.kids (t + 6) = [] ∧ x.1.par (t + 6) = none := by
    refine ⟨_, rfl, rfl, rfl, rfl, ?_, fun _ => ⟨rfl, rfl, rfl⟩⟩
    intro t ht
    match t with
    | 0 | 1 | 2 | 3 | 4 | 5 =>
      rintro (h | h | h)
      · exact h rfl
      · exact h rfl
      · exact h rfl
  obtain ⟨⟨s, g⟩, h1, h2, h3, h4, h5, h6⟩ := h
  refine ⟨s, g, trace_runRec fields .init h1, fun t => ?_, h2, h3, h4⟩
  match t with
  | 0 => exact h5 0 (by omega)
  | 1 => exact h5 1 (by omega)
  | 2 => exact h5 2 (by omega)
  | 3 => exact h5 3 (by omega)
  | 4 => exact h5 4 (by omega)
  | 5 => exact h5 5 (by omega)
  | t + 6 =>
    have h7 := h6 t
    simp only at h7
    simp [Inside, h7]

-- the setter of task 1 can be dropped while it waits
example : ∃ s s' : St Bool Unit Nat Nat Nat,
    Reach (fun _ => AsyncCalls.fullCode) (fun _ => AsyncLockCalls.fldCode 0) AsyncLockCalls.eqo
      (fun a b => Mixed.layered a b = true) before (fun _ => some 1) s ∧
    step (fun _ => AsyncCalls.fullCode) (fun _ => AsyncLockCalls.fldCode 0) AsyncLockCalls.eqo s 1
      (.act (.lazy true 4) .cancel) = some s' ∧ s.stack 1 = [.lazy true 4] ∧ s'.stack 1 = [] ∧ s'.queue true = [5] := by
  have h : ∃ x, runFields 2 Mixed.layered before (fun _ => some 1) opening = some x ∧ x.1.stack 1 = [.lazy true 4] ∧
      ∃ s', step (fun _ => AsyncCalls.fullCode) (fun _ => AsyncLockCalls.fldCode 0) AsyncLockCalls.eqo x.1 1
        (.act (.lazy true 4) .cancel) = some s' ∧ s'.stack 1 = [] ∧ s'.queue true = [5] :=
    ⟨_, rfl, rfl, _, rfl, rfl, rfl⟩
  obtain ⟨⟨s, g⟩, h1, h2, s', h3, h4, h5⟩ := h
  exact ⟨s, s', C103_recorded.2 ⟨g, trace_runRec fields .init h1⟩, h3, h2, h4, h5⟩

/-! ## Structs whose helpers are called in a circle -/

/-- The order is needed, and one task is enough: it keeps the guard from `read_counter()` and reads the lazy field, whose
builder calls `set_counter`. -/
theorem C103_guard_across_builder_deadlocks : ∃ s : St Unit Unit Nat Nat Nat,
    Reach (fun _ => AsyncCalls.fullCode) (fun _ => AsyncLockCalls.fldCode 0) AsyncLockCalls.eqo
      (fun a b => (Mixed.both a b || a == b) = true) (fun _ => none) (fun _ => some 1) s ∧ (∀ t, t ≠ 0 → ¬ Inside s t) ∧
    Deadlock (fun _ => AsyncCalls.fullCode) (fun _ => AsyncLockCalls.fldCode 0) AsyncLockCalls.eqo s := by
  have h : ∃ x, runFields (F := Unit) (L := Unit) 0 (fun a b => Mixed.both a b || a == b) (fun _ => none) (fun _ => some 1)
        ([(0, .lock (.helper () .reader 0 false))] ++ gos 0 (.lock 0) 4 ++ [(0, .call () .reader 0 false)] ++
          gos 0 (.lazy () 1) 5 ++ [(0, .lock (.helper () .setter 5 false))] ++ gos 0 (.lock 2) 2) = some x ∧
      x.1.stack 0 = [.lock 2, .lazy () 1, .lock 0] ∧
      (∀ t, x.1.stack (t + 1) = [] ∧ x.1.kids (t + 1) = [] ∧ x.1.par (t + 1) = none) ∧
      atUser (look x.1 (.lock 2)) = false ∧ (fstep (fun _ => AsyncCalls.fullCode) (fun _ => AsyncLockCalls.fldCode 0)
          AsyncLockCalls.eqo x.1 (.lock 2) .go).isNone = true :=
    ⟨_, rfl, rfl, fun _ => ⟨rfl, rfl, rfl⟩, rfl, rfl⟩
  obtain ⟨⟨s, g⟩, h1, h2, h3, h4, h5⟩ := h
  simp only at h2 h3 h4 h5
  have hout : ∀ t, t ≠ 0 → ¬ Inside s t := by
    intro t ht
    match t with
    | 0 => exact absurd rfl ht
    | t + 1 => simp [Inside, h3]
  refine ⟨s, C103_recorded.2 ⟨g, trace_runRec fields .init h1⟩, hout, ⟨0, .inl (by simp [h2])⟩, ?_⟩
  intro t ht
  by_cases h0 : t = 0
  · subst h0; exact stuck_frame (by simp [h2]) h4 h5
  · exact absurd ht (hout t h0)

/-- Two tasks, each awaiting `join!(self.write_a(), self.write_b())`: the same order in the source does not help. -/
theorem C103_join_deadlocks : ∃ s : St Empty Bool Nat Nat Nat,
    Reach (fun _ => AsyncCalls.fullCode) (fun _ => AsyncLockCalls.fldCode 0) AsyncLockCalls.eqo
      (fun a b => (a != b) = true) nofun (fun _ => some 1) s ∧
    Deadlock (fun _ => AsyncCalls.fullCode) (fun _ => AsyncLockCalls.fldCode 0) AsyncLockCalls.eqo s := by
  have h : ∃ x, runFields (F := Empty) (L := Bool) 1 (fun a b => a != b) nofun (fun _ => some 1)
      ([(0, .fork 2), (0, .fork 3), (1, .fork 4), (1, .fork 5), (2, .lock (.helper false .writer 0 false))] ++
        gos 2 (.lock 0) 4 ++ [(4, .lock (.helper false .writer 0 false))] ++ gos 4 (.lock 1) 2 ++
        [(5, .lock (.helper true .writer 0 false))] ++ gos 5 (.lock 2) 4 ++ [(3, .lock (.helper true .writer 0 false))] ++
        gos 3 (.lock 3) 2 ++ [(2, .ret), (5, .ret)]) = some x ∧
      x.1.kids 0 = [3] ∧ x.1.kids 1 = [4] ∧ x.1.stack 3 = [.lock 3] ∧ x.1.stack 4 = [.lock 1] ∧
      (x.1.stack 2 = [] ∧ x.1.kids 2 = [] ∧ x.1.par 2 = none ∧ x.1.stack 5 = [] ∧ x.1.kids 5 = [] ∧ x.1.par 5 = none) ∧
      (∀ t, x.1.stack (t + 6) = [] ∧ x.1.kids (t + 6) = [] ∧ x.1.par (t + 6) = none) ∧
      atUser (look x.1 (.lock 3)) = false ∧ (fstep (fun _ => AsyncCalls.fullCode) (fun _ => AsyncLockCalls.fldCode 0)
          AsyncLockCalls.eqo x.1 (.lock 3) .go).isNone = true ∧
      atUser (look x.1 (.lock 1)) = false ∧ (fstep (fun _ => AsyncCalls.fullCode) (fun _ => AsyncLockCalls.fldCode 0)
          AsyncLockCalls.eqo x.1 (.lock 1) .go).isNone = true :=
    ⟨_, rfl, rfl, rfl, rfl, rfl, ⟨rfl, rfl, rfl, rfl, rfl, rfl⟩, fun _ => ⟨rfl, rfl, rfl⟩, rfl, rfl, rfl, rfl⟩
  obtain ⟨⟨s, g⟩, h1, h2, h3, h4, h5, h6, h7, h8, h9, h10, h11⟩ := h
  simp only at h2 h3 h4 h5 h6 h7 h8 h9 h10 h11
  refine ⟨s, C103_recorded.2 ⟨g, trace_runRec fields .init h1⟩, ⟨0, .inr (.inl (by simp [h2]))⟩, ?_⟩
  intro t ht
  match t with
  | 0 => exact .inl (by simp [h2])
  | 1 => exact .inl (by simp [h3])
  | 3 => exact stuck_frame (by simp [h4]) h8 h9
  | 4 => exact stuck_frame (by simp [h5]) h10 h11
  | 2 | 5 => simp [Inside, h6] at ht
  | t + 6 => simp [Inside, h7] at ht

end Verif.Props.Tasks
