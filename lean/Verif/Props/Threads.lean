import Verif.Proof.Threads
import Verif.Props.Calls
import Verif.Props.LockCalls
import Verif.Props.Mixed
/-!
# Threads calling the generated helpers of all fields: C101

Model: `Verif.Model.Threads`. `Fields x y lazyCode lockCode`: `x` are lazy fields, `y` lock-protected fields of sync structs,
`lazyCode` and `lockCode` hold any of the helpers written for them which the compiler accepts.
`Reach lazyCode lockCode eqv dep v₀ w₀ s`: some schedule of any number of threads which call those helpers, from builders and
with guards in hand too, leads from the contents `v₀` (lazy) and `w₀` (lock-protected) to `s`, where a thread calls a helper
of `b` from the builder of `a` or while keeping a guard of `a` only if `dep a b`. `Trace … s g`: and `g` is the record of all
calls.
-/

namespace Verif.Props.Threads
open Verif.Spec Verif.Model Verif.Model.Args Verif.Model.Method Verif.Model.Threads
open Verif.Model.Whole (whole lazyPart lockPart)
open Verif.Proof Verif.Proof.Threads
open Verif.Props.Mixed (Acyclic)

set_option linter.unusedSectionVars false
variable {F L V W E : Type} [DecidableEq F] [DecidableEq L] {x : F → FCtx} {y : L → FCtx}
  {lazyCode : F → Kind → Option Body} {lockCode : L → Kind → Option Body} {eqv : Option W → Option W → Bool}
  {dep : F ⊕ L → F ⊕ L → Prop} {v₀ : F → Option V} {w₀ : L → Option W} {s s' : St F L V W E} {g : List (Tagged F L V W E)}

/-- The lazy fields `x` and the lock-protected fields `y`, with the helpers they have. -/
structure Fields (x : F → FCtx) (y : L → FCtx) (lazyCode : F → Kind → Option Body) (lockCode : L → Kind → Option Body) :
    Prop where
  lazy : ∀ i, Calls.LazyField (x i) (lazyCode i)
  lock : LockCalls.LockFields y lockCode

/-- What each call of a user means: one operation on the cell of its lazy field (`Verif.Spec.Calls`), or on the plain memory
of the other fields (`Verif.Spec.LockCalls`). -/
abbrev Means (x : F → FCtx) (y : L → FCtx) (eqv : Option W → Option W → Bool) :
    Spec.Whole.State F (Option V) (L → Option W) → Spec.Whole.Op F (Spec.Calls.Call V) (Spec.LockCalls.Call L W) →
    Spec.Whole.Ret (Res V E) (Memory.Ret (Option W)) → Spec.Whole.State F (Option V) (L → Option W) → Prop :=
  Spec.Whole.Step (fun i => Spec.Calls.CallStep (x i).isFallible (Calls.cloning (x i)))
    (Spec.LockCalls.CallStep (LockCalls.owning y) (LockCalls.cloning y) eqv)

theorem good (h : Fields x y lazyCode lockCode) :
    Good (fun i => (x i).isFallible) (fun i => Calls.cloning (x i)) (LockCalls.owning y) (LockCalls.cloning y) W lazyCode
      lockCode where
  lazy := fun i => Calls.shapes (h.lazy i)
  lock := LockCalls.shapes h.lock
  plain := fun i hi => by
    simp only [LockCalls.owning, Bool.or_eq_false_iff] at hi
    simp [LockCalls.cloning, hi.1]

/-! ## One history -/

/-- The calls of the users on all fields of all objects, helpers and uses of guards, are linearizable together: each takes
effect at one moment between its begin and its end, as the one operation which it stands for. -/
theorem C101_linearizable (hx : Fields x y lazyCode lockCode) (h : Trace lazyCode lockCode eqv dep v₀ w₀ s g) :
    WellFormed (hist (whole g)) ∧ Linearizable (Means x y eqv) ⟨v₀, w₀⟩ (hist (whole g)) := by
  obtain ⟨T, τ, h1, h2, _⟩ := all (good hx) h
  exact ⟨h1.wellFormed, h1.linearizable h2⟩

/-- When nobody is in a helper of a lazy field or keeps a guard of one, the contents of all fields are those the order of the
calls leads to. -/
theorem C101_contents (hx : Fields x y lazyCode lockCode) (h : Trace lazyCode lockCode eqv dep v₀ w₀ s g)
    (hq : ∀ t, s.stack t = []) :
    Spec.Whole.LinearizesTo (Means x y eqv) ⟨v₀, w₀⟩ (hist (whole g)) ⟨fun i => (s.obj i).c.value, s.lk.c.val⟩ := by
  obtain ⟨T, τ, h1, h2, h3⟩ := all (good hx) h
  have f := h1.facts
  exact ⟨lins (whole g), h3 hq ▸ h2, f.nodup, f.lin_inv, f.res_lin, f.order⟩

/-- The record leaves nothing out and adds nothing: what it says of a lazy field is the log of the calls on that field, ... -/
theorem C101_record (h : Trace lazyCode lockCode eqv dep v₀ w₀ s g) :
    (∀ i, lazyPart i g = (s.obj i).log) ∧ lockPart g = s.lk.log :=
  ⟨(hrec h).lazy, (hrec h).lock⟩

/-- ... and every schedule has one. -/
theorem C101_recorded : Reach lazyCode lockCode eqv dep v₀ w₀ s ↔ ∃ g, Trace lazyCode lockCode eqv dep v₀ w₀ s g := by
  constructor
  · intro h
    induction h with
    | init => exact ⟨[], .init⟩
    | step _ ha hs ih => exact ⟨_, .step ih.choose_spec ha hs⟩
  · rintro ⟨g, h⟩
    exact trace_reach h

/-- The builder of a lazy field does not run twice at once, whoever runs it, through whichever helpers. -/
theorem C101_builder_runs_alone (hx : Fields x y lazyCode lockCode) (h : Reach lazyCode lockCode eqv dep v₀ w₀ s) {i : F}
    {p q : Nat} {k k' : GetKind} (hp : (s.obj i).c.pc p = .rBuild k) (hq : (s.obj i).c.pc q = .rBuild k') :
    q = p ∧ (s.obj i).c.value = none :=
  have hb := Props.Sync.C01_memory_empty_while_building ((inv_reach (good hx) h).obj i).reach hp
  ⟨hb.2.2 q k' hq, hb.1⟩

/-! ## Waiting -/

/-- A thread that cannot move waits for a thread that waits for a thread … that can. -/
theorem C101_chain (hx : Fields x y lazyCode lockCode) (hac : Acyclic dep) (h : Reach lazyCode lockCode eqv dep v₀ w₀ s)
    {t : Nat} (ht : Stuck eqv s t) : ∃ u, Relation.TransGen (WaitsFor s) t u ∧ Inside s u ∧ ¬ Stuck eqv s u :=
  chain (good hx) hac h ht

/-- Without a cycle in the order no deadlock. -/
theorem C101_no_deadlock (hx : Fields x y lazyCode lockCode) (hac : Acyclic dep)
    (h : Reach lazyCode lockCode eqv dep v₀ w₀ s) : ¬ Deadlock eqv s := by
  rintro ⟨⟨t, ht⟩, hall⟩
  obtain ⟨u, _, h1, h2⟩ := C101_chain hx hac h (hall t ht)
  exact h2 (hall u h1)

/-- `n` steps from `s` to `s'` in which nothing new is begun and the order is kept to. -/
inductive Winds (lazyCode : F → Kind → Option Body) (lockCode : L → Kind → Option Body) (eqv : Option W → Option W → Bool)
    (dep : F ⊕ L → F ⊕ L → Prop) : Nat → St F L V W E → St F L V W E → Prop where
  | done {s : St F L V W E} : Winds lazyCode lockCode eqv dep 0 s s
  | step {s s₁ s' : St F L V W E} {n : Nat} {t : Nat} {a : Act F L V W E} : quiet a = true → Allowed dep s t a →
      step lazyCode lockCode eqv s t a = some s₁ → Winds lazyCode lockCode eqv dep n s₁ s' →
      Winds lazyCode lockCode eqv dep (n + 1) s s'

theorem winds_total (hx : Fields x y lazyCode lockCode) {n : Nat} {ts : List Nat} (hn : ts.Nodup)
    (hw : Winds lazyCode lockCode eqv dep n s s') (h : Reach lazyCode lockCode eqv dep v₀ w₀ s)
    (hts : ∀ t, t ∉ ts → ¬ Inside s t) : n ≤ total s ts ∧ Reach lazyCode lockCode eqv dep v₀ w₀ s' := by
  induction hw with
  | done => exact ⟨by omega, h⟩
  | @step s s₁ s' n t a ha hal hs _ ih =>
    have hi := inv_reach (good hx) h
    have ht : t ∈ ts := by
      apply Classical.byContradiction
      exact fun ht => hts t ht (quiet_inside hi ha hs)
    obtain ⟨h1, h2⟩ := ih (.step h hal hs) (fun u hu hin => by
      have hut : u ≠ t := by rintro rfl; exact hu ht
      refine hts u hu ?_
      have ho := step_other hs hut
      simpa [Inside, ho] using hin)
    have := total_step hi ha hs hn ht
    exact ⟨by omega, h2⟩

/-- Every helper completes: once nothing new is begun, whatever steps are taken in whatever order, after at most 79 steps for
each helper running on a lazy field or guard of one, 27 for the helper of a lock-protected field and one for each guard of
such a field nothing is left to do, and then everybody is out. `ts` lists the threads that are inside. -/
theorem C101_every_call_completes (hx : Fields x y lazyCode lockCode) (hac : Acyclic dep)
    (h : Reach lazyCode lockCode eqv dep v₀ w₀ s) {ts : List Nat} (hn : ts.Nodup) (hts : ∀ t, t ∉ ts → ¬ Inside s t) {n : Nat}
    (hw : Winds lazyCode lockCode eqv dep n s s') :
    n ≤ (ts.map fun t => 79 * (s.stack t).length + 27 + (s.lk.c.held t).length).sum ∧
    ((∀ t a, quiet a = true → Allowed dep s' t a → step lazyCode lockCode eqv s' t a = none) → ∀ t, ¬ Inside s' t) := by
  obtain ⟨h1, h2⟩ := winds_total hx hn hw h hts
  have hi := inv_reach (good hx) h
  refine ⟨Nat.le_trans h1 ?_, ?_⟩
  · unfold total
    clear hn hts h1 h2
    induction ts with
    | nil => simp
    | cons x ts ih =>
      simp only [List.map_cons, List.sum_cons]
      have := weight_le hi x
      omega
  · intro hend t ht
    have move : ∀ u, Inside s' u → ¬ Stuck eqv s' u → False := by
      intro u hu hs
      obtain ⟨a, s'', h3, h4, h5⟩ := quiet_enabled (inv_reach (good hx) h2) hu hs
      rw [hend u a h3 h4] at h5; cases h5
    by_cases hs : Stuck eqv s' t
    · obtain ⟨u, _, h3, h4⟩ := C101_chain hx hac h2 hs
      exact move u h3 h4
    · exact move t ht hs

/-- Who is out has left nothing behind: no process of a thread which is out is in a container or on its lock. -/
theorem C101_nothing_left (hx : Fields x y lazyCode lockCode) (h : Reach lazyCode lockCode eqv dep v₀ w₀ s)
    (hout : ∀ t, ¬ Inside s t) (i : F) (j : L) :
    (s.obj i).c.lk = ⟨[], none, none⟩ ∧ s.lk.c.lock j = ⟨[], none, none⟩ := by
  have hi := inv_reach (good hx) h
  constructor
  · have hp : ∀ p, (s.obj i).c.pc p = .idle := by
      intro p
      have hg : gone (s.obj i) p = true := by
        by_cases hg : gone (s.obj i) p = true
        · exact hg
        · obtain ⟨t, ht⟩ := hi.owner i p (by simpa using hg)
          exact absurd (.inl (List.ne_nil_of_mem ht)) (hout t)
      have hl := (hi.obj i).loc p
      have h0 : (s.obj i).pc p = .idle := by
        revert hg; unfold gone; cases (s.obj i).pc p <;> simp
      rw [h0] at hl
      revert hl
      generalize (s.obj i).c.pc p = x
      intro hl
      cases hl; rfl
    have hc := Sync.core_reach (hi.obj i).reach
    have h1 := hc.wr
    have h2 := hc.upg
    have h3 := hc.sh
    simp only [hp, Sync.excl, Sync.claiming, Sync.holdsU, Sync.holdsS, Bool.or_self, Bool.false_eq_true, iff_false] at h1 h2 h3
    generalize (s.obj i).c.lk = k at h1 h2 h3
    obtain ⟨sh, up, wr⟩ := k
    simp only [Lock.mk.injEq]
    exact ⟨List.eq_nil_iff_forall_not_mem.2 h3, Option.eq_none_iff_forall_ne_some.2 h2,
      Option.eq_none_iff_forall_ne_some.2 h1⟩
  · have ho : ∀ t, s.lk.c.pc t = .idle ∧ s.lk.c.held t = [] := by
      intro t
      have ht := hout t
      simp only [Inside, not_or, Classical.not_not, ne_eq] at ht
      exact ⟨lidle_idle hi.lk ht.2.1, ht.2.2⟩
    have hc := Locks.core_reach hi.lk.reach
    have h1 := hc.wr j
    have h2 := hc.upg j
    have h3 := hc.sh j
    simp only [ho, Locks.temps, Locks.claims] at h1 h3
    generalize s.lk.c.lock j = k at h1 h2 h3
    obtain ⟨sh, up, wr⟩ := k
    simp only [Lock.mk.injEq]
    refine ⟨List.eq_nil_iff_forall_not_mem.2 fun t ht => ?_, h2, Option.eq_none_iff_forall_ne_some.2 fun t ht => ?_⟩
    · have h4 := h3 t
      have h5 := List.count_pos_iff.2 ht
      simp only [List.count_nil] at h4
      omega
    · have := h1 t
      simp [ht] at this

/-! ## Concrete fields and runs -/

/-- The order as a test, for running schedules. -/
def allowedB (depB : F ⊕ L → F ⊕ L → Bool) (s : St F L V W E) (t : Nat) : Act F L V W E → Bool
  | .call _ .predicate _ _ => true
  | .call j _ _ _ => pre s t (s.stack t) (.inl j)
  | .finish _ =>
    match innermost s t with
    | some f => pre s t ((s.stack t).erase f) (.inl f.1)
    | none => true
  | .lock (.call (.helper k _ _ _)) | .lock (.call (.clone k)) => pre s t (s.stack t) (.inr k)
  | .lock (.call (.eq k k')) =>
    pre s t (s.stack t) (.inr k) && pre s t (s.stack t) (.inr k') && depB (.inr k) (.inr k')
  | _ => true
where
  pre (s : St F L V W E) (t : Nat) (fs : List (F × Nat)) (r : F ⊕ L) : Bool :=
    fs.all (fun f => depB (.inl f.1) r) && (s.lk.c.held t).all fun g => depB (.inr g.1) r

theorem pre_iff {depB : F ⊕ L → F ⊕ L → Bool} {t : Nat} {fs : List (F × Nat)} {r : F ⊕ L}
    (h : allowedB.pre depB s t fs r = true) : Precedes (fun a b => depB a b = true) s t fs r := by
  simpa [allowedB.pre, Precedes] using h

theorem allowed_of {depB : F ⊕ L → F ⊕ L → Bool} {t : Nat} {a : Act F L V W E} (h : allowedB depB s t a = true) :
    Allowed (fun a b => depB a b = true) s t a := by
  cases a with
  | call j k v b => cases k <;> first | trivial | exact pre_iff h
  | use f op => trivial
  | go f => trivial
  | drop f => trivial
  | finish o =>
    intro f hf
    simp only [allowedB, hf] at h
    exact pre_iff h
  | lock b =>
    cases b with
    | call c =>
      cases c with
      | eq k k' =>
        simp only [allowedB, Bool.and_eq_true] at h
        exact ⟨pre_iff h.1.1, pre_iff h.1.2, h.2⟩
      | _ => first | trivial | exact pre_iff h
    | _ => trivial

/-- Runs a schedule as long as it keeps to the order, with the record. -/
def runRec (lazyCode : F → Kind → Option Body) (lockCode : L → Kind → Option Body) (eqv : Option W → Option W → Bool)
    (depB : F ⊕ L → F ⊕ L → Bool) (s : St F L V W E) (g : List (Tagged F L V W E)) :
    List (Nat × Act F L V W E) → Option (St F L V W E × List (Tagged F L V W E))
  | [] => some (s, g)
  | (t, a) :: rest =>
    if allowedB depB s t a then
      (step lazyCode lockCode eqv s t a).bind fun s' => runRec lazyCode lockCode eqv depB s' (g ++ news s s' t a) rest
    else none

theorem trace_runRec {depB : F ⊕ L → F ⊕ L → Bool} {s₀ : St F L V W E} {g₀ : List (Tagged F L V W E)}
    (h₀ : Trace lazyCode lockCode eqv (fun a b => depB a b = true) v₀ w₀ s₀ g₀) {sch : List (Nat × Act F L V W E)}
    (h : runRec lazyCode lockCode eqv depB s₀ g₀ sch = some (s, g)) :
    Trace lazyCode lockCode eqv (fun a b => depB a b = true) v₀ w₀ s g := by
  induction sch generalizing s₀ g₀ with
  | nil => simp only [runRec, Option.some.injEq, Prod.mk.injEq] at h; obtain ⟨rfl, rfl⟩ := h; exact h₀
  | cons x sch ih =>
    obtain ⟨t, a⟩ := x
    simp only [runRec] at h
    split at h
    · rename_i hal
      simp only [Option.bind_eq_some_iff] at h
      obtain ⟨s₁, h1, h2⟩ := h
      exact ih (.step h₀ (allowed_of hal) h1) h2
    · cases h

/-- A struct with the lazy fields `false` (configuration) and `true` (session), each with all helpers, a cloning accessor
(`Props.Calls.fullField`), and a field with `optional` and `lock`, a counter, with all helpers (`Props.LockCalls.flds 0`). -/
theorem layeredFields : Fields (F := Bool) (L := Unit) (fun _ => MethodTy.fullSync) (fun _ => LockCalls.flds 0)
    (fun _ => Calls.fullCode) (fun _ => LockCalls.fldCode 0) where
  lazy := fun _ => Calls.fullField
  lock := ⟨fun _ => LockCalls.fldFields.sync 0, fun _ => LockCalls.fldFields.plain 0, fun _ => LockCalls.fldFields.block 0,
    fun _ => LockCalls.fldFields.lock 0, fun _ => LockCalls.fldFields.helpers 0, fun _ => LockCalls.fldFields.ask 0⟩

/-- `n` steps of the code of the call `f` of thread `t`. -/
def gos {F L : Type} (t : Nat) (f : F × Nat) (n : Nat) : List (Nat × Act F L Nat Nat Nat) := List.replicate n (t, .go f)

/-- `n` steps of the helper of a lock-protected field which thread `t` runs. -/
def locks {F L : Type} (t n : Nat) : List (Nat × Act F L Nat Nat Nat) := List.replicate n (t, .lock .go)

/-- Thread 2 keeps a read guard of the counter. Thread 0 reads the session; its builder takes a guard of the configuration,
keeps it and sets the counter. Thread 1 sets the session. Thread 3 clears the configuration. -/
def opening : List (Nat × Act Bool Unit Nat Nat Nat) :=
  [(2, .lock (.call (.helper () .reader 0 false)))] ++ locks 2 3 ++
  [(0, .call true .reader 0 false)] ++ gos 0 (true, 0) 5 ++
  [(0, .call false .reader 0 false)] ++ gos 0 (false, 1) 6 ++
  [(0, .lock (.call (.helper () .setter 5 false)))] ++ locks 0 2 ++
  [(1, .call true .setter 4 false)] ++ gos 1 (true, 2) 1 ++
  [(3, .call false .clearer 0 false)] ++ gos 3 (false, 3) 2

/-- Thread 2 drops its guard; everybody goes on. The builder gives 9, thread 0 looks at it through its guard. Thread 1 asks
for the counter in the end. -/
def ending : List (Nat × Act Bool Unit Nat Nat Nat) :=
  [(2, .lock (.drop ((), false)))] ++ locks 0 6 ++ [(0, .drop (false, 1))] ++ gos 3 (false, 3) 5 ++
  [(0, .finish (.ok 9))] ++ gos 0 (true, 0) 6 ++ [(0, .use (true, 0) .deref)] ++ gos 0 (true, 0) 2 ++
  [(0, .drop (true, 0))] ++ gos 1 (true, 2) 9 ++
  [(1, .lock (.call (.helper () .accessor 0 false)))] ++ locks 1 9

/-- The session is not built yet, the configuration is 7, the counter 1. -/
def before : St Bool Unit Nat Nat Nat := init (fun i => if i then none else some 7) (fun _ => some 1)

/-- Runs of this struct. -/
abbrev runLayered := runRec (E := Nat) (fun _ : Bool => Calls.fullCode) (fun _ : Unit => LockCalls.fldCode 0) LockCalls.eqo
  Mixed.layered before []

-- in the middle threads 0, 1 and 3 are stuck: 1 waits for 0, 3 for 0, 0 for 2; no deadlock, 2 can go on
example : ∃ s : St Bool Unit Nat Nat Nat,
    Reach (fun _ => Calls.fullCode) (fun _ => LockCalls.fldCode 0) LockCalls.eqo (fun a b => Mixed.layered a b = true)
      (fun i => if i then none else some 7) (fun _ => some 1) s ∧ Acyclic (fun a b => Mixed.layered a b = true) ∧
    Stuck LockCalls.eqo s 0 ∧ Stuck LockCalls.eqo s 1 ∧ Stuck LockCalls.eqo s 3 ∧ WaitsFor s 1 0 ∧ WaitsFor s 3 0 ∧
    WaitsFor s 0 2 ∧ Inside s 2 ∧ ¬ Stuck LockCalls.eqo s 2 ∧ ∀ t, t ∉ [0, 1, 2, 3] → ¬ Inside s t := by
  have h : ∃ x, runLayered opening = some x ∧ x.1.stack 0 = [(false, 1), (true, 0)] ∧ x.1.stack 1 = [(true, 2)] ∧
        x.1.stack 2 = [] ∧ x.1.stack 3 = [(false, 3)] ∧ x.1.lk.c.pc 0 = .wDrain () ∧ x.1.lk.c.held 2 = [((), false)] ∧
        idle (x.1.lk.pc 0) = false ∧ x.1.lk.pc 2 = .idle ∧ (LockCalls.go LockCalls.eqo x.1.lk 0).isNone = true ∧
        (atUser (x.1.obj true) 2 || (Calls.go (x.1.obj true) 2).isSome) = false ∧
        (atUser (x.1.obj false) 3 || (Calls.go (x.1.obj false) 3).isSome) = false ∧
        (x.1.obj true).c.pc 2 = .xStart .writer ∧ (x.1.obj false).c.pc 3 = .xWait (.put none) ∧
        (x.1.obj true).c.lk = ⟨[], none, some 0⟩ ∧ (x.1.obj false).c.lk = ⟨[1], none, some 3⟩ ∧
        x.1.lk.c.lock () = ⟨[2], none, some 0⟩ ∧
        ∀ t, x.1.stack (t + 4) = [] ∧ x.1.lk.pc (t + 4) = .idle ∧ x.1.lk.c.held (t + 4) = [] :=
    ⟨_, rfl, rfl, rfl, rfl, rfl, rfl, rfl, rfl, rfl, rfl, rfl, rfl, rfl, rfl, rfl, rfl, rfl, fun _ => ⟨rfl, rfl, rfl⟩⟩
  obtain ⟨⟨s, g⟩, h1, h2, h3, h4, h5, h6, h7, h8, h9, h10, h11, h12, h13, h14, h15, h16, h17, h18⟩ := h
  simp only at h2 h3 h4 h5 h6 h7 h8 h9 h10 h11 h12 h13 h14 h15 h16 h17 h18
  simp only [Bool.or_eq_false_iff, Option.isSome_eq_false_iff, Option.isNone_iff_eq_none] at h10 h11 h12
  refine ⟨s, C101_recorded.2 ⟨g, trace_runRec .init h1⟩, Mixed.layered_acyclic,
    .inr ⟨(fun h => by rw [h] at h8; cases h8), h10⟩, .inl ⟨(true, 2), by simp [h3], h11.1, h11.2⟩,
    .inl ⟨(false, 3), by simp [h5], h12.1, h12.2⟩,
    .owner (i := true) (p := 2) (q := 0) (by simp [containers, h3]) (by simp [containers, h13, Model.Mixed.entering])
      (by simp [containers, h15]) (by simp [containers, h2]),
    .reader (i := false) (p := 3) (q := 1) (by simp [containers, h5]) (by simp [containers, h14, Model.Mixed.draining])
      (by simp [containers, h16]) (by simp [containers, h2]),
    .lock (.reader (i := ()) (by simp [containers, h6, Model.Locks.draining]) (by simp [containers, h17])),
    .inr (.inr (by simp [h7])), ?_, ?_⟩
  · rintro (⟨f, hf, _⟩ | ⟨hf, _⟩)
    · rw [h4] at hf; cases hf
    · exact hf h9
  · intro t ht
    match t with
    | 0 | 1 | 2 | 3 => simp at ht
    | t + 4 => simp [Inside, h18 t]

/-- What the users see of the whole story. -/
def seen : List (HEv (Spec.Whole.Op Bool (Spec.Calls.Call Nat) (Spec.LockCalls.Call Unit Nat))
    (Spec.Whole.Ret (Res Nat Nat) (Memory.Ret (Option Nat)))) :=
  [.inv ⟨5, 0⟩ (.lock (.helper () .reader 0 false)), .res ⟨5, 0⟩ (.lock .unit),
    .inv ⟨0, 0⟩ (.lazy true (.helper .reader 0 false)),
    .inv ⟨2, 0⟩ (.lazy false (.helper .reader 0 false)), .res ⟨2, 0⟩ (.lazy ⟨none, .value 7⟩),
    .inv ⟨1, 0⟩ (.lock (.helper () .setter 5 false)), .inv ⟨4, 0⟩ (.lazy true (.helper .setter 4 false)),
    .inv ⟨6, 0⟩ (.lazy false (.helper .clearer 0 false)), .res ⟨1, 0⟩ (.lock (.value (some 1))),
    .res ⟨6, 0⟩ (.lazy ⟨none, .old (some 7)⟩), .res ⟨0, 0⟩ (.lazy ⟨some (.ok 9), .value 9⟩),
    .inv ⟨0, 1⟩ (.lazy true .deref), .res ⟨0, 1⟩ (.lazy ⟨none, .value 9⟩),
    .res ⟨4, 0⟩ (.lazy ⟨none, .old (some 9)⟩), .inv ⟨3, 0⟩ (.lock (.helper () .accessor 0 false)),
    .res ⟨3, 0⟩ (.lock (.value (some 5)))]

-- it happens
example : ∃ (s : St Bool Unit Nat Nat Nat) (g : List (Tagged Bool Unit Nat Nat Nat)),
    Trace (fun _ => Calls.fullCode) (fun _ => LockCalls.fldCode 0) LockCalls.eqo (fun a b => Mixed.layered a b = true)
      (fun i => if i then none else some 7) (fun _ => some 1) s g ∧
    (∀ t, ¬ Inside s t) ∧ ((s.obj true).c.value, (s.obj false).c.value, s.lk.c.val ()) = (some 4, none, some 5) ∧
    hist (whole g) = seen := by
  have h : ∃ x, runLayered (opening ++ ending) = some x ∧
      ((x.1.obj true).c.value, (x.1.obj false).c.value, x.1.lk.c.val ()) = (some 4, none, some 5) ∧ hist (whole x.2) = seen ∧
      (∀ t, t < 4 → ¬ Inside x.1 t) ∧
      ∀ t, x.1.stack (t + 4) = [] ∧ x.1.lk.pc (t + 4) = .idle ∧ x.1.lk.c.held (t + 4) = [] := by
    refine ⟨_, rfl, rfl, rfl, ?_, fun _ => ⟨rfl, rfl, rfl⟩⟩
    intro t ht
    match t with
    | 0 | 1 | 2 | 3 =>
      rintro (h | h | h)
      · exact h rfl
      · exact h rfl
      · exact h rfl
  obtain ⟨⟨s, g⟩, h1, h2, h3, h4, h5⟩ := h
  refine ⟨s, g, trace_runRec .init h1, fun t => ?_, h2, h3⟩
  match t with
  | 0 => exact h4 0 (by omega)
  | 1 => exact h4 1 (by omega)
  | 2 => exact h4 2 (by omega)
  | 3 => exact h4 3 (by omega)
  | t + 4 =>
    have h6 := h5 t
    simp only at h6
    simp [Inside, h6]

/-! ## Structs whose helpers are called in a circle -/

/-- The order is needed: thread 0 keeps a guard of a lock-protected field and calls the reader of a lazy field. Its builder,
which thread 1 runs, sets the lock-protected field. They wait for each other forever. -/
theorem C101_guard_meets_builder_deadlocks : ∃ s : St Unit Unit Nat Nat Nat,
    Reach (fun _ => Calls.fullCode) (fun _ => LockCalls.fldCode 0) LockCalls.eqo (fun a b => Mixed.both a b = true)
      (fun _ => none) (fun _ => some 1) s ∧ WaitsFor s 0 1 ∧ WaitsFor s 1 0 ∧ Deadlock LockCalls.eqo s := by
  have h : ∃ x, runRec (F := Unit) (L := Unit) (E := Nat) (fun _ => Calls.fullCode) (fun _ => LockCalls.fldCode 0)
        LockCalls.eqo Mixed.both (init (fun _ => none) (fun _ => some 1)) []
        ([(1, .call () .reader 0 false)] ++ gos 1 ((), 0) 5 ++ [(0, .lock (.call (.helper () .reader 0 false)))] ++ locks 0 3 ++
          [(0, .call () .reader 0 false)] ++ gos 0 ((), 1) 1 ++ [(1, .lock (.call (.helper () .setter 5 false)))] ++
          locks 1 2) = some x ∧
        x.1.stack 0 = [((), 1)] ∧ x.1.stack 1 = [((), 0)] ∧ x.1.lk.c.pc 1 = .wDrain () ∧ x.1.lk.c.held 0 = [((), false)] ∧
        idle (x.1.lk.pc 1) = false ∧ (LockCalls.go LockCalls.eqo x.1.lk 1).isNone = true ∧
        x.1.lk.c.lock () = ⟨[0], none, some 1⟩ ∧
        (atUser (x.1.obj ()) 1 || (Calls.go (x.1.obj ()) 1).isSome) = false ∧
        (x.1.obj ()).c.pc 1 = .rStart .read ∧ (x.1.obj ()).c.lk = ⟨[], none, some 0⟩ ∧
        ∀ t, x.1.stack (t + 2) = [] ∧ x.1.lk.pc (t + 2) = .idle ∧ x.1.lk.c.held (t + 2) = [] :=
    ⟨_, rfl, rfl, rfl, rfl, rfl, rfl, rfl, rfl, rfl, rfl, rfl, fun _ => ⟨rfl, rfl, rfl⟩⟩
  obtain ⟨⟨s, g⟩, h1, h2, h3, h4, h5, h6, h7, h8, h9, h10, h11, h12⟩ := h
  simp only at h2 h3 h4 h5 h6 h7 h8 h9 h10 h11 h12
  simp only [Bool.or_eq_false_iff, Option.isSome_eq_false_iff, Option.isNone_iff_eq_none] at h7 h9
  refine ⟨s, C101_recorded.2 ⟨g, trace_runRec .init h1⟩,
    .owner (i := ()) (p := 1) (q := 0) (by simp [containers, h2]) (by simp [containers, h10, Model.Mixed.entering])
      (by simp [containers, h11]) (by simp [containers, h3]),
    .lock (.reader (i := ()) (by simp [containers, h4, Model.Locks.draining]) (by simp [containers, h8])),
    ⟨0, .inr (.inr (by simp [h5]))⟩, fun t ht => ?_⟩
  match t with
  | 0 => exact .inl ⟨((), 1), by simp [h2], h9.1, h9.2⟩
  | 1 => exact .inr ⟨fun h => (by rw [h] at h6; cases h6), h7⟩
  | t + 2 => simp [Inside, h12 t] at ht

end Verif.Props.Threads
