import Verif.Model.AsyncLocks
import Verif.Proof.Locks
/-!
# Invariants of lock-protected fields of async structs (helper lemmas)
-/

namespace Verif.Proof.AsyncLocks
open Verif.Spec Verif.Spec.Memory Verif.Model Verif.Model.AsyncLocks
open Verif.Model.Async (ALock)
open Verif.Proof.Locks (upd_upd)

variable {L V : Type} [DecidableEq L] {eqv : V → V → Bool} {dep : L → L → Prop} {v₀ : L → V} {s s' : St L V}

/-- Shared guards which the running call holds. -/
def temps : Pc L V → List L
  | .gHave i | .gDone i _ | .eWait2 i _ | .eDrop i _ _ => [i]
  | .eHave i j | .eMid i j _ | .eDone i j _ => [i, j]
  | _ => []

/-- The container whose exclusive guard the running call holds. -/
def owns : Pc L V → Option L
  | .xHave i _ | .xDone i _ _ => some i
  | _ => none

/-- Locks agree with guards and program points. -/
structure Core (s : St L V) : Prop where
  sh   : ∀ i t, (s.lock i).shared.count t = (s.held t).count (i, false) + (temps (s.pc t)).count i
  wr   : ∀ i t, (s.held t).count (i, true) + (if owns (s.pc t) = some i then 1 else 0) =
    if (s.lock i).wr = some t then 1 else 0
  full : ∀ i t, (s.lock i).wr = some t → (s.lock i).shared = []
  que  : ∀ i t, (s.queue i).count t = if wants (s.pc t) = some i then 1 else 0
  mid  : ∀ t i j x, s.pc t = .eMid i j x → s.val i = x
  asg  : ∀ t i v, s.pc t = .asg i v → (i, true) ∈ s.held t

theorem core_init : Core (init v₀ : St L V) := by
  constructor <;> simp [init, ALock.free, temps, owns, wants]

/-- A lock with an exclusive owner has no readers. -/
theorem Core.no_reader (h : Core s) {i : L} {t u : Nat} (hw : (s.lock i).wr = some t) :
    (temps (s.pc u)).count i = 0 ∧ (s.held u).count (i, false) = 0 := by
  have h1 := h.full i t hw
  have h2 := h.sh i u
  rw [h1] at h2
  simp only [List.count_nil] at h2
  omega

theorem shared_some {i : L} {t : Nat} (h : s.shared i t = some s') : (s.queue i).head? = some t ∧ (s.lock i).wr = none ∧
    s' = { s with
      lock := upd s.lock i ⟨t :: (s.lock i).shared, none⟩
      queue := upd s.queue i ((s.queue i).erase t) } := by
  unfold St.shared at h
  split at h
  · rename_i hq
    simp only [ALock.tryShared, Option.map_eq_some_iff] at h
    obtain ⟨l, hl, rfl⟩ := h
    split at hl <;> simp at hl
    rename_i hw
    subst hl
    exact ⟨hq, hw, by simp [St.setLock, St.leave, hw]⟩
  · cases h

theorem exclusive_some {i : L} {t : Nat} (h : s.exclusive i t = some s') : (s.queue i).head? = some t ∧
    (s.lock i).wr = none ∧ (s.lock i).shared = [] ∧
    s' = { s with
      lock := upd s.lock i ⟨[], some t⟩
      queue := upd s.queue i ((s.queue i).erase t) } := by
  unfold St.exclusive at h
  split at h
  · rename_i hq
    simp only [ALock.tryWrite, Option.map_eq_some_iff] at h
    obtain ⟨l, hl, rfl⟩ := h
    split at hl <;> simp at hl
    rename_i hw
    subst hl
    exact ⟨hq, hw.1, hw.2, by simp [St.setLock, St.leave, hw]⟩
  · cases h

/-- Check the six parts of the invariant after a change of task `t` on container `i`. -/
local macro "core_parts" h:ident : tactic => `(tactic| (
  constructor
  · intro k u; have := ($h).sh k u
    simp [St.setLock, St.to, St.lin, St.ret, St.quit, St.keep, St.begin, St.enter, St.leave, upd, ALock.dropShared, ALock.dropWrite]; grind [temps]
  · intro k u; have := ($h).wr k u
    simp [St.setLock, St.to, St.lin, St.ret, St.quit, St.keep, St.begin, St.enter, St.leave, upd, ALock.dropShared, ALock.dropWrite]; grind [owns]
  · intro k u; have := ($h).full k u
    simp [St.setLock, St.to, St.lin, St.ret, St.quit, St.keep, St.begin, St.enter, St.leave, upd, ALock.dropShared, ALock.dropWrite]; try grind
  · intro k u; have := ($h).que k u
    simp [St.setLock, St.to, St.lin, St.ret, St.quit, St.keep, St.begin, St.enter, St.leave, upd, ALock.dropShared, ALock.dropWrite]; grind [wants]
  · intro u k j x; have := ($h).mid u k j x
    simp [St.setLock, St.to, St.lin, St.ret, St.quit, St.keep, St.begin, St.enter, St.leave, upd, ALock.dropShared, ALock.dropWrite]; try grind
  · intro u k v; have := ($h).asg u k v
    simp [St.setLock, St.to, St.lin, St.ret, St.quit, St.keep, St.begin, St.enter, St.leave, upd, ALock.dropShared, ALock.dropWrite]; try grind))

theorem core_go {t : Nat} (h : Core s) (hs : go eqv s t = some s') : Core s' := by
  unfold go at hs
  split at hs <;> rename_i hpc
  case h_1 => cases hs
  case h_2 i | h_8 i j | h_9 i j | h_14 i =>
    simp only [Option.map_eq_some_iff] at hs
    obtain ⟨m, hm, rfl⟩ := hs
    obtain ⟨hq, hw, rfl⟩ := shared_some hm
    core_parts h
  case h_5 i v | h_15 i =>
    simp only [Option.map_eq_some_iff] at hs
    obtain ⟨m, hm, rfl⟩ := hs
    obtain ⟨hq, hw, hsh, rfl⟩ := exclusive_some hm
    core_parts h
  case h_3 i | h_10 i j | h_11 i j x | h_16 i | h_18 =>
    simp at hs; subst hs
    core_parts h
  case h_4 i r | h_12 i j r | h_13 i j r =>
    simp at hs; subst hs
    core_parts h
  case h_7 i v r =>
    simp at hs; subst hs
    have hw := h.wr i t
    core_parts h
  case h_6 i v =>
    simp at hs; subst hs
    have hw : (s.lock i).wr = some t := by have := h.wr i t; grind [owns]
    have hn : ∀ u j x, s.pc u ≠ .eMid i j x := by
      intro u j x hu
      have := (h.no_reader (u := u) hw).1
      simp [hu, temps] at this
    core_parts h
  case h_17 i v =>
    simp at hs; subst hs
    have hw : (s.lock i).wr = some t := by have := h.wr i t; have := h.asg t i v hpc; grind [owns]
    have hn : ∀ u j x, s.pc u ≠ .eMid i j x := by
      intro u j x hu
      have := (h.no_reader (u := u) hw).1
      simp [hu, temps] at this
    core_parts h

theorem core_invoke {t : Nat} {op : Op L V} (h : Core s) (hs : invoke s t op = some s') : Core s' := by
  unfold invoke at hs
  split at hs
  · rename_i hpc
    cases op <;> simp at hs
    case deref | assign =>
      obtain ⟨h1, rfl⟩ := hs
      core_parts h
    all_goals
      subst hs
      core_parts h
  · cases hs

theorem core_panics {t : Nat} (h : Core s) (hs : panics s t = some s') : Core s' := by
  unfold panics at hs
  split at hs <;> rename_i hpc
  · simp at hs; subst hs; core_parts h
  · simp at hs; subst hs; core_parts h
  · simp at hs; subst hs; core_parts h
  · simp at hs; subst hs; core_parts h
  · cases hs

theorem core_cancel {t : Nat} (h : Core s) (hs : cancel s t = some s') : Core s' := by
  unfold cancel at hs
  split at hs <;> rename_i hpc
  · simp at hs; subst hs; core_parts h
  · simp at hs; subst hs; core_parts h
  · simp at hs; subst hs; core_parts h
  · simp at hs; subst hs; core_parts h
  · cases hs

theorem core_drop {t : Nat} {g : L × Bool} (h : Core s) (hs : dropGuard s t g = some s') : Core s' := by
  unfold dropGuard at hs
  split at hs <;> rename_i hpc
  · split at hs <;> simp at hs
    rename_i hg
    subst hs
    obtain ⟨i, m⟩ := g
    have hw := h.wr i t
    cases m <;> simp only [Bool.false_eq_true, if_true, if_false] <;> core_parts h
  · cases hs

theorem core_step {t : Nat} {a : Act L V} (h : Core s) (hs : step eqv s t a = some s') : Core s' := by
  cases a with
  | call op => exact core_invoke h hs
  | go => exact core_go h hs
  | panic => exact core_panics h hs
  | cancel => exact core_cancel h hs
  | drop g => exact core_drop h hs

theorem core_reach (h : Reach eqv dep v₀ s) : Core s := by
  induction h with
  | init => exact core_init
  | step _ _ hs ih => exact core_step ih hs

/-! ## The log -/

/-- Progress of the current call of a thread. -/
def phaseAt : Pc L V → Phase (Op L V) (Ret V)
  | .idle => .fresh
  | .gWait i | .gHave i => .invoked (.get i)
  | .gDone i r => .linearized (.get i) r
  | .xWait i v | .xHave i v => .invoked (.swap i v)
  | .xDone i v r => .linearized (.swap i v) r
  | .eWait1 i j | .eWait2 i j | .eHave i j | .eMid i j _ => .invoked (.eq i j)
  | .eDone i j r | .eDrop i j r => .linearized (.eq i j) r
  | .rWait i => .invoked (.read i)
  | .wWait i => .invoked (.write i)
  | .use i => .invoked (.deref i)
  | .asg i v => .invoked (.assign i v)
  | .used op r => .linearized op r

/-- Progress of every call. -/
def tbl (s : St L V) : CallId → Phase (Op L V) (Ret V) := fun c =>
  if c.seq < s.seq c.proc then .done
  else if c.seq = s.seq c.proc then phaseAt (s.pc c.proc)
  else .fresh

omit [DecidableEq L] in
@[simp] theorem tbl_me (s : St L V) (t : Nat) : tbl s (s.me t) = phaseAt (s.pc t) := by simp [tbl, St.me]

omit [DecidableEq L] in
theorem tbl_within {t : Nat} {c : Pc L V} (hseq : s'.seq = s.seq) (hpc : s'.pc = upd s.pc t c) :
    tbl s' = upd (tbl s) (s.me t) (phaseAt c) := by
  funext ⟨q, n⟩
  simp only [tbl, upd, St.me, hseq, hpc, CallId.mk.injEq]
  grind

omit [DecidableEq L] in
theorem tbl_same {t : Nat} {c : Pc L V} (hseq : s'.seq = s.seq) (hpc : s'.pc = upd s.pc t c)
    (hp : phaseAt c = phaseAt (s.pc t)) : tbl s' = tbl s := by
  rw [tbl_within hseq hpc, hp]
  funext i
  by_cases hi : i = s.me t
  · subst hi; simp
  · rw [upd_other _ _ hi]

omit [DecidableEq L] in
theorem tbl_end {t : Nat} (hseq : s'.seq = upd s.seq t (s.seq t + 1)) (hpc : s'.pc = upd s.pc t .idle) :
    tbl s' = upd (tbl s) (s.me t) .done := by
  funext ⟨q, n⟩
  simp only [tbl, upd, St.me, hseq, hpc, CallId.mk.injEq]
  grind [phaseAt]

/-- The log: calls in order, and the calls which took effect lead from the initial contents to the present ones. -/
def LogInv (eqv : V → V → Bool) (v₀ : L → V) (s : St L V) : Prop :=
  Disc s.log (tbl s) ∧ Legal (Step eqv) v₀ (lins s.log) s.val

theorem log_init : LogInv eqv v₀ (init v₀) := by
  refine ⟨?_, .nil⟩
  have : tbl (init v₀ : St L V) = fun _ => .fresh := by
    funext i; simp only [tbl, init, phaseAt]; grind
  rw [this]; exact .nil

theorem log_tau {t : Nat} {c : Pc L V} (h : LogInv eqv v₀ s) (hl : s'.log = s.log) (hseq : s'.seq = s.seq)
    (hpc : s'.pc = upd s.pc t c) (hv : s'.val = s.val) (hp : phaseAt c = phaseAt (s.pc t)) : LogInv eqv v₀ s' := by
  refine ⟨?_, ?_⟩
  · rw [hl, tbl_same hseq hpc hp]; exact h.1
  · rw [hl, hv]; exact h.2

theorem log_inv {t : Nat} {c : Pc L V} {op : Op L V} (h : LogInv eqv v₀ s) (hl : s'.log = s.log ++ [.inv (s.me t) op])
    (hseq : s'.seq = s.seq) (hpc : s'.pc = upd s.pc t c) (hv : s'.val = s.val) (h0 : s.pc t = .idle)
    (h1 : phaseAt c = .invoked op) : LogInv eqv v₀ s' := by
  refine ⟨?_, ?_⟩
  · rw [hl, tbl_within hseq hpc, h1]; exact .inv h.1 (by rw [tbl_me, h0]; rfl)
  · rw [hl, hv, lins_snoc_inv]; exact h.2

theorem log_lin {t : Nat} {c : Pc L V} {op : Op L V} {r : Ret V} (h : LogInv eqv v₀ s)
    (hl : s'.log = s.log ++ [.lin (s.me t) op r]) (hseq : s'.seq = s.seq) (hpc : s'.pc = upd s.pc t c)
    (h0 : phaseAt (s.pc t) = .invoked op) (h1 : phaseAt c = .linearized op r) (hst : Step eqv s.val op r s'.val) :
    LogInv eqv v₀ s' := by
  refine ⟨?_, ?_⟩
  · rw [hl, tbl_within hseq hpc, h1]; exact .lin h.1 (by rw [tbl_me, h0])
  · rw [hl, lins_snoc_lin]; exact Legal.snoc h.2 hst

theorem log_res {t : Nat} {op : Op L V} {r : Ret V} (h : LogInv eqv v₀ s)
    (hl : s'.log = s.log ++ [.res (s.me t) r]) (hseq : s'.seq = upd s.seq t (s.seq t + 1))
    (hpc : s'.pc = upd s.pc t .idle) (hv : s'.val = s.val) (h0 : phaseAt (s.pc t) = .linearized op r) :
    LogInv eqv v₀ s' := by
  refine ⟨?_, ?_⟩
  · rw [hl, tbl_end hseq hpc]; exact .res h.1 (by rw [tbl_me, h0])
  · rw [hl, hv, lins_snoc_res]; exact h.2

/-- A call which is given up. -/
theorem log_cancel {t : Nat} {op : Op L V} (h : LogInv eqv v₀ s)
    (hl : s'.log = s.log ++ [.cancel (s.me t)]) (hseq : s'.seq = upd s.seq t (s.seq t + 1))
    (hpc : s'.pc = upd s.pc t .idle) (hv : s'.val = s.val) (h0 : phaseAt (s.pc t) = .invoked op) :
    LogInv eqv v₀ s' := by
  refine ⟨?_, ?_⟩
  · rw [hl, tbl_end hseq hpc]; exact .cancel h.1 (by rw [tbl_me, h0])
  · rw [hl, hv, lins_snoc_cancel]; exact h.2

/-- A call which takes effect and returns at once. -/
theorem log_lin_res {t : Nat} {op : Op L V} {r : Ret V} (h : LogInv eqv v₀ s)
    (hl : s'.log = s.log ++ [.lin (s.me t) op r] ++ [.res (s.me t) r]) (hseq : s'.seq = upd s.seq t (s.seq t + 1))
    (hpc : s'.pc = upd s.pc t .idle) (h0 : phaseAt (s.pc t) = .invoked op) (hst : Step eqv s.val op r s'.val) :
    LogInv eqv v₀ s' := by
  let m : St L V := { s with log := s.log ++ [.lin (s.me t) op r], pc := upd s.pc t (.used op r), val := s'.val }
  have hm : LogInv eqv v₀ m := log_lin h rfl rfl rfl h0 rfl hst
  exact log_res (t := t) (op := op) (r := r) hm (by rw [hl]; rfl) hseq (by rw [hpc]; exact (upd_upd _ _ _ _).symm) rfl
    (by simp [m, phaseAt])

theorem log_go {t : Nat} (hc : Core s) (h : LogInv eqv v₀ s) (hs : go eqv s t = some s') : LogInv eqv v₀ s' := by
  unfold go at hs
  split at hs <;> rename_i hpc
  case h_1 => cases hs
  case h_2 i | h_8 i j | h_9 i j =>
    simp only [Option.map_eq_some_iff] at hs
    obtain ⟨m, hm, rfl⟩ := hs
    obtain ⟨hq, hw, rfl⟩ := shared_some hm
    exact log_tau h rfl rfl rfl rfl (by rw [hpc]; rfl)
  case h_5 i v =>
    simp only [Option.map_eq_some_iff] at hs
    obtain ⟨m, hm, rfl⟩ := hs
    obtain ⟨hq, hw, hsh, rfl⟩ := exclusive_some hm
    exact log_tau h rfl rfl rfl rfl (by rw [hpc]; rfl)
  case h_14 i =>
    simp only [Option.map_eq_some_iff] at hs
    obtain ⟨m, hm, rfl⟩ := hs
    obtain ⟨hq, hw, rfl⟩ := shared_some hm
    exact log_lin_res h rfl rfl rfl (by rw [hpc]; rfl) .read
  case h_15 i =>
    simp only [Option.map_eq_some_iff] at hs
    obtain ⟨m, hm, rfl⟩ := hs
    obtain ⟨hq, hw, hsh, rfl⟩ := exclusive_some hm
    exact log_lin_res h rfl rfl rfl (by rw [hpc]; rfl) .write
  case h_3 i =>
    simp at hs; subst hs
    exact log_lin h rfl rfl rfl (by rw [hpc]; rfl) rfl .get
  case h_6 i v =>
    simp at hs; subst hs
    exact log_lin h rfl rfl rfl (by rw [hpc]; rfl) rfl .swap
  case h_11 i j x =>
    simp at hs; subst hs
    have := hc.mid t i j x hpc
    subst this
    exact log_lin h rfl rfl rfl (by rw [hpc]; rfl) rfl .eq
  case h_16 i =>
    simp at hs; subst hs
    exact log_lin h rfl rfl rfl (by rw [hpc]; rfl) rfl .deref
  case h_17 i v =>
    simp at hs; subst hs
    exact log_lin h rfl rfl rfl (by rw [hpc]; rfl) rfl .assign
  case h_10 i j | h_12 i j r =>
    simp at hs; subst hs
    exact log_tau h rfl rfl rfl rfl (by rw [hpc]; rfl)
  case h_4 i r | h_7 i v r | h_13 i j r | h_18 op r =>
    simp at hs; subst hs
    exact log_res h rfl rfl rfl rfl (by rw [hpc]; rfl)

theorem log_step {t : Nat} {a : Act L V} (hc : Core s) (h : LogInv eqv v₀ s) (hs : step eqv s t a = some s') :
    LogInv eqv v₀ s' := by
  cases a with
  | go => exact log_go hc h hs
  | call op =>
    simp only [step, invoke] at hs
    split at hs
    · rename_i hpc
      cases op <;> simp at hs
      case deref | assign =>
        obtain ⟨_, rfl⟩ := hs
        exact log_inv h rfl rfl rfl rfl hpc rfl
      all_goals
        subst hs
        exact log_inv h rfl rfl rfl rfl hpc rfl
    · cases hs
  | panic =>
    simp only [step, panics] at hs
    split at hs <;> rename_i hpc
    case h_5 => cases hs
    all_goals
      simp at hs; subst hs
      exact log_lin h rfl rfl rfl (by rw [hpc]; rfl) rfl (.panicked trivial)
  | cancel =>
    simp only [step, cancel] at hs
    split at hs <;> rename_i hpc
    case h_5 => cases hs
    all_goals
      simp at hs; subst hs
      exact log_cancel h rfl rfl rfl rfl (by rw [hpc]; rfl)
  | drop g =>
    simp only [step, dropGuard] at hs
    split at hs <;> rename_i hpc
    · split at hs <;> simp at hs
      subst hs
      refine log_tau (t := t) (c := .idle) h rfl rfl ?_ rfl (by rw [hpc])
      funext u; simp only [St.setLock, upd]; split
      · rename_i hu; rw [hu, hpc]
      · rfl
    · cases hs

theorem log_reach (h : Reach eqv dep v₀ s) : LogInv eqv v₀ s := by
  induction h with
  | init => exact log_init
  | step hr _ hs ih => exact log_step (core_reach hr) ih hs

/-! ## Waiting -/

/-- Locks are taken in the order `dep`. -/
structure Ord (dep : L → L → Prop) (s : St L V) : Prop where
  wait  : ∀ t j, wants (s.pc t) = some j → (∀ g ∈ s.held t, dep g.1 j) ∧ ∀ i ∈ temps (s.pc t), dep i j
  first : ∀ t i j, s.pc t = .eWait1 i j → (∀ g ∈ s.held t, dep g.1 j) ∧ dep i j

omit [DecidableEq L] in
theorem ord_init : Ord dep (init v₀) := by
  constructor <;> simp [init, wants]

omit [DecidableEq L] in
/-- A move of thread `t` which changes neither the guards kept nor what is waited for, or waits for nothing. -/
theorem ord_move {t : Nat} {c : Pc L V} (h : Ord dep s) (hh : s'.held = s.held) (hpc : s'.pc = upd s.pc t c)
    (h1 : ∀ j, wants c = some j → (∀ g ∈ s.held t, dep g.1 j) ∧ ∀ i ∈ temps c, dep i j)
    (h2 : ∀ i j, c = .eWait1 i j → (∀ g ∈ s.held t, dep g.1 j) ∧ dep i j) : Ord dep s' := by
  constructor
  · intro u j
    rw [hh, hpc]
    by_cases hu : u = t
    · subst hu; rw [upd_same]; exact h1 j
    · rw [upd_other _ _ hu]; exact h.wait u j
  · intro u i j
    rw [hh, hpc]
    by_cases hu : u = t
    · subst hu; rw [upd_same]; exact h2 i j
    · rw [upd_other _ _ hu]; exact h.first u i j

omit [DecidableEq L] in
/-- A move of thread `t` out of a call; its guards do not matter then. -/
theorem ord_idle {t : Nat} (h : Ord dep s) (hh : ∀ u, u ≠ t → s'.held u = s.held u)
    (hpc : s'.pc = upd s.pc t .idle) : Ord dep s' := by
  constructor
  · intro u j
    rw [hpc]
    by_cases hu : u = t
    · subst hu; rw [upd_same]; simp [wants]
    · rw [upd_other _ _ hu, hh u hu]; exact h.wait u j
  · intro u i j
    rw [hpc]
    by_cases hu : u = t
    · subst hu; rw [upd_same]; simp
    · rw [upd_other _ _ hu, hh u hu]; exact h.first u i j

theorem ord_step {t : Nat} {a : Act L V} (h : Ord dep s) (ha : Allowed dep s t a) (hs : step eqv s t a = some s') :
    Ord dep s' := by
  cases a with
  | call op =>
    simp only [step, invoke] at hs
    split at hs
    · rename_i hpc
      cases op <;> simp at hs
      case deref | assign =>
        obtain ⟨_, rfl⟩ := hs
        exact ord_move h rfl rfl (by simp [wants]) (by simp)
      case eq i j =>
        subst hs
        obtain ⟨h1, h2⟩ := ha
        refine ord_move h rfl rfl ?_ ?_
        · intro k hk; simp [wants] at hk; subst hk
          exact ⟨fun g hg => (h1 g hg).1, by simp [temps]⟩
        · intro i' j' hk; simp at hk; obtain ⟨rfl, rfl⟩ := hk
          exact ⟨fun g hg => (h1 g hg).2, h2⟩
      all_goals
        subst hs
        refine ord_move h rfl rfl ?_ (by simp)
        intro k hk; simp [wants] at hk; subst hk
        exact ⟨ha, by simp [temps]⟩
    · cases hs
  | go =>
    simp only [step, go] at hs
    split at hs <;> rename_i hpc
    case h_1 => cases hs
    case h_2 i | h_9 i j =>
      simp only [Option.map_eq_some_iff] at hs
      obtain ⟨m, hm, rfl⟩ := hs
      obtain ⟨hq, hw, rfl⟩ := shared_some hm
      exact ord_move h rfl rfl (by simp [wants]) (by simp)
    case h_8 i j =>
      simp only [Option.map_eq_some_iff] at hs
      obtain ⟨m, hm, rfl⟩ := hs
      obtain ⟨hq, hw, rfl⟩ := shared_some hm
      obtain ⟨h1, h2⟩ := h.first t i j hpc
      refine ord_move h rfl rfl ?_ (by simp)
      intro k hk; simp [wants] at hk; subst hk
      exact ⟨h1, by simpa [temps] using h2⟩
    case h_5 i v =>
      simp only [Option.map_eq_some_iff] at hs
      obtain ⟨m, hm, rfl⟩ := hs
      obtain ⟨hq, hw, hsh, rfl⟩ := exclusive_some hm
      exact ord_move h rfl rfl (by simp [wants]) (by simp)
    case h_14 i =>
      simp only [Option.map_eq_some_iff] at hs
      obtain ⟨m, hm, rfl⟩ := hs
      obtain ⟨hq, hw, rfl⟩ := shared_some hm
      exact ord_idle (t := t) h (fun u hu => upd_other _ _ hu) rfl
    case h_15 i =>
      simp only [Option.map_eq_some_iff] at hs
      obtain ⟨m, hm, rfl⟩ := hs
      obtain ⟨hq, hw, hsh, rfl⟩ := exclusive_some hm
      exact ord_idle (t := t) h (fun u hu => upd_other _ _ hu) rfl
    case h_4 i r | h_7 i v r | h_13 i j r | h_18 op r =>
      simp at hs; subst hs
      exact ord_idle (t := t) h (fun _ _ => rfl) rfl
    all_goals
      simp at hs; subst hs
      exact ord_move h rfl rfl (by simp [wants]) (by simp)
  | panic =>
    simp only [step, panics] at hs
    split at hs <;> rename_i hpc
    case h_5 => cases hs
    all_goals
      simp at hs; subst hs
      exact ord_move h rfl rfl (by simp [wants]) (by simp)
  | cancel =>
    simp only [step, cancel] at hs
    split at hs <;> rename_i hpc
    case h_5 => cases hs
    all_goals
      simp at hs; subst hs
      exact ord_idle (t := t) h (fun _ _ => rfl) rfl
  | drop g =>
    simp only [step, dropGuard] at hs
    split at hs <;> rename_i hpc
    · split at hs <;> simp at hs
      subst hs
      refine ord_idle (t := t) h (fun u hu => upd_other _ _ hu) ?_
      funext u; simp only [St.setLock, upd]; split
      · rename_i hu; rw [hu, hpc]
      · rfl
    · cases hs

theorem ord_reach (h : Reach eqv dep v₀ s) : Ord dep s := by
  induction h with
  | init => exact ord_init
  | step _ ha hs ih => exact ord_step ih ha hs

/-- Task `t` has a guard of container `i`, kept or in its running call. -/
def Has (s : St L V) (t : Nat) (i : L) : Prop :=
  (i, true) ∈ s.held t ∨ (i, false) ∈ s.held t ∨ i ∈ temps (s.pc t) ∨ owns (s.pc t) = some i

theorem has_owner (hc : Core s) {i : L} {u : Nat} (h : (s.lock i).wr = some u) : Has s u i := by
  have h1 := hc.wr i u
  rw [if_pos h] at h1
  by_cases hh : (i, true) ∈ s.held u
  · exact .inl hh
  · rw [List.count_eq_zero.2 hh] at h1
    by_cases ho : owns (s.pc u) = some i
    · exact .inr (.inr (.inr ho))
    · simp [ho] at h1

theorem has_reader (hc : Core s) {i : L} {u : Nat} (h : u ∈ (s.lock i).shared) : Has s u i := by
  have h1 := hc.sh i u
  have h2 := List.count_pos_iff.2 h
  by_cases hh : (i, false) ∈ s.held u
  · exact .inr (.inl hh)
  · rw [List.count_eq_zero.2 hh] at h1
    exact .inr (.inr (.inl (List.count_pos_iff.1 (by omega))))

omit [DecidableEq L] in
theorem has_inside {i : L} {u : Nat} (h : Has s u i) : Inside s u := by
  rcases h with h | h | h | h
  · exact .inr (List.ne_nil_of_mem h)
  · exact .inr (List.ne_nil_of_mem h)
  · left; intro hp; rw [hp] at h; simp [temps] at h
  · left; intro hp; rw [hp] at h; simp [owns] at h

omit [DecidableEq L] in
theorem has_wants (ho : Ord dep s) {i k : L} {u : Nat} (h : Has s u i) (hk : wants (s.pc u) = some k) : dep i k := by
  have h1 := ho.wait u k hk
  rcases h with h | h | h | h
  · exact h1.1 _ h
  · exact h1.1 _ h
  · exact h1.2 _ h
  · cases hp : s.pc u <;> rw [hp] at h hk <;> simp [owns, wants] at h hk

theorem queued (hc : Core s) {i : L} {t : Nat} : t ∈ s.queue i ↔ wants (s.pc t) = some i := by
  have := hc.que i t
  constructor
  · intro h
    have h2 := List.count_pos_iff.2 h
    apply Classical.byContradiction
    intro hn; rw [if_neg hn] at this; omega
  · intro h
    rw [if_pos h] at this
    exact List.count_pos_iff.1 (by omega)

/-- A stuck task waits for a container: behind another one, for the exclusive owner, or for a reader. -/
theorem stuck_cases (hc : Core s) {t : Nat} (h : Stuck eqv s t) :
    ∃ i, wants (s.pc t) = some i ∧
      ((∃ u rest, s.queue i = u :: rest ∧ t ∈ rest) ∨
       ((s.queue i).head? = some t ∧ ∃ u, (s.lock i).wr = some u) ∨
       ((s.queue i).head? = some t ∧ wantsAlone (s.pc t) = true ∧ ∃ u, u ∈ (s.lock i).shared)) := by
  have split_queue : ∀ i, wants (s.pc t) = some i →
      (∃ u rest, s.queue i = u :: rest ∧ t ∈ rest) ∨ (s.queue i).head? = some t := by
    intro i hi
    have hm := (queued hc).2 hi
    cases hq : s.queue i with
    | nil => rw [hq] at hm; cases hm
    | cons u rest =>
      rw [hq] at hm
      rcases List.mem_cons.1 hm with rfl | hm
      · exact .inr rfl
      · exact .inl ⟨u, rest, rfl, hm⟩
  have shr : ∀ i, wants (s.pc t) = some i → s.shared i t = none →
      (∃ u rest, s.queue i = u :: rest ∧ t ∈ rest) ∨ ((s.queue i).head? = some t ∧ ∃ u, (s.lock i).wr = some u) := by
    intro i hi hn
    rcases split_queue i hi with h1 | h1
    · exact .inl h1
    · refine .inr ⟨h1, ?_⟩
      cases hw : (s.lock i).wr with
      | some u => exact ⟨u, rfl⟩
      | none => simp [St.shared, h1, ALock.tryShared, hw] at hn
  have exc : ∀ i, wants (s.pc t) = some i → s.exclusive i t = none →
      (∃ u rest, s.queue i = u :: rest ∧ t ∈ rest) ∨ ((s.queue i).head? = some t ∧ ∃ u, (s.lock i).wr = some u) ∨
      ((s.queue i).head? = some t ∧ ∃ u, u ∈ (s.lock i).shared) := by
    intro i hi hn
    rcases split_queue i hi with h1 | h1
    · exact .inl h1
    · refine .inr ?_
      cases hw : (s.lock i).wr with
      | some u => exact .inl ⟨h1, u, rfl⟩
      | none =>
        cases hsh : (s.lock i).shared with
        | nil => simp [St.exclusive, h1, ALock.tryWrite, hw, hsh] at hn
        | cons u _ => exact .inr ⟨h1, u, by simp⟩
  obtain ⟨h1, h2⟩ := h
  unfold go at h2
  split at h2 <;> rename_i hpc
  case h_1 => exact absurd hpc h1
  case h_2 i | h_8 i j | h_14 i =>
    have hw : wants (s.pc t) = some i := by rw [hpc]; rfl
    rcases shr i hw (by simpa using h2) with h3 | h3
    · exact ⟨i, hw, .inl h3⟩
    · exact ⟨i, hw, .inr (.inl h3)⟩
  case h_9 i j =>
    have hw : wants (s.pc t) = some j := by rw [hpc]; rfl
    rcases shr j hw (by simpa using h2) with h3 | h3
    · exact ⟨j, hw, .inl h3⟩
    · exact ⟨j, hw, .inr (.inl h3)⟩
  case h_5 i v | h_15 i =>
    have hw : wants (s.pc t) = some i := by rw [hpc]; rfl
    rcases exc i hw (by simpa using h2) with h3 | h3 | h3
    · exact ⟨i, hw, .inl h3⟩
    · exact ⟨i, hw, .inr (.inl h3)⟩
    · exact ⟨i, hw, .inr (.inr ⟨h3.1, by rw [hpc]; rfl, h3.2⟩)⟩
  all_goals simp at h2

theorem idle_not_stuck {t : Nat} (h : s.pc t = .idle) : ¬ Stuck eqv s t := fun hs => hs.1 h

/-- From every stuck task a chain of waiting leads to one which is inside and can move. -/
theorem chain (hwf : WellFounded fun j i => dep i j ∧ ∃ u, wants (s.pc u) = some j) (hc : Core s) (ho : Ord dep s) :
    ∀ i t, Stuck eqv s t → wants (s.pc t) = some i →
      ∃ u, Relation.TransGen (WaitsFor s) t u ∧ Inside s u ∧ ¬ Stuck eqv s u := by
  intro i
  induction i using hwf.induction with
  | _ i ih =>
  -- somebody who has a guard of the container, and is stuck, waits for something later
  have later : ∀ t u, WaitsFor s t u → Has s u i →
      ∃ u', Relation.TransGen (WaitsFor s) t u' ∧ Inside s u' ∧ ¬ Stuck eqv s u' := by
    intro t u hw hh
    by_cases hs : Stuck eqv s u
    · obtain ⟨k, hk, _⟩ := stuck_cases hc hs
      obtain ⟨u', h3, h4⟩ := ih k ⟨has_wants ho hh hk, u, hk⟩ u hs hk
      exact ⟨u', .trans (.single hw) h3, h4⟩
    · exact ⟨u, .single hw, has_inside hh, hs⟩
  -- the first of the queue
  have front : ∀ t, Stuck eqv s t → wants (s.pc t) = some i → (s.queue i).head? = some t →
      ∃ u, Relation.TransGen (WaitsFor s) t u ∧ Inside s u ∧ ¬ Stuck eqv s u := by
    intro t ht hwt hq
    obtain ⟨k, hk, h⟩ := stuck_cases hc ht
    rw [hwt] at hk; cases hk
    rcases h with ⟨u, rest, h1, h2⟩ | ⟨_, u, hu⟩ | ⟨_, h1, u, hu⟩
    · rw [h1] at hq
      simp only [List.head?_cons, Option.some.injEq] at hq
      subst hq
      have := hc.que i u
      rw [if_pos hwt, h1, List.count_cons_self] at this
      have := List.count_pos_iff.2 h2
      omega
    · exact later t u (.owner hwt hq hu) (has_owner hc hu)
    · exact later t u (.reader hwt hq h1 hu) (has_reader hc hu)
  intro t ht hwt
  obtain ⟨k, hk, h⟩ := stuck_cases hc ht
  rw [hwt] at hk; cases hk
  rcases h with ⟨u, rest, h1, h2⟩ | ⟨hq, _⟩ | ⟨hq, _⟩
  · have hw : WaitsFor s t u := .before hwt h1 h2
    have hu : wants (s.pc u) = some i := (queued hc).1 (by rw [h1]; exact .head _)
    by_cases hs : Stuck eqv s u
    · obtain ⟨u', h3, h4⟩ := front u hs hu (by rw [h1]; rfl)
      exact ⟨u', .trans (.single hw) h3, h4⟩
    · exact ⟨u, .single hw, .inl (by intro hp; rw [hp] at hu; cases hu), hs⟩
  · exact front t ht hwt hq
  · exact front t ht hwt hq

/-! ## Counting steps -/

set_option linter.unusedSimpArgs false

/-- Steps left in the running call, counting a guard it will give. -/
def left : Pc L V → Nat
  | .idle => 0
  | .gWait _ => 3 | .gHave _ => 2 | .gDone _ _ => 1
  | .xWait _ _ => 3 | .xHave _ _ => 2 | .xDone _ _ _ => 1
  | .eWait1 _ _ => 6 | .eWait2 _ _ => 5 | .eHave _ _ => 4 | .eMid _ _ _ => 3 | .eDone _ _ _ => 2 | .eDrop _ _ _ => 1
  | .rWait _ => 2 | .wWait _ => 2
  | .use _ => 2 | .asg _ _ => 2 | .used _ _ => 1

omit [DecidableEq L] in
theorem left_le (c : Pc L V) : left c ≤ 6 := by cases c <;> simp [left]

/-- Steps left for a task. -/
def load (s : St L V) (t : Nat) : Nat := left (s.pc t) + (s.held t).length

theorem load_step {t : Nat} {a : Act L V} (ha : quiet a = true) (hs : step eqv s t a = some s') :
    load s' t < load s t ∧ ∀ u, u ≠ t → s'.pc u = s.pc u ∧ s'.held u = s.held u := by
  cases a with
  | call op => cases ha
  | go =>
    simp only [step, go] at hs
    split at hs <;> rename_i hpc
    case h_1 => cases hs
    case h_2 i | h_8 i j | h_9 i j | h_14 i =>
      simp only [Option.map_eq_some_iff] at hs
      obtain ⟨m, hm, rfl⟩ := hs
      obtain ⟨hq, hw, rfl⟩ := shared_some hm
      refine ⟨?_, fun u hu => ?_⟩
      · simp [load, hpc, left, St.enter, St.to, St.keep, St.ret, St.lin] <;> omega
      · simp [St.enter, St.to, St.keep, St.ret, St.lin, upd, hu]
    case h_5 i v | h_15 i =>
      simp only [Option.map_eq_some_iff] at hs
      obtain ⟨m, hm, rfl⟩ := hs
      obtain ⟨hq, hw, hsh, rfl⟩ := exclusive_some hm
      refine ⟨?_, fun u hu => ?_⟩
      · simp [load, hpc, left, St.to, St.keep, St.ret, St.lin] <;> omega
      · simp [St.to, St.keep, St.ret, St.lin, upd, hu]
    all_goals
      simp at hs; subst hs
      refine ⟨?_, fun u hu => ?_⟩
      · simp [load, hpc, left, St.setLock, St.to, St.keep, St.ret, St.lin] <;> omega
      · simp [St.setLock, St.to, St.keep, St.ret, St.lin, upd, hu]
  | panic =>
    simp only [step, panics] at hs
    split at hs <;> rename_i hpc
    case h_5 => cases hs
    all_goals
      simp at hs; subst hs
      refine ⟨?_, fun u hu => ?_⟩
      · simp [load, hpc, left, St.setLock, St.to, St.keep, St.ret, St.lin] <;> omega
      · simp [St.setLock, St.to, St.keep, St.ret, St.lin, upd, hu]
  | cancel =>
    simp only [step, cancel] at hs
    split at hs <;> rename_i hpc
    case h_5 => cases hs
    all_goals
      simp at hs; subst hs
      refine ⟨?_, fun u hu => ?_⟩
      · simp [load, hpc, left, St.leave, St.quit] <;> omega
      · simp [St.leave, St.quit, upd, hu]
  | drop g =>
    simp only [step, dropGuard] at hs
    split at hs <;> rename_i hpc
    · split at hs <;> simp at hs
      rename_i hg
      subst hs
      refine ⟨?_, fun u hu => ?_⟩
      · have := List.length_erase_of_mem hg
        have := List.length_pos_of_mem hg
        simp [load, hpc, left, St.setLock]; omega
      · simp [St.setLock, upd, hu]
    · cases hs

end Verif.Proof.AsyncLocks
