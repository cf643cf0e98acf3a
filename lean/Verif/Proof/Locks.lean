import Verif.Model.Locks
import Verif.Proof.LogLin
/-!
# Invariants of lock-protected fields (helper lemmas)
-/

namespace Verif.Proof.Locks
open Verif.Spec Verif.Spec.Memory Verif.Model Verif.Model.Locks

variable {L V : Type} [DecidableEq L] {eqv : V → V → Bool} {dep : L → L → Prop} {v₀ : L → V} {s s' : St L V}

/-- Shared guards which the running call holds. -/
def temps : Pc L V → List L
  | .gHave i | .gDone i _ | .eWait2 i _ | .eDrop i _ _ => [i]
  | .eHave i j | .eMid i j _ | .eDone i j _ => [i, j]
  | _ => []

/-- The container whose exclusive bit the running call has claimed. -/
def claims : Pc L V → Option L
  | .xDrain i _ | .xHave i _ | .xDone i _ _ | .wDrain i => some i
  | _ => none

/-- Locks agree with guards and program points. -/
structure Core (s : St L V) : Prop where
  upg  : ∀ i, (s.lock i).upg = none
  sh   : ∀ i t, (s.lock i).shared.count t = (s.held t).count (i, false) + (temps (s.pc t)).count i
  wr   : ∀ i t, (s.held t).count (i, true) + (if claims (s.pc t) = some i then 1 else 0) =
    if (s.lock i).wr = some t then 1 else 0
  full : ∀ i t, (s.lock i).wr = some t → draining (s.pc t) ≠ some i → (s.lock i).shared = []
  mid  : ∀ t i j x, s.pc t = .eMid i j x → s.val i = x
  asg  : ∀ t i v, s.pc t = .asg i v → (i, true) ∈ s.held t

theorem core_init : Core (init v₀ : St L V) := by
  constructor <;> simp [init, Lock.free, temps, claims]

/-- A lock with an exclusive owner who got through has no readers: the content seen by others does not change. -/
theorem Core.no_reader (h : Core s) {i : L} {t u : Nat} (hw : (s.lock i).wr = some t)
    (hd : draining (s.pc t) ≠ some i) : (temps (s.pc u)).count i = 0 ∧ (s.held u).count (i, false) = 0 := by
  have h1 := h.full i t hw hd
  have h2 := h.sh i u
  rw [h1] at h2
  simp only [List.count_nil] at h2
  omega

/-- Check the six parts of the invariant after a change of thread `t` on container `i`. -/
local macro "core_parts" h:ident : tactic => `(tactic| (
  constructor
  · intro k; have := ($h).upg k
    simp [St.setLock, St.to, St.lin, St.ret, St.keep, St.begin, upd, Lock.dropShared, Lock.dropWrite]; try grind
  · intro k u; have := ($h).sh k u
    simp [St.setLock, St.to, St.lin, St.ret, St.keep, St.begin, upd, Lock.dropShared, Lock.dropWrite]; grind [temps]
  · intro k u; have := ($h).wr k u
    simp [St.setLock, St.to, St.lin, St.ret, St.keep, St.begin, upd, Lock.dropShared, Lock.dropWrite]; grind [claims]
  · intro k u; have := ($h).full k u
    simp [St.setLock, St.to, St.lin, St.ret, St.keep, St.begin, upd, Lock.dropShared, Lock.dropWrite]; grind [draining]
  · intro u k j x; have := ($h).mid u k j x
    simp [St.setLock, St.to, St.lin, St.ret, St.keep, St.begin, upd, Lock.dropShared, Lock.dropWrite]; try grind
  · intro u k v; have := ($h).asg u k v
    simp [St.setLock, St.to, St.lin, St.ret, St.keep, St.begin, upd, Lock.dropShared, Lock.dropWrite]; try grind))

theorem core_go {t : Nat} (h : Core s) (hs : go eqv s t = some s') : Core s' := by
  unfold go at hs
  split at hs <;> rename_i hpc
  case h_1 => cases hs
  case h_2 i | h_9 i j | h_10 i j | h_15 i =>
    simp only [Lock.tryShared, Option.map_eq_some_iff] at hs
    obtain ⟨l, hl, rfl⟩ := hs
    split at hl <;> simp at hl
    subst hl
    core_parts h
  case h_5 i v | h_16 i =>
    simp only [Lock.claim, Option.map_eq_some_iff] at hs
    obtain ⟨l, hl, rfl⟩ := hs
    split at hl <;> simp at hl
    subst hl
    core_parts h
  case h_3 i | h_11 i j | h_12 i j x | h_18 i | h_20 =>
    simp at hs; subst hs
    core_parts h
  case h_4 i r | h_13 i j r | h_14 i j r =>
    simp at hs; subst hs
    core_parts h
  case h_8 i v r =>
    simp at hs; subst hs
    have hw := h.wr i t
    core_parts h
  case h_6 i v | h_17 i =>
    split at hs <;> simp at hs
    rename_i hd
    subst hs
    have hd' : (s.lock i).shared = [] := by simpa [Lock.drained] using hd
    have hw := h.wr i t
    core_parts h
  case h_7 i v =>
    simp at hs; subst hs
    have hw : (s.lock i).wr = some t := by have := h.wr i t; grind [claims]
    have hn : ∀ u j x, s.pc u ≠ .eMid i j x := by
      intro u j x hu
      have := (h.no_reader (u := u) hw (by simp [hpc, draining])).1
      simp [hu, temps] at this
    core_parts h
  case h_19 i v =>
    simp at hs; subst hs
    have hw : (s.lock i).wr = some t := by have := h.wr i t; have := h.asg t i v hpc; grind [claims]
    have hn : ∀ u j x, s.pc u ≠ .eMid i j x := by
      intro u j x hu
      have := (h.no_reader (u := u) hw (by simp [hpc, draining])).1
      simp [hu, temps] at this
    core_parts h

theorem core_invoke {t : Nat} {op : Op L V} (h : Core s) (hs : invoke s t op = some s') : Core s' := by
  unfold invoke at hs
  split at hs
  · rename_i hpc
    cases op <;> simp at hs
    case deref | assign =>
      obtain ⟨h1, rfl⟩ := hs
      core_parts h
    all_goals
      subst hs
      core_parts h
  · cases hs

theorem core_panics {t : Nat} (h : Core s) (hs : panics s t = some s') : Core s' := by
  unfold panics at hs
  split at hs <;> rename_i hpc
  · simp at hs; subst hs; core_parts h
  · simp at hs; subst hs; core_parts h
  · simp at hs; subst hs; core_parts h
  · simp at hs; subst hs; core_parts h
  · cases hs

theorem core_drop {t : Nat} {g : L × Bool} (h : Core s) (hs : dropGuard s t g = some s') : Core s' := by
  unfold dropGuard at hs
  split at hs <;> rename_i hpc
  · split at hs <;> simp at hs
    rename_i hg
    subst hs
    obtain ⟨i, m⟩ := g
    have hw := h.wr i t
    cases m <;> simp only [Bool.false_eq_true, if_true, if_false] <;> core_parts h
  · cases hs

theorem core_step {t : Nat} {a : Act L V} (h : Core s) (hs : step eqv s t a = some s') : Core s' := by
  cases a with
  | call op => exact core_invoke h hs
  | go => exact core_go h hs
  | panic => exact core_panics h hs
  | drop g => exact core_drop h hs

theorem core_reach (h : Reach eqv dep v₀ s) : Core s := by
  induction h with
  | init => exact core_init
  | step _ _ hs ih => exact core_step ih hs

/-! ## The log -/

/-- Progress of the current call of a thread. -/
def phaseAt : Pc L V → Phase (Op L V) (Ret V)
  | .idle => .fresh
  | .gWait i | .gHave i => .invoked (.get i)
  | .gDone i r => .linearized (.get i) r
  | .xWait i v | .xDrain i v | .xHave i v => .invoked (.swap i v)
  | .xDone i v r => .linearized (.swap i v) r
  | .eWait1 i j | .eWait2 i j | .eHave i j | .eMid i j _ => .invoked (.eq i j)
  | .eDone i j r | .eDrop i j r => .linearized (.eq i j) r
  | .rWait i => .invoked (.read i)
  | .wWait i | .wDrain i => .invoked (.write i)
  | .use i => .invoked (.deref i)
  | .asg i v => .invoked (.assign i v)
  | .used op r => .linearized op r

/-- Progress of every call. -/
def tbl (s : St L V) : CallId → Phase (Op L V) (Ret V) := fun c =>
  if c.seq < s.seq c.proc then .done
  else if c.seq = s.seq c.proc then phaseAt (s.pc c.proc)
  else .fresh

omit [DecidableEq L] in
@[simp] theorem tbl_me (s : St L V) (t : Nat) : tbl s (s.me t) = phaseAt (s.pc t) := by simp [tbl, St.me]

omit [DecidableEq L] in
theorem tbl_within {t : Nat} {c : Pc L V} (hseq : s'.seq = s.seq) (hpc : s'.pc = upd s.pc t c) :
    tbl s' = upd (tbl s) (s.me t) (phaseAt c) := by
  funext ⟨q, n⟩
  simp only [tbl, upd, St.me, hseq, hpc, CallId.mk.injEq]
  grind

omit [DecidableEq L] in
theorem tbl_same {t : Nat} {c : Pc L V} (hseq : s'.seq = s.seq) (hpc : s'.pc = upd s.pc t c)
    (hp : phaseAt c = phaseAt (s.pc t)) : tbl s' = tbl s := by
  rw [tbl_within hseq hpc, hp]
  funext i
  by_cases hi : i = s.me t
  · subst hi; simp
  · rw [upd_other _ _ hi]

omit [DecidableEq L] in
theorem tbl_end {t : Nat} (hseq : s'.seq = upd s.seq t (s.seq t + 1)) (hpc : s'.pc = upd s.pc t .idle) :
    tbl s' = upd (tbl s) (s.me t) .done := by
  funext ⟨q, n⟩
  simp only [tbl, upd, St.me, hseq, hpc, CallId.mk.injEq]
  grind [phaseAt]

/-- The log: calls in order, and the calls which took effect lead from the initial contents to the present ones. -/
def LogInv (eqv : V → V → Bool) (v₀ : L → V) (s : St L V) : Prop :=
  Disc s.log (tbl s) ∧ Legal (Step eqv) v₀ (lins s.log) s.val

theorem log_init : LogInv eqv v₀ (init v₀) := by
  refine ⟨?_, .nil⟩
  have : tbl (init v₀ : St L V) = fun _ => .fresh := by
    funext i; simp only [tbl, init, phaseAt]; grind
  rw [this]; exact .nil

theorem log_tau {t : Nat} {c : Pc L V} (h : LogInv eqv v₀ s) (hl : s'.log = s.log) (hseq : s'.seq = s.seq)
    (hpc : s'.pc = upd s.pc t c) (hv : s'.val = s.val) (hp : phaseAt c = phaseAt (s.pc t)) : LogInv eqv v₀ s' := by
  refine ⟨?_, ?_⟩
  · rw [hl, tbl_same hseq hpc hp]; exact h.1
  · rw [hl, hv]; exact h.2

theorem log_inv {t : Nat} {c : Pc L V} {op : Op L V} (h : LogInv eqv v₀ s) (hl : s'.log = s.log ++ [.inv (s.me t) op])
    (hseq : s'.seq = s.seq) (hpc : s'.pc = upd s.pc t c) (hv : s'.val = s.val) (h0 : s.pc t = .idle)
    (h1 : phaseAt c = .invoked op) : LogInv eqv v₀ s' := by
  refine ⟨?_, ?_⟩
  · rw [hl, tbl_within hseq hpc, h1]; exact .inv h.1 (by rw [tbl_me, h0]; rfl)
  · rw [hl, hv, lins_snoc_inv]; exact h.2

theorem log_lin {t : Nat} {c : Pc L V} {op : Op L V} {r : Ret V} (h : LogInv eqv v₀ s)
    (hl : s'.log = s.log ++ [.lin (s.me t) op r]) (hseq : s'.seq = s.seq) (hpc : s'.pc = upd s.pc t c)
    (h0 : phaseAt (s.pc t) = .invoked op) (h1 : phaseAt c = .linearized op r) (hst : Step eqv s.val op r s'.val) :
    LogInv eqv v₀ s' := by
  refine ⟨?_, ?_⟩
  · rw [hl, tbl_within hseq hpc, h1]; exact .lin h.1 (by rw [tbl_me, h0])
  · rw [hl, lins_snoc_lin]; exact Legal.snoc h.2 hst

theorem log_res {t : Nat} {op : Op L V} {r : Ret V} (h : LogInv eqv v₀ s)
    (hl : s'.log = s.log ++ [.res (s.me t) r]) (hseq : s'.seq = upd s.seq t (s.seq t + 1))
    (hpc : s'.pc = upd s.pc t .idle) (hv : s'.val = s.val) (h0 : phaseAt (s.pc t) = .linearized op r) :
    LogInv eqv v₀ s' := by
  refine ⟨?_, ?_⟩
  · rw [hl, tbl_end hseq hpc]; exact .res h.1 (by rw [tbl_me, h0])
  · rw [hl, hv, lins_snoc_res]; exact h.2

omit [DecidableEq L] in
theorem upd_upd {A B : Type} [DecidableEq A] (f : A → B) (i : A) (a b : B) : upd (upd f i a) i b = upd f i b := by
  funext j; simp only [upd]; split <;> rfl

/-- A call which takes effect and returns at once. -/
theorem log_lin_res {t : Nat} {op : Op L V} {r : Ret V} (h : LogInv eqv v₀ s)
    (hl : s'.log = s.log ++ [.lin (s.me t) op r] ++ [.res (s.me t) r]) (hseq : s'.seq = upd s.seq t (s.seq t + 1))
    (hpc : s'.pc = upd s.pc t .idle) (h0 : phaseAt (s.pc t) = .invoked op) (hst : Step eqv s.val op r s'.val) :
    LogInv eqv v₀ s' := by
  let m : St L V := { s with log := s.log ++ [.lin (s.me t) op r], pc := upd s.pc t (.used op r), val := s'.val }
  have hm : LogInv eqv v₀ m := log_lin h rfl rfl rfl h0 rfl hst
  exact log_res (t := t) (op := op) (r := r) hm (by rw [hl]; rfl) hseq (by rw [hpc]; exact (upd_upd _ _ _ _).symm) rfl
    (by simp [m, phaseAt])

theorem log_go {t : Nat} (hc : Core s) (h : LogInv eqv v₀ s) (hs : go eqv s t = some s') : LogInv eqv v₀ s' := by
  unfold go at hs
  split at hs <;> rename_i hpc
  case h_1 => cases hs
  case h_2 i | h_9 i j | h_10 i j =>
    simp only [Option.map_eq_some_iff] at hs
    obtain ⟨l, _, rfl⟩ := hs
    exact log_tau h rfl rfl rfl rfl (by rw [hpc]; rfl)
  case h_5 i v | h_16 i =>
    simp only [Option.map_eq_some_iff] at hs
    obtain ⟨l, _, rfl⟩ := hs
    exact log_tau h rfl rfl rfl rfl (by rw [hpc]; rfl)
  case h_15 i =>
    simp only [Option.map_eq_some_iff] at hs
    obtain ⟨l, _, rfl⟩ := hs
    exact log_lin_res h rfl rfl rfl (by rw [hpc]; rfl) .read
  case h_17 i =>
    split at hs <;> simp at hs
    subst hs
    exact log_lin_res h rfl rfl rfl (by rw [hpc]; rfl) .write
  case h_6 i v =>
    split at hs <;> simp at hs
    subst hs
    exact log_tau h rfl rfl rfl rfl (by rw [hpc]; rfl)
  case h_3 i =>
    simp at hs; subst hs
    exact log_lin h rfl rfl rfl (by rw [hpc]; rfl) rfl .get
  case h_7 i v =>
    simp at hs; subst hs
    exact log_lin h rfl rfl rfl (by rw [hpc]; rfl) rfl .swap
  case h_12 i j x =>
    simp at hs; subst hs
    have := hc.mid t i j x hpc
    subst this
    exact log_lin h rfl rfl rfl (by rw [hpc]; rfl) rfl .eq
  case h_18 i =>
    simp at hs; subst hs
    exact log_lin h rfl rfl rfl (by rw [hpc]; rfl) rfl .deref
  case h_19 i v =>
    simp at hs; subst hs
    exact log_lin h rfl rfl rfl (by rw [hpc]; rfl) rfl .assign
  case h_11 i j | h_13 i j r =>
    simp at hs; subst hs
    exact log_tau h rfl rfl rfl rfl (by rw [hpc]; rfl)
  case h_4 i r | h_8 i v r | h_14 i j r | h_20 op r =>
    simp at hs; subst hs
    exact log_res h rfl rfl rfl rfl (by rw [hpc]; rfl)

theorem log_step {t : Nat} {a : Act L V} (hc : Core s) (h : LogInv eqv v₀ s) (hs : step eqv s t a = some s') :
    LogInv eqv v₀ s' := by
  cases a with
  | go => exact log_go hc h hs
  | call op =>
    simp only [step, invoke] at hs
    split at hs
    · rename_i hpc
      cases op <;> simp at hs
      case deref | assign =>
        obtain ⟨_, rfl⟩ := hs
        exact log_inv h rfl rfl rfl rfl hpc rfl
      all_goals
        subst hs
        exact log_inv h rfl rfl rfl rfl hpc rfl
    · cases hs
  | panic =>
    simp only [step, panics] at hs
    split at hs <;> rename_i hpc
    case h_5 => cases hs
    all_goals
      simp at hs; subst hs
      exact log_lin h rfl rfl rfl (by rw [hpc]; rfl) rfl (.panicked trivial)
  | drop g =>
    simp only [step, dropGuard] at hs
    split at hs <;> rename_i hpc
    · split at hs <;> simp at hs
      subst hs
      refine log_tau (t := t) (c := .idle) h rfl rfl ?_ rfl (by rw [hpc])
      funext u; simp only [St.setLock, upd]; split
      · rename_i hu; rw [hu, hpc]
      · rfl
    · cases hs

theorem log_reach (h : Reach eqv dep v₀ s) : LogInv eqv v₀ s := by
  induction h with
  | init => exact log_init
  | step hr _ hs ih => exact log_step (core_reach hr) ih hs

/-! ## Waiting -/

/-- Locks are taken in the order `dep`. -/
structure Ord (dep : L → L → Prop) (s : St L V) : Prop where
  wait  : ∀ t j, wants (s.pc t) = some j → (∀ g ∈ s.held t, dep g.1 j) ∧ ∀ i ∈ temps (s.pc t), dep i j
  first : ∀ t i j, s.pc t = .eWait1 i j → (∀ g ∈ s.held t, dep g.1 j) ∧ dep i j

omit [DecidableEq L] in
theorem ord_init : Ord dep (init v₀) := by
  constructor <;> simp [init, wants]

omit [DecidableEq L] in
/-- A move of thread `t` which changes neither the guards kept nor what is waited for, or waits for nothing. -/
theorem ord_move {t : Nat} {c : Pc L V} (h : Ord dep s) (hh : s'.held = s.held) (hpc : s'.pc = upd s.pc t c)
    (h1 : ∀ j, wants c = some j → (∀ g ∈ s.held t, dep g.1 j) ∧ ∀ i ∈ temps c, dep i j)
    (h2 : ∀ i j, c = .eWait1 i j → (∀ g ∈ s.held t, dep g.1 j) ∧ dep i j) : Ord dep s' := by
  constructor
  · intro u j
    rw [hh, hpc]
    by_cases hu : u = t
    · subst hu; rw [upd_same]; exact h1 j
    · rw [upd_other _ _ hu]; exact h.wait u j
  · intro u i j
    rw [hh, hpc]
    by_cases hu : u = t
    · subst hu; rw [upd_same]; exact h2 i j
    · rw [upd_other _ _ hu]; exact h.first u i j

omit [DecidableEq L] in
/-- A move of thread `t` out of a call; its guards do not matter then. -/
theorem ord_idle {t : Nat} (h : Ord dep s) (hh : ∀ u, u ≠ t → s'.held u = s.held u)
    (hpc : s'.pc = upd s.pc t .idle) : Ord dep s' := by
  constructor
  · intro u j
    rw [hpc]
    by_cases hu : u = t
    · subst hu; rw [upd_same]; simp [wants]
    · rw [upd_other _ _ hu, hh u hu]; exact h.wait u j
  · intro u i j
    rw [hpc]
    by_cases hu : u = t
    · subst hu; rw [upd_same]; simp
    · rw [upd_other _ _ hu, hh u hu]; exact h.first u i j

theorem ord_step {t : Nat} {a : Act L V} (h : Ord dep s) (ha : Allowed dep s t a) (hs : step eqv s t a = some s') :
    Ord dep s' := by
  cases a with
  | call op =>
    simp only [step, invoke] at hs
    split at hs
    · rename_i hpc
      cases op <;> simp at hs
      case deref | assign =>
        obtain ⟨_, rfl⟩ := hs
        exact ord_move h rfl rfl (by simp [wants]) (by simp)
      case eq i j =>
        subst hs
        obtain ⟨h1, h2⟩ := ha
        refine ord_move h rfl rfl ?_ ?_
        · intro k hk; simp [wants] at hk; subst hk
          exact ⟨fun g hg => (h1 g hg).1, by simp [temps]⟩
        · intro i' j' hk; simp at hk; obtain ⟨rfl, rfl⟩ := hk
          exact ⟨fun g hg => (h1 g hg).2, h2⟩
      all_goals
        subst hs
        refine ord_move h rfl rfl ?_ (by simp)
        intro k hk; simp [wants] at hk; subst hk
        exact ⟨ha, by simp [temps]⟩
    · cases hs
  | go =>
    simp only [step, go] at hs
    split at hs <;> rename_i hpc
    case h_1 => cases hs
    case h_2 i | h_10 i j =>
      simp only [Option.map_eq_some_iff] at hs
      obtain ⟨l, _, rfl⟩ := hs
      exact ord_move h rfl rfl (by simp [wants]) (by simp)
    case h_9 i j =>
      simp only [Option.map_eq_some_iff] at hs
      obtain ⟨l, _, rfl⟩ := hs
      obtain ⟨h1, h2⟩ := h.first t i j hpc
      refine ord_move h rfl rfl ?_ (by simp)
      intro k hk; simp [wants] at hk; subst hk
      exact ⟨h1, by simpa [temps] using h2⟩
    case h_5 i v | h_16 i =>
      simp only [Option.map_eq_some_iff] at hs
      obtain ⟨l, _, rfl⟩ := hs
      have h1 := (h.wait t i (by rw [hpc]; rfl)).1
      refine ord_move h rfl rfl ?_ (by simp)
      intro k hk; simp [wants] at hk; subst hk
      exact ⟨h1, by simp [temps]⟩
    case h_15 i =>
      simp only [Option.map_eq_some_iff] at hs
      obtain ⟨l, _, rfl⟩ := hs
      exact ord_idle (t := t) h (fun u hu => upd_other _ _ hu) rfl
    case h_17 i =>
      split at hs <;> simp at hs
      subst hs
      exact ord_idle (t := t) h (fun u hu => upd_other _ _ hu) rfl
    case h_6 i v =>
      split at hs <;> simp at hs
      subst hs
      exact ord_move h rfl rfl (by simp [wants]) (by simp)
    case h_4 i r | h_8 i v r | h_14 i j r | h_20 op r =>
      simp at hs; subst hs
      exact ord_idle (t := t) h (fun _ _ => rfl) rfl
    all_goals
      simp at hs; subst hs
      exact ord_move h rfl rfl (by simp [wants]) (by simp)
  | panic =>
    simp only [step, panics] at hs
    split at hs <;> rename_i hpc
    case h_5 => cases hs
    all_goals
      simp at hs; subst hs
      exact ord_move h rfl rfl (by simp [wants]) (by simp)
  | drop g =>
    simp only [step, dropGuard] at hs
    split at hs <;> rename_i hpc
    · split at hs <;> simp at hs
      subst hs
      refine ord_idle (t := t) h (fun u hu => upd_other _ _ hu) ?_
      funext u; simp only [St.setLock, upd]; split
      · rename_i hu; rw [hu, hpc]
      · rfl
    · cases hs

theorem ord_reach (h : Reach eqv dep v₀ s) : Ord dep s := by
  induction h with
  | init => exact ord_init
  | step _ ha hs ih => exact ord_step ih ha hs

/-- A stuck thread waits for a container: either for its readers, or for the owner of the exclusive bit. -/
theorem stuck_cases (hc : Core s) {t : Nat} (h : Stuck eqv s t) :
    ∃ i, wants (s.pc t) = some i ∧
      ((draining (s.pc t) = some i ∧ ∃ u, u ∈ (s.lock i).shared) ∨
       (draining (s.pc t) = none ∧ ∃ u, (s.lock i).wr = some u)) := by
  obtain ⟨h1, h2⟩ := h
  unfold go at h2
  split at h2 <;> rename_i hpc
  case h_1 => exact absurd hpc h1
  case h_2 i | h_9 i j | h_15 i =>
    refine ⟨i, by rw [hpc]; rfl, .inr ⟨by rw [hpc]; rfl, ?_⟩⟩
    cases hw : (s.lock i).wr with
    | some u => exact ⟨u, rfl⟩
    | none => simp [Lock.tryShared, hw] at h2
  case h_10 i j =>
    refine ⟨j, by rw [hpc]; rfl, .inr ⟨by rw [hpc]; rfl, ?_⟩⟩
    cases hw : (s.lock j).wr with
    | some u => exact ⟨u, rfl⟩
    | none => simp [Lock.tryShared, hw] at h2
  case h_5 i v | h_16 i =>
    refine ⟨i, by rw [hpc]; rfl, .inr ⟨by rw [hpc]; rfl, ?_⟩⟩
    cases hw : (s.lock i).wr with
    | some u => exact ⟨u, rfl⟩
    | none => simp [Lock.claim, hw, hc.upg i] at h2
  case h_6 i v | h_17 i =>
    refine ⟨i, by rw [hpc]; rfl, .inl ⟨by rw [hpc]; rfl, ?_⟩⟩
    split at h2 <;> simp at h2
    rename_i hd
    cases hsh : (s.lock i).shared with
    | nil => simp [Lock.drained, hsh] at hd
    | cons u _ => exact ⟨u, by simp⟩
  all_goals simp at h2

theorem idle_not_stuck {t : Nat} (h : s.pc t = .idle) : ¬ Stuck eqv s t := fun hs => hs.1 h

/-- From every stuck thread a chain of waiting leads to one which is inside and can move. -/
theorem chain (hwf : WellFounded fun j i => dep i j) (hc : Core s) (ho : Ord dep s) :
    ∀ i t, Stuck eqv s t → wants (s.pc t) = some i →
      ∃ u, Relation.TransGen (WaitsFor s) t u ∧ Inside s u ∧ ¬ Stuck eqv s u := by
  intro i
  induction i using hwf.induction with
  | _ i ih =>
  -- a thread which holds the container, and is stuck, waits for something later
  have later : ∀ u, Stuck eqv s u → ((i, true) ∈ s.held u ∨ (i, false) ∈ s.held u ∨ i ∈ temps (s.pc u)) →
      ∃ u', Relation.TransGen (WaitsFor s) u u' ∧ Inside s u' ∧ ¬ Stuck eqv s u' := by
    intro u hu hh
    obtain ⟨k, hk, _⟩ := stuck_cases hc hu
    have h1 := ho.wait u k hk
    refine ih k ?_ u hu hk
    rcases hh with hh | hh | hh
    · exact h1.1 _ hh
    · exact h1.1 _ hh
    · exact h1.2 _ hh
  -- waiting for readers
  have drain : ∀ t, Stuck eqv s t → draining (s.pc t) = some i →
      ∃ u, Relation.TransGen (WaitsFor s) t u ∧ Inside s u ∧ ¬ Stuck eqv s u := by
    intro t ht hd
    obtain ⟨k, hk, h⟩ := stuck_cases hc ht
    rcases h with ⟨h1, u, hu⟩ | ⟨h1, _⟩
    · rw [hd] at h1; cases h1
      have hw : WaitsFor s t u := .reader hd hu
      have hh : (i, false) ∈ s.held u ∨ i ∈ temps (s.pc u) := by
        have h2 := hc.sh i u
        have h3 := List.count_pos_iff.2 hu
        by_cases h4 : (i, false) ∈ s.held u
        · exact .inl h4
        · rw [List.count_eq_zero.2 h4] at h2
          exact .inr (List.count_pos_iff.1 (by omega))
      by_cases hs : Stuck eqv s u
      · obtain ⟨u', h3, h4⟩ := later u hs (.inr hh)
        exact ⟨u', .trans (.single hw) h3, h4⟩
      · refine ⟨u, .single hw, ?_, hs⟩
        rcases hh with hh | hh
        · exact .inr (List.ne_nil_of_mem hh)
        · left; intro hp; rw [hp] at hh; simp [temps] at hh
    · rw [hd] at h1; cases h1
  intro t ht hwt
  obtain ⟨k, hk, h⟩ := stuck_cases hc ht
  rw [hwt] at hk; cases hk
  rcases h with ⟨h1, _⟩ | ⟨h1, u, hu⟩
  · exact drain t ht h1
  · have hw : WaitsFor s t u := .owner hwt h1 hu
    have h2 := hc.wr i u
    rw [if_pos hu] at h2
    by_cases hs : Stuck eqv s u
    · by_cases hh : (i, true) ∈ s.held u
      · obtain ⟨u', h3, h4⟩ := later u hs (.inl hh)
        exact ⟨u', .trans (.single hw) h3, h4⟩
      · rw [List.count_eq_zero.2 hh] at h2
        have hcl : claims (s.pc u) = some i := by
          by_cases hcl : claims (s.pc u) = some i
          · exact hcl
          · simp [hcl] at h2
        have hd : draining (s.pc u) = some i := by
          obtain ⟨k', hk', _⟩ := stuck_cases hc hs
          cases hp : s.pc u <;> rw [hp] at hcl hk' <;> simp [claims, wants, draining] at hcl hk' ⊢ <;> exact hcl
        obtain ⟨u', h3, h4⟩ := drain u hs hd
        exact ⟨u', .trans (.single hw) h3, h4⟩
    · refine ⟨u, .single hw, ?_, hs⟩
      by_cases hh : (i, true) ∈ s.held u
      · exact .inr (List.ne_nil_of_mem hh)
      · left; intro hp
        rw [List.count_eq_zero.2 hh, hp] at h2
        simp [claims] at h2

/-! ## Counting steps -/

set_option linter.unusedSimpArgs false

/-- Steps left in the running call, counting a guard it will give. -/
def left : Pc L V → Nat
  | .idle => 0
  | .gWait _ => 3 | .gHave _ => 2 | .gDone _ _ => 1
  | .xWait _ _ => 4 | .xDrain _ _ => 3 | .xHave _ _ => 2 | .xDone _ _ _ => 1
  | .eWait1 _ _ => 6 | .eWait2 _ _ => 5 | .eHave _ _ => 4 | .eMid _ _ _ => 3 | .eDone _ _ _ => 2 | .eDrop _ _ _ => 1
  | .rWait _ => 2 | .wWait _ => 3 | .wDrain _ => 2
  | .use _ => 2 | .asg _ _ => 2 | .used _ _ => 1

omit [DecidableEq L] in
theorem left_le (c : Pc L V) : left c ≤ 6 := by cases c <;> simp [left]

/-- Steps left for a thread. -/
def load (s : St L V) (t : Nat) : Nat := left (s.pc t) + (s.held t).length

theorem load_step {t : Nat} {a : Act L V} (ha : quiet a = true) (hs : step eqv s t a = some s') :
    load s' t < load s t ∧ ∀ u, u ≠ t → s'.pc u = s.pc u ∧ s'.held u = s.held u := by
  cases a with
  | call op => cases ha
  | go =>
    simp only [step, go] at hs
    split at hs <;> rename_i hpc
    case h_1 => cases hs
    case h_2 i | h_9 i j | h_10 i j | h_5 i v | h_16 i | h_15 i =>
      simp only [Option.map_eq_some_iff] at hs
      obtain ⟨l, _, rfl⟩ := hs
      refine ⟨?_, fun u hu => ?_⟩
      · simp [load, hpc, left, St.setLock, St.to, St.keep, St.ret, St.lin] <;> omega
      · simp [St.setLock, St.to, St.keep, St.ret, St.lin, upd, hu]
    case h_6 i v | h_17 i =>
      split at hs <;> simp at hs
      subst hs
      refine ⟨?_, fun u hu => ?_⟩
      · simp [load, hpc, left, St.setLock, St.to, St.keep, St.ret, St.lin] <;> omega
      · simp [St.setLock, St.to, St.keep, St.ret, St.lin, upd, hu]
    all_goals
      simp at hs; subst hs
      refine ⟨?_, fun u hu => ?_⟩
      · simp [load, hpc, left, St.setLock, St.to, St.keep, St.ret, St.lin] <;> omega
      · simp [St.setLock, St.to, St.keep, St.ret, St.lin, upd, hu]
  | panic =>
    simp only [step, panics] at hs
    split at hs <;> rename_i hpc
    case h_5 => cases hs
    all_goals
      simp at hs; subst hs
      refine ⟨?_, fun u hu => ?_⟩
      · simp [load, hpc, left, St.setLock, St.to, St.keep, St.ret, St.lin] <;> omega
      · simp [St.setLock, St.to, St.keep, St.ret, St.lin, upd, hu]
  | drop g =>
    simp only [step, dropGuard] at hs
    split at hs <;> rename_i hpc
    · split at hs <;> simp at hs
      rename_i hg
      subst hs
      refine ⟨?_, fun u hu => ?_⟩
      · have := List.length_erase_of_mem hg
        have := List.length_pos_of_mem hg
        simp [load, hpc, left, St.setLock]; omega
      · simp [St.setLock, upd, hu]
    · cases hs

end Verif.Proof.Locks
