import Verif.Props.Threads
import Verif.Props.Tasks
/-!
# Who waits: exactly those who cannot move, C61, C88, C91, C92, C101, C103

`WaitsFor` of the models says for whom a thread or task waits. The theorems on chains use it; these say that it says neither
too much nor too little: one waits for somebody exactly when one cannot move.
-/

namespace Verif.Props.Waits
open Verif.Spec Verif.Model Verif.Proof Verif.Model.Args Verif.Model.Method

set_option linter.unusedSectionVars false

/-! ## Lock-protected containers -/

section
variable {L V : Type} [DecidableEq L] {eqv : V → V → Bool} {dep : L → L → Prop} {v₀ : L → V}

theorem lock_waits {s : Locks.St L V} {t u : Nat} (h : Locks.WaitsFor s t u) : Locks.Stuck eqv s t := by
  cases h with
  | owner h1 h2 h3 =>
    constructor
    · intro hp; rw [hp] at h1; cases h1
    · unfold Locks.go
      cases hp : s.pc t <;> simp_all [Locks.wants, Locks.draining, Lock.tryShared, Lock.claim]
  | reader h1 h2 =>
    constructor
    · intro hp; rw [hp] at h1; cases h1
    · have h3 := List.ne_nil_of_mem h2
      unfold Locks.go
      cases hp : s.pc t <;> simp_all [Locks.draining, Lock.drained]

/-- A thread waits for another, or for itself, exactly when its call cannot move. -/
theorem C61_waits {s : Locks.St L V} (h : Locks.Reach eqv dep v₀ s) (t : Nat) :
    (∃ u, Locks.WaitsFor s t u) ↔ Locks.Stuck eqv s t := by
  constructor
  · rintro ⟨u, hu⟩; exact lock_waits hu
  · intro ht
    obtain ⟨i, h1, ⟨h2, u, h3⟩ | ⟨h2, u, h3⟩⟩ := Locks.stuck_cases (Locks.core_reach h) ht
    · exact ⟨u, .reader h2 h3⟩
    · exact ⟨u, .owner h1 h2 h3⟩

theorem alock_waits {s : AsyncLocks.St L V} (h : AsyncLocks.Reach eqv dep v₀ s) {t u : Nat} (hw : AsyncLocks.WaitsFor s t u) :
    AsyncLocks.Stuck eqv s t := by
  have head : ∀ i u' rest, s.queue i = u' :: rest → t ∈ rest → (s.queue i).head? ≠ some t := by
    intro i u' rest hq hr hc
    rw [hq] at hc
    simp only [List.head?_cons, Option.some.injEq] at hc
    subst hc
    have := (AsyncLocks.core_reach h).que i u'
    rw [hq, List.count_cons_self] at this
    have hp := List.count_pos_iff.2 hr
    revert this
    split <;> omega
  cases hw with
  | before h1 h2 h3 =>
    have := head _ _ _ h2 h3
    constructor
    · intro hp; rw [hp] at h1; cases h1
    · unfold AsyncLocks.go
      cases hp : s.pc t <;> simp [hp, AsyncLocks.wants] at h1 <;> subst h1 <;>
        simp [AsyncLocks.St.shared, AsyncLocks.St.exclusive, this]
  | owner h1 h2 h3 =>
    constructor
    · intro hp; rw [hp] at h1; cases h1
    · unfold AsyncLocks.go
      cases hp : s.pc t <;> simp [hp, AsyncLocks.wants] at h1 <;> subst h1 <;>
        simp [AsyncLocks.St.shared, AsyncLocks.St.exclusive, h3, Async.ALock.tryShared, Async.ALock.tryWrite]
  | reader h1 h2 h3 h4 =>
    have := List.ne_nil_of_mem h4
    constructor
    · intro hp; rw [hp] at h1; cases h1
    · unfold AsyncLocks.go
      cases hp : s.pc t <;> simp [hp, AsyncLocks.wants, AsyncLocks.wantsAlone] at h1 h3 <;> subst h1 <;>
        simp [AsyncLocks.St.exclusive, this, Async.ALock.tryWrite]

/-- The same for tasks. -/
theorem C91_waits {s : AsyncLocks.St L V} (h : AsyncLocks.Reach eqv dep v₀ s) (t : Nat) :
    (∃ u, AsyncLocks.WaitsFor s t u) ↔ AsyncLocks.Stuck eqv s t := by
  constructor
  · rintro ⟨u, hu⟩; exact alock_waits h hu
  · intro ht
    obtain ⟨i, h1, ⟨u, rest, h2, h3⟩ | ⟨h2, u, h3⟩ | ⟨h2, h3, u, h4⟩⟩ :=
      AsyncLocks.stuck_cases (AsyncLocks.core_reach h) ht
    · exact ⟨u, .before h1 h2 h3⟩
    · exact ⟨u, .owner h1 h2 h3⟩
    · exact ⟨u, .reader h1 h2 h3 h4⟩

end

/-! ## All containers -/

section
variable {F L V W E : Type} [DecidableEq F] [DecidableEq L] {eqv : W → W → Bool} {dep : F ⊕ L → F ⊕ L → Prop}
  {v₀ : F → Option V} {w₀ : L → W}

theorem lazy_waits {o : Sync.St V E} {p : Nat}
    (h : (Mixed.entering (o.pc p) = true ∧ o.lk.wr ≠ none) ∨ (Mixed.enteringAlone (o.pc p) = true ∧ o.lk.upg ≠ none) ∨
      (Mixed.draining (o.pc p) = true ∧ o.lk.shared ≠ [])) :
    Proof.Sync.waiting (o.pc p) = true ∧ Sync.go o p = none := by
  unfold Sync.go
  cases hp : o.pc p <;>
    simp_all [Mixed.entering, Mixed.enteringAlone, Mixed.draining, Proof.Sync.waiting, Lock.tryShared, Lock.claim,
      Lock.tryUpgradable, Lock.drained]
  all_goals intro h1 h2; simp_all

theorem mixed_waits {s : Mixed.St F L V W E} {t u : Nat} (hw : Mixed.WaitsFor s t u) :
    (∃ f ∈ s.stack t, Proof.Sync.waiting ((s.obj f.1).pc f.2) = true ∧ Sync.go (s.obj f.1) f.2 = none) ∨
    Locks.WaitsFor s.lk t u := by
  cases hw with
  | owner h1 h2 h3 _ => exact .inl ⟨_, h1, lazy_waits (.inl ⟨h2, by rw [h3]; simp⟩)⟩
  | upgrader h1 h2 h3 _ => exact .inl ⟨_, h1, lazy_waits (.inr (.inl ⟨h2, by rw [h3]; simp⟩))⟩
  | reader h1 h2 h3 _ => exact .inl ⟨_, h1, lazy_waits (.inr (.inr ⟨h2, List.ne_nil_of_mem h3⟩))⟩
  | lock h => exact .inr h

theorem stuck_waits {s : Mixed.St F L V W E} (hi : Mixed.Inv eqv v₀ w₀ s) (ho : Mixed.Ord dep s) {t : Nat}
    (ht : Mixed.Stuck eqv s t) : ∃ u, Mixed.WaitsFor s t u := by
  obtain ⟨r, hr⟩ := Mixed.stuck_wants hi ht
  obtain ⟨u, hu, _⟩ := Mixed.advance hi ho hr
  obtain ⟨v, hv, _⟩ := Relation.TransGen.head'_iff.1 hu
  exact ⟨v, hv⟩

/-- Threads with lazy and lock-protected containers. -/
theorem C88_waits {s : Mixed.St F L V W E} (h : Mixed.Reach eqv dep v₀ w₀ s) (t : Nat) :
    (∃ u, Mixed.WaitsFor s t u) ↔ Mixed.Stuck eqv s t := by
  constructor
  · rintro ⟨u, hu⟩
    rcases mixed_waits hu with ⟨f, h1, h2, h3⟩ | h1
    · exact .inl ⟨f, h1, Mixed.running_user (Mixed.waiting_running h2), h3⟩
    · exact .inr (lock_waits h1)
  · exact stuck_waits (Mixed.inv_reach h) (Mixed.ord_reach h)

/-- What a waiting frame meets: it is not its turn, or the lock is taken. -/
theorem alazy_waits {s : AsyncMixed.St F L V W E} (hp : AsyncMixed.Pool eqv v₀ w₀ s) {r : F ⊕ L} {p : Nat}
    (hw : AsyncMixed.wants (AsyncMixed.look s (AsyncMixed.frame r p)) = some r)
    (h : (∃ q rest, AsyncMixed.waiting s r = q :: rest ∧ p ∈ rest) ∨ (AsyncMixed.lockOf s r).wr ≠ none ∨
      ((AsyncMixed.waiting s r).head? = some p ∧ AsyncMixed.wantsAlone (AsyncMixed.look s (AsyncMixed.frame r p)) = true ∧
        (AsyncMixed.lockOf s r).shared ≠ [])) :
    (AsyncMixed.fstep eqv s (AsyncMixed.frame r p) .go).isNone = true := by
  have head : (∃ q rest, AsyncMixed.waiting s r = q :: rest ∧ p ∈ rest) → (AsyncMixed.waiting s r).head? ≠ some p := by
    rintro ⟨q, rest, hq, hr⟩ hc
    have := AsyncMixed.queue_nodup hp r
    rw [hq] at hc this
    simp only [List.head?_cons, Option.some.injEq] at hc
    subst hc
    exact (List.nodup_cons.1 this).1 hr
  cases r with
  | inl i =>
    simp only [AsyncMixed.frame, AsyncMixed.look, AsyncMixed.wants, AsyncMixed.waiting, AsyncMixed.lockOf,
      AsyncMixed.fstep] at *
    have hq : AsyncMulti.queued ((s.obj i).pc p) = true := by
      cases hx : AsyncMulti.queued ((s.obj i).pc p)
      · simp [hx] at hw
      · rfl
    rcases h with h | h | ⟨_, h1, h2⟩
    · rw [if_neg (by simp [hq, head h])]; rfl
    · split
      · unfold Async.go
        cases hx : (s.obj i).pc p <;> simp [hx, AsyncMulti.queued] at hq <;>
          simp [Async.ALock.tryShared, Async.ALock.tryWrite, h]
      · rfl
    · split
      · unfold Async.go
        cases hx : (s.obj i).pc p <;> simp [hx, AsyncMulti.queued, AsyncMixed.wantsAlone] at hq h1 <;>
          simp [Async.ALock.tryWrite, h2]
      · rfl
  | inr k =>
    simp only [AsyncMixed.frame, AsyncMixed.look, AsyncMixed.wants, AsyncMixed.waiting, AsyncMixed.lockOf,
      AsyncMixed.fstep, AsyncMixed.wantsAlone, Option.isNone_map, Option.isNone_iff_eq_none] at *
    have hk : AsyncLocks.wants (s.lk.pc p) = some k := by
      simpa using hw
    rcases h with ⟨q, rest, h1, h2⟩ | h | ⟨h1, h2, h3⟩
    · exact (alock_waits hp.lk (.before hk h1 h2)).2
    · unfold AsyncLocks.go
      cases hx : s.lk.pc p <;> simp [hx, AsyncLocks.wants] at hk <;> subst hk <;>
        simp [AsyncLocks.St.shared, AsyncLocks.St.exclusive, h, Async.ALock.tryShared, Async.ALock.tryWrite]
    · obtain ⟨q, hq⟩ := List.exists_mem_of_ne_nil _ h3
      exact (alock_waits hp.lk (.reader hk h1 h2 hq)).2

theorem amixed_waits {s : AsyncMixed.St F L V W E} (hp : AsyncMixed.Pool eqv v₀ w₀ s) {t u : Nat}
    (hw : AsyncMixed.WaitsFor s t u) : u ∈ s.kids t ∨ ∃ r p, AsyncMixed.frame r p ∈ s.stack t ∧
      AsyncMixed.wants (AsyncMixed.look s (AsyncMixed.frame r p)) = some r ∧
      (AsyncMixed.fstep eqv s (AsyncMixed.frame r p) .go).isNone = true := by
  cases hw with
  | branch h => exact .inl h
  | before h1 h2 h3 h4 _ => exact .inr ⟨_, _, h1, h2, alazy_waits hp h2 (.inl ⟨_, _, h3, h4⟩)⟩
  | owner h1 h2 _ h4 _ => exact .inr ⟨_, _, h1, h2, alazy_waits hp h2 (.inr (.inl (by rw [h4]; simp)))⟩
  | reader h1 h2 h3 h4 h5 _ =>
    exact .inr ⟨_, _, h1, h2, alazy_waits hp h2 (.inr (.inr ⟨h3, h4, List.ne_nil_of_mem h5⟩))⟩

theorem astuck_waits {s : AsyncMixed.St F L V W E} (hi : AsyncMixed.Inv eqv v₀ w₀ s) {t : Nat}
    (ht : AsyncMixed.Stuck eqv s t) : ∃ u, AsyncMixed.WaitsFor s t u := by
  cases hk : s.kids t with
  | cons u us => exact ⟨u, .branch (by rw [hk]; exact .head _)⟩
  | nil =>
    obtain ⟨r, p, h1, h2, ⟨q, rest, h3, h4⟩ | ⟨h3, q, h4⟩ | ⟨h3, h4, q, h5⟩⟩ := AsyncMixed.stuck_wants hi hk ht
    · have hq : AsyncMixed.wants (AsyncMixed.look s (AsyncMixed.frame r q)) = some r :=
        (AsyncMixed.wants_iff hi.pool).2 (by rw [h3]; exact .head _)
      have hg : AsyncMixed.gone (AsyncMixed.look s (AsyncMixed.frame r q)) = false := by
        cases hx : AsyncMixed.gone (AsyncMixed.look s (AsyncMixed.frame r q))
        · rfl
        · exfalso
          revert hq hx
          cases AsyncMixed.look s (AsyncMixed.frame r q) with
          | lazy i c => cases c <;> simp [AsyncMixed.gone, AsyncMulti.gone, AsyncMixed.wants, AsyncMulti.queued]
          | lock c hs => cases c <;> cases hs <;> simp [AsyncMixed.gone, AsyncMixed.wants, AsyncLocks.wants]
      obtain ⟨u, hu⟩ := hi.owner _ hg
      exact ⟨u, .before h1 h2 h3 h4 hu⟩
    · obtain ⟨_, h5⟩ := AsyncMixed.owner_hand hi.pool h4
      obtain ⟨u, hu⟩ := hi.owner _ h5
      exact ⟨u, .owner h1 h2 h3 h4 hu⟩
    · obtain ⟨_, h6⟩ := AsyncMixed.reader_hand hi.pool h5
      obtain ⟨u, hu⟩ := hi.owner _ h6
      exact ⟨u, .reader h1 h2 h3 h4 h5 hu⟩

/-- Tasks with lazy and lock-protected containers. -/
theorem C92_waits {s : AsyncMixed.St F L V W E} (h : AsyncMixed.Reach eqv dep v₀ w₀ s) (t : Nat) :
    (∃ u, AsyncMixed.WaitsFor s t u) ↔ AsyncMixed.Stuck eqv s t := by
  constructor
  · rintro ⟨u, hu⟩
    rcases amixed_waits (AsyncMixed.inv_reach h).pool hu with h1 | ⟨r, p, h1, h2, h3⟩
    · exact .inl (List.ne_nil_of_mem h1)
    · exact .inr ⟨_, h1, AsyncMixed.wants_not_user (AsyncMixed.wants_targets h2), h3⟩
  · exact astuck_waits (AsyncMixed.inv_reach h)

end

/-! ## Helpers -/

section
variable {F L V W E : Type} [DecidableEq F] [DecidableEq L] {x : F → FCtx} {y : L → FCtx}
  {lazyCode : F → Kind → Option Body} {lockCode : L → Kind → Option Body} {eqv : Option W → Option W → Bool}
  {dep : F ⊕ L → F ⊕ L → Prop} {v₀ : F → Option V} {w₀ : L → Option W}

/-- Where the container waits, the helper waits for it. -/
theorem calls_waits {fal cl : Bool} {v₀ : Option V} {o : Calls.St V E} {p : Nat} (hi : Calls.Inv fal cl v₀ o)
    (h : Proof.Sync.waiting (o.c.pc p) = true) (hg : Sync.go o.c p = none) :
    Threads.atUser o p = false ∧ Calls.go o p = none := by
  have hl := hi.loc p
  cases hpc : o.pc p with
  | wait f m todo =>
    refine ⟨?_, by simp [Calls.go, hpc, hg]⟩
    simp only [Threads.atUser, hpc]
    revert h
    cases o.c.pc p <;> simp [Proof.Sync.waiting, Multi.building]
  | use u dec => exact ⟨by simp [Threads.atUser, hpc], by simp [Calls.go, hpc, hg]⟩
  | _ =>
    exfalso
    rw [hpc] at hl
    revert h
    generalize o.c.pc p = z at hl
    generalize o.c.value = v at hl
    cases hl <;> simp_all [Proof.Sync.waiting]
    all_goals (try rename_i hx; rcases hx with rfl | hx) <;>
      first
      | simp [Proof.Sync.waiting]
      | (cases z <;> simp_all [Calls.isGuard, Proof.Sync.waiting])

theorem lockcalls_waits {own cl : L → Bool} {dep : L → L → Prop} {w₀ : L → Option W} {l : LockCalls.St L W} {t u : Nat}
    (hi : LockCalls.Inv own cl eqv dep w₀ l) (h : Locks.WaitsFor l.c t u) :
    l.pc t ≠ .idle ∧ LockCalls.go eqv l t = none := by
  obtain ⟨h1, h2⟩ := lock_waits (eqv := eqv) h
  have hl := hi.loc t
  cases hpc : l.pc t with
  | wait f m todo => exact ⟨by simp, by simp [LockCalls.go, hpc, h2]⟩
  | other u dec => exact ⟨by simp, by simp [LockCalls.go, hpc, h2]⟩
  | _ =>
    exfalso
    rw [hpc] at hl
    revert h1
    generalize l.c.pc t = z at hl
    generalize l.c.held t = hs at hl
    cases hl <;> simp

/-- Threads which call helpers of all fields: one waits for another, or for itself, exactly when the code of the library it is
in cannot move. -/
theorem C101_waits (hx : Props.Threads.Fields x y lazyCode lockCode) {s : Threads.St F L V W E}
    (h : Threads.Reach lazyCode lockCode eqv dep v₀ w₀ s) (t : Nat) : (∃ u, Threads.WaitsFor s t u) ↔ Threads.Stuck eqv s t := by
  have hi := Threads.inv_reach (Props.Threads.good hx) h
  constructor
  · rintro ⟨u, hu⟩
    rcases mixed_waits hu with ⟨f, h1, h2, h3⟩ | h1
    · exact .inl ⟨f, h1, calls_waits (hi.obj f.1) h2 h3⟩
    · exact .inr (lockcalls_waits hi.lk h1)
  · intro ht
    obtain ⟨u, hu⟩ := stuck_waits (Threads.proj_inv hi) (Threads.proj_ord hi) (Threads.proj_stuck hi ht)
    exact ⟨u, Threads.proj_waits hu⟩

theorem acalls_waits {fal cl : Bool} {v₀ : Option V} {o : AsyncCalls.St V E} {p : Nat} (hi : AsyncCalls.Inv fal cl v₀ o)
    (h : AsyncMulti.queued (o.c.pc p) = true) (hg : Async.go o.c p = none) : AsyncCalls.go o p = none := by
  have hl := hi.loc p
  cases hpc : o.pc p with
  | wait f m todo => simp [AsyncCalls.go, hpc, hg]
  | use u dec => simp [AsyncCalls.go, hpc, hg]
  | _ =>
    exfalso
    rw [hpc] at hl
    revert h
    generalize o.c.pc p = z at hl
    generalize o.c.value = v at hl
    cases hl <;> simp_all [AsyncMulti.queued]
    all_goals (try rename_i hx; rcases hx with rfl | hx) <;>
      first
      | simp [AsyncMulti.queued]
      | (cases z <;> simp_all [AsyncCalls.isGuard, AsyncMulti.queued])

theorem alockcalls_waits {dep : L → L → Prop} {w₀ : L → Option W} {l : AsyncLockCalls.St L W} {t : Nat}
    (hi : AsyncLockCalls.Inv eqv dep w₀ l) (h1 : l.c.pc t ≠ .idle) (h2 : AsyncLocks.go eqv l.c t = none) :
    AsyncLockCalls.go eqv l t = none := by
  have hl := hi.loc t
  cases hpc : l.pc t with
  | wait f m todo => simp [AsyncLockCalls.go, hpc, h2]
  | other u dec => simp [AsyncLockCalls.go, hpc, h2]
  | _ =>
    exfalso
    rw [hpc] at hl
    revert h1
    generalize l.c.pc t = z at hl
    generalize l.c.held t = hs at hl
    cases hl <;> simp

/-- Tasks which call helpers of all fields. -/
theorem C103_waits (hx : Props.Tasks.Fields x y lazyCode lockCode) {s : Tasks.St F L V W E}
    (h : Tasks.Reach lazyCode lockCode eqv dep v₀ w₀ s) (t : Nat) :
    (∃ u, Tasks.WaitsFor s t u) ↔ Tasks.Stuck lazyCode lockCode eqv s t := by
  have hi := Tasks.inv_reach (Props.Tasks.good hx) h
  constructor
  · rintro ⟨u, hu⟩
    have hp : AsyncMixed.Pool eqv v₀ w₀ (Tasks.containers s) := by
      have := (Tasks.proj_inv hi).pool
      exact ⟨this.obj, this.lk, this.waits, this.once, this.hold, this.short⟩
    rcases amixed_waits hp hu with h1 | ⟨r, p, h1, h2, h3⟩
    · exact .inl (List.ne_nil_of_mem h1)
    · have ht := AsyncMixed.wants_targets h2
      have hu := AsyncMixed.wants_not_user ht
      refine .inr ⟨_, h1, ?_, ?_⟩
      · cases hc : Tasks.atUser (Tasks.look s (AsyncMixed.frame r p))
        · rfl
        · rw [Tasks.atUser_container hi.pool hc] at hu; cases hu
      · cases r with
        | inl i =>
          simp only [AsyncMixed.frame, AsyncMixed.fstep, Tasks.fstep] at h3 ⊢
          have hq : AsyncMulti.queued ((s.obj i).c.pc p) = true := by
            cases hx : AsyncMulti.queued ((s.obj i).c.pc p)
            · simp [AsyncMixed.frame, AsyncMixed.look, AsyncMixed.wants, Tasks.containers, hx] at h2
            · rfl
          split
          · rename_i hc
            rw [if_pos (show AsyncMulti.queued (((Tasks.containers s).obj i).pc p) = false ∨
              ((Tasks.containers s).queue i).head? = some p from hc)] at h3
            simp only [Option.isNone_map, Option.isNone_iff_eq_none] at h3 ⊢
            exact acalls_waits (hi.pool.obj i) hq h3
          · rfl
        | inr k =>
          simp only [AsyncMixed.frame, AsyncMixed.fstep, Tasks.fstep, Option.isNone_map, Option.isNone_iff_eq_none] at h3 ⊢
          refine alockcalls_waits hi.pool.lk ?_ h3
          intro hc
          simp [AsyncMixed.frame, AsyncMixed.look, AsyncMixed.wants, Tasks.containers, hc, AsyncLocks.wants] at h2
  · intro ht
    obtain ⟨u, hu⟩ := astuck_waits (Tasks.proj_inv hi) (Tasks.proj_stuck hi ht)
    exact ⟨u, Tasks.proj_waits hu⟩

/-! ## Concrete cases: in the deadlocks everybody waits -/

example : ∃ (s : Locks.St Bool Nat) (v₀ : Bool → Nat), Locks.Reach (fun a b => a == b) Props.Locks.anyOrder v₀ s ∧
    ∃ t u, Locks.WaitsFor s t u := by
  obtain ⟨v₀, s, h1, ⟨⟨t, ht⟩, h2⟩, _⟩ := Props.Locks.C61_self_comparison_deadlocks
  exact ⟨s, v₀, h1, t, (C61_waits h1 t).2 (h2 t ht)⟩

example : ∃ (s : AsyncLocks.St Bool Nat) (v₀ : Bool → Nat), AsyncLocks.Reach (fun a b => a == b) Props.AsyncLocks.anyOrder v₀ s ∧
    ∃ t u, AsyncLocks.WaitsFor s t u := by
  obtain ⟨v₀, s, h1, ⟨⟨t, ht⟩, h2⟩, _⟩ := Props.AsyncLocks.C91_self_comparison_deadlocks
  exact ⟨s, v₀, h1, t, (C91_waits h1 t).2 (h2 t ht)⟩

example : ∃ s : Mixed.St Unit Unit Nat Nat Nat, Mixed.Reach (fun a b => a == b) (fun a b => Props.Mixed.lazies a b = true)
    (fun _ => some 5) (fun _ => 1) s ∧ ∃ t u, Mixed.WaitsFor s t u := by
  obtain ⟨s, h1, ⟨t, ht⟩, h2⟩ := Props.Mixed.C88_self_comparison_deadlocks
  exact ⟨s, h1, t, (C88_waits h1 t).2 (h2 t ht)⟩

example : ∃ s : AsyncMixed.St Empty Bool Nat Nat Nat, AsyncMixed.Reach (fun a b => a == b) (fun a b => (a != b) = true)
    nofun (fun _ => 1) s ∧ ∃ t u, AsyncMixed.WaitsFor s t u := by
  obtain ⟨s, h1, ⟨t, ht⟩, h2⟩ := Props.AsyncMixed.C92_join_deadlocks
  exact ⟨s, h1, t, (C92_waits h1 t).2 (h2 t ht)⟩

/-- A new object: nobody waits. -/
example (hx : Props.Threads.Fields x y lazyCode lockCode) (t u : Nat) :
    ¬ Threads.WaitsFor (Threads.init v₀ w₀ : Threads.St F L V W E) t u := by
  intro h
  rcases (C101_waits (eqv := eqv) (dep := dep) hx .init t).1 ⟨u, h⟩ with ⟨f, hf, _⟩ | ⟨h1, _⟩
  · cases hf
  · exact h1 rfl

end
end Verif.Props.Waits
