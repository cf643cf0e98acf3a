import Verif.Model.Tasks
import Verif.Proof.AsyncCallsLive
import Verif.Proof.AsyncLockCallsLive
import Verif.Proof.AsyncMixed
import Verif.Proof.Whole
/-!
# Tasks calling helpers: what one step does on one field (helper lemmas)
-/

namespace Verif.Proof.Tasks
open Verif.Spec Verif.Model Verif.Model.Args Verif.Model.Method Verif.Model.Tasks
open Verif.Proof.AsyncMulti (queued_before)

set_option linter.unusedSectionVars false
set_option linter.unusedSimpArgs false

/-! ## Lazy fields -/

section
variable {V E : Type} {fal cl : Bool} {code : Kind → Option Body} {v₀ : Option V} {o o' : AsyncCalls.St V E} {p q : Nat}

/-- Nobody else moves. -/
theorem others (hi : AsyncCalls.Inv fal cl v₀ o) {a : AsyncCalls.Act V E} (hs : AsyncCalls.step code o p a = some o')
    (hq : q ≠ p) : o'.pc q = o.pc q ∧ o'.c.pc q = o.c.pc q := by
  by_cases ha : ∃ c, a = .call c
  · obtain ⟨c, rfl⟩ := ha
    simp only [AsyncCalls.step, AsyncCalls.invoke] at hs
    split at hs
    · simp only [Option.map_eq_some_iff] at hs
      obtain ⟨b, _, rfl⟩ := hs
      exact ⟨upd_other _ _ hq, rfl⟩
    · simp only [Option.bind_eq_some_iff, Option.map_eq_some_iff] at hs
      obtain ⟨op, _, c', hc, rfl⟩ := hs
      exact ⟨upd_other _ _ hq, AsyncCalls.invoke_others hc hq⟩
    · cases hs
  · exact (AsyncCalls.less_step hi (fun c hc => ha ⟨c, hc⟩) hs).2 q hq

/-- Is the `.await` still to come, or does the container wait for its lock? -/
def waits (y : AsyncCalls.Pc V E) (x : Async.Pc V E) : Bool :=
  match y with
  | .run _ todo _ => todo.contains .await
  | _ => AsyncMulti.queued x

theorem guard_queued {x : Async.Pc V E} (h : x = .idle ∨ AsyncCalls.isGuard x = true) : AsyncMulti.queued x = false := by
  rcases h with rfl | h
  · rfl
  · cases x <;> simp [AsyncCalls.isGuard] at h <;> rfl

/-- Between the operations of a helper the container does not run. -/
theorem run_rest (hi : AsyncCalls.Inv fal cl v₀ o) {f : AsyncCalls.Frame V E} {todo a} (hpc : o.pc p = .run f todo a) :
    o.c.pc p = .idle ∨ AsyncCalls.isGuard (o.c.pc p) = true := by
  have hl := hi.loc p
  rw [hpc] at hl
  generalize o.c.pc p = x at hl
  generalize o.c.value = v at hl
  cases hl with
  | fin _ _ _ h => exact h
  | start | fut | wfut | askErr => exact .inl rfl
  | whave | ask | star | place | wrap => exact .inr rfl

theorem job_await {fal cl : Bool} {w : V} {k m todo op} (h : Calls.Job fal cl w k m todo op) : .await ∉ todo := by
  cases h <;> simp [Calls.tail]
  all_goals
    rename_i hc
    rcases hc with ⟨rfl, _⟩ | ⟨rfl, _⟩ <;> simp

/-- After the container is left a helper awaits nothing more. -/
theorem wait_todo (hi : AsyncCalls.Inv fal cl v₀ o) {f : AsyncCalls.Frame V E} {m todo} (hpc : o.pc p = .wait f m todo) :
    .await ∉ todo := by
  have hl := hi.loc p
  rw [hpc] at hl
  generalize o.c.pc p = x at hl
  generalize o.c.value = v at hl
  cases hl with
  | dwait _ _ hj => exact job_await hj
  | wwait => simp
  | deref hw => rw [hw]; split <;> simp

theorem settle_waits {f : AsyncCalls.Frame V E} {m todo} {c' : Async.St V E} (ht : .await ∉ todo)
    (h : waits ((AsyncCalls.settle o p f m todo c').pc p) ((AsyncCalls.settle o p f m todo c').c.pc p) = true) :
    AsyncMulti.queued (c'.pc p) = true := by
  revert h
  simp only [AsyncCalls.settle]
  split
  · simp [AsyncCalls.St.to, waits]
  · split
    · simp [AsyncCalls.St.to, waits, ht]
    · simp [AsyncCalls.St.to, waits]

theorem settleUse_waits {u : Calls.Call V} {dec} {c' : Async.St V E}
    (h : waits ((AsyncCalls.settleUse o p u dec c').pc p) ((AsyncCalls.settleUse o p u dec c').c.pc p) = true) :
    AsyncMulti.queued (c'.pc p) = true := by
  revert h
  unfold AsyncCalls.settleUse
  cases AsyncCalls.decided o.c c' <;> cases AsyncCalls.answered o.c c' p <;>
    simp [AsyncCalls.St.to, AsyncCalls.St.ret, AsyncCalls.St.lin, waits]

theorem invoke_free {c c' : Async.St V E} {op : Op V} (h : Async.invoke c p op = some c')
    (hop : op = .isSet ∨ (∃ v, op = .store v) ∨ op = .take ∨ ∃ g, op = .deref g) : AsyncMulti.queued (c'.pc p) = false := by
  simp only [Async.invoke] at h
  rcases hop with rfl | ⟨v, rfl⟩ | rfl | ⟨g, rfl⟩ <;> cases hx : c.pc p <;> simp [hx] at h
  all_goals first
    | (subst h; simp [Async.St.begin, AsyncMulti.queued]; done)
    | (obtain ⟨_, rfl⟩ := h; simp [Async.St.begin, AsyncMulti.queued])

/-- A call or guard waits for nothing new. -/
theorem waits_step (hi : AsyncCalls.Inv fal cl v₀ o) {a : AsyncCalls.Act V E} (hs : AsyncCalls.step code o p a = some o')
    (hg : o.pc p ≠ .idle) (h : waits (o'.pc p) (o'.c.pc p) = true) : waits (o.pc p) (o.c.pc p) = true := by
  cases a with
  | call c =>
    simp only [AsyncCalls.step, AsyncCalls.invoke] at hs
    split at hs
    · rename_i hpc; exact absurd hpc hg
    · rename_i hpc
      simp only [Option.bind_eq_some_iff, Option.map_eq_some_iff] at hs
      obtain ⟨op, _, c', hc, rfl⟩ := hs
      have hl := hi.loc p
      rw [hpc] at hl ⊢
      simp only [AsyncCalls.St.begin, upd_same, waits] at h ⊢
      refine queued_before (a := .call op) hc h ?_
      generalize o.c.pc p = x at hl
      generalize o.c.value = v at hl
      cases hl with
      | keeps hx => rintro rfl; cases hx
    · cases hs
  | go =>
    simp only [AsyncCalls.step, AsyncCalls.go] at hs
    split at hs <;> rename_i hpc
    · cases hs
    · cases hs
    · rename_i f todo b
      have hr := guard_queued (run_rest hi hpc)
      rw [hpc]
      cases todo with
      | cons m todo =>
        simp only [AsyncCalls.goRun] at hs
        split at hs
        · split at hs <;> cases hs <;> simp [AsyncCalls.St.to, AsyncCalls.St.lin, waits, hr] at h
        · split at hs
          · cases hs
            simp only [AsyncCalls.St.to, upd_same, waits, List.contains_eq_mem, decide_eq_true_eq] at h ⊢
            exact List.mem_cons_of_mem _ h
          · cases hs; simp [AsyncCalls.St.to, waits, hr] at h
          · rename_i m' op hn
            simp only [Option.map_eq_some_iff] at hs
            obtain ⟨c', hc, rfl⟩ := hs
            simp only [AsyncCalls.St.to, upd_same, waits] at h
            unfold AsyncCalls.next at hn
            split at hn <;> first
              | (cases hn; done)
              | (simp [waits]; done)
              | (cases hn
                 rw [invoke_free hc (by simp)] at h; cases h)
          · cases hs
      | nil =>
        have h1 : AsyncCalls.One f := by
          have hl := hi.loc p
          rw [hpc] at hl
          generalize o.c.pc p = x at hl
          generalize o.c.value = v at hl
          cases hl with
          | fin h => exact h
          | start h => exact h
        simp only [AsyncCalls.goRun, h1.1] at hs
        split at hs
        · cases hs; simp [hpc, waits] at h
        · cases hs
          simp only [AsyncCalls.St.ret, upd_same] at h
          split at h <;> simp [waits, hr] at h
    · simp only [Option.map_eq_some_iff] at hs
      obtain ⟨c', hc, rfl⟩ := hs
      have := queued_before (a := .go) hc (settle_waits (wait_todo hi hpc) h)
        (AsyncCalls.wait_busy hi (.inl ⟨_, _, _, hpc⟩)).1
      rw [hpc]; exact this
    · simp only [Option.map_eq_some_iff] at hs
      obtain ⟨c', hc, rfl⟩ := hs
      have := queued_before (a := .go) hc (settleUse_waits h) (AsyncCalls.wait_busy hi (.inr ⟨_, _, hpc⟩)).1
      rw [hpc]; exact this
    · rw [hpc]
      split at hs
      · rename_i c' hd
        cases hs
        simp only [hpc, waits] at h ⊢
        refine queued_before (a := .drop) hd h ?_
        intro hx; simp [Async.dropGuard, hx] at hd
      · cases hs; simpa [AsyncCalls.St.ret, waits] using h
  | finish r =>
    simp only [AsyncCalls.step, AsyncCalls.finish] at hs
    split at hs <;> rename_i hpc
    · simp only [Option.map_eq_some_iff] at hs
      obtain ⟨c', hc, rfl⟩ := hs
      have := queued_before (a := .finish r) hc (settle_waits (wait_todo hi hpc) h)
        (AsyncCalls.wait_busy hi (.inl ⟨_, _, _, hpc⟩)).1
      rw [hpc]; exact this
    · cases hs
  | drop =>
    simp only [AsyncCalls.step, AsyncCalls.dropGuard] at hs
    split at hs <;> rename_i hpc
    · simp only [Option.map_eq_some_iff] at hs
      obtain ⟨c', hc, rfl⟩ := hs
      rw [hpc]
      simp only [AsyncCalls.St.to, upd_same, waits] at h ⊢
      refine queued_before (a := .drop) hc h ?_
      intro hx; simp [Async.dropGuard, hx] at hc
    · cases hs
  | cancel =>
    simp only [AsyncCalls.step, AsyncCalls.cancel] at hs
    split at hs <;> rename_i hpc
    · simp only [Option.map_eq_some_iff] at hs
      obtain ⟨c', hc, rfl⟩ := hs
      rw [hpc]
      simp only [AsyncCalls.St.quit, upd_same, waits] at h ⊢
      refine queued_before (a := .cancel) hc h ?_
      intro hx; simp [Async.cancel, hx] at hc
    · cases hs

/-- Where the container waits, the helper waits. -/
theorem queued_waits (hi : AsyncCalls.Inv fal cl v₀ o) (h : AsyncMulti.queued (o.c.pc p) = true) :
    waits (o.pc p) (o.c.pc p) = true := by
  cases hpc : o.pc p with
  | run f todo a => rw [guard_queued (run_rest hi hpc)] at h; cases h
  | _ => exact h

/-- Is the user's code running? -/
def user (y : AsyncCalls.Pc V E) (x : Async.Pc V E) : Bool :=
  match y with
  | .keeps => true
  | .wait _ _ _ => AsyncMulti.building x
  | _ => false

theorem waits_not_user (hi : AsyncCalls.Inv fal cl v₀ o) (h : waits (o.pc p) (o.c.pc p) = true) :
    user (o.pc p) (o.c.pc p) = false := by
  have hl := hi.loc p
  revert hl h
  generalize o.pc p = y
  generalize o.c.pc p = x
  generalize o.c.value = v
  intro h hl
  cases hl <;> try rfl
  case keeps hg => simp only [waits] at h; rw [guard_queued (.inr hg)] at h; cases h
  all_goals simp only [waits] at h; revert h; cases x <;> simp [AsyncMulti.queued, user, AsyncMulti.building]

/-- At the user in the helper, at the user in the container. -/
theorem user_user {F L W : Type} (i : F) (hi : AsyncCalls.Inv fal cl v₀ o) (h : user (o.pc p) (o.c.pc p) = true) :
    AsyncMixed.atUser (.lazy i (o.c.pc p) : AsyncMixed.View F L V W E) = true := by
  have hl := hi.loc p
  revert hl h
  generalize o.pc p = y
  generalize o.c.pc p = x
  generalize o.c.value = v
  intro h hl
  cases hl <;> simp [user] at h
  case keeps hg => cases x <;> simp [AsyncCalls.isGuard] at hg <;> rfl
  all_goals cases x <;> simp [AsyncMulti.building] at h <;> rfl

theorem idle_idle (hi : AsyncCalls.Inv fal cl v₀ o) (h : o.pc p = .idle) : o.c.pc p = .idle := by
  have hl := hi.loc p
  rw [h] at hl
  generalize o.c.pc p = x at hl
  generalize o.c.value = v at hl
  cases hl; rfl

theorem keeps_guard (hi : AsyncCalls.Inv fal cl v₀ o) (h : o.pc p = .keeps) : AsyncCalls.isGuard (o.c.pc p) = true := by
  have hl := hi.loc p
  rw [h] at hl
  generalize o.c.pc p = x at hl
  generalize o.c.value = v at hl
  cases hl with
  | keeps hg => exact hg

/-- A call of the container which a guard makes runs no user code. -/
theorem use_user (hi : AsyncCalls.Inv fal cl v₀ o) {u dec} (h : o.pc p = .use u dec) {F L W : Type} (i : F) :
    AsyncMixed.atUser (.lazy i (o.c.pc p) : AsyncMixed.View F L V W E) = false := by
  have hl := hi.loc p
  rw [h] at hl
  generalize o.c.pc p = x at hl
  generalize o.c.value = v at hl
  cases hl with
  | use hm hn hu =>
    have hb := AsyncCalls.under_busy hu
    cases x <;> simp [AsyncCalls.isGuard] at hb <;> try rfl
    all_goals
      exfalso
      cases hm <;> first | exact hn _ _ _ rfl | skip
      all_goals rcases hu with ⟨hu, _⟩ | ⟨_, hu, _⟩ <;> cases hu

/-- If the code of a helper cannot move then that of the container cannot, and it is not the user's. -/
theorem go_none {F L W : Type} (i : F) (hi : AsyncCalls.Inv fal cl v₀ o) (hu : user (o.pc p) (o.c.pc p) = false)
    (hg : o.pc p ≠ .idle) (h : AsyncCalls.go o p = none) : o.c.pc p ≠ .idle ∧
      AsyncMixed.atUser (.lazy i (o.c.pc p) : AsyncMixed.View F L V W E) = false ∧ Async.go o.c p = none := by
  cases hpc : o.pc p with
  | idle => exact absurd hpc hg
  | keeps => simp [user, hpc] at hu
  | run f todo a => obtain ⟨s', hs⟩ := AsyncCalls.run_enabled hi hpc; rw [h] at hs; cases hs
  | stop f r => obtain ⟨s', hs⟩ := AsyncCalls.stop_enabled hpc; rw [h] at hs; cases hs
  | wait f m todo =>
    simp only [user, hpc] at hu
    simp only [AsyncCalls.go, hpc, Option.map_eq_none_iff] at h
    have hb := AsyncCalls.wait_busy hi (.inl ⟨f, m, todo, hpc⟩)
    refine ⟨hb.1, ?_, h⟩
    have hb := hb.2
    revert hb hu h
    unfold Async.go
    cases o.c.pc p <;> simp [AsyncCalls.isGuard, AsyncMulti.building, AsyncMixed.atUser]
  | use u dec =>
    simp only [AsyncCalls.go, hpc, Option.map_eq_none_iff] at h
    exact ⟨(AsyncCalls.wait_busy hi (.inr ⟨u, dec, hpc⟩)).1, use_user hi hpc i, h⟩

/-- A call which begins. -/
theorem call_begins {k : Kind} {v : V} {b : Bool} (hs : AsyncCalls.step code o p (.call (.helper k v b)) = some o') :
    o.pc p = .idle ∧ o'.c = o.c ∧ ∃ f bd, code k = some bd ∧ f.kind = k ∧ o'.pc p = .run f (bd.pre.getD bd.main) .self := by
  simp only [AsyncCalls.step, AsyncCalls.invoke] at hs
  split at hs
  · rename_i hpc hc
    cases hc
    simp only [Option.map_eq_some_iff] at hs
    obtain ⟨bd, hb, rfl⟩ := hs
    exact ⟨hpc, rfl, _, bd, hb, rfl, upd_same _ _ _⟩
  · simp [AsyncCalls.useOp] at hs
  · cases hs

theorem grows_note {f : AsyncCalls.Frame V E} {m todo} {c c' : Async.St V E} :
    Whole.Grows o.log (AsyncCalls.note o p f m todo c c').1.log p := by
  unfold AsyncCalls.note
  split
  · split
    · exact .one fun c hc => by simp only [Whole.who, Option.some.injEq] at hc; subst hc; rfl
    · exact .nil
  · exact .nil

theorem grows_settle {f : AsyncCalls.Frame V E} {m todo} {c' : Async.St V E} :
    Whole.Grows o.log (AsyncCalls.settle o p f m todo c').log p := by
  have h := grows_note (o := o) (p := p) (f := f) (m := m) (todo := todo) (c := o.c) (c' := c')
  simp only [AsyncCalls.settle]
  split
  · exact h
  · split <;> exact h

theorem grows_settleUse {u : Calls.Call V} {dec} {c' : Async.St V E} :
    Whole.Grows o.log (AsyncCalls.settleUse o p u dec c').log p := by
  unfold AsyncCalls.settleUse
  cases AsyncCalls.decided o.c c' <;> cases AsyncCalls.answered o.c c' p
  · exact .nil
  · exact .one fun c hc => by simp only [Whole.who, Option.some.injEq] at hc; subst hc; rfl
  · exact .one fun c hc => by simp only [Whole.who, Option.some.injEq] at hc; subst hc; rfl
  · refine .two (fun c hc => ?_) fun c hc => ?_ <;>
      (simp only [Whole.who, Option.some.injEq] at hc; subst hc; rfl)

/-- The log grows by events of the process which moves. -/
theorem grows {a : AsyncCalls.Act V E} (hs : AsyncCalls.step code o p a = some o') : Whole.Grows o.log o'.log p := by
  have one : ∀ {e : LEv (Calls.Call V) (Res V E) Unit}, Whole.who e = some (o.me p) → Whole.Grows o.log (o.log ++ [e]) p :=
    fun h => .one fun c hc => by rw [h] at hc; cases hc; rfl
  cases a with
  | call c =>
    simp only [AsyncCalls.step, AsyncCalls.invoke] at hs
    split at hs
    · simp only [Option.map_eq_some_iff] at hs
      obtain ⟨b, _, rfl⟩ := hs
      exact one rfl
    · simp only [Option.bind_eq_some_iff, Option.map_eq_some_iff] at hs
      obtain ⟨op, _, c', hc, rfl⟩ := hs
      exact one rfl
    · cases hs
  | go =>
    simp only [AsyncCalls.step, AsyncCalls.go] at hs
    split at hs <;> rename_i hpc
    · cases hs
    · cases hs
    · rename_i f todo b
      cases todo with
      | cons m todo =>
        simp only [AsyncCalls.goRun] at hs
        split at hs
        · split at hs <;> cases hs
          · exact .nil
          · exact one rfl
        · split at hs
          · cases hs; exact .nil
          · cases hs; exact .nil
          · simp only [Option.map_eq_some_iff] at hs
            obtain ⟨c', _, rfl⟩ := hs
            exact .nil
          · cases hs
      | nil =>
        simp only [AsyncCalls.goRun] at hs
        split at hs
        · cases hs; exact .nil
        · split at hs
          · cases hs; exact .nil
          · cases hs; exact one rfl
    · simp only [Option.map_eq_some_iff] at hs
      obtain ⟨c', _, rfl⟩ := hs
      exact grows_settle
    · simp only [Option.map_eq_some_iff] at hs
      obtain ⟨c', _, rfl⟩ := hs
      exact grows_settleUse
    · split at hs
      · cases hs; exact .nil
      · cases hs; exact one rfl
  | finish r =>
    simp only [AsyncCalls.step, AsyncCalls.finish] at hs
    split at hs
    · simp only [Option.map_eq_some_iff] at hs
      obtain ⟨c', _, rfl⟩ := hs
      exact grows_settle
    · cases hs
  | drop =>
    simp only [AsyncCalls.step, AsyncCalls.dropGuard] at hs
    split at hs
    · simp only [Option.map_eq_some_iff] at hs
      obtain ⟨c', _, rfl⟩ := hs
      exact .nil
    · cases hs
  | cancel =>
    simp only [AsyncCalls.step, AsyncCalls.cancel] at hs
    split at hs
    · simp only [Option.map_eq_some_iff] at hs
      obtain ⟨c', _, rfl⟩ := hs
      exact one rfl
    · cases hs

end

/-! ## Lock-protected fields -/

section
variable {L W : Type} [DecidableEq L] {code : L → Kind → Option Body} {eqv : Option W → Option W → Bool}
  {dep : L → L → Prop} {w₀ : L → Option W} {l l' : AsyncLockCalls.St L W} {t u : Nat}

/-- Fields whose locks a call takes. -/
def callFields : LockCalls.Call L W → List L
  | .helper i _ _ _ | .clone i => [i]
  | .eq i j => [i, j]
  | _ => []

/-- Actions of a call or guard which is there: no new calls. -/
def linner : AsyncLockCalls.Act L W → Bool
  | .call (.deref _) | .call (.assign _ _) => true
  | .call _ => false
  | _ => true

theorem lothers {a : AsyncLockCalls.Act L W} (hs : AsyncLockCalls.step code eqv l t a = some l') (hu : u ≠ t) :
    l'.pc u = l.pc u ∧ l'.c.held u = l.c.held u ∧ l'.c.pc u = l.c.pc u := by
  obtain ⟨h1, h2⟩ := AsyncLockCalls.others_stay hu hs
  refine ⟨h1, h2, ?_⟩
  cases a with
  | call call =>
    simp only [AsyncLockCalls.step, AsyncLockCalls.invoke] at hs
    split at hs
    · split at hs
      · split at hs
        · split at hs
          · cases hs; rfl
          · cases hs
        · cases hs
      · simp only [Option.bind_eq_some_iff, Option.map_eq_some_iff] at hs
        obtain ⟨op, _, c', hc', rfl⟩ := hs
        exact (AsyncLockCalls.step_other (eqv := eqv) (a := .call op) hc' hu).1
    · cases hs
  | go => exact ((AsyncLockCalls.hload_step (a := .go) rfl hs).2 u hu).2.2
  | panic => exact ((AsyncLockCalls.hload_step (a := .panic) rfl hs).2 u hu).2.2
  | cancel => exact ((AsyncLockCalls.hload_step (a := .cancel) rfl hs).2 u hu).2.2
  | drop g => exact ((AsyncLockCalls.hload_step (a := .drop g) rfl hs).2 u hu).2.2

/-- No call on the fields: none on the locks. -/
theorem lidle_idle (hi : AsyncLockCalls.Inv eqv dep w₀ l) (h : l.pc t = .idle) : l.c.pc t = .idle := by
  apply Classical.byContradiction
  intro hc
  rcases (AsyncLockCalls.busy_iff hi t).1 hc with ⟨_, _, _, h1⟩ | ⟨_, _, h1⟩ <;> rw [h] at h1 <;> cases h1

theorem lrun_idle (hi : AsyncLockCalls.Inv eqv dep w₀ l) {f todo a} (h : l.pc t = .run f todo a) : l.c.pc t = .idle := by
  apply Classical.byContradiction
  intro hc
  rcases (AsyncLockCalls.busy_iff hi t).1 hc with ⟨_, _, _, h1⟩ | ⟨_, _, h1⟩ <;> rw [h] at h1 <;> cases h1

theorem lstop_idle (hi : AsyncLockCalls.Inv eqv dep w₀ l) {f} (h : l.pc t = .stop f) : l.c.pc t = .idle := by
  apply Classical.byContradiction
  intro hc
  rcases (AsyncLockCalls.busy_iff hi t).1 hc with ⟨_, _, _, h1⟩ | ⟨_, _, h1⟩ <;> rw [h] at h1 <;> cases h1

/-- The container waits for `k`, now or later. -/
def ltg (x : AsyncLocks.Pc L (Option W)) (k : L) : Prop := AsyncLocks.wants x = some k ∨ ∃ i, x = .eWait1 i k

/-- The `.await` on the lock of `k` is still to come, or the container waits for `k`. -/
def lwaits (y : AsyncLockCalls.Pc L W) (x : AsyncLocks.Pc L (Option W)) (k : L) : Prop :=
  match y with
  | .run f todo _ => .await ∈ todo ∧ k = f.field
  | _ => ltg x k

theorem ltg_wants {x : AsyncLocks.Pc L (Option W)} {k : L} (h : ltg x k) : AsyncLocks.wants x ≠ none := by
  rcases h with h | ⟨i, rfl⟩
  · rw [h]; simp
  · simp [AsyncLocks.wants]

theorem ltg_step {c c' : AsyncLocks.St L (Option W)} {b : AsyncLocks.Act L (Option W)} (hb : AsyncMixed.inner b = true)
    (h : AsyncLocks.step eqv c t b = some c') {k : L} (hk : ltg (c'.pc t) k) : ltg (c.pc t) k := by
  rcases (AsyncMixed.lock_wants hb h (ltg_wants hk)).1 with h1 | ⟨i, j, h1, h2⟩
  · rw [h1]; exact hk
  · rw [h1]; rw [h2] at hk
    rcases hk with hk | ⟨_, hk⟩
    · simp only [AsyncLocks.wants, Option.some.injEq] at hk
      exact .inr ⟨i, by rw [hk]⟩
    · cases hk

theorem plan_await {i : L} {v : W} {k : Kind} {ex : Bool} {todo : List MOp} {a : AsyncLockCalls.Cur W}
    (h : AsyncLockCalls.Plan i v k ex todo a) (ha : a ≠ .self ∧ ∀ e, a ≠ .fut e) : .await ∉ todo := by
  induction h with
  | @now m todo a b hn _ _ _ ih =>
    unfold AsyncLockCalls.next at hn
    split at hn <;> first
      | (cases hn; done)
      | (exact absurd rfl ha.1)
      | (cases hn
         simp only [List.mem_cons, not_or, reduceCtorEq, not_false_eq_true, true_and]
         exact ih ⟨by simp, by simp⟩)
  | @call m a op hn hj =>
    cases hj <;> simp
    rename_i hm
    rcases hm with rfl | rfl <;> simp
  | keep => simp

theorem lwait_todo (hi : AsyncLockCalls.Inv eqv dep w₀ l) {f m todo} (hpc : l.pc t = .wait f m todo) : .await ∉ todo := by
  have hl := hi.loc t
  rw [hpc] at hl
  generalize l.c.pc t = x at hl
  generalize l.c.held t = hd at hl
  cases hl with
  | acq _ _ hp => exact plan_await hp ⟨by simp, by simp⟩
  | call => simp

theorem lsettle_waits {f m todo} {c' : AsyncLocks.St L (Option W)} (ht : .await ∉ todo) {k : L}
    (h : lwaits ((AsyncLockCalls.settle l t f m todo c').pc t) ((AsyncLockCalls.settle l t f m todo c').c.pc t) k) :
    ltg (c'.pc t) k := by
  revert h
  simp only [AsyncLockCalls.settle]
  split
  · simp [AsyncLockCalls.St.to, lwaits]
  · split
    · simp [AsyncLockCalls.St.to, lwaits, ht]
    · simp [AsyncLockCalls.St.to, lwaits]

theorem lsettleOther_waits {c dec} {c' : AsyncLocks.St L (Option W)} {k : L}
    (h : lwaits ((AsyncLockCalls.settleOther l t c dec c').pc t) ((AsyncLockCalls.settleOther l t c dec c').c.pc t) k) :
    ltg (c'.pc t) k := by
  revert h
  unfold AsyncLockCalls.settleOther
  cases AsyncLockCalls.decided l.c c' <;> cases AsyncLockCalls.answered l.c c' t <;>
    simp [AsyncLockCalls.St.to, AsyncLockCalls.St.ret, AsyncLockCalls.St.lin, lwaits]

theorem linvoke_targets {c c' : AsyncLocks.St L (Option W)} {op} (h : AsyncLocks.invoke c t op = some c') {k : L}
    (hk : ltg (c'.pc t) k) : k ∈ AsyncMixed.opTargets op := by
  obtain ⟨_, _, _, h4, h5, _⟩ := AsyncMixed.lock_call_inside (eqv := fun _ _ => true) h
  rcases hk with hk | ⟨i, hk⟩
  · exact h4 k hk
  · have := h5 i k hk
    subst this
    simp [AsyncMixed.opTargets]

theorem idle_ltg {k : L} : ¬ ltg (.idle : AsyncLocks.Pc L (Option W)) k := by
  rintro (h | ⟨_, h⟩) <;> cases h

/-- A call or guard waits for nothing new. -/
theorem lwaits_step (hi : AsyncLockCalls.Inv eqv dep w₀ l) {a : AsyncLockCalls.Act L W} (ha : linner a = true)
    (hs : AsyncLockCalls.step code eqv l t a = some l') {k : L} (h : lwaits (l'.pc t) (l'.c.pc t) k) :
    lwaits (l.pc t) (l.c.pc t) k := by
  cases a with
  | call c =>
    exfalso
    simp only [AsyncLockCalls.step, AsyncLockCalls.invoke] at hs
    split at hs
    · split at hs
      · cases ha
      · simp only [Option.bind_eq_some_iff, Option.map_eq_some_iff] at hs
        obtain ⟨op, hop, c', hc', rfl⟩ := hs
        simp only [AsyncLockCalls.St.begin, upd_same, lwaits] at h
        have hm := linvoke_targets hc' h
        cases c <;> simp [linner] at ha <;> simp [LockCalls.otherOp] at hop <;> subst hop <;> cases hm
    · cases hs
  | go =>
    simp only [AsyncLockCalls.step] at hs
    cases hpc : l.pc t with
    | idle => simp [AsyncLockCalls.go, hpc] at hs
    | wait f m todo =>
      simp only [AsyncLockCalls.go, hpc, Option.map_eq_some_iff] at hs
      obtain ⟨c', hc', rfl⟩ := hs
      exact ltg_step (b := .go) rfl hc' (lsettle_waits (lwait_todo hi hpc) h)
    | other u dec =>
      simp only [AsyncLockCalls.go, hpc, Option.map_eq_some_iff] at hs
      obtain ⟨c', hc', rfl⟩ := hs
      exact ltg_step (b := .go) rfl hc' (lsettleOther_waits h)
    | stop f =>
      have hx := lstop_idle hi hpc
      simp only [AsyncLockCalls.go, hpc] at hs
      split at hs
      · simp only [Option.map_eq_some_iff] at hs
        obtain ⟨c', hc', rfl⟩ := hs
        simp only [AsyncLockCalls.St.to, upd_same, lwaits] at h
        exact ltg_step (eqv := eqv) (b := .drop _) rfl hc' h
      · cases hs
        simp only [AsyncLockCalls.St.ret, upd_same, lwaits] at h
        exact h
    | run f todo b =>
      have hx := lrun_idle hi hpc
      simp only [AsyncLockCalls.go, hpc] at hs
      cases todo with
      | nil =>
        exfalso
        simp only [AsyncLockCalls.goRun] at hs
        split at hs
        · simp only [Option.map_eq_some_iff] at hs
          obtain ⟨c', _, rfl⟩ := hs
          simp [AsyncLockCalls.St.to, lwaits] at h
        · cases hs
          simp only [AsyncLockCalls.St.ret, upd_same, lwaits, hx] at h
          exact idle_ltg h
      | cons m todo =>
        simp only [AsyncLockCalls.goRun] at hs
        split at hs
        · cases hs
          simp only [AsyncLockCalls.St.to, AsyncLockCalls.St.lin, upd_same, lwaits, hx] at h
          exact absurd h idle_ltg
        · split at hs
          · cases hs
            simp only [AsyncLockCalls.St.to, upd_same, lwaits] at h ⊢
            exact ⟨List.mem_cons_of_mem _ h.1, h.2⟩
          · rename_i m' op hn
            simp only [Option.map_eq_some_iff] at hs
            obtain ⟨c', hc', rfl⟩ := hs
            simp only [AsyncLockCalls.St.to, upd_same, lwaits] at h
            have hm := linvoke_targets hc' h
            unfold AsyncLockCalls.next at hn
            split at hn <;> first
              | (cases hn; done)
              | (cases hn; cases hm; done)
              | (cases hn
                 simpa [AsyncMixed.opTargets, lwaits] using hm)
          · cases hs
  | panic =>
    simp only [AsyncLockCalls.step, AsyncLockCalls.panics] at hs
    split at hs <;> rename_i hpc
    · simp only [Option.map_eq_some_iff] at hs
      obtain ⟨c', hc', rfl⟩ := hs
      rw [hpc]; exact ltg_step (eqv := eqv) (b := .panic) rfl hc' (lsettleOther_waits h)
    · cases hs
  | cancel =>
    simp only [AsyncLockCalls.step, AsyncLockCalls.cancel] at hs
    split at hs <;> rename_i hpc
    · simp only [Option.map_eq_some_iff] at hs
      obtain ⟨c', hc', rfl⟩ := hs
      simp only [AsyncLockCalls.St.quit, upd_same, lwaits] at h
      rw [hpc]; exact ltg_step (eqv := eqv) (b := .cancel) rfl hc' h
    · cases hs
  | drop g =>
    simp only [AsyncLockCalls.step, AsyncLockCalls.dropGuard] at hs
    split at hs <;> rename_i hpc
    · simp only [Option.map_eq_some_iff] at hs
      obtain ⟨c', hc', rfl⟩ := hs
      simp only [hpc, lwaits] at h ⊢
      exact ltg_step (eqv := eqv) (b := .drop g) rfl hc' h
    · cases hs

/-- Where the container waits, the helper waits. -/
theorem ltg_lwaits (hi : AsyncLockCalls.Inv eqv dep w₀ l) {k : L} (h : ltg (l.c.pc t) k) : lwaits (l.pc t) (l.c.pc t) k := by
  cases hpc : l.pc t with
  | run f todo a => rw [lrun_idle hi hpc] at h; exact absurd h idle_ltg
  | _ => exact h

theorem lwaits_busy (hi : AsyncLockCalls.Inv eqv dep w₀ l) {k : L} (h : lwaits (l.pc t) (l.c.pc t) k) : l.pc t ≠ .idle := by
  intro hpc
  rw [hpc, lidle_idle hi hpc] at h
  exact idle_ltg h

/-- What a new call waits for. -/
theorem lcall_waits {c : LockCalls.Call L W}
    (hs : AsyncLockCalls.step code eqv l t (.call c) = some l') : l.pc t = .idle ∧ l'.pc t ≠ .idle ∧ l'.c.held = l.c.held ∧
      ∀ k, lwaits (l'.pc t) (l'.c.pc t) k → k ∈ callFields c := by
  simp only [AsyncLockCalls.step, AsyncLockCalls.invoke] at hs
  split at hs
  · rename_i hpc
    refine ⟨hpc, ?_⟩
    split at hs
    · split at hs
      · split at hs
        · cases hs
          refine ⟨by simp [AsyncLockCalls.St.begin], rfl, ?_⟩
          intro k hk
          simp only [AsyncLockCalls.St.begin, upd_same, lwaits] at hk
          simp [callFields, hk.2]
        · cases hs
      · cases hs
    · simp only [Option.bind_eq_some_iff, Option.map_eq_some_iff] at hs
      obtain ⟨op, hop, c', hc', rfl⟩ := hs
      refine ⟨by simp [AsyncLockCalls.St.begin], (AsyncMixed.lock_call_inside (eqv := eqv) hc').2.2.1, ?_⟩
      intro k hk
      simp only [AsyncLockCalls.St.begin, upd_same, lwaits] at hk
      have hm := linvoke_targets hc' hk
      cases c <;> simp [LockCalls.otherOp] at hop <;> subst hop <;> exact hm
  · cases hs

/-- If the code of a helper cannot move then the locks cannot. -/
theorem lgo_none (hi : AsyncLockCalls.Inv eqv dep w₀ l) (hp : l.pc t ≠ .idle) (h : AsyncLockCalls.go eqv l t = none) :
    AsyncLocks.Stuck eqv l.c t := by
  cases hpc : l.pc t with
  | idle => exact absurd hpc hp
  | run f todo a =>
    obtain ⟨s', hs⟩ := AsyncLockCalls.run_enabled (code := fun _ _ => none) hi hpc
    simp only [AsyncLockCalls.step] at hs
    rw [h] at hs; cases hs
  | stop f =>
    obtain ⟨s', hs⟩ := AsyncLockCalls.stop_enabled (code := fun _ _ => none) hi hpc
    simp only [AsyncLockCalls.step] at hs
    rw [h] at hs; cases hs
  | wait f m todo =>
    simp only [AsyncLockCalls.go, hpc, Option.map_eq_none_iff] at h
    exact ⟨(AsyncLockCalls.busy_iff hi t).2 (.inl ⟨f, m, todo, hpc⟩), h⟩
  | other c dec =>
    simp only [AsyncLockCalls.go, hpc, Option.map_eq_none_iff] at h
    exact ⟨(AsyncLockCalls.busy_iff hi t).2 (.inr ⟨c, dec, hpc⟩), h⟩

/-- Every call and every guard has a process of its own. -/
def BaseOk (y : AsyncLockCalls.Pc L W) (h : List (L × Bool)) : Prop :=
  match y with
  | .run f _ _ | .wait f _ _ | .stop f => f.base = []
  | .other c _ => h.length ≤ 1 ∧ (callFields c ≠ [] → h = [])
  | .idle => h.length ≤ 1

theorem base_call {c : LockCalls.Call L W} (hs : AsyncLockCalls.step code eqv l t (.call c) = some l')
    (hh : l.c.held t = []) : BaseOk (l'.pc t) (l'.c.held t) := by
  simp only [AsyncLockCalls.step, AsyncLockCalls.invoke] at hs
  split at hs
  · split at hs
    · split at hs
      · split at hs
        · cases hs
          simp only [AsyncLockCalls.St.begin, upd_same, BaseOk, hh]
        · cases hs
      · cases hs
    · simp only [Option.bind_eq_some_iff, Option.map_eq_some_iff] at hs
      obtain ⟨op, hop, c', hc', rfl⟩ := hs
      have := (AsyncMixed.lock_call_inside (eqv := eqv) hc').2.2.1
      simp [AsyncLockCalls.St.begin, BaseOk, this, hh]
  · cases hs

theorem base_settleOther {c dec} {c' : AsyncLocks.St L (Option W)} (h1 : (c'.held t).length ≤ 1)
    (h2 : callFields c ≠ [] → c'.held t = []) :
    BaseOk ((AsyncLockCalls.settleOther l t c dec c').pc t) ((AsyncLockCalls.settleOther l t c dec c').c.held t) := by
  unfold AsyncLockCalls.settleOther
  cases AsyncLockCalls.decided l.c c' <;> cases AsyncLockCalls.answered l.c c' t <;>
    simp [AsyncLockCalls.St.to, AsyncLockCalls.St.ret, AsyncLockCalls.St.lin, BaseOk, h1] <;> exact h2

theorem base_step (hi : AsyncLockCalls.Inv eqv dep w₀ l) {a : AsyncLockCalls.Act L W} (ha : linner a = true)
    (hs : AsyncLockCalls.step code eqv l t a = some l') (h : BaseOk (l.pc t) (l.c.held t)) :
    BaseOk (l'.pc t) (l'.c.held t) := by
  have about : ∀ f : AsyncLockCalls.Frame L W, AsyncLockCalls.About f.field f.kind [] (l.pc t) → BaseOk (l'.pc t) (l'.c.held t) := by
    intro f hf
    rcases AsyncLockCalls.about_step hi hf hs with ⟨h1, _⟩ | ⟨h1, h2⟩
    · cases hx : l'.pc t <;> simp [hx, AsyncLockCalls.About] at h1 <;> simp [BaseOk, h1]
    · rw [h1]
      rcases h2 with ⟨_, h2⟩ | ⟨_, h2⟩
      · rw [h2]
        unfold AsyncLockCalls.after
        split <;> simp [BaseOk]
      · rw [h2]; simp [BaseOk]
  have other : ∀ {c dec} {b : AsyncLocks.Act L (Option W)} {c'}, l.pc t = .other c dec → (b = .go ∨ b = .panic) →
      AsyncLocks.step eqv l.c t b = some c' → c'.held t = l.c.held t := by
    intro c dec b c' hpc hb hc'
    refine AsyncLockCalls.go_other_held hb hc' ?_
    have hl := hi.loc t
    rw [hpc] at hl
    generalize l.c.pc t = x at hl
    generalize l.c.held t = hd at hl
    cases hl with
    | other hm hop hx =>
      intro i
      rcases hx with ⟨h1, _⟩ | ⟨r, h1, _⟩ <;> rw [h1] <;> constructor <;> intro hc <;> cases hc
      · exact (hop i).1 rfl
      · exact (hop i).2 rfl
  cases hpc : l.pc t with
  | run f todo b => rw [hpc] at h about; exact about f ⟨rfl, rfl, h⟩
  | wait f m todo => rw [hpc] at h about; exact about f ⟨rfl, rfl, h⟩
  | stop f => rw [hpc] at h about; exact about f ⟨rfl, rfl, h⟩
  | other c dec =>
    rw [hpc] at h
    cases a with
    | call c => simp [AsyncLockCalls.step, AsyncLockCalls.invoke, hpc] at hs
    | go =>
      simp only [AsyncLockCalls.step, AsyncLockCalls.go, hpc, Option.map_eq_some_iff] at hs
      obtain ⟨c', hc', rfl⟩ := hs
      have := other hpc (.inl rfl) hc'
      exact base_settleOther (by rw [this]; exact h.1) (by rw [this]; exact h.2)
    | panic =>
      simp only [AsyncLockCalls.step, AsyncLockCalls.panics, hpc, Option.map_eq_some_iff] at hs
      obtain ⟨c', hc', rfl⟩ := hs
      have := other hpc (.inr rfl) hc'
      exact base_settleOther (by rw [this]; exact h.1) (by rw [this]; exact h.2)
    | cancel => simp [AsyncLockCalls.step, AsyncLockCalls.cancel, hpc] at hs
    | drop g => simp [AsyncLockCalls.step, AsyncLockCalls.dropGuard, hpc] at hs
  | idle =>
    rw [hpc] at h
    cases a with
    | call c =>
      simp only [AsyncLockCalls.step, AsyncLockCalls.invoke, hpc] at hs
      split at hs
      · cases ha
      · simp only [Option.bind_eq_some_iff, Option.map_eq_some_iff] at hs
        obtain ⟨op, hop, c', hc', rfl⟩ := hs
        have := (AsyncMixed.lock_call_inside (eqv := eqv) hc').2.2.1
        simp only [AsyncLockCalls.St.begin, upd_same, BaseOk, this]
        refine ⟨h, ?_⟩
        cases c <;> simp [linner] at ha <;> simp [callFields]
    | go => simp [AsyncLockCalls.step, AsyncLockCalls.go, hpc] at hs
    | panic => simp [AsyncLockCalls.step, AsyncLockCalls.panics, hpc] at hs
    | cancel => simp [AsyncLockCalls.step, AsyncLockCalls.cancel, hpc] at hs
    | drop g =>
      simp only [AsyncLockCalls.step, AsyncLockCalls.dropGuard, hpc, Option.map_eq_some_iff] at hs
      obtain ⟨c', hc', rfl⟩ := hs
      simp only [hpc, BaseOk] at h ⊢
      refine AsyncMixed.lock_held (eqv := eqv) (b := .drop g) hc' ?_ h
      rw [lidle_idle hi hpc]
      intro hc; exact absurd rfl hc

theorem job_wants {i : L} {v : W} {k ex m op} (h : AsyncLockCalls.Job i v k ex m op) :
    AsyncLocks.wants (AsyncLockCalls.begun op) = none := by
  cases h <;> rfl

/-- A process which waits has no guard. -/
theorem base_hold (hi : AsyncLockCalls.Inv eqv dep w₀ l) (h : BaseOk (l.pc t) (l.c.held t))
    (hw : AsyncLocks.wants (l.c.pc t) ≠ none) : l.c.held t = [] := by
  have hl := hi.loc t
  revert hl h hw
  generalize l.pc t = y
  generalize l.c.pc t = x
  generalize l.c.held t = hd
  intro h hw hl
  cases hl with
  | acq => exact h
  | call _ hj _ hx =>
    exfalso
    rcases hx with ⟨rfl, _⟩ | ⟨o, rfl, _⟩
    · exact hw (job_wants hj)
    · exact hw rfl
  | other hm hop hx =>
    cases hm with
    | clone | eq => exact h.2 (by simp [callFields])
    | deref | assign =>
      exfalso
      cases x <;> simp [AsyncLocks.wants] at hw <;> rcases hx with ⟨h1, _⟩ | ⟨r, h1, _⟩ <;> cases h1
  | _ => exact absurd rfl hw

/-- At most one guard. -/
theorem base_short (hi : AsyncLockCalls.Inv eqv dep w₀ l) (h : BaseOk (l.pc t) (l.c.held t)) : (l.c.held t).length ≤ 1 := by
  have hl := hi.loc t
  revert hl h
  generalize l.pc t = y
  generalize l.c.pc t = x
  generalize l.c.held t = hd
  intro h hl
  cases hl with
  | idle => exact h
  | other => exact h.1
  | _ => simp only [BaseOk] at h; simp [h]

theorem lnote_grows {f m todo} {c c' : AsyncLocks.St L (Option W)} :
    ∃ n, (AsyncLockCalls.note l t f m todo c c').1.log = l.log ++ n := by
  unfold AsyncLockCalls.note
  split
  · split
    · exact ⟨_, rfl⟩
    · exact ⟨[], (List.append_nil _).symm⟩
  · exact ⟨[], (List.append_nil _).symm⟩

theorem lsettle_grows {f m todo} {c' : AsyncLocks.St L (Option W)} :
    ∃ n, (AsyncLockCalls.settle l t f m todo c').log = l.log ++ n := by
  have h := lnote_grows (l := l) (t := t) (f := f) (m := m) (todo := todo) (c := l.c) (c' := c')
  simp only [AsyncLockCalls.settle]
  split
  · exact h
  · split <;> exact h

theorem lsettleOther_grows {c dec} {c' : AsyncLocks.St L (Option W)} :
    ∃ n, (AsyncLockCalls.settleOther l t c dec c').log = l.log ++ n := by
  unfold AsyncLockCalls.settleOther
  cases AsyncLockCalls.decided l.c c' <;> cases AsyncLockCalls.answered l.c c' t
  · exact ⟨[], (List.append_nil _).symm⟩
  · exact ⟨_, rfl⟩
  · exact ⟨_, rfl⟩
  · exact ⟨_, List.append_assoc _ _ _⟩

theorem lgrows {a : AsyncLockCalls.Act L W} (hs : AsyncLockCalls.step code eqv l t a = some l') : ∃ n, l'.log = l.log ++ n := by
  have nil : ∃ n, l.log = l.log ++ n := ⟨[], (List.append_nil _).symm⟩
  cases a with
  | call c =>
    simp only [AsyncLockCalls.step, AsyncLockCalls.invoke] at hs
    split at hs
    · split at hs
      · split at hs
        · split at hs
          · cases hs; exact ⟨_, rfl⟩
          · cases hs
        · cases hs
      · simp only [Option.bind_eq_some_iff, Option.map_eq_some_iff] at hs
        obtain ⟨op, _, c', hc', rfl⟩ := hs
        exact ⟨_, rfl⟩
    · cases hs
  | go =>
    simp only [AsyncLockCalls.step] at hs
    cases hpc : l.pc t with
    | idle => simp [AsyncLockCalls.go, hpc] at hs
    | wait f m todo =>
      simp only [AsyncLockCalls.go, hpc, Option.map_eq_some_iff] at hs
      obtain ⟨c', _, rfl⟩ := hs
      exact lsettle_grows
    | other u dec =>
      simp only [AsyncLockCalls.go, hpc, Option.map_eq_some_iff] at hs
      obtain ⟨c', _, rfl⟩ := hs
      exact lsettleOther_grows
    | stop f =>
      simp only [AsyncLockCalls.go, hpc] at hs
      split at hs
      · simp only [Option.map_eq_some_iff] at hs
        obtain ⟨c', _, rfl⟩ := hs
        exact nil
      · cases hs; exact ⟨_, rfl⟩
    | run f todo b =>
      simp only [AsyncLockCalls.go, hpc] at hs
      cases todo with
      | nil =>
        simp only [AsyncLockCalls.goRun] at hs
        split at hs
        · simp only [Option.map_eq_some_iff] at hs
          obtain ⟨c', _, rfl⟩ := hs
          exact nil
        · cases hs; exact ⟨_, rfl⟩
      | cons m todo =>
        simp only [AsyncLockCalls.goRun] at hs
        split at hs
        · cases hs; exact ⟨_, rfl⟩
        · split at hs
          · cases hs; exact nil
          · simp only [Option.map_eq_some_iff] at hs
            obtain ⟨c', _, rfl⟩ := hs
            exact nil
          · cases hs
  | panic =>
    simp only [AsyncLockCalls.step, AsyncLockCalls.panics] at hs
    split at hs <;> rename_i hpc
    · simp only [Option.map_eq_some_iff] at hs
      obtain ⟨c', _, rfl⟩ := hs
      exact lsettleOther_grows
    · cases hs
  | cancel =>
    simp only [AsyncLockCalls.step, AsyncLockCalls.cancel] at hs
    split at hs <;> rename_i hpc
    · simp only [Option.map_eq_some_iff] at hs
      obtain ⟨c', _, rfl⟩ := hs
      exact ⟨_, rfl⟩
    · cases hs
  | drop g =>
    simp only [AsyncLockCalls.step, AsyncLockCalls.dropGuard] at hs
    split at hs
    · simp only [Option.map_eq_some_iff] at hs
      obtain ⟨c', _, rfl⟩ := hs
      exact nil
    · cases hs

/-- Weakening the order. -/
theorem lreach_mono {dep' : L → L → Prop} {c : AsyncLocks.St L (Option W)} (h : AsyncLocks.Reach eqv dep w₀ c)
    (hd : ∀ i j, dep i j → dep' i j) : AsyncLocks.Reach eqv dep' w₀ c := by
  induction h with
  | init => exact .init
  | @step s s' t a _ ha hs ih =>
    refine .step ih ?_ hs
    cases a with
    | call op => cases op <;> simp only [AsyncLocks.Allowed] at ha ⊢ <;> grind
    | _ => trivial

end

end Verif.Proof.Tasks
