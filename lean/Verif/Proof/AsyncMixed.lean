import Verif.Model.AsyncMixed
import Verif.Proof.AsyncMulti
import Verif.Proof.AsyncLocksCycle
/-!
# Lazy and lock-protected fields of async structs together: invariants and progress (helper lemmas)
-/

namespace Verif.Proof.AsyncMixed
open Verif.Spec Verif.Model Verif.Model.AsyncMixed
open Verif.Model.Async (ALock)
open Verif.Proof.AsyncMulti (others call_inside queued_before)

set_option linter.unusedSectionVars false
set_option linter.unusedSimpArgs false
variable {F L V W E : Type} [DecidableEq F] [DecidableEq L] {eqv : W → W → Bool} {dep : F ⊕ L → F ⊕ L → Prop}
  {v₀ : F → Option V} {w₀ : L → W} {s s' : St F L V W E}

/-! ## Calls on lock-protected containers -/

/-- Actions of a call or guard which is there: no new calls. -/
def inner : AsyncLocks.Act L W → Bool
  | .call (.deref _) | .call (.assign _ _) => true
  | .call _ => false
  | _ => true

/-- The two sides of a comparison which has not got both. -/
def sides : AsyncLocks.Pc L W → Option (L × L)
  | .eWait1 i j | .eWait2 i j => some (i, j)
  | _ => none

/-- A call waits after a step only if it waited before: it has let in a comparison to its first side. -/
theorem lock_wants {l l' : AsyncLocks.St L W} {p : Nat} {b : AsyncLocks.Act L W} (hb : inner b = true)
    (h : AsyncLocks.step eqv l p b = some l') (hw : AsyncLocks.wants (l'.pc p) ≠ none) :
    (l.pc p = l'.pc p ∨ ∃ i j, l.pc p = .eWait1 i j ∧ l'.pc p = .eWait2 i j) ∧ l'.held p = l.held p := by
  cases b with
  | call op =>
    simp only [AsyncLocks.step, AsyncLocks.invoke] at h
    split at h
    · cases op <;> simp [inner] at hb h
      all_goals obtain ⟨_, rfl⟩ := h; simp [AsyncLocks.St.begin, AsyncLocks.wants] at hw
    · cases h
  | go =>
    simp only [AsyncLocks.step, AsyncLocks.go] at h
    split at h <;> rename_i hpc
    case h_1 => cases h
    case h_8 i j =>
      simp only [Option.map_eq_some_iff] at h
      obtain ⟨m, hm, rfl⟩ := h
      obtain ⟨_, _, rfl⟩ := AsyncLocks.shared_some hm
      exact ⟨.inr ⟨i, j, hpc, by simp [AsyncLocks.St.to]⟩, rfl⟩
    all_goals
      exfalso
      first
      | (simp only [Option.map_eq_some_iff] at h
         obtain ⟨m, _, rfl⟩ := h
         simp [AsyncLocks.St.to, AsyncLocks.St.ret, AsyncLocks.wants] at hw)
      | (simp only [Option.some.injEq] at h
         subst h
         simp [AsyncLocks.St.to, AsyncLocks.St.ret, AsyncLocks.wants] at hw)
  | panic =>
    simp only [AsyncLocks.step, AsyncLocks.panics] at h
    split at h <;> simp at h <;> subst h <;> simp [AsyncLocks.St.to, AsyncLocks.wants] at hw
  | cancel =>
    simp only [AsyncLocks.step, AsyncLocks.cancel] at h
    split at h <;> simp at h <;> subst h <;> simp [AsyncLocks.St.quit, AsyncLocks.wants] at hw
  | drop g =>
    simp only [AsyncLocks.step, AsyncLocks.dropGuard] at h
    split at h <;> rename_i hpc
    · split at h <;> simp at h
      subst h
      simp only [AsyncLocks.St.setLock, hpc] at hw
      exact absurd rfl hw
    · cases h

/-- A call which is there does not vanish by being used. -/
theorem lock_call_inside {l l' : AsyncLocks.St L W} {p : Nat} {op : Memory.Op L W}
    (h : AsyncLocks.step eqv l p (.call op) = some l') : l'.pc p ≠ .idle ∧ l.pc p = .idle ∧ l'.held = l.held ∧
      (∀ k, AsyncLocks.wants (l'.pc p) = some k → k ∈ opTargets op) ∧
      (∀ i j, l'.pc p = .eWait1 i j → op = .eq i j) ∧ ∀ i j, l'.pc p ≠ .eWait2 i j := by
  simp only [AsyncLocks.step, AsyncLocks.invoke] at h
  split at h <;> rename_i hpc
  · cases op <;> simp at h
    case deref | assign => obtain ⟨_, rfl⟩ := h; simp [AsyncLocks.St.begin, AsyncLocks.wants, hpc]
    all_goals subst h; simp [AsyncLocks.St.begin, AsyncLocks.St.enter, AsyncLocks.wants, hpc, opTargets]
  · cases h

/-- A call gives at most one guard, at its end. -/
theorem lock_held {l l' : AsyncLocks.St L W} {p : Nat} {b : AsyncLocks.Act L W} (h : AsyncLocks.step eqv l p b = some l')
    (h0 : AsyncLocks.wants (l.pc p) ≠ none → l.held p = []) (h1 : (l.held p).length ≤ 1) : (l'.held p).length ≤ 1 := by
  cases b with
  | call op => rw [(lock_call_inside h).2.2.1]; exact h1
  | go =>
    simp only [AsyncLocks.step, AsyncLocks.go] at h
    split at h <;> rename_i hpc
    case h_1 => cases h
    case h_14 i =>
      simp only [Option.map_eq_some_iff] at h
      obtain ⟨m, hm, rfl⟩ := h
      obtain ⟨_, _, rfl⟩ := AsyncLocks.shared_some hm
      simp [AsyncLocks.St.ret, AsyncLocks.St.keep, AsyncLocks.St.lin, h0 (by simp [hpc, AsyncLocks.wants])]
    case h_15 i =>
      simp only [Option.map_eq_some_iff] at h
      obtain ⟨m, hm, rfl⟩ := h
      obtain ⟨_, _, _, rfl⟩ := AsyncLocks.exclusive_some hm
      simp [AsyncLocks.St.ret, AsyncLocks.St.keep, AsyncLocks.St.lin, h0 (by simp [hpc, AsyncLocks.wants])]
    case h_2 | h_8 | h_9 =>
      simp only [Option.map_eq_some_iff] at h
      obtain ⟨m, hm, rfl⟩ := h
      obtain ⟨_, _, rfl⟩ := AsyncLocks.shared_some hm
      exact h1
    case h_5 =>
      simp only [Option.map_eq_some_iff] at h
      obtain ⟨m, hm, rfl⟩ := h
      obtain ⟨_, _, _, rfl⟩ := AsyncLocks.exclusive_some hm
      exact h1
    all_goals
      simp only [Option.some.injEq] at h
      subst h
      exact h1
  | panic =>
    simp only [AsyncLocks.step, AsyncLocks.panics] at h
    split at h <;> simp at h <;> subst h <;> exact h1
  | cancel =>
    simp only [AsyncLocks.step, AsyncLocks.cancel] at h
    split at h <;> simp at h <;> subst h <;> exact h1
  | drop g =>
    simp only [AsyncLocks.step, AsyncLocks.dropGuard] at h
    split at h
    · split at h <;> simp at h
      subst h
      simp only [AsyncLocks.St.setLock, upd_same]
      exact Nat.le_trans List.length_erase_le h1
    · cases h

/-! ## The containers -/

/-- Process number. -/
def num : Fr F → Nat
  | .lazy _ p => p
  | .lock p => p

/-- Steps left. -/
def rank : View F L V W E → Nat
  | .lazy _ c => Proof.Async.rank c
  | .lock c h => Proof.AsyncLocks.left c + h.length

/-- The two sides of a comparison which has not got both. -/
def pair : View F L V W E → Option (L × L)
  | .lock c _ => sides c
  | _ => none

/-- Does the action use a guard, and so may be repeated? -/
def repeats : FAct L V W E → Bool
  | .use _ | .useLock _ => true
  | _ => false

theorem fstep_cases {f : Fr F} {b : FAct L V W E} (h : fstep eqv s f b = some s') :
    (∃ i p o b', f = .lazy i p ∧ Async.step (s.obj i) p b' = some o ∧ s' = put s i p o ∧
      (repeats b = true ∨ ∀ op, b' ≠ .call op)) ∨
    ∃ p l b', f = .lock p ∧ AsyncLocks.step eqv s.lk p b' = some l ∧ s' = { s with lk := l } ∧ inner b' = true ∧
      (repeats b = true ∨ AsyncLocks.quiet b' = true) := by
  unfold fstep at h
  split at h
  case h_12 => cases h
  case h_1 i p =>
    split at h
    · simp only [Option.map_eq_some_iff] at h
      obtain ⟨o, ho, rfl⟩ := h
      exact .inl ⟨i, p, o, .go, rfl, ho, rfl, .inr (by simp)⟩
    · cases h
  all_goals
    simp only [Option.map_eq_some_iff] at h
    obtain ⟨o, ho, rfl⟩ := h
  case h_2 i p op => exact .inl ⟨i, p, o, .call op, rfl, ho, rfl, .inl rfl⟩
  case h_3 i p r => exact .inl ⟨i, p, o, .finish r, rfl, ho, rfl, .inr (by simp)⟩
  case h_4 i p => exact .inl ⟨i, p, o, .drop, rfl, ho, rfl, .inr (by simp)⟩
  case h_5 i p => exact .inl ⟨i, p, o, .cancel, rfl, ho, rfl, .inr (by simp)⟩
  case h_6 p => exact .inr ⟨p, o, .go, rfl, ho, rfl, rfl, .inr rfl⟩
  case h_7 p k => exact .inr ⟨p, o, .call (.deref k), rfl, ho, rfl, rfl, .inl rfl⟩
  case h_8 p k v => exact .inr ⟨p, o, .call (.assign k v), rfl, ho, rfl, rfl, .inl rfl⟩
  case h_9 p g => exact .inr ⟨p, o, .drop g, rfl, ho, rfl, rfl, .inr rfl⟩
  case h_10 p => exact .inr ⟨p, o, .panic, rfl, ho, rfl, rfl, .inr rfl⟩
  case h_11 p => exact .inr ⟨p, o, .cancel, rfl, ho, rfl, rfl, .inr rfl⟩

/-- Tasks are not touched. -/
theorem fstep_tasks {f : Fr F} {b : FAct L V W E} (h : fstep eqv s f b = some s') :
    s'.stack = s.stack ∧ s'.next = s.next ∧ s'.kids = s.kids ∧ s'.par = s.par := by
  rcases fstep_cases h with ⟨i, p, o, b', _, _, rfl, _⟩ | ⟨p, l, b', _, _, rfl, _⟩
  · exact ⟨rfl, rfl, rfl, rfl⟩
  · exact ⟨rfl, rfl, rfl, rfl⟩

/-- Other calls and guards are not touched. -/
theorem fstep_other {f g : Fr F} {b : FAct L V W E} (h : fstep eqv s f b = some s') (hg : g ≠ f) : look s' g = look s g := by
  rcases fstep_cases h with ⟨i, p, o, b', rfl, ho, rfl, _⟩ | ⟨p, l, b', rfl, hl, rfl, _⟩
  · cases g with
    | lock q => rfl
    | lazy j q =>
      by_cases hj : j = i
      · subst hj
        have hq : q ≠ p := by rintro rfl; exact hg rfl
        simp [look, put, others ho hq]
      · simp [look, put, upd_other _ _ hj]
  · cases g with
    | lazy j q => rfl
    | lock q =>
      have hq : q ≠ p := by rintro rfl; exact hg rfl
      have := AsyncLocks.step_others hl hq
      simp [look, this.1, this.2]

theorem gone_lazy {i : F} {c : Async.Pc V E} : gone (.lazy i c : View F L V W E) = true ↔ c = .idle := by
  simp [gone, Proof.AsyncMulti.gone_iff]

theorem gone_lock {c : AsyncLocks.Pc L W} {h : List (L × Bool)} :
    gone (.lock c h : View F L V W E) = true ↔ c = .idle ∧ h = [] := by
  cases c <;> cases h <;> simp [gone]

theorem mem_targets_lazy {i : F} {c : Async.Pc V E} {r : F ⊕ L} :
    r ∈ targets (.lazy i c : View F L V W E) ↔ AsyncMulti.queued c = true ∧ r = .inl i := by
  simp only [targets, wants]
  split <;> simp [*]

theorem mem_targets_lock {c : AsyncLocks.Pc L W} {h : List (L × Bool)} {r : F ⊕ L} :
    r ∈ targets (.lock c h : View F L V W E) ↔
      (∃ k, AsyncLocks.wants c = some k ∧ r = .inr k) ∨ ∃ i j, c = .eWait1 i j ∧ r = .inr j := by
  cases c <;> simp [targets, wants, AsyncLocks.wants]
  rename_i a b
  refine or_congr_right ⟨fun h => ⟨a, b, ⟨rfl, rfl⟩, h⟩, ?_⟩
  rintro ⟨_, _, ⟨rfl, rfl⟩, h⟩
  exact h

/-- A call or guard waits for nothing new. -/
theorem fstep_targets {f : Fr F} {b : FAct L V W E} (h : fstep eqv s f b = some s') (hg : gone (look s f) = false) {r : F ⊕ L}
    (hr : r ∈ targets (look s' f)) : r ∈ targets (look s f) := by
  rcases fstep_cases h with ⟨i, p, o, b', rfl, ho, rfl, _⟩ | ⟨p, l, b', rfl, hl, rfl, hb, _⟩
  · simp only [look, put, upd_same, mem_targets_lazy] at hr ⊢
    refine ⟨queued_before ho hr.1 ?_, hr.2⟩
    intro hc
    simp [look, hc, gone, AsyncMulti.gone] at hg
  · simp only [look, mem_targets_lock] at hr ⊢
    have hw : AsyncLocks.wants (l.pc p) ≠ none := by
      rcases hr with ⟨k, hk, _⟩ | ⟨i, j, hk, _⟩ <;> rw [hk] <;> simp [AsyncLocks.wants]
    rcases (lock_wants hb hl hw).1 with h1 | ⟨i, j, h1, h2⟩
    · rw [h1]; exact hr
    · rw [h1]; rw [h2] at hr
      rcases hr with ⟨k, hk, rfl⟩ | ⟨_, _, hk, _⟩
      · simp only [AsyncLocks.wants, Option.some.injEq] at hk
        exact .inr ⟨i, j, rfl, by rw [hk]⟩
      · cases hk

theorem fstep_pair {f : Fr F} {b : FAct L V W E} (h : fstep eqv s f b = some s') {x : L × L}
    (hx : pair (look s' f) = some x) : pair (look s f) = some x := by
  rcases fstep_cases h with ⟨i, p, o, b', rfl, ho, rfl, _⟩ | ⟨p, l, b', rfl, hl, rfl, hb, _⟩
  · simp [look, pair] at hx
  · simp only [look, pair] at hx ⊢
    have hw : AsyncLocks.wants (l.pc p) ≠ none := by
      revert hx; cases l.pc p <;> simp [sides, AsyncLocks.wants]
    rcases (lock_wants hb hl hw).1 with h1 | ⟨i, j, h1, h2⟩
    · rw [h1]; exact hx
    · rw [h1]; rw [h2] at hx; exact hx

theorem fstep_rank {f : Fr F} {b : FAct L V W E} (h : fstep eqv s f b = some s') (hb : repeats b = false) :
    rank (look s' f) < rank (look s f) := by
  rcases fstep_cases h with ⟨i, p, o, b', rfl, ho, rfl, h1⟩ | ⟨p, l, b', rfl, hl, rfl, _, h1⟩
  · simpa [look, put, rank] using (Proof.Async.rank_step (h1.resolve_left (by simp [hb])) ho).1
  · simpa [look, rank, Proof.AsyncLocks.load] using (Proof.AsyncLocks.load_step (h1.resolve_left (by simp [hb])) hl).1

/-- What holds of the containers. -/
structure Pool (eqv : W → W → Bool) (v₀ : F → Option V) (w₀ : L → W) (s : St F L V W E) : Prop where
  obj : ∀ i, Async.Reach (v₀ i) (s.obj i)
  lk : AsyncLocks.Reach eqv (fun _ _ => True) w₀ s.lk
  waits : ∀ i p, p ∈ s.queue i ↔ AsyncMulti.queued ((s.obj i).pc p) = true
  once : ∀ i, (s.queue i).Nodup
  hold : ∀ p, AsyncLocks.wants (s.lk.pc p) ≠ none → s.lk.held p = []
  short : ∀ p, (s.lk.held p).length ≤ 1

theorem pool_init : Pool eqv v₀ w₀ (init v₀ w₀ : St F L V W E) :=
  ⟨fun _ => .init, .init, by simp [init, Async.init, AsyncMulti.queued], by simp [init], by simp [init, AsyncLocks.init],
    by simp [init, AsyncLocks.init]⟩

theorem pool_congr (h : Pool eqv v₀ w₀ s) (h1 : s'.obj = s.obj) (h2 : s'.lk = s.lk) (h3 : s'.queue = s.queue) :
    Pool eqv v₀ w₀ s' :=
  ⟨by rw [h1]; exact h.obj, by rw [h2]; exact h.lk, by rw [h1, h3]; exact h.waits, by rw [h3]; exact h.once,
    by rw [h2]; exact h.hold, by rw [h2]; exact h.short⟩

theorem pool_fstep {f : Fr F} {b : FAct L V W E} (hp : Pool eqv v₀ w₀ s) (hg : gone (look s f) = false)
    (h : fstep eqv s f b = some s') : Pool eqv v₀ w₀ s' := by
  rcases fstep_cases h with ⟨i, p, o, b', rfl, ho, rfl, _⟩ | ⟨p, l, b', rfl, hl, rfl, hb, _⟩
  · have hidle : (s.obj i).pc p ≠ .idle := by
      intro hc; simp [look, hc, gone, AsyncMulti.gone] at hg
    refine ⟨?_, hp.lk, ?_, ?_, hp.hold, hp.short⟩
    · intro j
      by_cases hj : j = i
      · subst hj; simp only [put, upd_same]; exact .step (hp.obj j) ho
      · simp only [put, upd_other _ _ hj]; exact hp.obj j
    · intro j q
      by_cases hj : j = i
      · subst hj
        simp only [put, upd_same]
        by_cases hq : q = p
        · subst hq
          split
          · rename_i h1; simp [h1, hp.waits, queued_before ho h1 hidle]
          · rename_i h1
            simp only [h1, Bool.false_eq_true, iff_false]
            exact fun hm => ((hp.once j).mem_erase_iff.1 hm).1 rfl
        · rw [others ho hq, ← hp.waits]
          split
          · rfl
          · exact List.mem_erase_of_ne hq
      · simp only [put, upd_other _ _ hj]; exact hp.waits j q
    · intro j
      by_cases hj : j = i
      · subst hj
        simp only [put, upd_same]
        split
        · exact hp.once j
        · exact (hp.once j).erase _
      · simp only [put, upd_other _ _ hj]; exact hp.once j
  · refine ⟨hp.obj, .step hp.lk ?_ hl, hp.waits, hp.once, ?_, ?_⟩
    · unfold AsyncLocks.Allowed; split <;> simp
    · intro q hq
      by_cases hqp : q = p
      · subst hqp
        obtain ⟨h1, h2⟩ := lock_wants hb hl hq
        have hw : AsyncLocks.wants (s.lk.pc q) ≠ none := by
          rcases h1 with h1 | ⟨i, j, h1, _⟩
          · rw [h1]; exact hq
          · rw [h1]; simp [AsyncLocks.wants]
        simp only [h2]; exact hp.hold q hw
      · have := AsyncLocks.step_others hl hqp
        simp only [this.1, this.2] at hq ⊢
        exact hp.hold q hq
    · intro q
      by_cases hqp : q = p
      · subst hqp; exact lock_held hl (hp.hold q) (hp.short q)
      · simp only [(AsyncLocks.step_others hl hqp).2]; exact hp.short q

/-! ### Waiting at a container -/

theorem wants_frame {f : Fr F} {r : F ⊕ L} (h : wants (look s f) = some r) : ∃ p, f = frame r p := by
  cases f with
  | lazy i p =>
    simp only [look, wants] at h
    split at h
    · cases h; exact ⟨p, rfl⟩
    · cases h
  | lock p =>
    simp only [look, wants, Option.map_eq_some_iff] at h
    obtain ⟨k, _, rfl⟩ := h
    exact ⟨p, rfl⟩

theorem wants_iff (hp : Pool eqv v₀ w₀ s) {r : F ⊕ L} {p : Nat} : wants (look s (frame r p)) = some r ↔ p ∈ waiting s r := by
  cases r with
  | inl i =>
    simp only [frame, look, wants, waiting, hp.waits]
    split <;> simp [*]
  | inr k =>
    simp only [frame, look, wants, waiting]
    rw [Proof.AsyncLocks.queued (Proof.AsyncLocks.core_reach hp.lk)]
    cases AsyncLocks.wants (s.lk.pc p) <;> simp

theorem wants_targets {w : View F L V W E} {r : F ⊕ L} (h : wants w = some r) : r ∈ targets w := by
  cases w with
  | lazy i c => simp [targets, h]
  | lock c hs =>
    rw [mem_targets_lock]
    left
    obtain ⟨k, h1, h2⟩ := Option.map_eq_some_iff.1 h
    exact ⟨k, h1, h2.symm⟩

theorem wants_not_user {w : View F L V W E} {r : F ⊕ L} (h : r ∈ targets w) : atUser w = false := by
  cases w with
  | lazy i c =>
    rw [mem_targets_lazy] at h
    revert h
    cases c <;> simp [AsyncMulti.queued, atUser]
  | lock c hs =>
    rw [mem_targets_lock] at h
    revert h
    cases c <;> cases hs <;> simp [AsyncLocks.wants, atUser]

theorem user_not_gone {w : View F L V W E} (h : atUser w = true) : gone w = false := by
  cases w with
  | lazy i c => revert h; cases c <;> simp [atUser, gone, AsyncMulti.gone]
  | lock c hs => revert h; cases c <;> cases hs <;> simp [atUser, gone]

theorem guard_user {w : View F L V W E} (h : AsyncMixed.guard w = true) : atUser w = true := by
  cases w with
  | lazy i c => revert h; cases c <;> simp [atUser, AsyncMixed.guard, AsyncMulti.holding]
  | lock c hs => revert h; cases c <;> cases hs <;> simp [atUser, AsyncMixed.guard]

/-- The exclusive owner has the container in hand. -/
theorem owner_hand (hp : Pool eqv v₀ w₀ s) {r : F ⊕ L} {q : Nat} (h : (lockOf s r).wr = some q) :
    r ∈ hand (look s (frame r q)) ∧ gone (look s (frame r q)) = false := by
  cases r with
  | inl i =>
    have h1 := ((Proof.Async.inv_reach (hp.obj i)).wr q).1 h
    simp only [frame, look, hand, gone]
    revert h1
    cases (s.obj i).pc q <;> simp [Proof.Async.holdsW, AsyncMulti.queued, AsyncMulti.gone]
  | inr k =>
    have h1 := Proof.AsyncLocks.has_owner (Proof.AsyncLocks.core_reach hp.lk) h
    refine ⟨?_, ?_⟩
    · simp only [frame, look, hand, List.mem_map, List.mem_append, Sum.inr.injEq, exists_eq_right]
      rcases h1 with h1 | h1 | h1 | h1
      · exact .inl ⟨_, h1, rfl⟩
      · exact .inl ⟨_, h1, rfl⟩
      · right; revert h1; cases s.lk.pc q <;> simp [Proof.AsyncLocks.temps, during]
      · right; revert h1; cases s.lk.pc q <;> simp [Proof.AsyncLocks.owns, during] <;> exact fun h => h.symm
    · have := Proof.AsyncLocks.has_inside h1
      cases hx : gone (look s (frame (.inr k : F ⊕ L) q))
      · rfl
      · simp only [frame, look, gone_lock] at hx
        rcases this with h | h
        · exact absurd hx.1 h
        · exact absurd hx.2 h

/-- So does a reader. -/
theorem reader_hand (hp : Pool eqv v₀ w₀ s) {r : F ⊕ L} {q : Nat} (h : q ∈ (lockOf s r).shared) :
    r ∈ hand (look s (frame r q)) ∧ gone (look s (frame r q)) = false := by
  cases r with
  | inl i =>
    have h1 := ((Proof.Async.inv_reach (hp.obj i)).sh q).1 h
    simp only [frame, look, hand, gone]
    revert h1
    cases (s.obj i).pc q <;> simp [Proof.Async.emb, Proof.Sync.holdsS, AsyncMulti.queued, AsyncMulti.gone]
  | inr k =>
    have h1 := Proof.AsyncLocks.has_reader (Proof.AsyncLocks.core_reach hp.lk) h
    refine ⟨?_, ?_⟩
    · simp only [frame, look, hand, List.mem_map, List.mem_append, Sum.inr.injEq, exists_eq_right]
      rcases h1 with h1 | h1 | h1 | h1
      · exact .inl ⟨_, h1, rfl⟩
      · exact .inl ⟨_, h1, rfl⟩
      · right; revert h1; cases s.lk.pc q <;> simp [Proof.AsyncLocks.temps, during]
      · right; revert h1; cases s.lk.pc q <;> simp [Proof.AsyncLocks.owns, during] <;> exact fun h => h.symm
    · have := Proof.AsyncLocks.has_inside h1
      cases hx : gone (look s (frame (.inr k : F ⊕ L) q))
      · rfl
      · simp only [frame, look, gone_lock] at hx
        rcases this with h | h
        · exact absurd hx.1 h
        · exact absurd hx.2 h

theorem split_queue (hp : Pool eqv v₀ w₀ s) {r : F ⊕ L} {p : Nat} (h : wants (look s (frame r p)) = some r) :
    (∃ q rest, waiting s r = q :: rest ∧ p ∈ rest) ∨ (waiting s r).head? = some p := by
  have hm := (wants_iff hp).1 h
  cases hq : waiting s r with
  | nil => rw [hq] at hm; cases hm
  | cons u rest =>
    rw [hq] at hm
    rcases List.mem_cons.1 hm with rfl | hm
    · exact .inr rfl
    · exact .inl ⟨u, rest, rfl, hm⟩

/-- Code which cannot move waits for a container: behind another call, for the exclusive owner, or for a reader. -/
theorem stuck_cases (hp : Pool eqv v₀ w₀ s) {f : Fr F} (hg : gone (look s f) = false) (hu : atUser (look s f) = false)
    (h : (fstep eqv s f .go).isNone = true) : ∃ r p, f = frame r p ∧ wants (look s (frame r p)) = some r ∧
      ((∃ q rest, waiting s r = q :: rest ∧ p ∈ rest) ∨ ((waiting s r).head? = some p ∧ ∃ q, (lockOf s r).wr = some q) ∨
       ((waiting s r).head? = some p ∧ wantsAlone (look s (frame r p)) = true ∧ ∃ q, q ∈ (lockOf s r).shared)) := by
  cases f with
  | lazy i p =>
    have hc := Proof.Async.inv_reach (hp.obj i)
    cases hq : AsyncMulti.queued ((s.obj i).pc p)
    · exfalso
      obtain ⟨o, ho⟩ := Proof.Async.go_enabled (s := s.obj i) (q := p)
        (by revert hq; cases (s.obj i).pc p <;> simp [AsyncMulti.queued, Proof.Async.waiting])
        (by revert hg hu; simp only [look]; cases (s.obj i).pc p <;> simp [atUser, gone, AsyncMulti.gone, Async.Pc.resting])
        (by intro k hk; simp [look, hk, atUser] at hu)
        (by intro hk; have := hc.mem p; rw [hk] at this; exact this)
      simp [fstep, hq, ho] at h
    · have hw : wants (look s (frame (.inl i : F ⊕ L) p)) = some (.inl i) := by simp [frame, look, wants, hq]
      refine ⟨.inl i, p, rfl, hw, ?_⟩
      rcases split_queue hp hw with h1 | h1
      · exact .inl h1
      · right
        have h1' : (s.queue i).head? = some p := h1
        simp only [fstep, h1', or_true, if_true, Option.isNone_map] at h
        cases hwr : (lockOf s (.inl i : F ⊕ L)).wr with
        | some q => exact .inl ⟨h1, q, rfl⟩
        | none =>
          right
          refine ⟨h1, ?_⟩
          simp only [lockOf] at hwr
          simp only [frame, look]
          unfold Async.go at h
          cases hs : (s.obj i).lk.shared with
          | nil =>
            exfalso
            revert hq h
            cases (s.obj i).pc p <;> simp [AsyncMulti.queued, ALock.tryWrite, ALock.tryShared, hwr, hs]
          | cons q qs =>
            refine ⟨?_, q, by simp [lockOf, hs]⟩
            revert hq h
            cases (s.obj i).pc p <;> simp [AsyncMulti.queued, ALock.tryWrite, ALock.tryShared, hwr, hs, wantsAlone]
  | lock p =>
    have hpc : s.lk.pc p ≠ .idle := by
      intro hc
      simp only [look, hc] at hg hu
      cases hh : s.lk.held p with
      | nil => rw [hh] at hg; cases hg
      | cons _ _ => rw [hh] at hu; cases hu
    have hs : AsyncLocks.Stuck eqv s.lk p := ⟨hpc, by simpa [fstep] using h⟩
    obtain ⟨k, h1, h2⟩ := Proof.AsyncLocks.stuck_cases (Proof.AsyncLocks.core_reach hp.lk) hs
    exact ⟨.inr k, p, rfl, by simp [frame, look, wants, h1], h2⟩

/-! ## Tasks -/

theorem look_congr (h1 : s'.obj = s.obj) (h2 : s'.lk = s.lk) (f : Fr F) : look s' f = look s f := by
  cases f <;> simp [look, h1, h2]

/-- What holds of containers and tasks. -/
structure Inv (eqv : W → W → Bool) (v₀ : F → Option V) (w₀ : L → W) (s : St F L V W E) : Prop where
  pool : Pool eqv v₀ w₀ s
  inside : ∀ t f, f ∈ s.stack t → num f < s.next ∧ gone (look s f) = false
  owner : ∀ f, gone (look s f) = false → ∃ t, f ∈ s.stack t
  uniq : ∀ t u f, f ∈ s.stack t → f ∈ s.stack u → t = u
  nodup : ∀ t, (s.stack t).Nodup
  one : ∀ t f g, f ∈ s.stack t → g ∈ s.stack t → atUser (look s f) = false → atUser (look s g) = false → f = g
  rest : ∀ t, s.kids t ≠ [] → atRest s t = true
  kids : ∀ t c, c ∈ s.kids t ↔ s.par c = some t
  kidsOnce : ∀ t, (s.kids t).Nodup
  up : ∀ t c, s.par c = some t → t < c

theorem inv_init : Inv eqv v₀ w₀ (init v₀ w₀ : St F L V W E) := by
  refine ⟨pool_init, ?_, ?_, ?_, ?_, ?_, ?_, ?_, ?_, ?_⟩
  · simp [init]
  · intro f hf
    cases f <;> simp [init, look, Async.init, AsyncLocks.init, gone, AsyncMulti.gone] at hf
  all_goals simp [init]

theorem rest_user (h : atRest s t = true) {f : Fr F} (hf : f ∈ s.stack t) : atUser (look s f) = true :=
  List.all_eq_true.1 h f hf

theorem turn_iff : turn s t = true ↔ atRest s t = true ∧ s.kids t = [] := by
  simp [turn]

theorem alone_iff {f : Fr F} : alone s t f = true ↔ (∀ g ∈ s.stack t, g = f ∨ atUser (look s g) = true) ∧ s.kids t = [] := by
  simp [alone]

/-- A call has begun: `f` is its frame. -/
structure New (eqv : W → W → Bool) (v₀ : F → Option V) (w₀ : L → W) (s s' : St F L V W E) (t : Nat) (f : Fr F) : Prop where
  turn : atRest s t = true
  free : s.kids t = []
  num : num f = s.next
  stack : s'.stack = upd s.stack t (f :: s.stack t)
  next : s'.next = s.next + 1
  kids : s'.kids = s.kids
  par : s'.par = s.par
  same : ∀ g, g ≠ f → look s' g = look s g
  there : gone (look s' f) = false
  pool : Pool eqv v₀ w₀ s'

theorem fresh_lazy (hi : Inv eqv v₀ w₀ s) (i : F) : (s.obj i).pc s.next = .idle := by
  apply Classical.byContradiction
  intro hc
  have hg : gone (look s (.lazy i s.next)) = false := by
    cases h : gone (look s (.lazy i s.next))
    · rfl
    · exact absurd (gone_lazy.1 h) hc
  obtain ⟨t, ht⟩ := hi.owner _ hg
  exact Nat.lt_irrefl _ (hi.inside t _ ht).1

theorem fresh_lock (hi : Inv eqv v₀ w₀ s) : s.lk.pc s.next = .idle ∧ s.lk.held s.next = [] := by
  apply Classical.byContradiction
  intro hc
  have hg : gone (look s (.lock s.next)) = false := by
    cases h : gone (look s (.lock s.next))
    · rfl
    · exact absurd (gone_lock.1 h) hc
  obtain ⟨t, ht⟩ := hi.owner _ hg
  exact Nat.lt_irrefl _ (hi.inside t _ ht).1

theorem invoke_isSet {o o' : Async.St V E} {p : Nat} (h : Async.invoke o p .isSet = some o') (hpc : o.pc p = .idle) :
    AsyncMulti.queued (o'.pc p) = false := by
  simp [Async.invoke, hpc] at h
  subst h
  simp [Async.St.begin, AsyncMulti.queued]

theorem new_lazy {t : Nat} {j : F} {op : Op V} (hi : Inv eqv v₀ w₀ s) (h : step eqv s t (.call j op) = some s') :
    New eqv v₀ w₀ s s' t (.lazy j s.next) ∧
      ∀ r ∈ targets (look s' (.lazy j s.next)), r = .inl j ∧ op ≠ .isSet := by
  simp only [step] at h
  split at h
  case isFalse => cases h
  rename_i ht
  rw [turn_iff] at ht
  simp only [Option.map_eq_some_iff] at h
  obtain ⟨o, ho, rfl⟩ := h
  have ho' : Async.step (s.obj j) s.next (.call op) = some o := ho
  have hidle := fresh_lazy hi j
  have hnq : s.next ∉ s.queue j := by
    rw [hi.pool.waits, hidle]; simp [AsyncMulti.queued]
  refine ⟨⟨ht.1, ht.2, rfl, rfl, rfl, rfl, rfl, ?_, ?_, ?_, hi.pool.lk, ?_, ?_, hi.pool.hold, hi.pool.short⟩, ?_⟩
  · intro g hg
    cases g with
    | lock q => rfl
    | lazy i q =>
      by_cases hij : i = j
      · subst hij
        have hq : q ≠ s.next := by rintro rfl; exact hg rfl
        simp [look, others ho' hq]
      · simp [look, upd_other _ _ hij]
  · cases hg : gone (look (E := E) _ _)
    · rfl
    · simp only [look, upd_same, gone] at hg
      rw [call_inside ho] at hg; cases hg
  · intro i
    by_cases hij : i = j
    · subst hij; simp only [upd_same]; exact .step (hi.pool.obj i) ho'
    · simp only [upd_other _ _ hij]; exact hi.pool.obj i
  · intro i q
    by_cases hij : i = j
    · subst hij
      simp only [upd_same]
      by_cases hq : q = s.next
      · subst hq
        split <;> simp [*]
      · rw [others ho' hq, ← hi.pool.waits]
        split <;> simp [hq]
    · simp only [upd_other _ _ hij]; exact hi.pool.waits i q
  · intro i
    by_cases hij : i = j
    · subst hij
      simp only [upd_same]
      split
      · rw [List.nodup_append]
        refine ⟨hi.pool.once i, by simp, ?_⟩
        intro a ha b hb hab
        simp only [List.mem_singleton] at hb
        subst hab hb
        exact hnq ha
      · exact hi.pool.once i
    · simp only [upd_other _ _ hij]; exact hi.pool.once i
  · intro r hr
    simp only [look, upd_same, mem_targets_lazy] at hr
    refine ⟨hr.2, ?_⟩
    rintro rfl
    rw [invoke_isSet ho hidle] at hr
    exact absurd hr.1 (by simp)

theorem new_lock {t : Nat} {op : Memory.Op L W} (hi : Inv eqv v₀ w₀ s) (h : step eqv s t (.lock op) = some s') :
    New eqv v₀ w₀ s s' t (.lock s.next) ∧
      (∀ r ∈ targets (look s' (.lock s.next)), ∃ k ∈ opTargets op, r = .inr k) ∧
      ∀ i j, pair (look s' (.lock s.next)) = some (i, j) → op = .eq i j := by
  simp only [step] at h
  split at h
  case isFalse => cases h
  rename_i ht
  rw [turn_iff] at ht
  simp only [Option.map_eq_some_iff] at h
  obtain ⟨l, hl, rfl⟩ := h
  have hl' : AsyncLocks.step eqv s.lk s.next (.call op) = some l := hl
  obtain ⟨h1, h2, h3, h4, h5, h6⟩ := lock_call_inside hl'
  have hidle := fresh_lock hi
  refine ⟨⟨ht.1, ht.2, rfl, rfl, rfl, rfl, rfl, ?_, ?_, hi.pool.obj, ?_, hi.pool.waits, hi.pool.once, ?_, ?_⟩, ?_, ?_⟩
  · intro g hg
    cases g with
    | lazy i q => rfl
    | lock q =>
      have hq : q ≠ s.next := by rintro rfl; exact hg rfl
      have := AsyncLocks.step_others hl' hq
      simp [look, this.1, this.2]
  · cases hg : gone (look (E := E) _ _)
    · rfl
    · simp only [look] at hg
      exact absurd (gone_lock.1 hg).1 h1
  · refine .step hi.pool.lk ?_ hl'
    unfold AsyncLocks.Allowed; split <;> simp
  · intro q hq
    by_cases hqp : q = s.next
    · subst hqp; simp only [h3]; exact hidle.2
    · have := AsyncLocks.step_others hl' hqp
      simp only [this.1, this.2] at hq ⊢
      exact hi.pool.hold q hq
  · intro q; simp only [h3]; exact hi.pool.short q
  · intro r hr
    simp only [look, mem_targets_lock] at hr
    rcases hr with ⟨k, hk, rfl⟩ | ⟨i, j, hk, rfl⟩
    · exact ⟨k, h4 k hk, rfl⟩
    · have := h5 i j hk
      subst this
      exact ⟨j, by simp [opTargets], rfl⟩
  · intro i j hp
    simp only [look, pair] at hp
    cases hk : l.pc s.next <;> simp [hk, sides] at hp
    · obtain ⟨rfl, rfl⟩ := hp; exact h5 _ _ hk
    · exact absurd hk (h6 _ _)

/-- Something has happened to a call or guard. -/
structure Acted (eqv : W → W → Bool) (s s' : St F L V W E) (t : Nat) (f : Fr F) (b : FAct L V W E) : Prop where
  mem : f ∈ s.stack t
  alone : ∀ g ∈ s.stack t, g = f ∨ atUser (look s g) = true
  free : s.kids t = []
  may : may s t f = true
  stack : s'.stack = upd s.stack t (if gone (look s' f) then (s.stack t).erase f else s.stack t)
  next : s'.next = s.next
  kids : s'.kids = s.kids
  par : s'.par = s.par
  same : ∀ g, g ≠ f → look s' g = look s g
  on : ∃ s₁, fstep eqv s f b = some s₁ ∧ s'.obj = s₁.obj ∧ s'.lk = s₁.lk ∧ s'.queue = s₁.queue

theorem acted {t : Nat} {f : Fr F} {b : FAct L V W E} (h : step eqv s t (.act f b) = some s') : Acted eqv s s' t f b := by
  simp only [step] at h
  split at h
  case isFalse => cases h
  rename_i hc
  obtain ⟨h1, h2, h3⟩ := hc
  rw [alone_iff] at h2
  simp only [Option.map_eq_some_iff] at h
  obtain ⟨s₁, hs, rfl⟩ := h
  obtain ⟨e1, e2, e3, e4⟩ := fstep_tasks hs
  refine ⟨h1, h2.1, h2.2, h3, ?_, e2, e3, e4, ?_, s₁, hs, rfl, rfl, rfl⟩
  · have hl : ∀ st, look { s₁ with stack := st } f = look s₁ f := fun st => look_congr rfl rfl f
    simp only [e1, hl]
  · intro g hg
    exact (look_congr (s := s₁) rfl rfl g).trans (fstep_other hs hg)

theorem forked {t c : Nat} (h : step eqv s t (.fork c) = some s') : (t < c ∧ atRest s t = true ∧ s.stack c = [] ∧
    s.kids c = [] ∧ s.par c = none) ∧ s' = { s with kids := upd s.kids t (c :: s.kids t), par := upd s.par c (some t) } := by
  simp only [step] at h
  split at h
  · rename_i hc
    exact ⟨hc, (Option.some.inj h).symm⟩
  · cases h

theorem returned {t : Nat} (h : step eqv s t .ret = some s') : ∃ u, s.par t = some u ∧ s.kids t = [] ∧
    (∀ f ∈ s.stack t, AsyncMixed.guard (look s f) = true) ∧
    s' = { s with
      stack := upd (upd s.stack t []) u (s.stack t ++ s.stack u)
      kids := upd s.kids u ((s.kids u).erase t), par := upd s.par t none } := by
  simp only [step] at h
  split at h
  · rename_i u hu
    split at h
    · rename_i hc
      exact ⟨u, hu, hc.1, List.all_eq_true.1 hc.2, (Option.some.inj h).symm⟩
    · cases h
  · cases h

theorem inv_new {t : Nat} {f : Fr F} (hi : Inv eqv v₀ w₀ s) (h : New eqv v₀ w₀ s s' t f) : Inv eqv v₀ w₀ s' := by
  have hf : ∀ u, f ∉ s.stack u := fun u hu => by
    have := (hi.inside u f hu).1; rw [h.num] at this; exact Nat.lt_irrefl _ this
  have hlk : ∀ u, ∀ g ∈ s.stack u, look s' g = look s g := fun u g hg => h.same g (by rintro rfl; exact hf u hg)
  have hst : ∀ u g, g ∈ s'.stack u → (u = t ∧ g = f) ∨ g ∈ s.stack u := by
    intro u g hg
    rw [h.stack] at hg
    by_cases hu : u = t
    · subst hu
      rw [upd_same] at hg
      rcases List.mem_cons.1 hg with rfl | hg
      · exact .inl ⟨rfl, rfl⟩
      · exact .inr hg
    · rw [upd_other _ _ hu] at hg; exact .inr hg
  have hst' : ∀ u g, g ∈ s.stack u → g ∈ s'.stack u := by
    intro u g hg
    rw [h.stack]
    by_cases hu : u = t
    · subst hu; rw [upd_same]; exact List.mem_cons_of_mem _ hg
    · rw [upd_other _ _ hu]; exact hg
  refine ⟨h.pool, ?_, ?_, ?_, ?_, ?_, ?_, ?_, ?_, ?_⟩
  · intro u g hg
    rcases hst u g hg with ⟨_, rfl⟩ | hg
    · exact ⟨by rw [h.num, h.next]; omega, h.there⟩
    · rw [hlk u g hg, h.next]
      have := hi.inside u g hg
      exact ⟨by omega, this.2⟩
  · intro g hg
    by_cases hgf : g = f
    · subst hgf
      exact ⟨t, by rw [h.stack, upd_same]; exact List.mem_cons_self⟩
    · rw [h.same g hgf] at hg
      obtain ⟨u, hu⟩ := hi.owner g hg
      exact ⟨u, hst' u g hu⟩
  · intro u v g hu hv
    rcases hst u g hu with ⟨rfl, rfl⟩ | hu
    · rcases hst v g hv with ⟨rfl, _⟩ | hv
      · rfl
      · exact absurd hv (hf v)
    · rcases hst v g hv with ⟨rfl, rfl⟩ | hv
      · exact absurd hu (hf u)
      · exact hi.uniq u v g hu hv
  · intro u
    rw [h.stack]
    by_cases hu : u = t
    · subst hu; rw [upd_same]; exact List.nodup_cons.2 ⟨hf u, hi.nodup u⟩
    · rw [upd_other _ _ hu]; exact hi.nodup u
  · intro u g g' hg hg' h1 h2
    rcases hst u g hg with ⟨rfl, rfl⟩ | hg
    · rcases hst u g' hg' with ⟨_, rfl⟩ | hg'
      · rfl
      · rw [hlk u g' hg', rest_user h.turn hg'] at h2; cases h2
    · rcases hst u g' hg' with ⟨rfl, rfl⟩ | hg'
      · rw [hlk u g hg, rest_user h.turn hg] at h1; cases h1
      · rw [hlk u g hg] at h1; rw [hlk u g' hg'] at h2
        exact hi.one u g g' hg hg' h1 h2
  · intro u hu
    rw [h.kids] at hu
    have hut : u ≠ t := by rintro rfl; exact hu h.free
    have := hi.rest u hu
    unfold atRest at this ⊢
    rw [h.stack, upd_other _ _ hut]
    rw [List.all_eq_true] at this ⊢
    intro g hg
    rw [hlk u g hg]; exact this g hg
  · rw [h.kids, h.par]; exact hi.kids
  · rw [h.kids]; exact hi.kidsOnce
  · rw [h.par]; exact hi.up

theorem pool_acted {t : Nat} {f : Fr F} {b : FAct L V W E} (hi : Inv eqv v₀ w₀ s) (h : Acted eqv s s' t f b) :
    Pool eqv v₀ w₀ s' := by
  obtain ⟨s₁, h1, h2, h3, h4⟩ := h.on
  exact pool_congr (pool_fstep hi.pool (hi.inside t f h.mem).2 h1) h2 h3 h4

theorem acted_stack {t : Nat} {f : Fr F} {b : FAct L V W E} (hi : Inv eqv v₀ w₀ s) (h : Acted eqv s s' t f b) (u : Nat)
    (g : Fr F) : g ∈ s'.stack u ↔ g ∈ s.stack u ∧ gone (look s' g) = false := by
  rw [h.stack]
  by_cases hu : u = t
  · subst hu
    rw [upd_same]
    by_cases hg : g = f
    · subst hg
      split
      · rename_i h1
        simp only [h1, Bool.true_eq_false, and_false, iff_false]
        exact fun hm => ((hi.nodup u).mem_erase_iff.1 hm).1 rfl
      · rename_i h1; simp [h1]
    · have : g ∈ (if gone (look s' f) = true then (s.stack u).erase f else s.stack u) ↔ g ∈ s.stack u := by
        split
        · exact List.mem_erase_of_ne hg
        · rfl
      rw [this]
      exact ⟨fun hm => ⟨hm, by rw [h.same g hg]; exact (hi.inside u g hm).2⟩, And.left⟩
  · rw [upd_other _ _ hu]
    refine ⟨fun hm => ⟨hm, ?_⟩, And.left⟩
    rw [h.same g (by rintro rfl; exact hu (hi.uniq _ _ _ hm h.mem))]
    exact (hi.inside u g hm).2

theorem inv_acted {t : Nat} {f : Fr F} {b : FAct L V W E} (hi : Inv eqv v₀ w₀ s) (h : Acted eqv s s' t f b) :
    Inv eqv v₀ w₀ s' := by
  have hst := acted_stack hi h
  refine ⟨pool_acted hi h, ?_, ?_, ?_, ?_, ?_, ?_, ?_, ?_, ?_⟩
  · intro u g hg
    rw [hst] at hg
    rw [h.next]
    exact ⟨(hi.inside u g hg.1).1, hg.2⟩
  · intro g hg
    by_cases hgf : g = f
    · subst hgf; exact ⟨t, (hst _ _).2 ⟨h.mem, hg⟩⟩
    · rw [h.same g hgf] at hg
      obtain ⟨u, hu⟩ := hi.owner g hg
      exact ⟨u, (hst _ _).2 ⟨hu, by rw [h.same g hgf]; exact hg⟩⟩
  · intro u v g hu hv
    exact hi.uniq u v g ((hst _ _).1 hu).1 ((hst _ _).1 hv).1
  · intro u
    rw [h.stack]
    by_cases hu : u = t
    · subst hu; rw [upd_same]; split
      · exact (hi.nodup u).erase _
      · exact hi.nodup u
    · rw [upd_other _ _ hu]; exact hi.nodup u
  · intro u g g' hg hg' h1 h2
    rw [hst] at hg hg'
    by_cases hu : u = t
    · subst hu
      have key : ∀ x ∈ s.stack u, atUser (look s' x) = false → x = f := by
        intro x hx hx1
        apply Classical.byContradiction
        intro hne
        rw [h.same x hne, (h.alone x hx).resolve_left hne] at hx1
        cases hx1
      rw [key g hg.1 h1, key g' hg'.1 h2]
    · have hne : ∀ x ∈ s.stack u, x ≠ f := by rintro x hx rfl; exact hu (hi.uniq _ _ _ hx h.mem)
      rw [h.same g (hne g hg.1)] at h1; rw [h.same g' (hne g' hg'.1)] at h2
      exact hi.one u g g' hg.1 hg'.1 h1 h2
  · intro u hu
    rw [h.kids] at hu
    have hut : u ≠ t := by rintro rfl; exact hu h.free
    have := hi.rest u hu
    unfold atRest at this ⊢
    rw [List.all_eq_true] at this ⊢
    intro g hg
    rw [hst] at hg
    rw [h.same g (by rintro rfl; exact hut (hi.uniq _ _ _ hg.1 h.mem))]; exact this g hg.1
  · rw [h.kids, h.par]; exact hi.kids
  · rw [h.kids]; exact hi.kidsOnce
  · rw [h.par]; exact hi.up

theorem inv_step {t : Nat} {a : Act F L V W E} (hi : Inv eqv v₀ w₀ s) (h : step eqv s t a = some s') : Inv eqv v₀ w₀ s' := by
  cases a with
  | call j op => exact inv_new hi (new_lazy hi h).1
  | lock op => exact inv_new hi (new_lock hi h).1
  | act f b => exact inv_acted hi (acted h)
  | fork c =>
    obtain ⟨⟨h1, h2, h3, h4, h5⟩, rfl⟩ := forked h
    have hlk : ∀ f, look (E := E) { s with kids := upd s.kids t (c :: s.kids t), par := upd s.par c (some t) } f = look s f :=
      look_congr rfl rfl
    refine ⟨pool_congr hi.pool rfl rfl rfl, ?_, ?_, hi.uniq, hi.nodup, ?_, ?_, ?_, ?_, ?_⟩
    · intro u g hg; rw [hlk]; exact hi.inside u g hg
    · intro g hg; rw [hlk] at hg; exact hi.owner g hg
    · intro u g g' hg hg'; rw [hlk, hlk]; exact hi.one u g g' hg hg'
    · intro u hu
      have : atRest s u = true := by
        by_cases hut : u = t
        · rw [hut]; exact h2
        · exact hi.rest u (by simpa [upd_other _ _ hut] using hu)
      unfold atRest at this ⊢
      rw [List.all_eq_true] at this ⊢
      intro g hg; rw [hlk]; exact this g hg
    · intro u d
      by_cases hd : d = c
      · subst hd
        by_cases hut : u = t
        · subst hut; simp
        · have := hi.kids u d
          simp [upd_other _ _ hut, this, h5, Ne.symm hut]
      · by_cases hut : u = t
        · subst hut; simp [upd_other _ _ hd, hd, hi.kids]
        · simp [upd_other _ _ hd, upd_other _ _ hut, hi.kids]
    · intro u
      by_cases hut : u = t
      · subst hut
        simp only [upd_same]
        refine List.nodup_cons.2 ⟨?_, hi.kidsOnce u⟩
        rw [hi.kids, h5]; simp
      · simp only [upd_other _ _ hut]; exact hi.kidsOnce u
    · intro u d hd
      by_cases hdc : d = c
      · subst hdc; simp at hd; omega
      · simp only [upd_other _ _ hdc] at hd; exact hi.up u d hd
  | ret =>
    obtain ⟨u, h1, h2, h3, rfl⟩ := returned h
    have hut : u < t := hi.up _ _ h1
    have htu : t ≠ u := by omega
    have hlk : ∀ f, look (E := E) { s with
      stack := upd (upd s.stack t []) u (s.stack t ++ s.stack u)
      kids := upd s.kids u ((s.kids u).erase t), par := upd s.par t none } f = look s f := look_congr rfl rfl
    have hu : atRest s u = true := hi.rest u (by intro hc; have := (hi.kids u t).2 h1; rw [hc] at this; cases this)
    have hst : ∀ v g, g ∈ upd (upd s.stack t []) u (s.stack t ++ s.stack u) v ↔
        (v = u ∧ (g ∈ s.stack t ∨ g ∈ s.stack u)) ∨ (v ≠ u ∧ v ≠ t ∧ g ∈ s.stack v) := by
      intro v g
      by_cases hv : v = u
      · subst hv; simp
      · by_cases hv' : v = t
        · subst hv'; simp [upd_other _ _ hv, hv]
        · simp [upd_other _ _ hv, upd_other _ _ hv', hv, hv']
    have hw : ∀ v g, g ∈ upd (upd s.stack t []) u (s.stack t ++ s.stack u) v → ∃ x, g ∈ s.stack x := by
      intro v g hg
      rcases (hst v g).1 hg with ⟨_, hg | hg⟩ | ⟨_, _, hg⟩
      · exact ⟨_, hg⟩
      · exact ⟨_, hg⟩
      · exact ⟨_, hg⟩
    refine ⟨pool_congr hi.pool rfl rfl rfl, ?_, ?_, ?_, ?_, ?_, ?_, ?_, ?_, ?_⟩
    · intro v g hg
      obtain ⟨x, hx⟩ := hw v g hg
      rw [hlk]; exact hi.inside x g hx
    · intro g hg
      rw [hlk] at hg
      obtain ⟨x, hx⟩ := hi.owner g hg
      by_cases hxt : x = t ∨ x = u
      · exact ⟨u, (hst u g).2 (.inl ⟨rfl, by rcases hxt with rfl | rfl <;> simp [hx]⟩)⟩
      · exact ⟨x, (hst x g).2 (.inr ⟨fun h => hxt (.inr h), fun h => hxt (.inl h), hx⟩)⟩
    · intro v w g hv hw
      rcases (hst v g).1 hv with ⟨hvu, hv⟩ | ⟨hv1, hv2, hv⟩
      · rcases (hst w g).1 hw with ⟨hwu, hw⟩ | ⟨hw1, hw2, hw⟩
        · rw [hvu, hwu]
        · rcases hv with hv | hv
          · exact absurd (hi.uniq _ _ _ hw hv) hw2
          · exact absurd (hi.uniq _ _ _ hw hv) hw1
      · rcases (hst w g).1 hw with ⟨hwu, hw⟩ | ⟨hw1, hw2, hw⟩
        · rcases hw with hw | hw
          · exact absurd (hi.uniq _ _ _ hv hw) hv2
          · exact absurd (hi.uniq _ _ _ hv hw) hv1
        · exact hi.uniq _ _ _ hv hw
    · intro v
      by_cases hv : v = u
      · subst hv
        simp only [upd_same]
        rw [List.nodup_append]
        refine ⟨hi.nodup t, hi.nodup v, ?_⟩
        rintro a ha b hb rfl
        exact htu (hi.uniq _ _ _ ha hb)
      · by_cases hv' : v = t
        · subst hv'; simp [upd_other _ _ hv]
        · simp only [upd_other _ _ hv, upd_other _ _ hv']; exact hi.nodup v
    · intro v g g' hg hg' e1 e2
      rw [hlk] at e1 e2
      rcases (hst v g).1 hg with ⟨rfl, hg | hg⟩ | ⟨hv1, hv2, hg⟩
      · rw [guard_user (h3 g hg)] at e1; cases e1
      · rw [rest_user hu hg] at e1; cases e1
      · rcases (hst v g').1 hg' with ⟨rfl, _⟩ | ⟨_, _, hg'⟩
        · exact absurd rfl hv1
        · exact hi.one v g g' hg hg' e1 e2
    · intro v hv
      unfold atRest
      rw [List.all_eq_true]
      intro g hg
      rw [hlk]
      rcases (hst v g).1 hg with ⟨rfl, hg | hg⟩ | ⟨hv1, hv2, hg⟩
      · exact guard_user (h3 g hg)
      · exact rest_user hu hg
      · exact rest_user (hi.rest v (by simpa [upd_other _ _ hv1] using hv)) hg
    · intro v d
      by_cases hd : d = t
      · subst hd
        by_cases hv : v = u
        · subst hv
          simp only [upd_same, reduceCtorEq, iff_false]
          exact fun hm => ((hi.kidsOnce v).mem_erase_iff.1 hm).1 rfl
        · have := hi.kids v d
          simp [upd_other _ _ hv, this, h1, Ne.symm hv]
      · by_cases hv : v = u
        · subst hv
          simp only [upd_same, upd_other _ _ hd]
          rw [List.mem_erase_of_ne hd]; exact hi.kids v d
        · simp only [upd_other _ _ hd, upd_other _ _ hv]; exact hi.kids v d
    · intro v
      by_cases hv : v = u
      · subst hv; simp only [upd_same]; exact (hi.kidsOnce v).erase _
      · simp only [upd_other _ _ hv]; exact hi.kidsOnce v
    · intro v d hd
      by_cases hdt : d = t
      · subst hdt; simp at hd
      · simp only [upd_other _ _ hdt] at hd; exact hi.up v d hd

theorem inv_reach (h : Reach eqv dep v₀ w₀ s) : Inv eqv v₀ w₀ s := by
  induction h with
  | init => exact inv_init
  | step _ _ hs ih => exact inv_step ih hs


/-! ## Keeping to the order -/

/-- Who waits has only earlier things in hand. -/
structure Ord (dep : F ⊕ L → F ⊕ L → Prop) (s : St F L V W E) : Prop where
  all : ∀ u t f r g h, Awaits s u t → f ∈ s.stack t → r ∈ targets (look s f) → g ∈ s.stack u → g ≠ f → h ∈ hand (look s g) →
    dep h r
  pair : ∀ t f i j, f ∈ s.stack t → pair (look s f) = some (i, j) → dep (.inr i) (.inr j)

theorem ord_init : Ord dep (init v₀ w₀ : St F L V W E) := by
  constructor <;> simp [init]

/-- Who awaits another task has branches. -/
theorem awaits_kids (hi : Inv eqv v₀ w₀ s) {u t : Nat} (h : Awaits s u t) : u = t ∨ s.kids u ≠ [] := by
  rcases Relation.ReflTransGen.cases_head h with h | ⟨c, h, _⟩
  · exact .inl h
  · right; intro hc
    have := (hi.kids u c).2 h
    rw [hc] at this; cases this

theorem awaits_congr (h : s'.par = s.par) {u t : Nat} : Awaits s' u t ↔ Awaits s u t := by
  unfold Awaits; rw [h]

theorem ord_new {t : Nat} {f : Fr F} (hi : Inv eqv v₀ w₀ s) (ho : Ord dep s) (h : New eqv v₀ w₀ s s' t f)
    (h1 : ∀ r ∈ targets (look s' f), Precedes dep s t r)
    (h2 : ∀ i j, pair (look s' f) = some (i, j) → dep (.inr i) (.inr j)) : Ord dep s' := by
  have hf : ∀ u, f ∉ s.stack u := fun u hu => by
    have := (hi.inside u f hu).1; rw [h.num] at this; exact Nat.lt_irrefl _ this
  have hlk : ∀ u, ∀ g ∈ s.stack u, look s' g = look s g := fun u g hg => h.same g (by rintro rfl; exact hf u hg)
  have hst : ∀ u g, g ∈ s'.stack u → (u = t ∧ g = f) ∨ g ∈ s.stack u := by
    intro u g hg
    rw [h.stack] at hg
    by_cases hu : u = t
    · subst hu
      rw [upd_same] at hg
      rcases List.mem_cons.1 hg with rfl | hg
      · exact .inl ⟨rfl, rfl⟩
      · exact .inr hg
    · rw [upd_other _ _ hu] at hg; exact .inr hg
  constructor
  · intro u v w r g x hw hw1 hr hg hgw hx
    rw [awaits_congr h.par] at hw
    rcases hst v w hw1 with ⟨rfl, rfl⟩ | hw1
    · rcases hst u g hg with ⟨_, rfl⟩ | hg
      · exact absurd rfl hgw
      · rw [hlk u g hg] at hx
        exact h1 r hr u hw g hg x hx
    · rw [hlk v w hw1] at hr
      rcases hst u g hg with ⟨rfl, rfl⟩ | hg
      · rcases awaits_kids hi hw with rfl | hk
        · have := wants_not_user hr
          rw [rest_user h.turn hw1] at this; cases this
        · exact absurd h.free hk
      · rw [hlk u g hg] at hx
        exact ho.all u v w r g x hw hw1 hr hg hgw hx
  · intro v w i j hw hp
    rcases hst v w hw with ⟨_, rfl⟩ | hw
    · exact h2 i j hp
    · rw [hlk v w hw] at hp
      exact ho.pair v w i j hw hp

theorem ord_acted {t : Nat} {f : Fr F} {b : FAct L V W E} (hi : Inv eqv v₀ w₀ s) (ho : Ord dep s)
    (h : Acted eqv s s' t f b) : Ord dep s' := by
  have hst := acted_stack hi h
  obtain ⟨s₁, e1, e2, e3, _⟩ := h.on
  have hlf : look s' f = look s₁ f := look_congr e2 e3 f
  constructor
  · intro u v w r g x hw hw1 hr hg hgw hx
    rw [awaits_congr h.par] at hw
    rw [hst] at hw1 hg
    by_cases hwf : w = f
    · subst hwf
      rw [h.same g hgw] at hx
      rw [hlf] at hr
      exact ho.all u v w r g x hw hw1.1 (fstep_targets e1 (hi.inside v w hw1.1).2 hr) hg.1 hgw hx
    · rw [h.same w hwf] at hr
      by_cases hgf : g = f
      · subst hgf
        have hut := hi.uniq _ _ _ hg.1 h.mem
        subst hut
        rcases awaits_kids hi hw with rfl | hk
        · have := wants_not_user hr
          rw [(h.alone w hw1.1).resolve_left hwf] at this; cases this
        · exact absurd h.free hk
      · rw [h.same g hgf] at hx
        exact ho.all u v w r g x hw hw1.1 hr hg.1 hgw hx
  · intro v w i j hw hp
    rw [hst] at hw
    by_cases hwf : w = f
    · subst hwf
      rw [hlf] at hp
      exact ho.pair v w i j hw.1 (fstep_pair e1 hp)
    · rw [h.same w hwf] at hp
      exact ho.pair v w i j hw.1 hp

theorem ord_step {t : Nat} {a : Act F L V W E} (hi : Inv eqv v₀ w₀ s) (ho : Ord dep s) (ha : Allowed dep s t a)
    (h : step eqv s t a = some s') : Ord dep s' := by
  cases a with
  | call j op =>
    obtain ⟨h1, h2⟩ := new_lazy hi h
    refine ord_new hi ho h1 ?_ ?_
    · intro r hr
      obtain ⟨rfl, hne⟩ := h2 r hr
      cases op <;> first | exact absurd rfl hne | exact ha
    · intro i k hp; cases hp
  | lock op =>
    obtain ⟨h1, h2, h3⟩ := new_lock hi h
    refine ord_new hi ho h1 ?_ ?_
    · intro r hr
      obtain ⟨k, hk, rfl⟩ := h2 r hr
      exact ha.1 k hk
    · intro i k hp; exact ha.2 i k (h3 i k hp)
  | act f b => exact ord_acted hi ho (acted h)
  | fork c =>
    obtain ⟨⟨h1, h2, h3, h4, h5⟩, rfl⟩ := forked h
    have hlk : ∀ f, look (E := E) { s with kids := upd s.kids t (c :: s.kids t), par := upd s.par c (some t) } f = look s f :=
      look_congr rfl rfl
    have haw : ∀ u v, v ≠ c → Awaits (E := E) { s with kids := upd s.kids t (c :: s.kids t), par := upd s.par c (some t) } u v →
        Awaits s u v := by
      intro u v hv hw
      induction hw using Relation.ReflTransGen.head_induction_on with
      | refl => exact .refl
      | @head a b hab _ ih =>
        by_cases hb : b = c
        · subst hb
          rcases awaits_kids hi ih with rfl | hk
          · exact absurd rfl hv
          · exact absurd h4 hk
        · simp only [upd_other _ _ hb] at hab
          exact .head hab ih
    constructor
    · intro u v w r g x hw hw1 hr hg hgw hx
      rw [hlk] at hr hx
      have hv : v ≠ c := by rintro rfl; simp [h3] at hw1
      exact ho.all u v w r g x (haw u v hv hw) hw1 hr hg hgw hx
    · intro v w i j hw hp
      rw [hlk] at hp
      exact ho.pair v w i j hw hp
  | ret =>
    obtain ⟨u, h1, h2, h3, rfl⟩ := returned h
    have hlk : ∀ f, look (E := E) { s with
      stack := upd (upd s.stack t []) u (s.stack t ++ s.stack u)
      kids := upd s.kids u ((s.kids u).erase t), par := upd s.par t none } f = look s f := look_congr rfl rfl
    have hu : atRest s u = true := hi.rest u (by intro hc; have := (hi.kids u t).2 h1; rw [hc] at this; cases this)
    have hst : ∀ v g, g ∈ upd (upd s.stack t []) u (s.stack t ++ s.stack u) v →
        (v = u ∧ g ∈ s.stack t) ∨ (v ≠ t ∧ g ∈ s.stack v) := by
      intro v g
      have htu : u ≠ t := by have := hi.up _ _ h1; omega
      by_cases hv : v = u
      · subst hv; simp [htu]
      · by_cases hv' : v = t
        · subst hv'; simp [upd_other _ _ hv]
        · intro hg; right; simpa [upd_other _ _ hv, upd_other _ _ hv', hv'] using hg
    have haw : ∀ x v, Awaits (E := E) { s with
        stack := upd (upd s.stack t []) u (s.stack t ++ s.stack u)
        kids := upd s.kids u ((s.kids u).erase t), par := upd s.par t none } x v → Awaits s x v := by
      intro x v hw
      unfold Awaits at hw ⊢
      refine Relation.ReflTransGen.mono ?_ _ _ hw
      intro a b hab
      by_cases hb : b = t
      · subst hb; simp at hab
      · simpa only [upd_other _ _ hb] using hab
    constructor
    · intro x v w r g y hw hw1 hr hg hgw hy
      rw [hlk] at hr hy
      rcases hst v w hw1 with ⟨_, hw1⟩ | ⟨hv, hw1⟩
      · have := wants_not_user hr
        rw [guard_user (h3 w hw1)] at this; cases this
      · rcases hst x g hg with ⟨hxu, hg⟩ | ⟨_, hg⟩
        · exact ha _ h1 v (by rw [← hxu]; exact haw _ _ hw) hv w hw1 r hr g hg y hy
        · exact ho.all x v w r g y (haw _ _ hw) hw1 hr hg hgw hy
    · intro v w i j hw hp
      rw [hlk] at hp
      rcases hst v w hw with ⟨_, hw⟩ | ⟨_, hw⟩
      · exact ho.pair _ w i j hw hp
      · exact ho.pair _ w i j hw hp

theorem ord_reach (h : Reach eqv dep v₀ w₀ s) : Ord dep s := by
  induction h with
  | init => exact ord_init
  | step h ha hs ih => exact ord_step (inv_reach h) ih ha hs

/-! ## Who waits for whom -/

theorem finite_step {t : Nat} {a : Act F L V W E} (hi : Inv eqv v₀ w₀ s) (h : step eqv s t a = some s') {n : Nat}
    (hn : ∀ u, n ≤ u → ¬ Inside s u) : ∃ n, ∀ u, n ≤ u → ¬ Inside s' u := by
  have new : ∀ f, New eqv v₀ w₀ s s' t f → ∃ n, ∀ u, n ≤ u → ¬ Inside s' u := by
    intro f hf
    refine ⟨max n (t + 1), fun u hu => ?_⟩
    have hut : u ≠ t := by omega
    have := hn u (by omega)
    simpa [Inside, hf.stack, hf.kids, hf.par, upd_other _ _ hut] using this
  cases a with
  | call j op => exact new _ (new_lazy hi h).1
  | lock op => exact new _ (new_lock hi h).1
  | act f b =>
    have ha := acted h
    refine ⟨max n (t + 1), fun u hu => ?_⟩
    have hut : u ≠ t := by omega
    have := hn u (by omega)
    simpa [Inside, ha.stack, ha.kids, ha.par, upd_other _ _ hut] using this
  | fork c =>
    obtain ⟨⟨h1, h2, h3, h4, h5⟩, rfl⟩ := forked h
    refine ⟨max n (c + 1), fun u hu => ?_⟩
    have hut : u ≠ t := by omega
    have huc : u ≠ c := by omega
    have := hn u (by omega)
    simpa [Inside, upd_other _ _ hut, upd_other _ _ huc] using this
  | ret =>
    obtain ⟨v, h1, h2, h3, rfl⟩ := returned h
    have := hi.up _ _ h1
    refine ⟨max n (t + 1), fun u hu => ?_⟩
    have hut : u ≠ t := by omega
    have huv : u ≠ v := by omega
    have := hn u (by omega)
    simpa [Inside, upd_other _ _ hut, upd_other _ _ huv] using this

/-- Finitely many tasks are inside. -/
theorem finite_inside (h : Reach eqv dep v₀ w₀ s) : ∃ n, ∀ t, n ≤ t → ¬ Inside s t := by
  induction h with
  | init => exact ⟨0, fun t _ => by simp [Inside, init]⟩
  | step h _ hs ih =>
    obtain ⟨n, hn⟩ := ih
    exact finite_step (inv_reach h) hs hn

/-- On the containers somebody waits for, an order without cycles is well founded. -/
theorem wants_wf (hac : ∀ r, ¬ Relation.TransGen dep r r) (h : Reach eqv dep v₀ w₀ s) :
    WellFounded fun r' r => dep r r' ∧ ∃ t, ∃ f ∈ s.stack t, wants (look s f) = some r' := by
  obtain ⟨n, hn⟩ := finite_inside h
  refine Subrelation.wf ?_ (Proof.Mixed.acyclic_wf hac
    ((List.range n).flatMap fun t => (s.stack t).flatMap fun f => (wants (look s f)).toList))
  rintro r' r ⟨h1, t, f, h2, h3⟩
  refine ⟨h1, ?_⟩
  simp only [List.mem_flatMap, List.mem_range]
  refine ⟨t, ?_, f, h2, by simp [h3]⟩
  apply Classical.byContradiction
  intro hlt
  exact hn t (by omega) (.inl (by intro hc; rw [hc] at h2; cases h2))

/-- From a task inside, follow the branches to one which awaits none. -/
theorem descend (hi : Inv eqv v₀ w₀ s) {n : Nat} (hn : ∀ t, n ≤ t → ¬ Inside s t) (u : Nat) (hu : Inside s u) :
    ∃ v, Awaits s u v ∧ Relation.ReflTransGen (WaitsFor s) u v ∧ Inside s v ∧ s.kids v = [] := by
  have key : ∀ m u, n - u ≤ m → Inside s u →
      ∃ v, Awaits s u v ∧ Relation.ReflTransGen (WaitsFor s) u v ∧ Inside s v ∧ s.kids v = [] := by
    intro m
    induction m with
    | zero => intro u hm hu; exact absurd hu (hn u (by omega))
    | succ m ih =>
      intro u hm hu
      cases hk : s.kids u with
      | nil => exact ⟨u, .refl, .refl, hu, hk⟩
      | cons c cs =>
        have hc : c ∈ s.kids u := by rw [hk]; exact .head _
        have hp := (hi.kids u c).1 hc
        have hlt := hi.up _ _ hp
        obtain ⟨v, h1, h2, h3⟩ := ih c (by have : u < n := by
                                            apply Classical.byContradiction
                                            intro hge; exact hn u (by omega) hu
                                           omega) (.inr (.inr (by rw [hp]; simp)))
        exact ⟨v, .head hp h1, .head (.branch hc) h2, h3⟩
  exact key _ u (Nat.le_refl _) hu

theorem inside_of_mem {t : Nat} {f : Fr F} (h : f ∈ s.stack t) : Inside s t :=
  .inl (by intro hc; rw [hc] at h; cases h)

/-- The task of a frame which is there. -/
theorem task_of (hi : Inv eqv v₀ w₀ s) {f : Fr F} (h : gone (look s f) = false) : ∃ t, f ∈ s.stack t := hi.owner f h

/-- A stuck task without branches waits for a container. -/
theorem stuck_wants (hi : Inv eqv v₀ w₀ s) {t : Nat} (hk : s.kids t = []) (h : Stuck eqv s t) :
    ∃ r p, frame r p ∈ s.stack t ∧ wants (look s (frame r p)) = some r ∧
      ((∃ q rest, waiting s r = q :: rest ∧ p ∈ rest) ∨ ((waiting s r).head? = some p ∧ ∃ q, (lockOf s r).wr = some q) ∨
       ((waiting s r).head? = some p ∧ wantsAlone (look s (frame r p)) = true ∧ ∃ q, q ∈ (lockOf s r).shared)) := by
  rcases h with h | ⟨f, h1, h2, h3⟩
  · exact absurd hk h
  · obtain ⟨r, p, rfl, h4, h5⟩ := stuck_cases hi.pool (hi.inside t f h1).2 h2 h3
    exact ⟨r, p, h1, h4, h5⟩

theorem kids_of_wants (hi : Inv eqv v₀ w₀ s) {t : Nat} {f : Fr F} {r : F ⊕ L} (h : f ∈ s.stack t)
    (hw : wants (look s f) = some r) : s.kids t = [] := by
  apply Classical.byContradiction
  intro hc
  have := rest_user (hi.rest t hc) h
  rw [wants_not_user (wants_targets hw)] at this; cases this

/-- What a call waits for comes after what its task, and those awaiting it, have in hand. -/
theorem hand_before (hi : Inv eqv v₀ w₀ s) (ho : Ord dep s) {u t : Nat} {f g : Fr F} {r r' : F ⊕ L} (hw : Awaits s u t)
    (hf : f ∈ s.stack t) (hr : wants (look s f) = some r') (hg : g ∈ s.stack u) (hh : r ∈ hand (look s g)) : dep r r' := by
  by_cases hgf : g = f
  · subst hgf
    cases g with
    | lazy i p =>
      simp only [look, wants, hand] at hr hh
      split at hr
      · rename_i hq; simp [hq] at hh
      · cases hr
    | lock p =>
      have hpair := ho.pair t (.lock p)
      simp only [look, wants, Option.map_eq_some_iff] at hr
      obtain ⟨k, hk, rfl⟩ := hr
      have := hi.pool.hold p (by rw [hk]; simp)
      simp only [look, hand, this, List.map_nil, List.nil_append, List.mem_map] at hh
      obtain ⟨i, hi', rfl⟩ := hh
      cases hpc : s.lk.pc p <;> simp [hpc, AsyncLocks.wants, during] at hk hi'
      subst hk hi'
      exact hpair _ _ hf (by simp [look, pair, sides, hpc])
  · exact ho.all u t f r' g r hw hf (wants_targets hr) hg hgf hh

theorem queue_nodup (hp : Pool eqv v₀ w₀ s) (r : F ⊕ L) : (waiting s r).Nodup := by
  cases r with
  | inl i => exact hp.once i
  | inr k =>
    rw [List.nodup_iff_count]
    intro p
    simp only [waiting, (Proof.AsyncLocks.core_reach hp.lk).que k p]
    split <;> omega

/-- From every stuck task a chain of waiting leads to one which is inside and not stuck. -/
theorem chain (hwf : WellFounded fun r' r => dep r r' ∧ ∃ t, ∃ f ∈ s.stack t, wants (look s f) = some r')
    (hi : Inv eqv v₀ w₀ s) (ho : Ord dep s) {n : Nat} (hn : ∀ t, n ≤ t → ¬ Inside s t) :
    ∀ r t p, frame r p ∈ s.stack t → wants (look s (frame r p)) = some r → Stuck eqv s t →
      ∃ u, Relation.ReflTransGen (WaitsFor s) t u ∧ Inside s u ∧ ¬ Stuck eqv s u := by
  intro r
  induction r using hwf.induction with
  | _ r ih =>
  -- somebody who has the container in hand waits for something later, or not at all
  have later : ∀ t u g, WaitsFor s t u → g ∈ s.stack u → r ∈ hand (look s g) →
      ∃ u', Relation.ReflTransGen (WaitsFor s) t u' ∧ Inside s u' ∧ ¬ Stuck eqv s u' := by
    intro t u g hw hg hh
    obtain ⟨v, h1, h2, h3, h4⟩ := descend hi hn u (inside_of_mem hg)
    by_cases hs : Stuck eqv s v
    · obtain ⟨r', p, h5, h6, _⟩ := stuck_wants hi h4 hs
      obtain ⟨u', h7, h8⟩ := ih r' ⟨hand_before hi ho h1 h5 h6 hg hh, v, _, h5, h6⟩ v p h5 h6 hs
      exact ⟨u', .head hw (.trans h2 h7), h8⟩
    · exact ⟨v, .head hw h2, h3, hs⟩
  -- what the waiting frame of a stuck task waits for
  have cases : ∀ t p, frame r p ∈ s.stack t → wants (look s (frame r p)) = some r → Stuck eqv s t →
      (∃ q rest, waiting s r = q :: rest ∧ p ∈ rest) ∨ ((waiting s r).head? = some p ∧ ∃ q, (lockOf s r).wr = some q) ∨
       ((waiting s r).head? = some p ∧ wantsAlone (look s (frame r p)) = true ∧ ∃ q, q ∈ (lockOf s r).shared) := by
    intro t p hf hw hs
    obtain ⟨r', p', h1, h2, h3⟩ := stuck_wants hi (kids_of_wants hi hf hw) hs
    have he := hi.one t _ _ hf h1 (wants_not_user (wants_targets hw)) (wants_not_user (wants_targets h2))
    rw [← he, hw] at h2
    cases h2
    have hpp : p' = p := by cases r <;> simpa [frame, eq_comm] using he
    subst hpp
    exact h3
  -- the first of the queue
  have front : ∀ t p, frame r p ∈ s.stack t → wants (look s (frame r p)) = some r → Stuck eqv s t →
      (waiting s r).head? = some p →
      ∃ u, Relation.ReflTransGen (WaitsFor s) t u ∧ Inside s u ∧ ¬ Stuck eqv s u := by
    intro t p hf hw hs hq
    rcases cases t p hf hw hs with ⟨q, rest, h1, h2⟩ | ⟨_, q, hq'⟩ | ⟨_, h1, q, hq'⟩
    · rw [h1] at hq
      simp only [List.head?_cons, Option.some.injEq] at hq
      subst hq
      have := queue_nodup hi.pool r
      rw [h1] at this
      exact absurd h2 (List.nodup_cons.1 this).1
    · obtain ⟨h2, h3⟩ := owner_hand hi.pool hq'
      obtain ⟨u, hu⟩ := hi.owner _ h3
      exact later t u _ (.owner hf hw hq hq' hu) hu h2
    · obtain ⟨h2, h3⟩ := reader_hand hi.pool hq'
      obtain ⟨u, hu⟩ := hi.owner _ h3
      exact later t u _ (.reader hf hw hq h1 hq' hu) hu h2
  intro t p hf hw hs
  rcases cases t p hf hw hs with ⟨q, rest, h1, h2⟩ | ⟨hq, _⟩ | ⟨hq, _⟩
  · have hq : wants (look s (frame r q)) = some r := (wants_iff hi.pool).2 (by rw [h1]; exact .head _)
    have hg : gone (look s (frame r q)) = false := by
      cases hx : gone (look s (frame r q))
      · rfl
      · exfalso
        revert hq hx
        cases r with
        | inl i => simp only [frame, look, gone_lazy]; intro h hx; simp [hx, wants, AsyncMulti.queued] at h
        | inr k => simp only [frame, look, gone_lock]; intro h hx; simp [hx, wants, AsyncLocks.wants] at h
    obtain ⟨u, hu⟩ := hi.owner _ hg
    by_cases hs' : Stuck eqv s u
    · obtain ⟨u', h3, h4⟩ := front u q hu hq hs' (by rw [h1]; rfl)
      exact ⟨u', .head (.before hf hw h1 h2 hu) h3, h4⟩
    · exact ⟨u, .single (.before hf hw h1 h2 hu), inside_of_mem hu, hs'⟩
  · exact front t p hf hw hs hq
  · exact front t p hf hw hs hq

/-- The same for every task inside. -/
theorem chain_inside (hac : ∀ r, ¬ Relation.TransGen dep r r) (h : Reach eqv dep v₀ w₀ s) {t : Nat} (ht : Inside s t) :
    ∃ u, Relation.ReflTransGen (WaitsFor s) t u ∧ Inside s u ∧ ¬ Stuck eqv s u := by
  have hi := inv_reach h
  obtain ⟨n, hn⟩ := finite_inside h
  obtain ⟨v, _, h2, h3, h4⟩ := descend hi hn t ht
  by_cases hs : Stuck eqv s v
  · obtain ⟨r, p, h5, h6, _⟩ := stuck_wants hi h4 hs
    obtain ⟨u, h7, h8⟩ := chain (wants_wf hac h) hi (ord_reach h) hn r v p h5 h6 hs
    exact ⟨u, .trans h2 h7, h8⟩
  · exact ⟨v, h2, h3, hs⟩

theorem stuck_inside {t : Nat} (h : Stuck eqv s t) : Inside s t := by
  rcases h with h | ⟨f, h, _⟩
  · exact .inr (.inl h)
  · exact inside_of_mem h

/-! ## Everything ends -/

theorem building_user {w : View F L V W E} (h : building w = true) : atUser w = true := by
  cases w with
  | lazy i c => revert h; cases c <;> simp [atUser, building, AsyncMulti.building]
  | lock c hs => cases h

theorem act_some {t : Nat} {f : Fr F} {b : FAct L V W E} (h1 : f ∈ s.stack t)
    (h2 : ∀ g ∈ s.stack t, g = f ∨ atUser (look s g) = true) (h3 : s.kids t = []) (h4 : may s t f = true)
    (h5 : (fstep eqv s f b).isSome = true) : (step eqv s t (.act f b)).isSome = true := by
  simp only [step]
  rw [if_pos ⟨h1, alone_iff.2 ⟨h2, h3⟩, h4⟩, Option.isSome_map]
  exact h5

/-- A task inside which is not stuck can do something which begins nothing new. -/
theorem quiet_enabled (hi : Inv eqv v₀ w₀ s) {t : Nat} (ht : Inside s t) (hs : ¬ Stuck eqv s t)
    (o : Outcome V E) : ∃ a, quiet a = true ∧ eager o a ∧ Allowed dep s t a ∧ (step eqv s t a).isSome = true := by
  have hk : s.kids t = [] := by
    apply Classical.byContradiction
    intro hc; exact hs (.inl hc)
  by_cases hu : ∃ f ∈ s.stack t, atUser (look s f) = false
  · obtain ⟨f, h1, h2⟩ := hu
    refine ⟨.act f .go, rfl, trivial, trivial, act_some h1 ?_ hk ?_ ?_⟩
    · intro g hg
      by_cases hgu : atUser (look s g) = false
      · exact .inl (hi.one t g f hg h1 hgu h2)
      · right; simpa using hgu
    · cases hb : building (look s f)
      · simp [may, hb]
      · rw [building_user hb] at h2; cases h2
    · cases hx : fstep eqv s f .go
      · exact absurd (.inr ⟨f, h1, h2, by simp [hx]⟩) hs
      · rfl
  · have hall : ∀ f ∈ s.stack t, atUser (look s f) = true := by
      intro f hf
      cases hx : atUser (look s f)
      · exact absurd ⟨f, hf, hx⟩ hu
      · rfl
    cases hin : innermost s t with
    | some f =>
      have h1 : f ∈ s.stack t := List.mem_of_find?_eq_some hin
      have h2 : building (look s f) = true := by simpa using List.find?_some hin
      refine ⟨.act f (.finish o), rfl, rfl, trivial, act_some h1 (fun g hg => .inr (hall g hg)) hk (by simp [may, hin]) ?_⟩
      cases f with
      | lock p => cases h2
      | lazy i p =>
        simp only [look, building] at h2
        simp only [fstep, Option.isSome_map, Async.builderReturns]
        revert h2
        cases (s.obj i).pc p <;> simp [AsyncMulti.building]
        cases o <;> simp
    | none =>
      cases hst : s.stack t with
      | nil =>
        have hp : s.par t ≠ none := by
          rcases ht with ht | ht | ht
          · exact absurd hst ht
          · exact absurd hk ht
          · exact ht
        obtain ⟨u, hu⟩ := Option.ne_none_iff_exists'.1 hp
        refine ⟨.ret, rfl, trivial, ?_, ?_⟩
        · intro v hv x hx hxt f hf r hr g hg
          rw [hst] at hg; cases hg
        · simp [step, hu, hk, hst]
      | cons f fs =>
        have h1 : f ∈ s.stack t := by rw [hst]; exact .head _
        have h2 : building (look s f) = false := by
          have := List.find?_eq_none.1 hin f h1
          simpa using this
        have h3 := hall f h1
        have key : ∀ b, (fstep eqv s f b).isSome = true → (step eqv s t (.act f b)).isSome = true := fun b hb =>
          act_some h1 (fun g hg => .inr (hall g hg)) hk (by simp [may, h2]) hb
        cases f with
        | lazy i p =>
          simp only [look] at h2 h3
          by_cases hg : (s.obj i).pc p = .sHave
          · exact ⟨.act _ .go, rfl, trivial, trivial, key _ (by
              have hq : AsyncMulti.queued ((s.obj i).pc p) = false := by rw [hg]; rfl
              simp [fstep, AsyncMulti.queued, Async.go, hg])⟩
          · refine ⟨.act _ .drop, rfl, trivial, trivial, key _ ?_⟩
            simp only [fstep, Option.isSome_map, Async.dropGuard]
            revert h2 h3 hg
            cases (s.obj i).pc p <;> simp [atUser, building, AsyncMulti.building]
        | lock p =>
          simp only [look] at h3
          cases hpc : s.lk.pc p with
          | idle =>
            cases hh : s.lk.held p with
            | nil => simp [hpc, hh, atUser] at h3
            | cons g gs =>
              exact ⟨.act _ (.dropLock g), rfl, trivial, trivial, key _ (by simp [fstep, AsyncLocks.dropGuard, hpc, hh])⟩
          | gHave _ | xHave _ _ | eHave _ _ | eMid _ _ _ =>
            exact ⟨.act _ .go, rfl, trivial, trivial, key _ (by simp [fstep, AsyncLocks.go, hpc])⟩
          | _ => simp [hpc, atUser] at h3

/-- Steps left for a task. -/
def weight (s : St F L V W E) (t : Nat) : Nat :=
  ((s.stack t).map fun f => rank (look s f)).sum + if s.par t = none then 0 else 1

theorem rank_le (hp : Pool eqv v₀ w₀ s) (f : Fr F) : rank (look s f) ≤ 9 := by
  cases f with
  | lazy i p => exact Proof.Async.rank_le _
  | lock p =>
    have h1 := Proof.AsyncLocks.left_le (s.lk.pc p)
    have h2 := hp.short p
    simp only [look, rank]; omega

theorem weight_le (hp : Pool eqv v₀ w₀ s) (t : Nat) : weight s t ≤ 9 * (s.stack t).length + 1 := by
  have : ∀ l : List (Fr F), (l.map fun f => rank (look s f)).sum ≤ 9 * l.length := by
    intro l
    induction l with
    | nil => simp
    | cons f l ih =>
      have := rank_le hp f
      simp only [List.map_cons, List.sum_cons, List.length_cons]; omega
  have := this (s.stack t)
  unfold weight
  split <;> omega

theorem sum_same {A : Type} {l : List A} {x y : A → Nat} (h : ∀ a ∈ l, x a = y a) : (l.map x).sum = (l.map y).sum := by
  rw [List.map_congr_left h]

theorem sum_erase {A : Type} [DecidableEq A] {l : List A} {a : A} (x : A → Nat) (h : a ∈ l) :
    (l.map x).sum = x a + ((l.erase a).map x).sum := by
  have := ((List.perm_cons_erase h).map x).sum_nat
  simpa using this

theorem sum_one {l : List Nat} (hn : l.Nodup) {x y : Nat → Nat} {a : Nat} (ha : a ∈ l) (h : ∀ b, b ≠ a → x b = y b)
    (hlt : x a < y a) : (l.map x).sum < (l.map y).sum := by
  rw [sum_erase x ha, sum_erase y ha, sum_same (x := x) (y := y)]
  · omega
  · intro b hb
    exact h b (fun hab => ((hn.mem_erase_iff).1 hb).1 hab)

theorem sum_two {l : List Nat} (hn : l.Nodup) {x y : Nat → Nat} {a b : Nat} (ha : a ∈ l) (hb : b ∈ l) (hab : a ≠ b)
    (h : ∀ c, c ≠ a → c ≠ b → x c = y c) (hlt : x a + x b < y a + y b) : (l.map x).sum < (l.map y).sum := by
  have hb' : b ∈ l.erase a := (hn.mem_erase_iff).2 ⟨fun h => hab h.symm, hb⟩
  rw [sum_erase x ha, sum_erase y ha, sum_erase x hb', sum_erase y hb', sum_same (x := x) (y := y)]
  · omega
  · intro c hc
    have h1 := ((hn.erase a).mem_erase_iff).1 hc
    have h2 := (hn.mem_erase_iff).1 h1.2
    exact h c h2.1 h1.1

/-- Steps left for a list of tasks. -/
def total (s : St F L V W E) (ts : List Nat) : Nat := (ts.map (weight s)).sum

theorem quiet_inside {t : Nat} {a : Act F L V W E} (ha : quiet a = true) (h : step eqv s t a = some s') : Inside s t := by
  cases a with
  | call => cases ha
  | lock => cases ha
  | fork => cases ha
  | act f b => exact inside_of_mem (acted h).mem
  | ret =>
    obtain ⟨u, h1, _⟩ := returned h
    exact .inr (.inr (by rw [h1]; simp))

theorem quiet_inside_step {t : Nat} {a : Act F L V W E} (hi : Inv eqv v₀ w₀ s) (ha : quiet a = true)
    (h : step eqv s t a = some s') {u : Nat} (hu : Inside s' u) : Inside s u := by
  cases a with
  | call => cases ha
  | lock => cases ha
  | fork => cases ha
  | act f b =>
    have hc := acted h
    by_cases hut : u = t
    · subst hut; exact inside_of_mem hc.mem
    · simpa [Inside, hc.stack, hc.kids, hc.par, upd_other _ _ hut] using hu
  | ret =>
    obtain ⟨v, h1, h2, h3, rfl⟩ := returned h
    have hvt := hi.up _ _ h1
    by_cases huv : u = v
    · subst huv
      exact .inr (.inl (by intro hc; have := (hi.kids u t).2 h1; rw [hc] at this; cases this))
    · by_cases hut : u = t
      · subst hut; exact .inr (.inr (by rw [h1]; simp))
      · simpa [Inside, upd_other _ _ huv, upd_other _ _ hut] using hu

theorem total_step {t : Nat} {a : Act F L V W E} (hi : Inv eqv v₀ w₀ s) (ha : quiet a = true)
    (h : step eqv s t a = some s') {ts : List Nat} (hn : ts.Nodup) (hts : ∀ t, t ∉ ts → ¬ Inside s t) :
    total s' ts < total s ts := by
  have hin : ∀ u, Inside s u → u ∈ ts := fun u hu => Classical.byContradiction fun hc => hts u hc hu
  have ht := hin t (quiet_inside ha h)
  cases a with
  | call => cases ha
  | lock => cases ha
  | fork => cases ha
  | act f b =>
    have hc := acted h
    obtain ⟨s₁, e1, e2, e3, _⟩ := hc.on
    have hb : repeats b = false := by cases b <;> first | rfl | cases ha
    have hr : rank (look s' f) < rank (look s f) := by rw [look_congr e2 e3 f]; exact fstep_rank e1 hb
    refine sum_one hn ht ?_ ?_
    · intro u hu
      have hl : (s.stack u).map (fun f => rank (look s' f)) = (s.stack u).map fun f => rank (look s f) := by
        refine List.map_congr_left ?_
        intro g hg
        rw [hc.same g (by rintro rfl; exact hu (hi.uniq _ _ _ hg hc.mem))]
      simp only [weight, hc.stack, hc.par, upd_other _ _ hu, hl]
    · have hl : ((s.stack t).erase f).map (fun f => rank (look s' f)) = ((s.stack t).erase f).map fun f => rank (look s f) := by
        refine List.map_congr_left ?_
        intro g hg
        rw [hc.same g (((hi.nodup t).mem_erase_iff.1 hg).1)]
      simp only [weight, hc.stack, hc.par, upd_same]
      have h1 := sum_erase (fun f => rank (look s f)) hc.mem
      have h2 := sum_erase (fun f => rank (look s' f)) hc.mem
      rw [hl] at h2
      by_cases hg : gone (look s' f) = true
      · rw [if_pos hg, hl]; omega
      · rw [if_neg hg]; omega
  | ret =>
    obtain ⟨v, h1, h2, h3, rfl⟩ := returned h
    have hvt := hi.up _ _ h1
    have hv := hin v (.inr (.inl (by intro hc; have := (hi.kids v t).2 h1; rw [hc] at this; cases this)))
    have htv : t ≠ v := by omega
    have hlk : ∀ f, look (E := E) { s with
      stack := upd (upd s.stack t []) v (s.stack t ++ s.stack v)
      kids := upd s.kids v ((s.kids v).erase t), par := upd s.par t none } f = look s f := look_congr rfl rfl
    refine sum_two hn ht hv htv ?_ ?_
    · intro c hct hcv
      simp only [weight, hlk, upd_other _ _ hct, upd_other _ _ hcv]
    · simp only [weight, hlk, upd_same, upd_other _ _ htv, upd_other _ _ (Ne.symm htv), List.map_append, List.sum_append,
        h1, List.map_nil, List.sum_nil, if_true, if_false, reduceCtorEq]
      omega

end Verif.Proof.AsyncMixed
