import Verif.Props.Tasks
import Verif.Proof.AsyncMixedQueue
/-!
# Order of arrival at the fields of async structs: C103

Model: `Verif.Model.Tasks`. As `C92_no_overtaking`, for the generated helpers.
-/

namespace Verif.Props.Overtaking
open Verif.Spec Verif.Model Verif.Model.Args Verif.Model.Tasks
open Verif.Model.Method hiding put
open Verif.Model.AsyncMixed (Fr frame lockOf waiting wants)
open Verif.Proof Verif.Proof.Tasks

set_option linter.unusedSectionVars false
set_option linter.unusedSimpArgs false
variable {F L V W E : Type} [DecidableEq F] [DecidableEq L] {x : F → FCtx} {y : L → FCtx}
  {lazyCode : F → Kind → Option Body} {lockCode : L → Kind → Option Body} {eqv : Option W → Option W → Bool}
  {dep : F ⊕ L → F ⊕ L → Prop} {v₀ : F → Option V} {w₀ : L → Option W} {s s' : St F L V W E} {fal cl : F → Bool}

/-! ## One step of a helper is at most one of its container -/

theorem settle_c (o : AsyncCalls.St V E) (p : Nat) (f : AsyncCalls.Frame V E) (m : MOp) (todo : List MOp) (c : Async.St V E) :
    (AsyncCalls.settle o p f m todo c).c = c := by
  unfold AsyncCalls.settle
  split
  simp only
  split
  · rfl
  · split <;> rfl

theorem settleUse_c (o : AsyncCalls.St V E) (p : Nat) (u : Spec.Calls.Call V) (dec : Option (Res V E)) (c : Async.St V E) :
    (AsyncCalls.settleUse o p u dec c).c = c := by
  unfold AsyncCalls.settleUse
  split
  simp only
  split <;> rfl

theorem lazy_inner {code : Kind → Option Body} {o o' : AsyncCalls.St V E} {p : Nat} {a : AsyncCalls.Act V E}
    (h : AsyncCalls.step code o p a = some o') :
    o'.c = o.c ∨ ∃ b, Async.step o.c p b = some o'.c ∧ (b = .go → a = .go) := by
  cases a with
  | call u =>
    simp only [AsyncCalls.step, AsyncCalls.invoke] at h
    split at h
    · simp only [Option.map_eq_some_iff] at h
      obtain ⟨b, _, rfl⟩ := h
      exact .inl rfl
    · simp only [Option.bind_eq_some_iff, Option.map_eq_some_iff] at h
      obtain ⟨op, _, c', hc, rfl⟩ := h
      exact .inr ⟨.call op, hc, by simp⟩
    · cases h
  | go =>
    simp only [AsyncCalls.step, AsyncCalls.go] at h
    split at h
    · cases h
    · cases h
    · rename_i f todo a _
      unfold AsyncCalls.goRun at h
      split at h
      · split at h
        · split at h <;> (cases h; exact .inl rfl)
        · split at h
          · cases h; exact .inl rfl
          · cases h; exact .inl rfl
          · rename_i op _
            simp only [Option.map_eq_some_iff] at h
            obtain ⟨c', hc, rfl⟩ := h
            exact .inr ⟨.call op, hc, by simp⟩
          · cases h
      · split at h
        · rename_i c' hc
          cases h
          split at hc
          · cases hc
          · exact .inr ⟨.drop, hc, by simp⟩
        · split at h <;> (cases h; exact .inl rfl)
    · simp only [Option.map_eq_some_iff] at h
      obtain ⟨c', hc, rfl⟩ := h
      exact .inr ⟨.go, by rw [settle_c]; exact hc, by simp⟩
    · simp only [Option.map_eq_some_iff] at h
      obtain ⟨c', hc, rfl⟩ := h
      exact .inr ⟨.go, by rw [settleUse_c]; exact hc, by simp⟩
    · split at h
      · rename_i c' hc
        cases h
        exact .inr ⟨.drop, hc, by simp⟩
      · cases h; exact .inl rfl
  | finish r =>
    simp only [AsyncCalls.step, AsyncCalls.finish] at h
    split at h
    · simp only [Option.map_eq_some_iff] at h
      obtain ⟨c', hc, rfl⟩ := h
      exact .inr ⟨.finish r, by rw [settle_c]; exact hc, by simp⟩
    · cases h
  | drop =>
    simp only [AsyncCalls.step, AsyncCalls.dropGuard] at h
    split at h
    · simp only [Option.map_eq_some_iff] at h
      obtain ⟨c', hc, rfl⟩ := h
      exact .inr ⟨.drop, hc, by simp⟩
    · cases h
  | cancel =>
    simp only [AsyncCalls.step, AsyncCalls.cancel] at h
    split at h
    · simp only [Option.map_eq_some_iff] at h
      obtain ⟨c', hc, rfl⟩ := h
      exact .inr ⟨.cancel, hc, by simp⟩
    · cases h

theorem lsettle_c (o : AsyncLockCalls.St L W) (p : Nat) (f : AsyncLockCalls.Frame L W) (m : MOp) (todo : List MOp)
    (c : AsyncLocks.St L (Option W)) : (AsyncLockCalls.settle o p f m todo c).c = c := by
  unfold AsyncLockCalls.settle
  split
  simp only
  split
  · rfl
  · split <;> rfl

theorem lsettleOther_c (o : AsyncLockCalls.St L W) (p : Nat) (u : Spec.LockCalls.Call L W) (dec : Option (Memory.Ret (Option W)))
    (c : AsyncLocks.St L (Option W)) : (AsyncLockCalls.settleOther o p u dec c).c = c := by
  unfold AsyncLockCalls.settleOther
  split
  simp only
  split <;> rfl

theorem lock_inner {o o' : AsyncLockCalls.St L W} {p : Nat} {a : AsyncLockCalls.Act L W}
    (h : AsyncLockCalls.step lockCode eqv o p a = some o') :
    o'.c = o.c ∨ ∃ b, AsyncLocks.step eqv o.c p b = some o'.c := by
  cases a with
  | call u =>
    simp only [AsyncLockCalls.step, AsyncLockCalls.invoke] at h
    split at h
    · split at h
      · split at h
        · split at h
          · cases h; exact .inl rfl
          · cases h
        · cases h
      · simp only [Option.bind_eq_some_iff, Option.map_eq_some_iff] at h
        obtain ⟨op, _, c', hc, rfl⟩ := h
        exact .inr ⟨.call op, hc⟩
    · cases h
  | go =>
    simp only [AsyncLockCalls.step, AsyncLockCalls.go] at h
    split at h
    · cases h
    · rename_i f todo a _
      unfold AsyncLockCalls.goRun at h
      split at h
      · split at h
        · cases h; exact .inl rfl
        · split at h
          · cases h; exact .inl rfl
          · rename_i op _
            simp only [Option.map_eq_some_iff] at h
            obtain ⟨c', hc, rfl⟩ := h
            exact .inr ⟨.call op, hc⟩
          · cases h
      · split at h
        · simp only [Option.map_eq_some_iff] at h
          obtain ⟨c', hc, rfl⟩ := h
          exact .inr ⟨.drop _, hc⟩
        · cases h; exact .inl rfl
    · simp only [Option.map_eq_some_iff] at h
      obtain ⟨c', hc, rfl⟩ := h
      exact .inr ⟨.go, by rw [lsettle_c]; exact hc⟩
    · simp only [Option.map_eq_some_iff] at h
      obtain ⟨c', hc, rfl⟩ := h
      exact .inr ⟨.go, by rw [lsettleOther_c]; exact hc⟩
    · split at h
      · simp only [Option.map_eq_some_iff] at h
        obtain ⟨c', hc, rfl⟩ := h
        exact .inr ⟨.drop _, hc⟩
      · cases h; exact .inl rfl
  | panic =>
    simp only [AsyncLockCalls.step, AsyncLockCalls.panics] at h
    split at h
    · simp only [Option.map_eq_some_iff] at h
      obtain ⟨c', hc, rfl⟩ := h
      exact .inr ⟨.panic, by rw [lsettleOther_c]; exact hc⟩
    · cases h
  | cancel =>
    simp only [AsyncLockCalls.step, AsyncLockCalls.cancel] at h
    split at h
    · simp only [Option.map_eq_some_iff] at h
      obtain ⟨c', hc, rfl⟩ := h
      exact .inr ⟨.cancel, hc⟩
    · cases h
  | drop g =>
    simp only [AsyncLockCalls.step, AsyncLockCalls.dropGuard] at h
    split at h
    · simp only [Option.map_eq_some_iff] at h
      obtain ⟨c', hc, rfl⟩ := h
      exact .inr ⟨.drop g, hc⟩
    · cases h

/-! ## The fields -/

/-- What an action on a lazy field does; only the first of the queue may take the lock. -/
theorem fstep_lazy {i : F} {p : Nat} {b : FAct L V W E} (h : fstep lazyCode lockCode eqv s (.lazy i p) b = some s') :
    ∃ b' o, AsyncCalls.step (lazyCode i) (s.obj i) p b' = some o ∧ s' = put s i p o ∧
      (b' = .go → AsyncMulti.queued ((s.obj i).c.pc p) = true → (s.queue i).head? = some p) := by
  cases b <;> simp only [fstep] at h
  case go =>
    split at h
    · rename_i hc
      simp only [Option.map_eq_some_iff] at h
      obtain ⟨o, ho, rfl⟩ := h
      refine ⟨_, o, ho, rfl, fun _ hq => ?_⟩
      rcases hc with hc | hc
      · rw [hc] at hq; cases hq
      · exact hc
    · cases h
  all_goals first
    | (cases h; done)
    | (simp only [Option.map_eq_some_iff] at h
       obtain ⟨o, ho, rfl⟩ := h
       exact ⟨_, o, ho, rfl, by simp⟩)

/-- What an action on the other fields does. -/
theorem fstep_lock {p : Nat} {b : FAct L V W E} (h : fstep lazyCode lockCode eqv s (.lock p) b = some s') :
    ∃ b' l, AsyncLockCalls.step lockCode eqv s.lk p b' = some l ∧ s' = { s with lk := l } := by
  rcases fstep_cases h with ⟨i, p, o, b', hf, _⟩ | ⟨q, l, b', hf, h1, h2, _⟩
  · cases hf
  · cases hf; exact ⟨b', l, h1, h2⟩

/-- Process `q` has a guard of field `r`. -/
def Has (s : St F L V W E) (r : F ⊕ L) (q : Nat) : Prop := AsyncMixed.Has (containers s) r q

theorem states (hp : Pool fal cl eqv dep v₀ w₀ s) {t : Nat} {f : Fr F} {b : FAct L V W E}
    (h : step lazyCode lockCode eqv s t (.act f b) = some s') :
    ∃ s₁, fstep lazyCode lockCode eqv s f b = some s₁ ∧ (∀ r, lockOf (containers s') r = lockOf (containers s₁) r) ∧
      ∀ r, waiting (containers s') r = waiting (containers s₁) r := by
  obtain ⟨s₁, h1, h2, h3, h4⟩ := (acted hp h).on
  refine ⟨s₁, h1, ?_, ?_⟩ <;> intro r <;> cases r <;> simp [lockOf, waiting, containers, h2, h3, h4]

/-- Only the first of the queue gets a guard. -/
theorem step_gain {t : Nat} {a : Act F L V W E} (hi : Inv fal cl eqv dep v₀ w₀ s) (h : step lazyCode lockCode eqv s t a = some s')
    {r : F ⊕ L} {q : Nat} (hq : Has s' r q) (hn : ¬ Has s r q) : (waiting (containers s) r).head? = some q := by
  have hlazy : ∀ {i p b' o}, AsyncCalls.step (lazyCode i) (s.obj i) p b' = some o →
      (q ∈ o.c.lk.shared ∨ o.c.lk.wr = some q) → ¬ (q ∈ (s.obj i).c.lk.shared ∨ (s.obj i).c.lk.wr = some q) →
      q = p ∧ b' = .go ∧ AsyncMulti.queued ((s.obj i).c.pc p) = true := by
    intro i p b' o ho h1 h2
    rcases lazy_inner ho with h3 | ⟨b, h3, h4⟩
    · rw [h3] at h1; exact absurd h1 h2
    · obtain ⟨e1, e2, e3⟩ := AsyncMixed.lazy_gain ((proj_inv hi).pool.obj i) h3 h1 h2
      exact ⟨e1, h4 e2, e3⟩
  have hlock : ∀ {k p b' l}, AsyncLockCalls.step lockCode eqv s.lk p b' = some l →
      (q ∈ (l.c.lock k).shared ∨ (l.c.lock k).wr = some q) → ¬ (q ∈ (s.lk.c.lock k).shared ∨ (s.lk.c.lock k).wr = some q) →
      (s.lk.c.queue k).head? = some q := by
    intro k p b' l hl h1 h2
    rcases lock_inner hl with h3 | ⟨b, h3⟩
    · rw [h3] at h1; exact absurd h1 h2
    · exact (Props.AsyncLocks.gain_step h3 h1 h2).2
  cases a with
  | call j k v boom =>
    exfalso
    simp only [step] at h
    split at h
    case isFalse => cases h
    simp only [Option.map_eq_some_iff] at h
    obtain ⟨o, ho, rfl⟩ := h
    cases r with
    | inr k => exact hn hq
    | inl i =>
      by_cases hij : i = j
      · subst hij
        simp only [Has, AsyncMixed.Has, lockOf, containers, upd_same] at hq hn
        exact nomatch (hlazy ho hq hn).2.1
      · simp only [Has, AsyncMixed.Has, lockOf, containers, upd_other _ _ hij] at hq hn
        exact hn hq
  | lock c =>
    simp only [step] at h
    split at h
    case isFalse => cases h
    simp only [Option.map_eq_some_iff] at h
    obtain ⟨l, hl, rfl⟩ := h
    cases r with
    | inl i => exact absurd hq hn
    | inr k => exact hlock hl hq hn
  | fork c =>
    obtain ⟨_, rfl⟩ := forked h
    exfalso; apply hn; cases r <;> exact hq
  | ret =>
    obtain ⟨u, _, _, _, rfl⟩ := returned h
    exfalso; apply hn; cases r <;> exact hq
  | act f b =>
    obtain ⟨s₁, h1, h2, _⟩ := states hi.pool h
    simp only [Has, AsyncMixed.Has, h2] at hq
    cases f with
    | lazy j p =>
      obtain ⟨b', o, h3, rfl, h4⟩ := fstep_lazy h1
      cases r with
      | inr k => exact absurd hq hn
      | inl i =>
        by_cases hij : i = j
        · subst hij
          simp only [Has, AsyncMixed.Has, lockOf, containers, put, upd_same] at hq hn
          obtain ⟨rfl, h5, h6⟩ := hlazy h3 hq hn
          exact h4 h5 h6
        · simp only [Has, AsyncMixed.Has, lockOf, containers, put, upd_other _ _ hij] at hq hn
          exact absurd hq hn
    | lock p =>
      obtain ⟨b', l, h3, rfl⟩ := fstep_lock h1
      cases r with
      | inl i => exact absurd hq hn
      | inr k => exact hlock h3 hq hn

/-- How queues change while `p` goes on waiting: somebody else comes at the end, somebody else leaves, or both. -/
theorem step_queue {t : Nat} {a : Act F L V W E} (hi : Inv fal cl eqv dep v₀ w₀ s) (h : step lazyCode lockCode eqv s t a = some s')
    {r : F ⊕ L} {p : Nat} (hw : wants (AsyncMixed.look (containers s) (frame r p)) = some r)
    (hsame : AsyncMixed.look (containers s') (frame r p) = AsyncMixed.look (containers s) (frame r p)) :
    waiting (containers s') r = waiting (containers s) r ∨ ∃ z, z ≠ p ∧
      (waiting (containers s') r = waiting (containers s) r ++ [z] ∨
       waiting (containers s') r = (waiting (containers s) r).erase z ∨
       waiting (containers s') r = (waiting (containers s) r).erase z ++ [z]) := by
  have hlock : ∀ {k q b' l}, AsyncLockCalls.step lockCode eqv s.lk q b' = some l →
      AsyncLocks.wants (s.lk.c.pc p) = some k → l.c.pc p = s.lk.c.pc p →
      l.c.queue k = s.lk.c.queue k ∨ ∃ z, z ≠ p ∧ (l.c.queue k = s.lk.c.queue k ++ [z] ∨
        l.c.queue k = (s.lk.c.queue k).erase z ∨ l.c.queue k = (s.lk.c.queue k).erase z ++ [z]) := by
    intro k q b' l hl h1 h2
    rcases lock_inner hl with h3 | ⟨b, h3⟩
    · rw [h3]; exact .inl rfl
    · have hqp : q ≠ p := by rintro rfl; exact Props.AsyncLocks.waiting_moves h1 h3 h2
      rcases Props.AsyncLocks.queue_step h3 k with h4 | h4 | h4 | h4
      · exact .inl h4
      · exact .inr ⟨q, hqp, .inl h4⟩
      · exact .inr ⟨q, hqp, .inr (.inl h4)⟩
      · exact .inr ⟨q, hqp, .inr (.inr h4)⟩
  have wl : ∀ {k}, r = .inr k → AsyncLocks.wants (s.lk.c.pc p) = some k := by
    rintro k rfl
    simp only [frame, AsyncMixed.look, containers, wants, Option.map_eq_some_iff] at hw
    obtain ⟨k', h1, h2⟩ := hw
    cases h2; exact h1
  cases a with
  | call j k v boom =>
    simp only [step] at h
    split at h
    case isFalse => cases h
    simp only [Option.map_eq_some_iff] at h
    obtain ⟨o, ho, rfl⟩ := h
    exact .inl (by cases r <;> rfl)
  | lock c =>
    simp only [step] at h
    split at h
    case isFalse => cases h
    simp only [Option.map_eq_some_iff] at h
    obtain ⟨l, hl, rfl⟩ := h
    cases r with
    | inl i => exact .inl rfl
    | inr k =>
      simp only [frame, AsyncMixed.look, containers, AsyncMixed.View.lock.injEq] at hsame
      exact hlock hl (wl rfl) hsame.1
  | fork c =>
    obtain ⟨_, rfl⟩ := forked h
    left; cases r <;> rfl
  | ret =>
    obtain ⟨u, _, _, _, rfl⟩ := returned h
    left; cases r <;> rfl
  | act f b =>
    obtain ⟨s₁, h1, hobj, hlk, hqu⟩ := (acted hi.pool h).on
    cases f with
    | lazy j q =>
      obtain ⟨b', o, h3, rfl, h4⟩ := fstep_lazy h1
      cases r with
      | inr k => left; simp only [waiting, containers, hlk]; rfl
      | inl i =>
        by_cases hij : i = j
        · subst hij
          simp only [waiting, containers, hqu, put, upd_same, requeue]
          by_cases hqp : q = p
          · subst hqp
            simp only [frame, AsyncMixed.look, containers, hobj, put, upd_same, AsyncMixed.View.lazy.injEq, true_and] at hsame
            have hqd : AsyncMulti.queued ((s.obj i).c.pc q) = true := by
              simp only [frame, AsyncMixed.look, containers, wants] at hw
              split at hw
              · assumption
              · cases hw
            rw [hsame, hqd]; exact .inl rfl
          · split
            · split
              · exact .inl rfl
              · exact .inr ⟨q, hqp, .inl rfl⟩
            · exact .inr ⟨q, hqp, .inr (.inl rfl)⟩
        · left; simp only [waiting, containers, hqu, put, upd_other _ _ hij]
    | lock q =>
      obtain ⟨b', l, h3, rfl⟩ := fstep_lock h1
      cases r with
      | inl i => left; simp only [waiting, containers, hqu]
      | inr k =>
        simp only [frame, AsyncMixed.look, containers, hlk, AsyncMixed.View.lock.injEq] at hsame
        simp only [waiting, containers, hlk]
        exact hlock h3 (wl rfl) hsame.1

/-- Without an order everything is allowed. -/
theorem allowed_any (s : St F L V W E) (t : Nat) (a : Act F L V W E) : Allowed (fun _ _ => True) s t a := by
  cases a with
  | call j k v boom => cases k <;> simp [Allowed, Precedes]
  | lock c => cases c <;> simp [Allowed, Precedes]
  | _ => simp [Allowed]

theorem reach_any (h : Reach lazyCode lockCode eqv dep v₀ w₀ s) : Reach lazyCode lockCode eqv (fun _ _ => True) v₀ w₀ s := by
  induction h with
  | init => exact .init
  | step _ _ hs ih => exact .step ih (allowed_any _ _ _) hs

/-! ## First come, first served -/

/-- From `s` to `s'`, by any steps, while the container called by frame `f` stands as in `w`. -/
inductive Staying (lazyCode : F → Kind → Option Body) (lockCode : L → Kind → Option Body) (eqv : Option W → Option W → Bool)
    (f : Fr F) (w : AsyncMixed.View F L V (Option W) E) : St F L V W E → St F L V W E → Prop where
  | refl {s : St F L V W E} : AsyncMixed.look (containers s) f = w → Staying lazyCode lockCode eqv f w s s
  | step {s m q : St F L V W E} {u : Nat} {a : Act F L V W E} : Staying lazyCode lockCode eqv f w s m →
      step lazyCode lockCode eqv m u a = some q → AsyncMixed.look (containers q) f = w → Staying lazyCode lockCode eqv f w s q

/-- While the helper with number `p` awaits the lock of field `r`, no helper gets a guard of it which neither had one nor
awaited one when `p` came. -/
theorem C103_no_overtaking (hx : Props.Tasks.Fields x y lazyCode lockCode) {r : F ⊕ L} {p q : Nat}
    {w : AsyncMixed.View F L V (Option W) E} (h : Reach lazyCode lockCode eqv dep v₀ w₀ s) (hw : wants w = some r)
    (hq : ¬ (q ∈ (lockOf (containers s) r).shared ∨ (lockOf (containers s) r).wr = some q))
    (hn : wants (AsyncMixed.look (containers s) (frame r q)) ≠ some r)
    (hst : Staying lazyCode lockCode eqv (frame r p) w s s') :
    ¬ (q ∈ (lockOf (containers s') r).shared ∨ (lockOf (containers s') r).wr = some q) := by
  have hg := Props.Tasks.good (W := W) hx
  have key : ∀ {m : St F L V W E}, Staying lazyCode lockCode eqv (frame r p) w s m →
      Inv (fun i => (x i).isFallible) (fun i => AsyncCalls.cloning (x i)) eqv (fun _ _ => True) v₀ w₀ m ∧ ¬ Has m r q ∧
      AsyncMixed.look (containers m) (frame r p) = w ∧
      ∃ pre post, waiting (containers m) r = pre ++ p :: post ∧ q ∉ pre ∧ q ≠ p := by
    intro m hm
    induction hm with
    | @refl hp =>
      have hi := inv_reach hg (reach_any h)
      have hpool : AsyncMixed.Pool eqv v₀ w₀ (containers s) := by
        have := (proj_inv hi).pool
        exact ⟨this.obj, this.lk, this.waits, this.once, this.hold, this.short⟩
      have hm : p ∈ waiting (containers s) r := by
        cases r with
        | inl i => exact (AsyncMixed.wants_iff hpool).1 (by rw [hp]; exact hw)
        | inr k => exact (AsyncMixed.wants_iff hpool).1 (by rw [hp]; exact hw)
      obtain ⟨pre, post, hpp⟩ := List.append_of_mem hm
      refine ⟨hi, hq, hp, pre, post, hpp, ?_, ?_⟩
      · intro hm
        exact hn ((AsyncMixed.wants_iff hpool).2 (by rw [hpp]; exact List.mem_append_left _ hm))
      · rintro rfl
        exact hn (by rw [hp]; exact hw)
    | @step m m' v a _ hs hp ih =>
      obtain ⟨hi, h1, h2, pre, post, h3, h4, h5⟩ := ih
      have hhead : (waiting (containers m) r).head? ≠ some q := by
        rw [h3]
        cases pre with
        | nil => simpa using fun h => h5 h.symm
        | cons z _ => simp only [List.cons_append, List.head?_cons]; intro h; cases h; exact h4 (.head _)
      refine ⟨inv_step hg hi (allowed_any m v a) hs, fun hq' => hhead (step_gain hi hs hq' h1), hp, ?_⟩
      have herase : ∀ z, z ≠ p → ∃ pre' post', (waiting (containers m) r).erase z = pre' ++ p :: post' ∧ q ∉ pre' := by
        intro z hz
        rw [h3, List.erase_append]
        split
        · exact ⟨_, _, rfl, fun h => h4 (List.mem_of_mem_erase h)⟩
        · exact ⟨pre, post.erase z, by rw [List.erase_cons_tail (by simpa using fun h => hz h.symm)], h4⟩
      rcases step_queue hi hs (by rw [h2]; exact hw) (by rw [hp, h2]) with h6 | ⟨z, hz, h6 | h6 | h6⟩
      · exact ⟨pre, post, by rw [h6, h3], h4, h5⟩
      · exact ⟨pre, post ++ [z], by rw [h6, h3]; simp, h4, h5⟩
      · obtain ⟨pre', post', h7, h8⟩ := herase z hz
        exact ⟨pre', post', by rw [h6, h7], h8, h5⟩
      · obtain ⟨pre', post', h7, h8⟩ := herase z hz
        exact ⟨pre', post' ++ [z], by rw [h6, h7]; simp, h8, h5⟩
  exact (key hst).2.1

set_option maxRecDepth 4096 in
-- the setter with number 4 waits for the lazy field; then task 3 calls the reader, with number 6, which comes to wait behind it
example : ∃ s s' : St Bool Unit Nat Nat Nat, ∃ w : AsyncMixed.View Bool Unit Nat (Option Nat) Nat,
    Reach (fun _ => AsyncCalls.fullCode) (fun _ => AsyncLockCalls.fldCode 0) AsyncLockCalls.eqo
      (fun a b => Mixed.layered a b = true) Props.Tasks.before (fun _ => some 1) s ∧ wants w = some (.inl true) ∧
    ¬ (6 ∈ (lockOf (containers s) (.inl true)).shared ∨ (lockOf (containers s) (.inl true)).wr = some 6) ∧
    wants (AsyncMixed.look (containers s) (frame (L := Unit) (.inl true) 6)) ≠ some (.inl true) ∧
    Staying (fun _ => AsyncCalls.fullCode) (fun _ => AsyncLockCalls.fldCode 0) AsyncLockCalls.eqo (frame (L := Unit) (.inl true) 4) w s s' ∧
    s.queue true = [4, 5] ∧ s'.queue true = [4, 5, 6] := by
  have h : ∃ x, Props.Tasks.runFields 2 Mixed.layered Props.Tasks.before (fun _ => some 1) Props.Tasks.opening = some x ∧
      wants (AsyncMixed.look (containers x.1) (frame (L := Unit) (.inl true) 4)) = some (.inl true) ∧
      ¬ (6 ∈ (lockOf (containers x.1) (.inl true)).shared ∨ (lockOf (containers x.1) (.inl true)).wr = some 6) ∧
      wants (AsyncMixed.look (containers x.1) (frame (L := Unit) (.inl true) 6)) ≠ some (.inl true) ∧
      x.1.queue true = [4, 5] ∧
      ∃ s₁, step (fun _ => AsyncCalls.fullCode) (fun _ => AsyncLockCalls.fldCode 0) AsyncLockCalls.eqo x.1 3
        (.call true .reader 0 false) = some s₁ ∧
        AsyncMixed.look (containers s₁) (frame (L := Unit) (.inl true) 4) = AsyncMixed.look (containers x.1) (frame (L := Unit) (.inl true) 4) ∧
      ∃ s₂, step (fun _ => AsyncCalls.fullCode) (fun _ => AsyncLockCalls.fldCode 0) AsyncLockCalls.eqo s₁ 3
        (.act (.lazy true 6) .go) = some s₂ ∧
        AsyncMixed.look (containers s₂) (frame (L := Unit) (.inl true) 4) = AsyncMixed.look (containers x.1) (frame (L := Unit) (.inl true) 4) ∧
      ∃ s₃, step (fun _ => AsyncCalls.fullCode) (fun _ => AsyncLockCalls.fldCode 0) AsyncLockCalls.eqo s₂ 3
        (.act (.lazy true 6) .go) = some s₃ ∧
        AsyncMixed.look (containers s₃) (frame (L := Unit) (.inl true) 4) = AsyncMixed.look (containers x.1) (frame (L := Unit) (.inl true) 4) ∧
        s₃.queue true = [4, 5, 6] :=
    ⟨_, rfl, rfl, by decide, by decide, rfl, _, rfl, rfl, _, rfl, rfl, _, rfl, rfl, rfl⟩
  obtain ⟨⟨s, g⟩, h1, h2, h3, h4, h5, s₁, a1, b1, s₂, a2, b2, s₃, a3, b3, h6⟩ := h
  exact ⟨s, s₃, _, Props.Tasks.C103_recorded.2 ⟨g, Props.Tasks.trace_runRec Props.Tasks.fields .init h1⟩, h2, h3, h4,
    .step (.step (.step (.refl rfl) a1 b1) a2 b2) a3 b3, h5, h6⟩

end Verif.Props.Overtaking
