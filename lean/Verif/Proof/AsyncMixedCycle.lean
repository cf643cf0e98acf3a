import Verif.Proof.AsyncMixed
/-!
# Orders with a cycle let the tasks of an async struct deadlock (helper lemmas)

Task `a` takes an exclusive guard of the `a`-th container of the cycle; then each asks for the next.
-/

namespace Verif.Proof.AsyncMixed
open Verif.Spec Verif.Model Verif.Model.AsyncMixed
open Verif.Model.Async (ALock)

set_option linter.unusedSectionVars false
set_option linter.unusedSimpArgs false
variable {F L V W E : Type} [DecidableEq F] [DecidableEq L] {eqv : W → W → Bool} {dep : F ⊕ L → F ⊕ L → Prop}
  {v₀ : F → Option V} {w₀ : L → W} {s s' : St F L V W E}

theorem upd_eq_self {A B : Type} [DecidableEq A] (f : A → B) (a : A) : upd f a (f a) = f := by
  funext b
  simp only [upd]
  split
  · rename_i h; rw [h]
  · rfl

theorem upd_upd {A B : Type} [DecidableEq A] (f : A → B) (a : A) (x y : B) : upd (upd f a x) a y = upd f a y := by
  funext b
  simp only [upd]
  split <;> rfl

/-- A writing guard of a lazy container nobody uses. -/
theorem lazy_writer {o : Async.St V E} {p : Nat} (hp : o.pc p = .idle) (hl : o.lk = .free) :
    ∃ o₁ o₂ o₃, Async.invoke o p .writer = some o₁ ∧ AsyncMulti.queued (o₁.pc p) = true ∧ Async.go o₁ p = some o₂ ∧
      AsyncMulti.queued (o₂.pc p) = false ∧ AsyncMulti.gone (o₂.pc p) = false ∧ AsyncMulti.building (o₂.pc p) = false ∧
      Async.go o₂ p = some o₃ ∧ (∃ g, o₃.pc p = .gWrite g) ∧ o₃.lk.wr = some p ∧ ∀ q, q ≠ p → o₃.pc q = o.pc q := by
  refine ⟨o.begin p .writer (.xStart .writer), _, _, by simp [Async.invoke, hp], by simp [Async.St.begin, AsyncMulti.queued],
    (by simp only [Async.go, Async.St.begin, upd_same, hl, ALock.tryWrite, ALock.free, and_self, if_true, Option.map_some]; rfl),
    by simp [Async.St.to, AsyncMulti.queued], by simp [Async.St.to, AsyncMulti.gone],
    by simp [Async.St.to, AsyncMulti.building],
    (by simp only [Async.go, Async.St.to, upd_same]; rfl), ⟨_, by simp [Async.St.ret]; rfl⟩, ?_, ?_⟩
  · simp [Async.St.ret, Async.St.lin, Async.St.ev, Async.St.to]
  · intro q hq
    simp [Async.St.ret, Async.St.lin, Async.St.ev, Async.St.to, Async.St.begin, upd, hq]

/-- The same for a lock-protected container. -/
theorem lock_write {l : AsyncLocks.St L W} {p : Nat} {k : L} (hp : l.pc p = .idle) (hh : l.held p = [])
    (hl : l.lock k = .free) (hq : l.queue k = []) :
    ∃ l₁ l₂, AsyncLocks.invoke l p (.write k) = some l₁ ∧ l₁.pc p = .wWait k ∧ AsyncLocks.go eqv l₁ p = some l₂ ∧
      l₂.pc p = .idle ∧ l₂.held p = [(k, true)] ∧ (l₂.lock k).wr = some p ∧ (∀ k', l₂.queue k' = l.queue k') ∧
      (∀ k', k' ≠ k → l₂.lock k' = l.lock k') ∧ ∀ q, q ≠ p → l₂.pc q = l.pc q ∧ l₂.held q = l.held q := by
  let l₁ := (l.enter k p).begin p (.write k) (.wWait k)
  let l₂ := (((l₁.setLock k ⟨[], some p⟩).leave k p).keep p (k, true)).lin p (.write k) .unit |>.ret p .unit
  have hgo : AsyncLocks.go eqv l₁ p = some l₂ := by
    simp [AsyncLocks.go, l₁, l₂, AsyncLocks.St.begin, AsyncLocks.St.enter, AsyncLocks.St.exclusive, hq, hl, ALock.tryWrite,
      ALock.free, AsyncLocks.St.leave, AsyncLocks.St.setLock, AsyncLocks.St.keep, AsyncLocks.St.lin, AsyncLocks.St.ret,
      AsyncLocks.St.me]
  refine ⟨l₁, l₂, by simp [AsyncLocks.invoke, hp, l₁], by simp [l₁, AsyncLocks.St.begin], hgo, ?_, ?_, ?_, ?_, ?_, ?_⟩
  · simp [l₂, AsyncLocks.St.ret]
  · simp [l₂, l₁, AsyncLocks.St.ret, AsyncLocks.St.lin, AsyncLocks.St.keep, AsyncLocks.St.leave, AsyncLocks.St.setLock,
      AsyncLocks.St.begin, AsyncLocks.St.enter, hh]
  · simp [l₂, l₁, AsyncLocks.St.ret, AsyncLocks.St.lin, AsyncLocks.St.keep, AsyncLocks.St.leave, AsyncLocks.St.setLock]
  · intro k'
    simp only [l₂, l₁, AsyncLocks.St.ret, AsyncLocks.St.lin, AsyncLocks.St.keep, AsyncLocks.St.leave, AsyncLocks.St.setLock,
      AsyncLocks.St.begin, AsyncLocks.St.enter, upd]
    split <;> simp [*]
  · intro k' hk
    simp [l₂, l₁, AsyncLocks.St.ret, AsyncLocks.St.lin, AsyncLocks.St.keep, AsyncLocks.St.leave, AsyncLocks.St.setLock,
      AsyncLocks.St.begin, AsyncLocks.St.enter, upd, hk]
  · intro q hq
    simp [l₂, l₁, AsyncLocks.St.ret, AsyncLocks.St.lin, AsyncLocks.St.keep, AsyncLocks.St.leave, AsyncLocks.St.setLock,
      AsyncLocks.St.begin, AsyncLocks.St.enter, upd, hq]

/-- Process `p` keeps an exclusive guard of `r`. -/
def Keeps (s : St F L V W E) (p : Nat) (r : F ⊕ L) : Prop :=
  atUser (look s (frame r p)) = true ∧ hand (look s (frame r p)) = [r] ∧ (lockOf s r).wr = some p

theorem awaits_self (h : ∀ t, s.par t = none) {u t : Nat} (hw : Awaits s u t) : u = t := by
  rcases Relation.ReflTransGen.cases_head hw with h' | ⟨c, h', _⟩
  · exact h'
  · rw [h] at h'; cases h'

/-- A task which has nothing takes an exclusive guard of a container nobody uses. -/
theorem take (h : Reach eqv dep v₀ w₀ s) (hpar : ∀ t, s.par t = none) {t : Nat} (hst : s.stack t = []) (hk : s.kids t = [])
    (r : F ⊕ L) (hw : waiting s r = []) (hl : lockOf s r = .free) :
    ∃ s' : St F L V W E, Reach eqv dep v₀ w₀ s' ∧ s'.next = s.next + 1 ∧ s'.kids = s.kids ∧ s'.par = s.par ∧
      s'.stack = upd s.stack t [frame r s.next] ∧ Keeps s' s.next r ∧ (∀ g, g ≠ frame r s.next → look s' g = look s g) ∧
      (∀ r', waiting s' r' = waiting s r') ∧ ∀ r', r' ≠ r → lockOf s' r' = lockOf s r' := by
  have hi := inv_reach h
  have hturn : turn s t = true := turn_iff.2 ⟨by simp [atRest, hst], hk⟩
  have hpre : ∀ r', Precedes dep s t r' := by
    intro r' u hu g hg
    rw [awaits_self hpar hu, hst] at hg; cases hg
  cases r with
  | inl i =>
    obtain ⟨o₁, o₂, o₃, e1, e2, e3, e4, e5, e6, e7, ⟨g, e8⟩, e9, e10⟩ := lazy_writer (fresh_lazy hi i) hl
    have hw' : s.queue i = [] := hw
    let s₁ : St F L V W E := { s with
      obj := upd s.obj i o₁, queue := upd s.queue i [s.next], stack := upd s.stack t [.lazy i s.next], next := s.next + 1 }
    let s₂ : St F L V W E := { s₁ with obj := upd s₁.obj i o₂, queue := upd s₁.queue i [] }
    let s₃ : St F L V W E := { s₂ with obj := upd s₂.obj i o₃ }
    have r1 : Reach eqv dep v₀ w₀ s₁ := .step h (t := t) (a := .call i .writer) (hpre _) (by
      simp [step, hturn, e1, e2, hw', hst, s₁])
    have r2 : Reach eqv dep v₀ w₀ s₂ := by
      refine .step r1 (t := t) (a := .act (.lazy i s.next) .go) trivial ?_
      have h1 : fstep eqv s₁ (.lazy i s.next) .go = some s₂ := by
        simp [fstep, s₁, s₂, e3, put, e4]
      have h2 : alone s₁ t (.lazy i s.next) = true := alone_iff.2 ⟨by simp [s₁], hk⟩
      have h3 : may s₁ t (.lazy i s.next) = true := by
        have : building (look s₁ (.lazy i s.next)) = false := by
          simp only [look, s₁, upd_same, building]
          revert e2; cases o₁.pc s.next <;> simp [AsyncMulti.queued, AsyncMulti.building]
        simp [may, this]
      simp only [step]
      rw [if_pos ⟨by simp [s₁], h2, h3⟩, h1]
      have h4 : gone (look s₂ (.lazy i s.next)) = false := by simp [look, s₂, gone, e5]
      simp only [Option.map_some, h4, Bool.false_eq_true, if_false, upd_eq_self, Option.some.injEq]
    have r3 : Reach eqv dep v₀ w₀ s₃ := by
      refine .step r2 (t := t) (a := .act (.lazy i s.next) .go) trivial ?_
      have h1 : fstep eqv s₂ (.lazy i s.next) .go = some s₃ := by
        have : AsyncMulti.queued (o₃.pc s.next) = false := by rw [e8]; rfl
        simp [fstep, s₂, s₃, e4, e7, put, this, upd_upd]
      have h2 : alone s₂ t (.lazy i s.next) = true := alone_iff.2 ⟨by simp [s₂, s₁], hk⟩
      have h3 : may s₂ t (.lazy i s.next) = true := by simp [may, look, s₂, building, e6]
      simp only [step]
      rw [if_pos ⟨by simp [s₂, s₁], h2, h3⟩, h1]
      have h4 : gone (look s₃ (.lazy i s.next)) = false := by simp [look, s₃, gone, e8, AsyncMulti.gone]
      simp only [Option.map_some, h4, Bool.false_eq_true, if_false, upd_eq_self, Option.some.injEq]
    refine ⟨s₃, r3, rfl, rfl, rfl, rfl, ⟨?_, ?_, ?_⟩, ?_, ?_, ?_⟩
    · simp [look, frame, s₃, e8, atUser]
    · simp [look, frame, s₃, e8, hand, AsyncMulti.queued]
    · simp [lockOf, s₃, e9]
    · intro f hf
      cases f with
      | lock q => rfl
      | lazy j q =>
        by_cases hj : j = i
        · subst hj
          have hq : q ≠ s.next := by rintro rfl; exact hf rfl
          simp [look, s₃, e10 q hq]
        · simp [look, s₃, s₂, s₁, upd_other _ _ hj]
    · intro r'
      cases r' with
      | inr k => rfl
      | inl j =>
        by_cases hj : j = i
        · subst hj; simp [waiting, s₃, s₂, hw']
        · simp [waiting, s₃, s₂, s₁, upd_other _ _ hj]
    · intro r' hr
      cases r' with
      | inr k => rfl
      | inl j =>
        have hj : j ≠ i := by rintro rfl; exact hr rfl
        simp [lockOf, s₃, s₂, s₁, upd_other _ _ hj]
  | inr k =>
    obtain ⟨l₁, l₂, e1, e2, e3, e4, e5, e6, e7, e8, e9⟩ :=
      lock_write (eqv := eqv) (fresh_lock hi).1 (fresh_lock hi).2 (k := k) hl hw
    let s₁ : St F L V W E := { s with lk := l₁, stack := upd s.stack t [.lock s.next], next := s.next + 1 }
    let s₂ : St F L V W E := { s₁ with lk := l₂ }
    have r1 : Reach eqv dep v₀ w₀ s₁ := .step h (t := t) (a := .lock (.write k)) ⟨fun _ _ => hpre _, by simp⟩ (by
      simp [step, hturn, e1, hst, s₁])
    have r2 : Reach eqv dep v₀ w₀ s₂ := by
      refine .step r1 (t := t) (a := .act (.lock s.next) .go) trivial ?_
      have h1 : fstep eqv s₁ (.lock s.next) .go = some s₂ := by simp [fstep, s₁, s₂, e3]
      have h2 : alone s₁ t (.lock s.next) = true := alone_iff.2 ⟨by simp [s₁], hk⟩
      have h3 : may s₁ t (.lock s.next) = true := by simp [may, look, building]
      simp only [step]
      rw [if_pos ⟨by simp [s₁], h2, h3⟩, h1]
      have h4 : gone (look s₂ (.lock s.next)) = false := by simp [look, s₂, gone, e5]
      simp only [Option.map_some, h4, Bool.false_eq_true, if_false, upd_eq_self, Option.some.injEq]
    refine ⟨s₂, r2, rfl, rfl, rfl, rfl, ⟨?_, ?_, ?_⟩, ?_, ?_, ?_⟩
    · simp [look, frame, s₂, e4, e5, atUser]
    · simp [look, frame, s₂, e4, e5, hand, during]
    · simp [lockOf, s₂, e6]
    · intro f hf
      cases f with
      | lazy j q => rfl
      | lock q =>
        have hq : q ≠ s.next := by rintro rfl; exact hf rfl
        simp [look, s₂, (e9 q hq).1, (e9 q hq).2]
    · intro r'
      cases r' with
      | inl i => rfl
      | inr k' => simp [waiting, s₂, e7]
    · intro r' hr
      cases r' with
      | inl i => rfl
      | inr k' =>
        have hk' : k' ≠ k := by rintro rfl; exact hr rfl
        simp [lockOf, s₂, e8 k' hk']

/-- A task which keeps guards asks for another. -/
theorem ask (h : Reach eqv dep v₀ w₀ s) {t : Nat} (hr : atRest s t = true) (hk : s.kids t = [])
    (r : F ⊕ L) (hpre : Precedes dep s t r) :
    ∃ s' : St F L V W E, Reach eqv dep v₀ w₀ s' ∧ s'.next = s.next + 1 ∧ s'.kids = s.kids ∧ s'.par = s.par ∧
      s'.stack = upd s.stack t (frame r s.next :: s.stack t) ∧ wants (look s' (frame r s.next)) = some r ∧
      (∀ g, g ≠ frame r s.next → look s' g = look s g) ∧ ∀ r', lockOf s' r' = lockOf s r' := by
  have hi := inv_reach h
  have hturn : turn s t = true := turn_iff.2 ⟨hr, hk⟩
  cases r with
  | inl i =>
    have hp := fresh_lazy hi i
    have e1 : Async.invoke (s.obj i) s.next .writer = some ((s.obj i).begin s.next .writer (.xStart .writer)) := by
      simp [Async.invoke, hp]
    obtain ⟨o, ho⟩ : ∃ o, o = (s.obj i).begin s.next .writer (.xStart .writer) := ⟨_, rfl⟩
    rw [← ho] at e1
    have e2 : AsyncMulti.queued (o.pc s.next) = true := by simp [ho, Async.St.begin, AsyncMulti.queued]
    refine ⟨{ s with
        obj := upd s.obj i o, queue := upd s.queue i (s.queue i ++ [s.next])
        stack := upd s.stack t (.lazy i s.next :: s.stack t), next := s.next + 1 },
      .step h (t := t) (a := .call i .writer) hpre (by simp only [step, hturn, if_true, e1, e2, Option.map_some]),
      rfl, rfl, rfl, rfl, ?_, ?_, ?_⟩
    · simp [look, frame, wants, e2]
    · intro f hf
      cases f with
      | lock q => rfl
      | lazy j q =>
        by_cases hj : j = i
        · subst hj
          have hq : q ≠ s.next := by rintro rfl; exact hf rfl
          simp [look, ho, Async.St.begin, upd_other _ _ hq]
        · simp [look, upd_other _ _ hj]
    · intro r'
      cases r' with
      | inr k => rfl
      | inl j =>
        by_cases hj : j = i
        · subst hj; simp [lockOf, ho, Async.St.begin]
        · simp [lockOf, upd_other _ _ hj]
  | inr k =>
    have hp := fresh_lock hi
    have e1 : AsyncLocks.invoke s.lk s.next (.write k) = some ((s.lk.enter k s.next).begin s.next (.write k) (.wWait k)) := by
      simp [AsyncLocks.invoke, hp.1]
    refine ⟨{ s with
        lk := (s.lk.enter k s.next).begin s.next (.write k) (.wWait k)
        stack := upd s.stack t (.lock s.next :: s.stack t), next := s.next + 1 },
      .step h (t := t) (a := .lock (.write k)) ⟨?_, by simp⟩
      (by simp only [step, hturn, if_true, e1, Option.map_some]), rfl, rfl, rfl, rfl, ?_, ?_, ?_⟩
    · intro k' hk'
      simp only [opTargets, List.mem_singleton] at hk'
      subst hk'; exact hpre
    · simp [look, frame, wants, AsyncLocks.St.begin, AsyncLocks.wants]
    · intro f hf
      cases f with
      | lazy j q => rfl
      | lock q =>
        have hq : q ≠ s.next := by rintro rfl; exact hf rfl
        simp [look, AsyncLocks.St.begin, AsyncLocks.St.enter, upd_other _ _ hq]
    · intro r'
      cases r' with
      | inl i => rfl
      | inr k' => simp [lockOf, AsyncLocks.St.begin, AsyncLocks.St.enter]

/-- Who waits for a container with an exclusive owner cannot move. -/
theorem blocked {r : F ⊕ L} {p q : Nat} (h : wants (look s (frame r p)) = some r) (hq : (lockOf s r).wr = some q) :
    (fstep eqv s (frame r p) .go).isNone = true := by
  cases r with
  | inl i =>
    simp only [lockOf] at hq
    simp only [frame, look, wants] at h ⊢
    split at h
    · rename_i hw
      simp only [fstep]
      split
      · simp only [Option.isNone_map, Async.go]
        revert hw
        cases (s.obj i).pc p <;> simp [AsyncMulti.queued, ALock.tryWrite, ALock.tryShared, hq]
      · rfl
    · cases h
  | inr k =>
    simp only [lockOf] at hq
    simp only [frame, look, wants, Option.map_eq_some_iff, Sum.inr.injEq, exists_eq_right] at h
    simp only [frame, fstep, Option.isNone_map, AsyncLocks.go]
    revert h
    cases s.lk.pc p <;> simp [AsyncLocks.wants] <;> intro h <;> subst h <;>
      simp [AsyncLocks.St.shared, AsyncLocks.St.exclusive, ALock.tryWrite, ALock.tryShared, hq]

theorem frame_inj {r r' : F ⊕ L} {p q : Nat} (h : frame r p = frame r' q) : p = q := by
  cases r <;> cases r' <;> simp_all [frame]

/-- After the first round: the tasks below `m` have their guards, nobody waits. -/
theorem phase1 {c : Nat → F ⊕ L} {n : Nat} (hin : ∀ a b, a < n → b < n → c a = c b → a = b) (m : Nat) (hm : m ≤ n) :
    ∃ s : St F L V W E, Reach eqv dep v₀ w₀ s ∧ s.next = m ∧ (∀ t, s.kids t = []) ∧ (∀ t, s.par t = none) ∧
      (∀ a, a < m → s.stack a = [frame (c a) a] ∧ Keeps s a (c a)) ∧ (∀ a, m ≤ a → s.stack a = []) ∧
      (∀ r, waiting s r = []) ∧ ∀ r, (∀ a, a < m → r ≠ c a) → lockOf s r = .free := by
  induction m with
  | zero =>
    refine ⟨init v₀ w₀, .init, rfl, fun _ => rfl, fun _ => rfl, by simp, fun _ _ => rfl, ?_, ?_⟩
    · intro r; cases r <;> rfl
    · intro r _; cases r <;> rfl
  | succ m ih =>
    obtain ⟨s, h1, h2, h3, h4, h5, h6, h7, h8⟩ := ih (by omega)
    obtain ⟨s', e1, e2, e3, e4, e5, e6, e7, e8, e9⟩ := take h1 h4 (h6 m (Nat.le_refl _)) (h3 m) (c m) (h7 _)
      (h8 _ fun a ha he => by have := hin m a (by omega) (by omega) he; omega)
    rw [h2] at e2 e5 e6 e7
    refine ⟨s', e1, e2, by rw [e3]; exact h3, by rw [e4]; exact h4, ?_, ?_, fun r => by rw [e8]; exact h7 r, ?_⟩
    · intro a ha
      by_cases he : a = m
      · subst he; exact ⟨by rw [e5, upd_same], e6⟩
      · obtain ⟨k1, k2, k3, k4⟩ := h5 a (by omega)
        have hne : c a ≠ c m := fun h => he (hin a m (by omega) (by omega) h)
        have hl := e7 (frame (c a) a) fun h => he (frame_inj h)
        refine ⟨by rw [e5, upd_other _ _ he]; exact k1, ?_⟩
        unfold Keeps
        rw [hl, e9 _ hne]
        exact ⟨k2, k3, k4⟩
    · intro a ha
      rw [e5, upd_other _ _ (by omega)]; exact h6 a (by omega)
    · intro r hr
      rw [e9 r (hr m (by omega))]
      exact h8 r fun a ha => hr a (by omega)

/-- After the second: the tasks below `m` wait for the next one's container. -/
theorem phase2 {c : Nat → F ⊕ L} {n : Nat} (hd : ∀ a, a < n → dep (c a) (c (a + 1)))
    (hin : ∀ a b, a < n → b < n → c a = c b → a = b) (m : Nat) (hm : m ≤ n) :
    ∃ s : St F L V W E, Reach eqv dep v₀ w₀ s ∧ s.next = n + m ∧ (∀ t, s.kids t = []) ∧ (∀ t, s.par t = none) ∧
      (∀ a, a < m → s.stack a = [frame (c (a + 1)) (n + a), frame (c a) a] ∧
        wants (look s (frame (c (a + 1)) (n + a))) = some (c (a + 1))) ∧
      (∀ a, m ≤ a → a < n → s.stack a = [frame (c a) a]) ∧ (∀ a, a < n → Keeps s a (c a)) ∧ ∀ a, n ≤ a → s.stack a = [] := by
  induction m with
  | zero =>
    obtain ⟨s, h1, h2, h3, h4, h5, h6, _, _⟩ := phase1 (eqv := eqv) (dep := dep) (v₀ := v₀) (w₀ := w₀) hin n (Nat.le_refl _)
    exact ⟨s, h1, h2, h3, h4, by simp, fun a _ ha => (h5 a ha).1, fun a ha => (h5 a ha).2, h6⟩
  | succ m ih =>
    obtain ⟨s, h1, h2, h3, h4, h5, h6, h7, h8⟩ := ih (by omega)
    have hst := h6 m (Nat.le_refl _) (by omega)
    have hkp := h7 m (by omega)
    obtain ⟨s', e1, e2, e3, e4, e5, e6, e7, e8⟩ := ask h1 (t := m) (by simp [atRest, hst, hkp.1]) (h3 m) (c (m + 1)) (by
      intro u hu g hg x hx
      rw [awaits_self h4 hu, hst, List.mem_singleton] at hg
      subst hg
      rw [hkp.2.1, List.mem_singleton] at hx
      subst hx
      exact hd m (by omega))
    rw [h2] at e2 e5 e6 e7
    refine ⟨s', e1, e2, by rw [e3]; exact h3, by rw [e4]; exact h4, ?_, ?_, ?_, ?_⟩
    · intro a ha
      by_cases he : a = m
      · subst he; exact ⟨by rw [e5, upd_same, hst], e6⟩
      · obtain ⟨k1, k2⟩ := h5 a (by omega)
        refine ⟨by rw [e5, upd_other _ _ he]; exact k1, ?_⟩
        rw [e7 _ fun h => he (by have := frame_inj h; omega)]
        exact k2
    · intro a ha han
      rw [e5, upd_other _ _ (by omega)]; exact h6 a (by omega) han
    · intro a ha
      unfold Keeps
      rw [e7 _ fun h => by have := frame_inj h; omega, e8]
      exact h7 a ha
    · intro a ha
      rw [e5, upd_other _ _ (by omega)]; exact h8 a ha

/-- Orders with a cycle let tasks deadlock. -/
theorem cycle_deadlock {x : F ⊕ L} (h : Relation.TransGen dep x x) :
    ∃ s : St F L V W E, Reach eqv dep v₀ w₀ s ∧ Deadlock eqv s := by
  obtain ⟨n, c, hn, hcn, hd, hin⟩ := AsyncLocks.simple_cycle h
  obtain ⟨s, h1, h2, h3, h4, h5, h6, h7, h8⟩ := phase2 (eqv := eqv) (v₀ := v₀) (w₀ := w₀) (E := E) hd hin n (Nat.le_refl _)
  refine ⟨s, h1, ⟨0, .inl (by rw [(h5 0 hn).1]; simp)⟩, ?_⟩
  intro t ht
  have hlt : t < n := by
    apply Classical.byContradiction
    intro hge
    rcases ht with ht | ht | ht
    · exact ht (h8 t (by omega))
    · exact ht (h3 t)
    · exact ht (h4 t)
  obtain ⟨k1, k2⟩ := h5 t hlt
  refine .inr ⟨_, by rw [k1]; exact .head _, wants_not_user (wants_targets k2), ?_⟩
  by_cases he : t + 1 = n
  · rw [he, hcn] at k2 ⊢
    exact blocked k2 (h7 0 hn).2.2
  · exact blocked k2 (h7 (t + 1) (by omega)).2.2

end Verif.Proof.AsyncMixed
