import Verif.Proof.AsyncLocks
import Verif.Proof.MixedCycle
/-!
# Lock-protected fields of async structs: orders with and without cycles (helper lemmas)

Along a cycle `c 0, c 1, …, c n = c 0` without repetitions task `a` takes a writing guard on `c a`, then every task asks for
`c (a + 1)`.
-/

namespace Verif.Proof.AsyncLocks
open Verif.Spec Verif.Spec.Memory Verif.Model Verif.Model.AsyncLocks
open Verif.Model.Async (ALock)

variable {L V : Type} [DecidableEq L] {eqv : V → V → Bool} {dep : L → L → Prop} {v₀ : L → V} {s s' : St L V}

/-- A relation with a cycle has one without repetitions. -/
theorem simple_cycle {A : Type} {r : A → A → Prop} {x : A} (h : Relation.TransGen r x x) :
    ∃ (n : Nat) (c : Nat → A), 0 < n ∧ c n = c 0 ∧ (∀ a, a < n → r (c a) (c (a + 1))) ∧
      ∀ a b, a < n → b < n → c a = c b → a = b := by
  have key : ∀ (n : Nat) (c : Nat → A), 0 < n → c n = c 0 → (∀ a, a < n → r (c a) (c (a + 1))) →
      ∃ (n : Nat) (c : Nat → A), 0 < n ∧ c n = c 0 ∧ (∀ a, a < n → r (c a) (c (a + 1))) ∧
        ∀ a b, a < n → b < n → c a = c b → a = b := by
    intro n
    induction n using Nat.strongRecOn with
    | _ n ih =>
      intro c h1 h2 h3
      by_cases hin : ∀ a b, a < n → b < n → c a = c b → a = b
      · exact ⟨n, c, h1, h2, h3, hin⟩
      · simp only [Classical.not_forall] at hin
        obtain ⟨a, b, ha, hb, hab, hne⟩ := hin
        have short : ∀ a b, a < b → b < n → c a = c b → ∃ (n : Nat) (c : Nat → A), 0 < n ∧ c n = c 0 ∧
            (∀ a, a < n → r (c a) (c (a + 1))) ∧ ∀ a b, a < n → b < n → c a = c b → a = b := by
          intro a b hlt hb hab
          refine ih (b - a) (by omega) (fun k => c (a + k)) (by omega) ?_ ?_
          · have : a + (b - a) = b := by omega
            simp [this, hab]
          · intro k hk
            exact h3 (a + k) (by omega)
        rcases Nat.lt_or_gt_of_ne hne with h | h
        · exact short a b h hb hab
        · exact short b a h ha hab.symm
  obtain ⟨n, c, h1, h2, h3, h4⟩ := Proof.Mixed.cycle_seq h
  exact key n c h1 (by rw [h2, h3]) h4

/-- Steps touch only the task which makes them. -/
theorem step_others {t u : Nat} {a : Act L V} (h : step eqv s t a = some s') (hu : u ≠ t) :
    s'.pc u = s.pc u ∧ s'.held u = s.held u := by
  cases a with
  | call op =>
    simp only [step, invoke] at h
    split at h
    · cases op <;> simp at h
      case deref | assign => obtain ⟨_, rfl⟩ := h; simp [St.begin, upd, hu]
      all_goals subst h; simp [St.begin, St.enter, upd, hu]
    · cases h
  | _ => exact (load_step rfl h).2 u hu

/-- Only finitely many tasks have to do with the containers. -/
theorem finite_inside (h : Reach eqv dep v₀ s) : ∃ n, ∀ t, n ≤ t → ¬ Inside s t := by
  induction h with
  | init => exact ⟨0, fun t _ => by simp [Inside, init]⟩
  | @step s s' t a _ _ hs ih =>
    obtain ⟨n, hn⟩ := ih
    refine ⟨max n (t + 1), fun u hu => ?_⟩
    have hut : u ≠ t := by omega
    have h1 := hn u (by omega)
    simpa [Inside, (step_others hs hut).1, (step_others hs hut).2] using h1

/-- An order without cycles is well founded on what is waited for. -/
theorem wants_wf (hac : ∀ r, ¬ Relation.TransGen dep r r) (h : Reach eqv dep v₀ s) :
    WellFounded fun j i => dep i j ∧ ∃ u, wants (s.pc u) = some j := by
  obtain ⟨n, hn⟩ := finite_inside h
  refine Subrelation.wf ?_ (Proof.Mixed.acyclic_wf hac ((List.range n).flatMap fun t => (wants (s.pc t)).toList))
  rintro j i ⟨h1, u, h2⟩
  refine ⟨h1, ?_⟩
  simp only [List.mem_flatMap, List.mem_range]
  refine ⟨u, ?_, by simp [h2]⟩
  apply Classical.byContradiction
  intro hge
  exact hn u (by omega) (.inl (by intro hp; rw [hp] at h2; cases h2))

/-- After the first half: the tasks below `m` have a writing guard each, nobody waits. -/
theorem phase1 {c : Nat → L} {n : Nat} (hin : ∀ a b, a < n → b < n → c a = c b → a = b) (m : Nat) (hm : m ≤ n) :
    ∃ s : St L V, Reach eqv dep v₀ s ∧ (∀ t, s.pc t = .idle) ∧ (∀ k, s.queue k = []) ∧
      (∀ a, a < m → s.held a = [(c a, true)] ∧ (s.lock (c a)).wr = some a) ∧ (∀ a, m ≤ a → s.held a = []) ∧
      ∀ k, (∀ a, a < m → k ≠ c a) → s.lock k = .free := by
  induction m with
  | zero => exact ⟨init v₀, .init, fun _ => rfl, fun _ => rfl, by simp, fun _ _ => rfl, fun _ _ => rfl⟩
  | succ m ih =>
    obtain ⟨s, h1, h2, h3, h4, h5, h6⟩ := ih (by omega)
    have hfree : s.lock (c m) = .free := h6 _ fun a ha he => by have := hin m a (by omega) (by omega) he; omega
    have r1 := Reach.step (t := m) (a := .call (.write (c m))) h1 (by intro g hg; rw [h5 m (by omega)] at hg; cases hg)
      (s' := (s.enter (c m) m).begin m (.write (c m)) (.wWait (c m))) (by simp [step, invoke, h2])
    let s₁ := (s.enter (c m) m).begin m (.write (c m)) (.wWait (c m))
    let s₂ := (((s₁.setLock (c m) ⟨[], some m⟩).leave (c m) m).keep m (c m, true)).lin m (.write (c m)) .unit |>.ret m .unit
    have hgo : go eqv s₁ m = some s₂ := by
      simp [go, s₁, s₂, St.begin, St.enter, St.exclusive, h3, hfree, ALock.tryWrite, ALock.free, St.leave, St.setLock, St.keep,
        St.lin, St.ret, St.me]
    have r2 : Reach eqv dep v₀ s₂ := .step (t := m) (a := .go) r1 trivial hgo
    refine ⟨s₂, r2, ?_, ?_, ?_, ?_, ?_⟩
    · intro t
      simp only [s₂, s₁, St.ret, St.lin, St.keep, St.leave, St.setLock, St.begin, St.enter, upd]
      split <;> simp [*]
    · intro k
      simp only [s₂, s₁, St.ret, St.lin, St.keep, St.leave, St.setLock, St.begin, St.enter, upd]
      split <;> simp [*]
    · intro a ha
      simp only [s₂, s₁, St.ret, St.lin, St.keep, St.leave, St.setLock, St.begin, St.enter, upd]
      by_cases he : a = m
      · subst he
        simp [h5 a (by omega)]
      · have hne : c a ≠ c m := fun h => he (hin a m (by omega) (by omega) h)
        simpa [he, hne] using h4 a (by omega)
    · intro a ha
      have he : a ≠ m := by omega
      simpa [s₂, s₁, St.ret, St.lin, St.keep, St.leave, St.setLock, St.begin, St.enter, upd, he] using h5 a (by omega)
    · intro k hk
      have hne : k ≠ c m := hk m (by omega)
      simpa [s₂, s₁, St.ret, St.lin, St.keep, St.leave, St.setLock, St.begin, St.enter, upd, hne] using
        h6 k fun a ha => hk a (by omega)

/-- After the second: the tasks below `m` wait for the next one's container. -/
theorem phase2 {c : Nat → L} {n : Nat} (hd : ∀ a, a < n → dep (c a) (c (a + 1)))
    (hin : ∀ a b, a < n → b < n → c a = c b → a = b) (m : Nat) (hm : m ≤ n) :
    ∃ s : St L V, Reach eqv dep v₀ s ∧ (∀ a, a < m → s.pc a = .wWait (c (a + 1))) ∧ (∀ a, m ≤ a → s.pc a = .idle) ∧
      (∀ a, a < n → s.held a = [(c a, true)] ∧ (s.lock (c a)).wr = some a) ∧ ∀ a, n ≤ a → s.held a = [] := by
  induction m with
  | zero =>
    obtain ⟨s, h1, h2, _, h4, h5, _⟩ := phase1 (eqv := eqv) (dep := dep) (v₀ := v₀) hin n (Nat.le_refl _)
    exact ⟨s, h1, by simp, fun a _ => h2 a, h4, h5⟩
  | succ m ih =>
    obtain ⟨s, h1, h2, h3, h4, h5⟩ := ih (by omega)
    refine ⟨(s.enter (c (m + 1)) m).begin m (.write (c (m + 1))) (.wWait (c (m + 1))),
      .step (t := m) (a := .call (.write (c (m + 1)))) h1 ?_ (by simp [step, invoke, h3]), ?_, ?_, h4, h5⟩
    · intro g hg
      rw [(h4 m (by omega)).1, List.mem_singleton] at hg
      subst hg
      exact hd m (by omega)
    · intro a ha
      by_cases he : a = m
      · subst he; simp [St.begin, St.enter]
      · simpa [St.begin, St.enter, upd, he] using h2 a (by omega)
    · intro a ha
      have he : a ≠ m := by omega
      simpa [St.begin, St.enter, upd, he] using h3 a (by omega)

/-- Orders with a cycle let tasks deadlock. -/
theorem cycle_deadlock {x : L} (h : Relation.TransGen dep x x) : ∃ s : St L V, Reach eqv dep v₀ s ∧ Deadlock eqv s := by
  obtain ⟨n, c, hn, hcn, hd, hin⟩ := simple_cycle h
  obtain ⟨s, h1, h2, h3, h4, h5⟩ := phase2 (eqv := eqv) (v₀ := v₀) hd hin n (Nat.le_refl _)
  refine ⟨s, h1, ⟨0, .inl (by rw [h2 0 hn]; simp)⟩, ?_⟩
  intro t ht
  have hlt : t < n := by
    apply Classical.byContradiction
    intro hge
    rcases ht with ht | ht
    · exact ht (h3 t (by omega))
    · exact ht (h5 t (by omega))
  refine ⟨by rw [h2 t hlt]; simp, ?_⟩
  have hw : (s.lock (c (t + 1))).wr.isSome = true := by
    by_cases he : t + 1 = n
    · rw [he, hcn, (h4 0 hn).2]; rfl
    · rw [(h4 (t + 1) (by omega)).2]; rfl
  have : (s.lock (c (t + 1))).wr ≠ none := by rw [Option.isSome_iff_ne_none] at hw; exact hw
  simp [go, h2 t hlt, St.exclusive, ALock.tryWrite, this]

end Verif.Proof.AsyncLocks
