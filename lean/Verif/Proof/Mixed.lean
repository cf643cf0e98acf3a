import Verif.Model.Mixed
import Verif.Proof.Multi
import Verif.Proof.Locks
/-!
# Lazy and lock-protected fields together: invariants and progress (helper lemmas)
-/

namespace Verif.Proof.Mixed
open Verif.Spec Verif.Spec.Memory Verif.Model Verif.Model.Mixed
open Verif.Model.Multi (gone building)
open Verif.Proof.Multi (gone_iff others call_inside enabled_inside)

set_option linter.unusedSectionVars false
set_option linter.unusedSimpArgs false
variable {F L V W E : Type} [DecidableEq F] [DecidableEq L] {eqv : W → W → Bool} {dep : F ⊕ L → F ⊕ L → Prop}
  {v₀ : F → Option V} {w₀ : L → W} {s s' : St F L V W E}

/-! ## Lock calls -/

/-- Steps of the lock containers only touch the thread which makes them. -/
theorem lock_others {s s' : Locks.St L W} {t u : Nat} {a : Locks.Act L W} (h : Locks.step eqv s t a = some s') (hu : u ≠ t) :
    s'.pc u = s.pc u ∧ s'.held u = s.held u := by
  cases a with
  | call op =>
    simp only [Locks.step, Locks.invoke] at h
    split at h
    · cases op <;> simp at h
      case deref | assign => obtain ⟨_, rfl⟩ := h; simp [Locks.St.begin, upd, hu]
      all_goals subst h; simp [Locks.St.begin, upd, hu]
    · cases h
  | _ => exact (Proof.Locks.load_step rfl h).2 u hu

/-- Containers a lock call waits for, now or later. -/
def targets : Locks.Pc L W → List L
  | .gWait i | .xWait i _ | .xDrain i _ | .eWait2 _ i | .rWait i | .wWait i | .wDrain i => [i]
  | .eWait1 i j => [i, j]
  | _ => []

/-- Containers a call goes to. -/
def opTargets : Op L W → List L
  | .get i | .swap i _ | .read i | .write i => [i]
  | .eq i j => [i, j]
  | _ => []

theorem wants_targets {c : Locks.Pc L W} {k : L} (h : Locks.wants c = some k) : k ∈ targets c := by
  cases c <;> simp [Locks.wants] at h <;> simp [targets, h]

theorem targets_step {s s' : Locks.St L W} {t : Nat} {a : Locks.Act L W} {k : L} (h : Locks.step eqv s t a = some s')
    (hk : k ∈ targets (s'.pc t)) : k ∈ targets (s.pc t) ∨ ∃ op, a = .call op ∧ k ∈ opTargets op := by
  cases a with
  | call op =>
    right
    refine ⟨op, rfl, ?_⟩
    simp only [Locks.step, Locks.invoke] at h
    split at h
    · cases op <;> simp at h
      case deref | assign => obtain ⟨_, rfl⟩ := h; simp [Locks.St.begin, upd, targets] at hk
      all_goals subst h; simpa [Locks.St.begin, upd, targets, opTargets] using hk
    · cases h
  | go =>
    left
    simp only [Locks.step, Locks.go] at h
    split at h <;> rename_i hpc
    case h_1 => cases h
    all_goals try (split at h)
    all_goals first
      | (cases h; done)
      | (simp only [Option.map_eq_some_iff] at h
         obtain ⟨l, _, rfl⟩ := h)
      | (simp only [Option.some.injEq] at h; subst h)
    all_goals
      rw [hpc]
      simp [Locks.St.setLock, Locks.St.to, Locks.St.keep, Locks.St.ret, Locks.St.lin, upd, targets] at hk ⊢
      try simp [hk]
  | panic =>
    left
    simp only [Locks.step, Locks.panics] at h
    split at h <;> rename_i hpc
    case h_5 => cases h
    all_goals
      simp at h; subst h
      simp [Locks.St.lin, Locks.St.to, upd, targets] at hk
  | drop g =>
    left
    simp only [Locks.step, Locks.dropGuard] at h
    split at h <;> rename_i hpc
    · split at h <;> simp at h
      subst h; simpa [Locks.St.setLock] using hk
    · cases h

/-! ## Lazy calls -/

/-- Points of a lazy call at which it waits for the lock or may do so later, other than in the builder. -/
def running : Sync.Pc V E → Bool
  | .rStart _ | .rHaveU _ | .rUpg _ | .rHaveW _ | .rSet _ _ | .rFlag _ _ | .rDown _ _ | .rReady _ _ | .rUpg2 _ _
  | .xStart _ | .xWait _ | .sStart => true
  | _ => false

/-- The same with the builder. -/
def entered (c : Sync.Pc V E) : Bool := running c || building c

theorem running_user {c : Sync.Pc V E} (h : running c = true) : atUser c = false := by
  cases c <;> simp_all [running, atUser]

theorem user_not_gone {c : Sync.Pc V E} (h : atUser c = true) : gone c = false := by
  cases c <;> simp_all [gone, atUser]

theorem running_step {o o' : Sync.St V E} {p : Nat} {b : Sync.Act V E} (h : Sync.step o p b = some o') (hi : o.pc p ≠ .idle)
    (hr : running (o'.pc p) = true) : running (o.pc p) = true ∨ ∃ r, b = .finish r := by
  cases b with
  | call op =>
    exfalso
    simp only [Sync.step, Sync.invoke] at h
    split at h <;> rename_i hpc
    all_goals try split at h
    all_goals first
      | exact hi hpc
      | (simp at h; done)
      | (simp only [Option.some.injEq] at h; subst h; simp [Sync.St.begin, upd, running] at hr)
  | go =>
    left
    simp only [Sync.step, Sync.go] at h
    split at h <;> rename_i hpc
    all_goals try (repeat' split at h)
    all_goals first
      | (simp at h; done)
      | (simp only [Option.map_eq_some_iff] at h
         obtain ⟨l, hl, rfl⟩ := h)
      | (simp only [Option.some.injEq] at h
         subst h)
    all_goals
      rw [hpc]
      first
        | rfl
        | (exfalso
           simp [Sync.St.to, Sync.St.ret, Sync.St.lin, Sync.St.ev, upd, running] at hr
           done)
        | (exfalso
           simp only [Sync.St.to, Sync.St.ret, Sync.St.lin, Sync.St.ev, upd, Sync.heldGuard, if_true] at hr
           split at hr <;> simp [running] at hr)
  | finish r => exact .inr ⟨r, rfl⟩
  | drop =>
    exfalso
    simp only [Sync.step, Sync.dropGuard] at h
    split at h
    all_goals first
      | (simp at h; done)
      | (simp only [Option.some.injEq] at h; subst h; simp [Sync.St.to, Sync.St.ev, upd, running] at hr)

theorem entered_step {o o' : Sync.St V E} {p : Nat} {b : Sync.Act V E} (h : Sync.step o p b = some o') (hi : o.pc p ≠ .idle)
    (hr : entered (o'.pc p) = true) : entered (o.pc p) = true := by
  simp only [entered, Bool.or_eq_true] at hr ⊢
  rcases hr with hr | hr
  · rcases running_step h hi hr with h1 | ⟨r, rfl⟩
    · exact .inl h1
    · right
      simp only [Sync.step, Sync.builderReturns] at h
      split at h <;> rename_i hpc
      · simp [hpc, building]
      · cases h
  · cases b with
    | call op =>
      exfalso
      simp only [Sync.step, Sync.invoke] at h
      split at h <;> rename_i hpc
      all_goals try split at h
      all_goals first
        | exact hi hpc
        | (simp at h; done)
        | (simp only [Option.some.injEq] at h; subst h; simp [Sync.St.begin, upd, building] at hr)
    | go =>
      left
      simp only [Sync.step, Sync.go] at h
      split at h <;> rename_i hpc
      all_goals try (repeat' split at h)
      all_goals first
        | (simp at h; done)
        | (simp only [Option.map_eq_some_iff] at h
           obtain ⟨l, hl, rfl⟩ := h)
        | (simp only [Option.some.injEq] at h
           subst h)
      all_goals
        rw [hpc]
        first
          | rfl
          | (exfalso
             simp [Sync.St.to, Sync.St.ret, Sync.St.lin, Sync.St.ev, upd, building] at hr
             done)
          | (exfalso
             simp only [Sync.St.to, Sync.St.ret, Sync.St.lin, Sync.St.ev, upd, Sync.heldGuard, if_true] at hr
             split at hr <;> simp [building] at hr)
    | finish r =>
      right
      simp only [Sync.step, Sync.builderReturns] at h
      split at h <;> rename_i hpc
      · simp [hpc, building]
      · cases h
    | drop =>
      exfalso
      simp only [Sync.step, Sync.dropGuard] at h
      split at h
      all_goals first
        | (simp at h; done)
        | (simp only [Option.some.injEq] at h; subst h; simp [Sync.St.to, Sync.St.ev, upd, building] at hr)

/-- The predicate never waits. -/
theorem isSet_quick {o o' : Sync.St V E} {p : Nat} (h : Sync.step o p (.call .isSet) = some o') : entered (o'.pc p) = false := by
  simp only [Sync.step, Sync.invoke] at h
  split at h <;> simp at *
  subst h; simp [Sync.St.begin, upd, entered, running, building]

/-! ## Steps -/

theorem turn_alone {t : Nat} {f : F × Nat} (h : turn s t = true) : alone s t f = true := by
  simp only [turn, atRest, alone, Bool.and_eq_true, List.all_eq_true, Bool.or_eq_true] at h ⊢
  exact ⟨fun g hg => .inr (h.1 g hg), h.2⟩

/-- What an action does to the lazy call it works on. -/
inductive Lowers (s : St F L V W E) (t : Nat) (f : F × Nat) : Act F L V W E → Sync.Act V E → Prop where
  | use {op} : turn s t = true → Lowers s t f (.use f op) (.call op)
  | go : Lowers s t f (.go f) .go
  | finish {o} : turn s t = true → innermost s t = some f → Lowers s t f (.finish o) (.finish o)
  | drop : turn s t = true → Lowers s t f (.drop f) .drop

theorem innermost_mem {t : Nat} {f : F × Nat} (h : innermost s t = some f) :
    f ∈ s.stack t ∧ building ((s.obj f.1).pc f.2) = true :=
  ⟨List.mem_of_find?_eq_some h, List.find?_some (p := fun f : F × Nat => building ((s.obj f.1).pc f.2)) h⟩

theorem step_cases {t : Nat} {a : Act F L V W E} (h : step eqv s t a = some s') :
    (∃ j op o, a = .call j op ∧ turn s t = true ∧ Sync.step (s.obj j) s.next (.call op) = some o ∧
      s' = { s with obj := upd s.obj j o, stack := upd s.stack t ((j, s.next) :: s.stack t), next := s.next + 1 }) ∨
    (∃ f b o, f ∈ s.stack t ∧ alone s t f = true ∧ Lowers s t f a b ∧ Sync.step (s.obj f.1) f.2 b = some o ∧
      s' = settle s t f o) ∨
    (∃ b l, a = .lock b ∧ atRest s t = true ∧ Locks.step eqv s.lk t b = some l ∧ s' = { s with lk := l }) := by
  cases a with
  | call j op =>
    left
    simp only [step] at h
    split at h
    · rename_i hu
      simp only [Option.map_eq_some_iff] at h
      obtain ⟨o, h1, rfl⟩ := h
      exact ⟨j, op, o, rfl, hu, h1, rfl⟩
    · cases h
  | use f op =>
    right; left
    simp only [step] at h
    split at h
    · rename_i hu
      simp only [Option.map_eq_some_iff] at h
      obtain ⟨o, h1, rfl⟩ := h
      exact ⟨f, _, o, hu.1, turn_alone hu.2, .use hu.2, h1, rfl⟩
    · cases h
  | go f =>
    right; left
    simp only [step] at h
    split at h
    · rename_i hu
      simp only [Option.map_eq_some_iff] at h
      obtain ⟨o, h1, rfl⟩ := h
      exact ⟨f, _, o, hu.1, hu.2, .go, h1, rfl⟩
    · cases h
  | finish r =>
    right; left
    simp only [step] at h
    split at h
    · rename_i f hf
      split at h
      · rename_i hu
        simp only [Option.map_eq_some_iff] at h
        obtain ⟨o, h1, rfl⟩ := h
        exact ⟨f, _, o, (innermost_mem hf).1, turn_alone hu, .finish hu hf, h1, rfl⟩
      · cases h
    · cases h
  | drop f =>
    right; left
    simp only [step] at h
    split at h
    · rename_i hu
      simp only [Option.map_eq_some_iff] at h
      obtain ⟨o, h1, rfl⟩ := h
      exact ⟨f, _, o, hu.1, turn_alone hu.2, .drop hu.2, h1, rfl⟩
    · cases h
  | lock b =>
    right; right
    simp only [step] at h
    split at h
    · rename_i hu
      simp only [Option.map_eq_some_iff] at h
      obtain ⟨l, h1, rfl⟩ := h
      exact ⟨b, l, rfl, hu, h1, rfl⟩
    · cases h

/-! ## How stacks and containers fit together -/

/-- Invariant. -/
structure Inv (eqv : W → W → Bool) (v₀ : F → Option V) (w₀ : L → W) (s : St F L V W E) : Prop where
  obj : ∀ i, Sync.Reach (v₀ i) (s.obj i)
  lk : Locks.Reach eqv (fun _ _ => True) w₀ s.lk
  inside : ∀ t i p, (i, p) ∈ s.stack t → p < s.next ∧ gone ((s.obj i).pc p) = false
  owner : ∀ i p, gone ((s.obj i).pc p) = false → ∃ t, (i, p) ∈ s.stack t
  uniq : ∀ t t' i i' p, (i, p) ∈ s.stack t → (i', p) ∈ s.stack t' → t = t' ∧ i = i'
  nodup : ∀ t, (s.stack t).Nodup
  one : ∀ t f g, f ∈ s.stack t → g ∈ s.stack t → atUser ((s.obj f.1).pc f.2) = false →
    atUser ((s.obj g.1).pc g.2) = false → f = g
  free : ∀ t, s.lk.pc t ≠ .idle → atRest s t = true

theorem idle_iff (c : Locks.Pc L W) : idle c = true ↔ c = .idle := by cases c <;> simp [idle]

theorem inv_init : Inv eqv v₀ w₀ (init v₀ w₀ : St F L V W E) := by
  refine ⟨fun i => .init, .init, ?_, ?_, ?_, ?_, ?_, ?_⟩ <;> simp [init, Sync.init, gone, Locks.init]

/-- After a new call: who is where. -/
theorem call_pc (h : Inv eqv v₀ w₀ s) {j : F} {op : Spec.Op V} {o : Sync.St V E}
    (ho : Sync.step (s.obj j) s.next (.call op) = some o) {t : Nat} {i : F} {p : Nat} (hm : (i, p) ∈ s.stack t) :
    (upd s.obj j o i).pc p = (s.obj i).pc p := by
  by_cases hi : i = j
  · subst hi
    have := (h.inside _ _ _ hm).1
    simp only [upd, if_true]; exact others ho (by omega)
  · simp only [upd, hi, if_false]

/-- After a step of the call `f`: nobody else moves. -/
theorem move_pc {f g : F × Nat} {b : Sync.Act V E} {o : Sync.St V E} (ho : Sync.step (s.obj f.1) f.2 b = some o) (hg : g ≠ f) :
    (upd s.obj f.1 o g.1).pc g.2 = (s.obj g.1).pc g.2 := by
  by_cases hi : g.1 = f.1
  · rw [hi]; simp only [upd, if_true]; exact others ho (fun h => hg (Prod.ext hi h))
  · simp only [upd, hi, if_false]

/-- Frames after a step of the call `f`. -/
theorem settle_sub {t t' : Nat} {f g : F × Nat} {o : Sync.St V E} (hm : g ∈ (settle s t f o).stack t') : g ∈ s.stack t' := by
  simp only [settle, upd] at hm
  split at hm
  · rename_i ht; subst ht
    split at hm
    · exact List.mem_of_mem_erase hm
    · exact hm
  · exact hm

theorem inv_call {t : Nat} {j : F} {op : Spec.Op V} {o : Sync.St V E} (h : Inv eqv v₀ w₀ s) (hu : turn s t = true)
    (ho : Sync.step (s.obj j) s.next (.call op) = some o) :
    Inv eqv v₀ w₀ { s with obj := upd s.obj j o, stack := upd s.stack t ((j, s.next) :: s.stack t), next := s.next + 1 } := by
  simp only [turn, atRest, Bool.and_eq_true, List.all_eq_true] at hu
  have hin' : ∀ t' g, g ∈ upd s.stack t ((j, s.next) :: s.stack t) t' →
      (t' = t ∧ g = (j, s.next)) ∨ (g ∈ s.stack t' ∧ g.2 < s.next) := by
    intro t' g hm
    by_cases ht : t' = t
    · subst ht
      simp only [upd, if_true, List.mem_cons] at hm
      rcases hm with hm | hm
      · exact .inl ⟨rfl, hm⟩
      · exact .inr ⟨hm, (h.inside _ _ _ hm).1⟩
    · simp only [upd, ht, if_false] at hm
      exact .inr ⟨hm, (h.inside _ _ _ hm).1⟩
  refine ⟨?_, h.lk, ?_, ?_, ?_, ?_, ?_, ?_⟩
  · intro i
    by_cases hi : i = j
    · subst hi; simp only [upd, if_true]; exact .step (h.obj i) ho
    · simp only [upd, hi, if_false]; exact h.obj i
  · intro t' i p hm
    rcases hin' t' _ hm with ⟨rfl, hg⟩ | ⟨hm', hp⟩
    · cases hg
      exact ⟨by simp, by simp only [upd, if_true]; exact call_inside ho⟩
    · refine ⟨by simp only at hp ⊢; omega, ?_⟩
      simp only [call_pc h ho hm']; exact (h.inside _ _ _ hm').2
  · intro i p hg
    by_cases hi : i = j ∧ p = s.next
    · obtain ⟨rfl, rfl⟩ := hi
      exact ⟨t, by simp [upd]⟩
    · have : gone ((s.obj i).pc p) = false := by
        by_cases hij : i = j
        · subst hij
          simp only [upd, if_true] at hg
          rw [others ho (by simpa using hi)] at hg; exact hg
        · simpa only [upd, hij, if_false] using hg
      obtain ⟨t', ht'⟩ := h.owner i p this
      refine ⟨t', ?_⟩
      by_cases ht : t' = t
      · subst ht; simp [upd, ht']
      · simpa [upd, ht] using ht'
  · intro t₁ t₂ i₁ i₂ p h1 h2
    rcases hin' _ _ h1 with ⟨rfl, hp⟩ | ⟨h1, hp1⟩ <;> rcases hin' _ _ h2 with ⟨rfl, hp'⟩ | ⟨h2, hp2⟩
    · cases hp; cases hp'; exact ⟨rfl, rfl⟩
    · cases hp; simp at hp2
    · cases hp'; simp at hp1
    · exact h.uniq _ _ _ _ _ h1 h2
  · intro t'
    by_cases ht : t' = t
    · subst ht
      simp only [upd, if_true, List.nodup_cons]
      refine ⟨?_, h.nodup t'⟩
      intro hm
      have := (h.inside _ _ _ hm).1
      omega
    · simpa only [upd, ht, if_false] using h.nodup t'
  · intro t' f g hf hg hf' hg'
    rcases hin' _ _ hf with ⟨rfl, rfl⟩ | ⟨hf1, _⟩ <;> rcases hin' _ _ hg with ⟨ht', rfl⟩ | ⟨hg1, _⟩
    · rfl
    · simp only [call_pc h ho hg1] at hg'
      rw [hu.1 _ hg1] at hg'; cases hg'
    · subst ht'
      simp only [call_pc h ho hf1] at hf'
      rw [hu.1 _ hf1] at hf'; cases hf'
    · simp only [call_pc h ho hf1] at hf'
      simp only [call_pc h ho hg1] at hg'
      exact h.one _ _ _ hf1 hg1 hf' hg'
  · intro t' hpc
    have ht : t' ≠ t := by
      rintro rfl
      exact hpc ((idle_iff _).1 hu.2)
    have := h.free t' hpc
    simp only [atRest, List.all_eq_true] at this ⊢
    intro g hg
    simp only [upd, ht, if_false] at hg
    have := this g hg
    rw [← call_pc h ho hg] at this
    exact this

theorem inv_move {t : Nat} {f : F × Nat} {b : Sync.Act V E} {o : Sync.St V E} (h : Inv eqv v₀ w₀ s) (hf : f ∈ s.stack t)
    (hu : alone s t f = true) (ho : Sync.step (s.obj f.1) f.2 b = some o) : Inv eqv v₀ w₀ (settle s t f o) := by
  simp only [alone, Bool.and_eq_true, List.all_eq_true, Bool.or_eq_true, beq_iff_eq] at hu
  have hown : ∀ t', f ∈ s.stack t' → t' = t := fun t' hm => (h.uniq _ _ f.1 f.1 f.2 hm hf).1
  have hstay : ∀ t', f ∈ (settle s t f o).stack t' → gone (o.pc f.2) = false := by
    intro t' hm
    have := hown t' (settle_sub hm)
    subst this
    simp only [settle, upd, if_true] at hm
    cases hg : gone (o.pc f.2)
    · rfl
    · rw [hg] at hm
      simp only [if_true] at hm
      exact absurd hm (fun hm => ((h.nodup t').mem_erase_iff.1 hm).1 rfl)
  refine ⟨?_, h.lk, ?_, ?_, ?_, ?_, ?_, ?_⟩
  · intro i
    by_cases hi : i = f.1
    · subst hi; simp only [settle, upd, if_true]; exact .step (h.obj _) ho
    · simp only [settle, upd, hi, if_false]; exact h.obj i
  · intro t' i p hm
    have hm' := settle_sub hm
    refine ⟨(h.inside _ _ _ hm').1, ?_⟩
    by_cases hg : (i, p) = f
    · have := hstay t' (hg ▸ hm)
      subst hg
      simpa only [settle, upd, if_true] using this
    · have := move_pc ho hg
      simp only [settle]; simp only at this; rw [this]; exact (h.inside _ _ _ hm').2
  · intro i p hg
    by_cases hip : (i, p) = f
    · subst hip
      simp only [settle, upd, if_true] at hg
      exact ⟨t, by simpa [settle, upd, hg] using hf⟩
    · have hpc := move_pc ho hip
      simp only [settle] at hg
      simp only at hpc
      rw [hpc] at hg
      obtain ⟨t', ht'⟩ := h.owner i p hg
      refine ⟨t', ?_⟩
      by_cases ht : t' = t
      · subst ht
        simp only [settle, upd, if_true]
        split
        · exact (List.mem_erase_of_ne hip).2 ht'
        · exact ht'
      · simpa [settle, upd, ht] using ht'
  · intro t₁ t₂ i₁ i₂ q h1 h2
    exact h.uniq _ _ _ _ _ (settle_sub h1) (settle_sub h2)
  · intro t'
    by_cases ht : t' = t
    · subst ht
      simp only [settle, upd, if_true]
      split
      · exact (h.nodup t').erase _
      · exact h.nodup t'
    · simpa only [settle, upd, ht, if_false] using h.nodup t'
  · intro t' g g' hg hg' hug hug'
    have hm := settle_sub hg
    have hm' := settle_sub hg'
    by_cases ht : t' = t
    · subst ht
      have key : ∀ g, g ∈ s.stack t' → atUser (((settle s t' f o).obj g.1).pc g.2) = false → g = f := by
        intro g hg hug
        apply Classical.byContradiction
        intro hne
        simp only [settle, move_pc ho hne] at hug
        rcases hu.1 g hg with h1 | h1
        · exact hne h1
        · rw [h1] at hug; cases hug
      rw [key g hm hug, key g' hm' hug']
    · have hne : ∀ g, g ∈ s.stack t' → g ≠ f := by rintro g hgm rfl; exact ht (hown t' hgm)
      simp only [settle, move_pc ho (hne _ hm)] at hug
      simp only [settle, move_pc ho (hne _ hm')] at hug'
      exact h.one _ _ _ hm hm' hug hug'
  · intro t' hpc
    have ht : t' ≠ t := by
      rintro rfl
      exact hpc ((idle_iff _).1 hu.2)
    have := h.free t' hpc
    simp only [atRest, List.all_eq_true] at this ⊢
    intro g hg
    have hm := settle_sub hg
    have hne : g ≠ f := by rintro rfl; exact ht (hown t' hm)
    simp only [settle, move_pc ho hne]
    exact this g hm

theorem inv_lock {t : Nat} {b : Locks.Act L W} {l : Locks.St L W} (h : Inv eqv v₀ w₀ s) (hu : atRest s t = true)
    (hl : Locks.step eqv s.lk t b = some l) : Inv eqv v₀ w₀ { s with lk := l } := by
  refine ⟨h.obj, .step h.lk ?_ hl, h.inside, h.owner, h.uniq, h.nodup, h.one, ?_⟩
  · unfold Locks.Allowed; split <;> simp
  · intro t' hpc
    by_cases ht : t' = t
    · subst ht; exact hu
    · simp only [(lock_others hl ht).1] at hpc
      exact h.free t' hpc

theorem inv_step {t : Nat} {a : Act F L V W E} (h : Inv eqv v₀ w₀ s) (hs : step eqv s t a = some s') :
    Inv eqv v₀ w₀ s' := by
  rcases step_cases hs with ⟨j, op, o, _, hu, ho, rfl⟩ | ⟨f, b, o, hf, hu, _, ho, rfl⟩ | ⟨b, l, _, hu, hl, rfl⟩
  · exact inv_call h hu ho
  · exact inv_move h hf hu ho
  · exact inv_lock h hu hl

theorem inv_reach (h : Reach eqv dep v₀ w₀ s) : Inv eqv v₀ w₀ s := by
  induction h with
  | init => exact inv_init
  | step _ _ hs ih => exact inv_step ih hs

/-! ## The order -/

/-- Calls keep to the order `dep`. -/
structure Ord (dep : F ⊕ L → F ⊕ L → Prop) (s : St F L V W E) : Prop where
  lazy : ∀ t f, f ∈ s.stack t → running ((s.obj f.1).pc f.2) = true →
    (∀ g ∈ s.stack t, g ≠ f → dep (.inl g.1) (.inl f.1)) ∧ ∀ g ∈ s.lk.held t, dep (.inr g.1) (.inl f.1)
  nest : ∀ t, (s.stack t).Pairwise fun f g => entered ((s.obj f.1).pc f.2) = true → dep (.inl g.1) (.inl f.1)
  over : ∀ t k, k ∈ targets (s.lk.pc t) → ∀ f ∈ s.stack t, dep (.inl f.1) (.inr k)
  lock : Proof.Locks.Ord (fun i j => dep (.inr i) (.inr j)) s.lk

theorem ord_init : Ord dep (init v₀ w₀ : St F L V W E) := by
  refine ⟨?_, ?_, ?_, Proof.Locks.ord_init⟩ <;> simp [init]

theorem allowed_lock {t : Nat} {b : Locks.Act L W} (h : Allowed dep s t (.lock b)) :
    Locks.Allowed (fun i j => dep (.inr i) (.inr j)) s.lk t b ∧
    ∀ op k, b = .call op → k ∈ opTargets op → ∀ f ∈ s.stack t, dep (.inl f.1) (.inr k) := by
  cases b with
  | call op =>
    cases op <;> simp only [Allowed] at h
    case get | swap | read | write =>
      refine ⟨h.2, ?_⟩
      intro op k ho hk
      cases ho
      simp only [opTargets, List.mem_singleton] at hk
      subst hk; exact h.1
    case eq =>
      refine ⟨⟨fun g hg => ⟨h.1.2 g hg, h.2.1.2 g hg⟩, h.2.2⟩, ?_⟩
      intro op k ho hk
      cases ho
      simp only [opTargets, List.mem_cons, List.not_mem_nil, or_false] at hk
      rcases hk with rfl | rfl
      · exact h.1.1
      · exact h.2.1.1
    all_goals
      refine ⟨trivial, ?_⟩
      intro op k ho hk
      cases ho
      simp [opTargets] at hk
  | _ => simp [Locks.Allowed]

theorem ord_step {t : Nat} {a : Act F L V W E} (hi : Inv eqv v₀ w₀ s) (h : Ord dep s) (ha : Allowed dep s t a)
    (hs : step eqv s t a = some s') : Ord dep s' := by
  rcases step_cases hs with ⟨j, op, o, rfl, hu, ho, rfl⟩ | ⟨f, b, o, hf, hu, hlow, ho, rfl⟩ | ⟨b, l, rfl, hu, hl, rfl⟩
  · simp only [turn, atRest, Bool.and_eq_true, List.all_eq_true] at hu
    have hnew : entered (o.pc s.next) = true → Precedes dep s t (s.stack t) (.inl j) := by
      intro he
      cases op
      case isSet => rw [isSet_quick ho] at he; cases he
      all_goals exact ha
    have hpc : ∀ t' g, g ∈ s.stack t' → (upd s.obj j o g.1).pc g.2 = (s.obj g.1).pc g.2 :=
      fun t' g hg => call_pc hi ho hg
    refine ⟨?_, ?_, ?_, h.lock⟩
    · intro t' f hf hr
      by_cases ht : t' = t
      · subst ht
        simp only [upd, if_true, List.mem_cons] at hf ⊢
        rcases hf with rfl | hf
        · simp only [upd, if_true] at hr
          obtain ⟨h1, h2⟩ := hnew (by simp [entered, hr])
          refine ⟨?_, h2⟩
          rintro g (rfl | hg) hne
          · exact absurd rfl hne
          · exact h1 g hg
        · exfalso
          simp only [hpc t' f hf] at hr
          have h1 := hu.1 f hf
          rw [running_user hr] at h1; cases h1
      · simp only [upd, ht, if_false] at hf ⊢
        have := hpc t' f hf
        simp only [upd] at this hr
        rw [this] at hr
        exact h.lazy t' f hf hr
    · intro t'
      have old : (s.stack t').Pairwise fun f g => entered ((upd s.obj j o f.1).pc f.2) = true → dep (.inl g.1) (.inl f.1) :=
        (h.nest t').imp_of_mem fun hf _ hr he => hr (by rw [← hpc t' _ hf]; exact he)
      by_cases ht : t' = t
      · subst ht
        simp only [upd_same, List.pairwise_cons]
        refine ⟨?_, old⟩
        intro g hg he
        exact (hnew he).1 g hg
      · simpa only [upd_other _ _ ht] using old
    · intro t' k hk f hf
      by_cases ht : t' = t
      · subst ht
        simp only [(idle_iff _).1 hu.2, targets] at hk
        cases hk
      · simp only [upd, ht, if_false] at hf
        exact h.over t' k hk f hf
  · have hu' := hu
    simp only [alone, Bool.and_eq_true, List.all_eq_true, Bool.or_eq_true, beq_iff_eq] at hu
    have hidle : (s.obj f.1).pc f.2 ≠ .idle := by
      intro hc
      have := (hi.inside t f.1 f.2 hf).2
      rw [hc] at this; cases this
    have hown : ∀ t', f ∈ s.stack t' → t' = t := fun t' hm => (hi.uniq _ _ f.1 f.1 f.2 hm hf).1
    refine ⟨?_, ?_, ?_, h.lock⟩
    · intro t' g hg hr
      have hm := settle_sub hg
      by_cases hgf : g = f
      · subst hgf
        have := hown t' hm
        subst this
        simp only [settle, upd, if_true] at hr
        rcases running_step ho hidle hr with h1 | ⟨r, rfl⟩
        · obtain ⟨h2, h3⟩ := h.lazy t' g hm h1
          exact ⟨fun g' hg' hne => h2 g' (settle_sub hg') hne, h3⟩
        · cases hlow with
          | finish _ hin =>
            obtain ⟨h2, h3⟩ := ha g hin
            exact ⟨fun g' hg' hne => h2 g' ((List.mem_erase_of_ne hne).2 (settle_sub hg')), h3⟩
      · simp only [settle, move_pc ho hgf] at hr
        obtain ⟨h2, h3⟩ := h.lazy t' g hm hr
        exact ⟨fun g' hg' hne => h2 g' (settle_sub hg') hne, h3⟩
    · intro t'
      have hsub : ((settle s t f o).stack t').Sublist (s.stack t') := by
        simp only [settle, upd]
        split
        · rename_i ht; subst ht
          split
          · exact List.erase_sublist
          · exact List.Sublist.refl _
        · exact List.Sublist.refl _
      refine (List.Pairwise.sublist hsub (h.nest t')).imp_of_mem ?_
      intro g g' hg _ hr he
      apply hr
      by_cases hgf : g = f
      · subst hgf
        simp only [settle, upd, if_true] at he
        exact entered_step ho hidle he
      · simpa only [settle, move_pc ho hgf] using he
    · intro t' k hk g hg
      exact h.over t' k hk g (settle_sub hg)
  · simp only [atRest, List.all_eq_true] at hu
    obtain ⟨ha1, ha2⟩ := allowed_lock ha
    refine ⟨?_, h.nest, ?_, Proof.Locks.ord_step h.lock ha1 hl⟩
    · intro t' f hf hr
      by_cases ht : t' = t
      · subst ht
        have h1 := hu f hf
        simp only at hr
        rw [running_user hr] at h1; cases h1
      · simp only [(lock_others hl ht).2]
        exact h.lazy t' f hf hr
    · intro t' k hk f hf
      by_cases ht : t' = t
      · subst ht
        rcases targets_step hl hk with h1 | ⟨op, rfl, h1⟩
        · exact h.over t' k h1 f hf
        · exact ha2 op k rfl h1 f hf
      · simp only [(lock_others hl ht).1] at hk
        exact h.over t' k hk f hf

theorem ord_reach (h : Reach eqv dep v₀ w₀ s) : Ord dep s := by
  induction h with
  | init => exact ord_init
  | step hr ha hs ih => exact ord_step (inv_reach hr) ih ha hs

/-! ## Waiting -/

/-- Thread `t` is stuck and waits for `r`. -/
def Wants (eqv : W → W → Bool) (s : St F L V W E) (t : Nat) : F ⊕ L → Prop
  | .inl i => ∃ p, (i, p) ∈ s.stack t ∧ Proof.Sync.waiting ((s.obj i).pc p) = true ∧ Sync.go (s.obj i) p = none
  | .inr k => Locks.Stuck eqv s.lk t ∧ Locks.wants (s.lk.pc t) = some k

theorem waiting_running {c : Sync.Pc V E} (h : Proof.Sync.waiting c = true) : running c = true := by
  cases c <;> simp_all [Proof.Sync.waiting, running]

theorem stuck_wants (hi : Inv eqv v₀ w₀ s) {t : Nat} (h : Stuck eqv s t) : ∃ r, Wants eqv s t r := by
  rcases h with ⟨⟨i, p⟩, hf, hu, hg⟩ | h
  · refine ⟨.inl i, p, hf, ?_, hg⟩
    simp only at hu hg
    cases hw : Proof.Sync.waiting ((s.obj i).pc p)
    · exfalso
      have hc := Proof.Sync.core_reach (hi.obj i)
      have hin := (hi.inside t i p hf).2
      obtain ⟨o, ho⟩ := Proof.Sync.go_enabled (s := s.obj i) hw
        (by revert hu hin; cases (s.obj i).pc p <;> simp [atUser, gone, Sync.Pc.resting])
        (by intro k hk; rw [hk] at hu; cases hu)
        (by intro hk; have := hc.mem p; rw [hk] at this; exact this)
      rw [hg] at ho; cases ho
    · rfl
  · obtain ⟨k, hk, _⟩ := Proof.Locks.stuck_cases (Proof.Locks.core_reach hi.lk) h
    exact ⟨.inr k, h, hk⟩

theorem wants_stuck {t : Nat} {r : F ⊕ L} (h : Wants eqv s t r) : Stuck eqv s t := by
  cases r with
  | inl i =>
    obtain ⟨p, h1, h2, h3⟩ := h
    exact .inl ⟨(i, p), h1, running_user (waiting_running h2), h3⟩
  | inr k => exact .inr h.1

/-- A stuck thread which has another call or guard on `i` waits for something after `i`. -/
theorem later_lazy (hi : Inv eqv v₀ w₀ s) (ho : Ord dep s) {u : Nat} {i : F} {q : Nat} (hf : (i, q) ∈ s.stack u)
    (hq : Proof.Sync.waiting ((s.obj i).pc q) = false) (hu : Stuck eqv s u) :
    ∃ r, Wants eqv s u r ∧ dep (.inl i) r := by
  obtain ⟨r, hr⟩ := stuck_wants hi hu
  refine ⟨r, hr, ?_⟩
  cases r with
  | inl j =>
    obtain ⟨p, h1, h2, _⟩ := hr
    refine (ho.lazy u (j, p) h1 (waiting_running h2)).1 (i, q) hf ?_
    rintro ⟨⟩
    rw [hq] at h2; cases h2
  | inr k => exact ho.over u k (wants_targets hr.2) (i, q) hf

/-- A stuck thread which keeps a lock guard, or has one for the moment, waits for something after it. -/
theorem later_lock (hi : Inv eqv v₀ w₀ s) (ho : Ord dep s) {u : Nat} {k : L}
    (hh : (∃ m, (k, m) ∈ s.lk.held u) ∨ k ∈ Proof.Locks.temps (s.lk.pc u)) (hu : Stuck eqv s u) :
    ∃ r, Wants eqv s u r ∧ dep (.inr k) r := by
  obtain ⟨r, hr⟩ := stuck_wants hi hu
  refine ⟨r, hr, ?_⟩
  cases r with
  | inl j =>
    obtain ⟨p, h1, h2, _⟩ := hr
    rcases hh with ⟨m, hh⟩ | hh
    · exact (ho.lazy u (j, p) h1 (waiting_running h2)).2 (k, m) hh
    · exfalso
      have hne : s.lk.pc u ≠ .idle := by intro hc; rw [hc] at hh; cases hh
      have := hi.free u hne
      simp only [atRest, List.all_eq_true] at this
      have := this _ h1
      simp only [running_user (waiting_running h2)] at this
      cases this
  | inr k' =>
    have h1 := ho.lock.wait u k' hr.2
    rcases hh with ⟨m, hh⟩ | hh
    · exact h1.1 _ hh
    · exact h1.2 _ hh

/-- Waiting for readers of a lazy container. -/
theorem drain_lazy (hi : Inv eqv v₀ w₀ s) (ho : Ord dep s) {t : Nat} {i : F} {p : Nat} (hf : (i, p) ∈ s.stack t)
    (hd : draining ((s.obj i).pc p) = true) (hg : Sync.go (s.obj i) p = none) :
    ∃ u, WaitsFor s t u ∧ Inside s u ∧ (Stuck eqv s u → ∃ r, Wants eqv s u r ∧ dep (.inl i) r) := by
  have hc := Proof.Sync.core_reach (hi.obj i)
  cases hsh : (s.obj i).lk.shared with
  | nil =>
    exfalso
    unfold Sync.go at hg
    revert hd hg
    cases (s.obj i).pc p <;> simp [draining, Lock.drained, hsh]
  | cons q qs =>
    have hq : q ∈ (s.obj i).lk.shared := by simp [hsh]
    have hS := (hc.sh q).1 hq
    obtain ⟨u, hu⟩ := hi.owner i q (by revert hS; cases (s.obj i).pc q <;> simp [Proof.Sync.holdsS, gone])
    refine ⟨u, .reader hf hd hq hu, .inl (List.ne_nil_of_mem hu), later_lazy hi ho hu ?_⟩
    revert hS; cases (s.obj i).pc q <;> simp [Proof.Sync.holdsS, Proof.Sync.waiting]

/-- Waiting for readers of a lock-protected container. -/
theorem drain_lock (hi : Inv eqv v₀ w₀ s) (ho : Ord dep s) {t : Nat} {k : L} (ht : Locks.Stuck eqv s.lk t)
    (hd : Locks.draining (s.lk.pc t) = some k) :
    ∃ u, WaitsFor s t u ∧ Inside s u ∧ (Stuck eqv s u → ∃ r, Wants eqv s u r ∧ dep (.inr k) r) := by
  have hc := Proof.Locks.core_reach hi.lk
  obtain ⟨k', hk', h⟩ := Proof.Locks.stuck_cases hc ht
  rcases h with ⟨h1, u, hu⟩ | ⟨h1, _⟩
  · rw [hd] at h1; cases h1
    have hh : (k, false) ∈ s.lk.held u ∨ k ∈ Proof.Locks.temps (s.lk.pc u) := by
      have h2 := hc.sh k u
      have h3 := List.count_pos_iff.2 hu
      by_cases h4 : (k, false) ∈ s.lk.held u
      · exact .inl h4
      · rw [List.count_eq_zero.2 h4] at h2
        exact .inr (List.count_pos_iff.1 (by omega))
    refine ⟨u, .lock (.reader hd hu), .inr ?_, later_lock hi ho ?_⟩
    · rcases hh with hh | hh
      · exact .inr (List.ne_nil_of_mem hh)
      · left; intro hp; rw [hp] at hh; simp [Proof.Locks.temps] at hh
    · rcases hh with hh | hh
      · exact .inl ⟨false, hh⟩
      · exact .inr hh
  · rw [hd] at h1; cases h1

/-- From a stuck thread waiting leads to one which, if it is stuck as well, waits for something later. -/
theorem advance (hi : Inv eqv v₀ w₀ s) (ho : Ord dep s) {t : Nat} {r : F ⊕ L} (h : Wants eqv s t r) :
    ∃ u, Relation.TransGen (WaitsFor s) t u ∧ Inside s u ∧ (Stuck eqv s u → ∃ r', Wants eqv s u r' ∧ dep r r') := by
  cases r with
  | inl i =>
    obtain ⟨p, hf, hw, hg⟩ := h
    have hc := Proof.Sync.core_reach (hi.obj i)
    by_cases hd : draining ((s.obj i).pc p) = true
    · obtain ⟨u, h1, h2⟩ := drain_lazy hi ho hf hd hg
      exact ⟨u, .single h1, h2⟩
    · have hent : entering ((s.obj i).pc p) = true := by
        revert hw hd; cases (s.obj i).pc p <;> simp [Proof.Sync.waiting, draining, entering]
      cases hwr : (s.obj i).lk.wr with
      | some q =>
        have h1 := (hc.wr q).1 hwr
        obtain ⟨u, hu⟩ := hi.owner i q
          (by revert h1; cases (s.obj i).pc q <;> simp [Proof.Sync.excl, Proof.Sync.claiming, gone])
        have hwf : WaitsFor s t u := .owner hf hent hwr hu
        by_cases hcl : Proof.Sync.claiming ((s.obj i).pc q) = true
        · have hdq : draining ((s.obj i).pc q) = true := by
            revert hcl; cases (s.obj i).pc q <;> simp [Proof.Sync.claiming, draining]
          by_cases hgq : Sync.go (s.obj i) q = none
          · obtain ⟨u', h2, h3⟩ := drain_lazy hi ho hu hdq hgq
            exact ⟨u', .trans (.single hwf) (.single h2), h3⟩
          · refine ⟨u, .single hwf, .inl (List.ne_nil_of_mem hu), ?_⟩
            intro hs
            obtain ⟨r, hr⟩ := stuck_wants hi hs
            refine ⟨r, hr, ?_⟩
            cases r with
            | inl j =>
              obtain ⟨p', h2, h3, h4⟩ := hr
              refine (ho.lazy u (j, p') h2 (waiting_running h3)).1 (i, q) hu ?_
              rintro ⟨⟩
              exact hgq h4
            | inr k => exact ho.over u k (wants_targets hr.2) (i, q) hu
        · refine ⟨u, .single hwf, .inl (List.ne_nil_of_mem hu), later_lazy hi ho hu ?_⟩
          have he : Proof.Sync.excl ((s.obj i).pc q) = true := by simpa [hcl] using h1
          revert he; cases (s.obj i).pc q <;> simp [Proof.Sync.excl, Proof.Sync.waiting]
      | none =>
        cases hupg : (s.obj i).lk.upg with
        | some q =>
          have h1 := (hc.upg q).1 hupg
          have hent' : enteringAlone ((s.obj i).pc p) = true := by
            unfold Sync.go at hg
            revert hent hg
            cases (s.obj i).pc p <;> simp [entering, enteringAlone, Lock.tryShared, hwr]
          obtain ⟨u, hu⟩ := hi.owner i q (by revert h1; cases (s.obj i).pc q <;> simp [Proof.Sync.holdsU, gone])
          refine ⟨u, .single (.upgrader hf hent' hupg hu), .inl (List.ne_nil_of_mem hu), later_lazy hi ho hu ?_⟩
          revert h1; cases (s.obj i).pc q <;> simp [Proof.Sync.holdsU, Proof.Sync.waiting]
        | none =>
          exfalso
          unfold Sync.go at hg
          revert hent hg
          cases (s.obj i).pc p <;>
            simp [entering, Lock.tryShared, Lock.tryUpgradable, Lock.claim, hwr, hupg]
  | inr k =>
    obtain ⟨hs, hk⟩ := h
    have hc := Proof.Locks.core_reach hi.lk
    obtain ⟨k', hk', h⟩ := Proof.Locks.stuck_cases hc hs
    rw [hk] at hk'; cases hk'
    rcases h with ⟨h1, _⟩ | ⟨h1, u, hu⟩
    · obtain ⟨u, h2, h3⟩ := drain_lock hi ho hs h1
      exact ⟨u, .single h2, h3⟩
    · have hwf : WaitsFor s t u := .lock (.owner hk h1 hu)
      have h2 := hc.wr k u
      rw [if_pos hu] at h2
      by_cases hh : (k, true) ∈ s.lk.held u
      · exact ⟨u, .single hwf, .inr (.inr (List.ne_nil_of_mem hh)), later_lock hi ho (.inl ⟨true, hh⟩)⟩
      · rw [List.count_eq_zero.2 hh] at h2
        have hcl : Proof.Locks.claims (s.lk.pc u) = some k := by
          by_cases hcl : Proof.Locks.claims (s.lk.pc u) = some k
          · exact hcl
          · simp [hcl] at h2
        have hne : s.lk.pc u ≠ .idle := by intro hp; rw [hp] at hcl; cases hcl
        by_cases hsu : Locks.Stuck eqv s.lk u
        · have hd : Locks.draining (s.lk.pc u) = some k := by
            obtain ⟨k', hk', _⟩ := Proof.Locks.stuck_cases hc hsu
            cases hp : s.lk.pc u <;> rw [hp] at hcl hk' <;>
              simp [Proof.Locks.claims, Locks.wants, Locks.draining] at hcl hk' ⊢ <;> exact hcl
          obtain ⟨u', h3, h4⟩ := drain_lock hi ho hsu hd
          exact ⟨u', .trans (.single hwf) (.single h3), h4⟩
        · refine ⟨u, .single hwf, .inr (.inl hne), ?_⟩
          rintro (⟨f, hf, h3, _⟩ | h3)
          · exfalso
            have := hi.free u hne
            simp only [atRest, List.all_eq_true] at this
            rw [this f hf] at h3; cases h3
          · exact absurd h3 hsu

/-- From every stuck thread a chain of waiting leads to one which is inside and can move. -/
theorem chain (hi : Inv eqv v₀ w₀ s) (ho : Ord dep s)
    (hwf : WellFounded fun r' r => dep r r' ∧ ∃ u, Wants eqv s u r') :
    ∀ r t, Wants eqv s t r → ∃ u, Relation.TransGen (WaitsFor s) t u ∧ Inside s u ∧ ¬ Stuck eqv s u := by
  intro r
  induction r using hwf.induction with
  | _ r ih =>
    intro t ht
    obtain ⟨u, h1, h2, h3⟩ := advance hi ho ht
    by_cases hs : Stuck eqv s u
    · obtain ⟨r', h4, h5⟩ := h3 hs
      obtain ⟨u', h6, h7⟩ := ih r' ⟨h5, u, h4⟩ u h4
      exact ⟨u', .trans h1 h6, h7⟩
    · exact ⟨u, h1, h2, hs⟩

/-! ## Only finitely many are inside -/

/-- A relation without cycles is well founded on the elements of a list. -/
theorem acyclic_wf {A : Type} {r : A → A → Prop} (hac : ∀ a, ¬ Relation.TransGen r a a) (l : List A) :
    WellFounded fun b a => r a b ∧ b ∈ l := by
  classical
  have key : ∀ n (l : List A), l.length ≤ n → ∀ a, Acc (fun b a => r a b ∧ b ∈ l) a := by
    intro n
    induction n with
    | zero =>
      intro l hl a
      cases l with
      | nil => exact ⟨_, fun b hb => by cases hb.2⟩
      | cons => simp at hl
    | succ n ih =>
      intro l hl a
      refine ⟨_, fun b hb => ?_⟩
      have hlen : (l.filter fun x => decide (x ≠ b)).length ≤ n := by
        have h1 : (l.filter fun x => decide (x ≠ b)).length < l.length := by
          rw [List.length_filter_lt_length_iff_exists]
          exact ⟨b, hb.2, by simp⟩
        omega
      have lift : ∀ x, Acc (fun b' a => r a b' ∧ b' ∈ l.filter fun x => decide (x ≠ b)) x →
          (x = b ∨ Relation.TransGen r b x) → Acc (fun b a => r a b ∧ b ∈ l) x := by
        intro x hx
        induction hx with
        | intro x _ ih' =>
          intro hbx
          refine ⟨_, fun y hy => ?_⟩
          have hby : Relation.TransGen r b y := by
            rcases hbx with rfl | hbx
            · exact .single hy.1
            · exact .tail hbx hy.1
          have hne : y ≠ b := by rintro rfl; exact hac _ hby
          exact ih' y ⟨hy.1, by simp [hy.2, hne]⟩ (.inr hby)
      exact lift b (ih _ hlen b) (.inl rfl)
  exact ⟨fun a => key l.length l (Nat.le_refl _) a⟩

theorem step_other {t u : Nat} {a : Act F L V W E} (hs : step eqv s t a = some s') (hu : u ≠ t) :
    s'.stack u = s.stack u ∧ s'.lk.pc u = s.lk.pc u ∧ s'.lk.held u = s.lk.held u := by
  rcases step_cases hs with ⟨j, op, o, _, _, ho, rfl⟩ | ⟨f, b, o, hf, _, _, ho, rfl⟩ | ⟨b, l, _, _, hl, rfl⟩
  · simp [upd, hu]
  · simp [settle, upd, hu]
  · exact ⟨rfl, lock_others hl hu⟩

theorem finite_inside (h : Reach eqv dep v₀ w₀ s) : ∃ n, ∀ t, n ≤ t → ¬ Inside s t := by
  induction h with
  | init => exact ⟨0, fun t _ => by simp [Inside, Locks.Inside, init, Locks.init]⟩
  | step hr ha hs ih =>
    rename_i t a
    obtain ⟨n, hn⟩ := ih
    refine ⟨max n (t + 1), fun u hu => ?_⟩
    have hut : u ≠ t := by omega
    obtain ⟨h1, h2, h3⟩ := step_other hs hut
    have := hn u (by omega)
    simpa [Inside, Locks.Inside, h1, h2, h3] using this

theorem wants_inside {t : Nat} {r : F ⊕ L} (h : Wants eqv s t r) : Inside s t := by
  cases r with
  | inl i => obtain ⟨p, h1, _⟩ := h; exact .inl (List.ne_nil_of_mem h1)
  | inr k => exact .inr (.inl h.1.1)

theorem wf_of_finite (hac : ∀ r, ¬ Relation.TransGen dep r r) (h : ∃ n, ∀ t, n ≤ t → ¬ Inside s t) :
    WellFounded fun r' r => dep r r' ∧ ∃ u, Wants eqv s u r' := by
  obtain ⟨n, hn⟩ := h
  refine Subrelation.wf ?_ (acyclic_wf hac ((List.range n).flatMap fun t =>
    (s.stack t).map (fun f => Sum.inl f.1) ++ (Locks.wants (s.lk.pc t)).toList.map Sum.inr))
  rintro r' r ⟨h1, u, h2⟩
  refine ⟨h1, ?_⟩
  have hu : u < n := by
    apply Classical.byContradiction
    intro hge
    exact hn u (by omega) (wants_inside h2)
  simp only [List.mem_flatMap, List.mem_range, List.mem_append, List.mem_map]
  refine ⟨u, hu, ?_⟩
  cases r' with
  | inl i =>
    obtain ⟨p, h3, _⟩ := h2
    exact .inl ⟨(i, p), h3, rfl⟩
  | inr k => exact .inr ⟨k, by simp [h2.2], rfl⟩

theorem wants_wf (hac : ∀ r, ¬ Relation.TransGen dep r r) (h : Reach eqv dep v₀ w₀ s) :
    WellFounded fun r' r => dep r r' ∧ ∃ u, Wants eqv s u r' :=
  wf_of_finite hac (finite_inside h)

/-! ## Going on -/

/-- A thread which is inside and not stuck can go on without beginning anything. -/
theorem quiet_enabled (hi : Inv eqv v₀ w₀ s) (ho : Ord dep s) {t : Nat} (ht : Inside s t) (hs : ¬ Stuck eqv s t) :
    ∃ (a : Act F L V W E) (s' : St F L V W E), quiet a = true ∧ Allowed dep s t a ∧ step eqv s t a = some s' := by
  by_cases hp : s.lk.pc t = .idle
  · by_cases hr : atRest s t = true
    · have hturn : turn s t = true := by simp [turn, hr, hp, idle]
      simp only [atRest, List.all_eq_true] at hr
      by_cases hd : ∃ f ∈ s.stack t, Multi.holding ((s.obj f.1).pc f.2) = true
      · obtain ⟨f, hf, hh⟩ := hd
        refine ⟨.drop f, ?_⟩
        simp only [quiet, Allowed, step, hf, hturn, Sync.dropGuard]
        revert hh
        cases (s.obj f.1).pc f.2 <;> simp [Multi.holding]
      · by_cases hsn : ∃ f ∈ s.stack t, (s.obj f.1).pc f.2 = .sHave
        · obtain ⟨f, hf, hh⟩ := hsn
          refine ⟨.go f, ?_⟩
          simp [quiet, Allowed, step, hf, turn_alone hturn, Sync.go, hh]
        · have hb : ∀ f ∈ s.stack t, building ((s.obj f.1).pc f.2) = true := by
            intro f hf
            have h1 := hr f hf
            have h2 : ¬ Multi.holding ((s.obj f.1).pc f.2) = true := fun h => hd ⟨f, hf, h⟩
            have h3 : (s.obj f.1).pc f.2 ≠ .sHave := fun h => hsn ⟨f, hf, h⟩
            revert h1 h2 h3
            cases (s.obj f.1).pc f.2 <;> simp [atUser, Multi.holding, building]
          cases hh : s.lk.held t with
          | cons g gs =>
            refine ⟨.lock (.drop g), ?_⟩
            have hr' : atRest s t = true := by simp only [atRest, List.all_eq_true]; exact hr
            simp [quiet, Locks.quiet, Allowed, step, hr', Locks.step, Locks.dropGuard, hp, hh]
          | nil =>
            cases hst : s.stack t with
            | nil => rcases ht with ht | ht | ht
                     · exact absurd hst ht
                     · exact absurd hp ht
                     · exact absurd hh ht
            | cons f rest =>
              have hbf := hb f (by rw [hst]; exact .head _)
              have hin : innermost s t = some f := by simp [innermost, hst, hbf]
              refine ⟨.finish .panic, ?_⟩
              have hn := ho.nest t
              rw [hst, List.pairwise_cons] at hn
              have hal : Allowed dep s t (.finish .panic : Act F L V W E) := by
                intro f' hf'
                rw [hin] at hf'; cases hf'
                rw [hst, List.erase_cons_head]
                exact ⟨fun g hg => hn.1 g hg (by simp [entered, hbf]), by simp [hh]⟩
              simp only [quiet, step, hin, hturn, Sync.builderReturns]
              revert hbf
              cases (s.obj f.1).pc f.2 <;> simp [building, hal]
    · have : ∃ f ∈ s.stack t, atUser ((s.obj f.1).pc f.2) = false := by
        simp only [atRest, List.all_eq_true] at hr
        apply Classical.byContradiction
        intro hn
        apply hr
        intro f hf
        cases hx : atUser ((s.obj f.1).pc f.2)
        · exact absurd ⟨f, hf, hx⟩ hn
        · rfl
      obtain ⟨f, hf, hu⟩ := this
      have hal : alone s t f = true := by
        simp only [alone, hp, idle, Bool.and_true, List.all_eq_true, Bool.or_eq_true, beq_iff_eq]
        intro g hg
        cases hx : atUser ((s.obj g.1).pc g.2)
        · exact .inl (hi.one t g f hg hf hx hu)
        · exact .inr rfl
      refine ⟨.go f, ?_⟩
      cases hg : Sync.go (s.obj f.1) f.2 with
      | none => exact absurd (.inl ⟨f, hf, hu, hg⟩) hs
      | some o => simp [quiet, Allowed, step, hf, hal, hg]
  · have hr := hi.free t hp
    cases hg : Locks.go eqv s.lk t with
    | none => exact absurd (.inr ⟨hp, hg⟩) hs
    | some l => exact ⟨.lock .go, by simp [quiet, Locks.quiet, Allowed, step, hr, Locks.step, hg]⟩

/-! ## Steps left -/

/-- Steps thread `t` can still make. -/
def weight (s : St F L V W E) (t : Nat) : Nat :=
  ((s.stack t).map fun f => Proof.Sync.rank ((s.obj f.1).pc f.2)).sum + Proof.Locks.load s.lk t

theorem weight_le (s : St F L V W E) (t : Nat) :
    weight s t ≤ 12 * (s.stack t).length + 6 + (s.lk.held t).length := by
  have h1 : ((s.stack t).map fun f => Proof.Sync.rank ((s.obj f.1).pc f.2)).sum ≤ 12 * (s.stack t).length := by
    induction s.stack t with
    | nil => simp
    | cons f l ih =>
      have := Proof.Sync.rank_le ((s.obj f.1).pc f.2)
      simp only [List.map_cons, List.sum_cons, List.length_cons]
      omega
  have h2 := Proof.Locks.left_le (s.lk.pc t)
  simp only [weight, Proof.Locks.load]
  omega

theorem weight_step {t : Nat} {a : Act F L V W E} (hi : Inv eqv v₀ w₀ s) (ha : quiet a = true)
    (hs : step eqv s t a = some s') : weight s' t < weight s t ∧ ∀ u, u ≠ t → weight s' u = weight s u := by
  rcases step_cases hs with ⟨j, op, o, rfl, _⟩ | ⟨f, b, o, hf, _, hlow, ho, rfl⟩ | ⟨b, l, rfl, _, hl, rfl⟩
  · simp [quiet] at ha
  · have hb' : ∀ op, b ≠ .call op := by
      rintro op rfl
      cases hlow; simp [quiet] at ha
    have hr := (Proof.Sync.rank_step hb' ho).1
    have hother : ∀ l : List (F × Nat), f ∉ l → l.map (fun g => Proof.Sync.rank ((upd s.obj f.1 o g.1).pc g.2)) =
        l.map fun g => Proof.Sync.rank ((s.obj g.1).pc g.2) := by
      intro l hl
      apply List.map_congr_left
      intro g hg
      rw [move_pc ho]
      rintro rfl
      exact hl hg
    have hne : f ∉ (s.stack t).erase f := fun hm => ((hi.nodup t).mem_erase_iff.1 hm).1 rfl
    have hper := List.perm_cons_erase hf
    refine ⟨?_, ?_⟩
    · have hw : weight s t = Proof.Sync.rank ((s.obj f.1).pc f.2) +
          (((s.stack t).erase f).map fun g => Proof.Sync.rank ((s.obj g.1).pc g.2)).sum + Proof.Locks.load s.lk t := by
        simp only [weight]
        rw [(hper.map _).sum_nat]
        simp
      have hle : (((settle s t f o).stack t).map fun g => Proof.Sync.rank (((settle s t f o).obj g.1).pc g.2)).sum ≤
          Proof.Sync.rank (o.pc f.2) + (((s.stack t).erase f).map fun g => Proof.Sync.rank ((s.obj g.1).pc g.2)).sum := by
        simp only [settle, upd_same]
        split
        · rw [hother _ hne]; omega
        · rw [(hper.map _).sum_nat]
          simp only [List.map_cons, List.sum_cons, upd_same]
          rw [hother _ hne]; omega
      rw [hw]
      simp only [weight]
      have : Proof.Locks.load (settle s t f o).lk t = Proof.Locks.load s.lk t := rfl
      omega
    · intro u hu
      have hfu : f ∉ s.stack u := fun hm => hu (hi.uniq _ _ f.1 f.1 f.2 hm hf).1
      simp only [weight, settle, upd_other _ _ hu]
      rw [hother _ hfu]
  · have h1 := Proof.Locks.load_step (by simpa [quiet] using ha) hl
    refine ⟨by simp only [weight]; have := h1.1; omega, ?_⟩
    intro u hu
    simp only [weight, Proof.Locks.load, (h1.2 u hu).1, (h1.2 u hu).2]

/-- Steps left over all threads of a list. -/
def total (s : St F L V W E) (ts : List Nat) : Nat := (ts.map (weight s)).sum

theorem total_step {t : Nat} {a : Act F L V W E} (hi : Inv eqv v₀ w₀ s) (ha : quiet a = true)
    (hs : step eqv s t a = some s') {ts : List Nat} (hn : ts.Nodup) (ht : t ∈ ts) : total s' ts < total s ts := by
  obtain ⟨h1, h2⟩ := weight_step hi ha hs
  induction ts with
  | nil => simp at ht
  | cons q ts ih =>
    simp only [List.nodup_cons] at hn
    simp only [total, List.map_cons, List.sum_cons] at ih ⊢
    by_cases hq : q = t
    · subst hq
      have : ts.map (weight s') = ts.map (weight s) := by
        apply List.map_congr_left
        intro r hr
        rw [h2 r (by rintro rfl; exact hn.1 hr)]
      rw [this]; omega
    · have := ih hn.2 (by simpa [Ne.symm hq] using ht)
      rw [h2 q hq]; omega

/-- Only a thread which is inside can go on with something. -/
theorem quiet_inside {t : Nat} {a : Act F L V W E} (hi : Inv eqv v₀ w₀ s) (ha : quiet a = true)
    (hs : step eqv s t a = some s') : Inside s t := by
  have := (weight_step hi ha hs).1
  apply Classical.byContradiction
  intro hn
  simp only [Inside, Locks.Inside, not_or, Classical.not_not] at hn
  simp [weight, Proof.Locks.load, hn.1, hn.2.1, hn.2.2, Proof.Locks.left] at this

end Verif.Proof.Mixed
