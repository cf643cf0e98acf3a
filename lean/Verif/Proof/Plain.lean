import Verif.Model.Plain
import Mathlib.Data.List.Perm.Subperm
/-
Proofs for C113: reading is compared with an evaluation that keeps nothing, whose depth is what a field needs of the stack.
-/
namespace Verif.Proof.Plain
open Verif.Spec Verif.Model.Plain

variable {F V E W : Type} [DecidableEq F]

/-- Evaluation without keeping values. -/
def execD (rd : F → Option (Outcome V E)) : Code F V E → Option (Outcome V E)
  | .ret o => some o
  | .read q j k => match rd j with
    | none => none
    | some o => execD rd (k (getRet q o))

/-- The same for a field. -/
def den (bld : F → Code F V E) (v₀ : F → Option V) : Nat → F → Option (Outcome V E)
  | n, i => match v₀ i with
    | some v => some (.ok v)
    | none => match n with
      | 0 => none
      | n + 1 => execD (den bld v₀ n) (bld i)

theorem execD_mono {rd rd' : F → Option (Outcome V E)} (h : ∀ j o, rd j = some o → rd' j = some o) (c : Code F V E) {o : Outcome V E}
    (hc : execD rd c = some o) : execD rd' c = some o := by
  induction c with
  | ret o' => exact hc
  | read q j k ih =>
    simp only [execD] at hc ⊢
    cases hj : rd j with
    | none => rw [hj] at hc; cases hc
    | some o' => rw [hj] at hc; rw [h j o' hj]; exact ih _ hc

theorem den_succ (bld : F → Code F V E) (v₀ : F → Option V) (n : Nat) (j : F) (o : Outcome V E) (h : den bld v₀ n j = some o) :
    den bld v₀ (n + 1) j = some o := by
  induction n generalizing j o with
  | zero =>
    unfold den at h ⊢
    cases hv : v₀ j with
    | none => rw [hv] at h; cases h
    | some v => rw [hv] at h; exact h
  | succ n ih =>
    rw [den] at h ⊢
    cases hv : v₀ j with
    | some v => rw [hv] at h; exact h
    | none =>
      rw [hv] at h
      exact execD_mono ih _ h

theorem den_mono (bld : F → Code F V E) (v₀ : F → Option V) {n m : Nat} (hnm : n ≤ m) (j : F) (o : Outcome V E)
    (h : den bld v₀ n j = some o) : den bld v₀ m j = some o := by
  induction hnm with
  | refl => exact h
  | step _ ih => exact den_succ _ _ _ _ _ ih

theorem den_det (bld : F → Code F V E) (v₀ : F → Option V) {n m : Nat} {j : F} {o o' : Outcome V E}
    (h : den bld v₀ n j = some o) (h' : den bld v₀ m j = some o') : o = o' := by
  have h1 := den_mono bld v₀ (Nat.le_max_left n m) j o h
  have h2 := den_mono bld v₀ (Nat.le_max_right n m) j o' h'
  rw [h1] at h2
  exact Option.some.inj h2

theorem execD_det (bld : F → Code F V E) (v₀ : F → Option V) {n m : Nat} {c : Code F V E} {o o' : Outcome V E}
    (h : execD (den bld v₀ n) c = some o) (h' : execD (den bld v₀ m) c = some o') : o = o' := by
  have h1 := execD_mono (fun j o => den_mono bld v₀ (Nat.le_max_left n m) j o) c h
  have h2 := execD_mono (fun j o => den_mono bld v₀ (Nat.le_max_right n m) j o) c h'
  rw [h1] at h2
  exact Option.some.inj h2

/-- The values kept are those which evaluation gives. -/
structure Fits (bld : F → Code F V E) (v₀ : F → Option V) (σ : F → Option V) : Prop where
  old : ∀ j v, v₀ j = some v → σ j = some v
  val : ∀ j v, σ j = some v → ∃ n, den bld v₀ n j = some (.ok v)

theorem Fits.start (bld : F → Code F V E) (v₀ : F → Option V) : Fits bld v₀ v₀ :=
  ⟨fun _ _ h => h, fun j v h => ⟨0, by unfold den; rw [h]⟩⟩

/-- What reading leaves behind. -/
structure Left (bld : F → Code F V E) (v₀ : F → Option V) (s s' : St F V W) : Prop where
  fits : Fits bld v₀ s'.cell
  keep : ∀ j v, s.cell j = some v → s'.cell j = some v
  log : ∃ l, s'.log = l ++ s.log ∧ (∀ j ∈ l, s.cell j = none) ∧
    (∀ j, ∀ n v, den bld v₀ n j = some (.ok v) → l.count j ≤ 1 ∧ (j ∈ l → s'.cell j = some v))

theorem Left.refl {bld : F → Code F V E} {v₀ : F → Option V} {s : St F V W} (h : Fits bld v₀ s.cell) : Left bld v₀ s s :=
  ⟨h, fun _ _ h => h, [], rfl, fun _ h => (List.not_mem_nil h).elim, fun _ _ _ _ => ⟨Nat.zero_le _, fun h => (List.not_mem_nil h).elim⟩⟩

theorem Left.trans {bld : F → Code F V E} {v₀ : F → Option V} {s s' s'' : St F V W} (h : Left bld v₀ s s') (h' : Left bld v₀ s' s'') :
    Left bld v₀ s s'' := by
  obtain ⟨l, h1, h2, h3⟩ := h.log
  obtain ⟨l', h1', h2', h3'⟩ := h'.log
  refine ⟨h'.fits, fun j v hj => h'.keep j v (h.keep j v hj), l' ++ l, by rw [h1', h1, List.append_assoc], ?_, ?_⟩
  · intro j hj
    rcases List.mem_append.1 hj with hj | hj
    · have := h2' j hj
      cases hs : s.cell j with
      | none => rfl
      | some v => rw [h.keep j v hs] at this; cases this
    · exact h2 j hj
  · intro j n v hd
    obtain ⟨h4, h5⟩ := h3 j n v hd
    obtain ⟨h4', h5'⟩ := h3' j n v hd
    constructor
    · rw [List.count_append]
      by_cases hj : j ∈ l
      · have : j ∉ l' := fun hl => by rw [h2' j hl] at h5; exact absurd (h5 hj) (by simp)
        rw [List.count_eq_zero.2 this]; omega
      · rw [List.count_eq_zero.2 hj]; omega
    · intro hj
      rcases List.mem_append.1 hj with hj | hj
      · exact h5' hj
      · exact h'.keep j v (h5 hj)

/-- A builder fills no field that needs more of the stack than itself. -/
def Below (bld : F → Code F V E) (v₀ : F → Option V) (n : Nat) (s s' : St F V W) : Prop :=
  ∀ k, s.cell k = none → s'.cell k ≠ none → (den bld v₀ n k).isSome = true

theorem Below.trans {bld : F → Code F V E} {v₀ : F → Option V} {n : Nat} {s s' s'' : St F V W} (h : Below bld v₀ n s s')
    (h' : Below bld v₀ n s' s'') : Below bld v₀ n s s'' := by
  intro k h1 h2
  cases hk : s'.cell k with
  | none => exact h' k hk h2
  | some v => exact h k h1 (by rw [hk]; simp)

variable {bld : F → Code F V E} {v₀ : F → Option V}

/-- Reading a field agrees with evaluation. -/
def Good (bld : F → Code F V E) (v₀ : F → Option V) (s : St F V W) (o : Outcome V E) (s' : St F V W)
    (d : Nat → Option (Outcome V E)) : Prop :=
  (∃ n, d n = some o) ∧ Left bld v₀ s s' ∧ ∀ n o', d n = some o' → Below bld v₀ n s s'

theorem exec_good {rd : F → St F V W → Option (Outcome V E × St F V W)}
    (hrd : ∀ j s o s', Fits bld v₀ s.cell → rd j s = some (o, s') → Good bld v₀ s o s' (fun n => den bld v₀ n j))
    (c : Code F V E) {s : St F V W} (hs : Fits bld v₀ s.cell) {o : Outcome V E} {s' : St F V W}
    (h : exec rd (Prog.pure c) s = some (o, s')) : Good bld v₀ s o s' (fun n => execD (den bld v₀ n) c) := by
  induction c generalizing s with
  | ret o' =>
    simp only [Prog.pure, exec, Option.some.injEq, Prod.mk.injEq] at h
    obtain ⟨rfl, rfl⟩ := h
    exact ⟨⟨0, rfl⟩, Left.refl hs, fun _ _ _ k h1 h2 => absurd h1 h2⟩
  | read q j k ih =>
    simp only [Prog.pure, exec] at h
    cases hj : rd j s with
    | none => rw [hj] at h; cases h
    | some p =>
      obtain ⟨o₁, s₁⟩ := p
      rw [hj] at h
      obtain ⟨⟨n₁, hn₁⟩, hl₁, hb₁⟩ := hrd j s o₁ s₁ hs hj
      obtain ⟨⟨n₂, hn₂⟩, hl₂, hb₂⟩ := ih _ hl₁.fits h
      refine ⟨⟨max n₁ n₂, ?_⟩, hl₁.trans hl₂, ?_⟩
      · simp only [execD]
        rw [den_mono bld v₀ (Nat.le_max_left n₁ n₂) j o₁ hn₁]
        exact execD_mono (fun j o => den_mono bld v₀ (Nat.le_max_right n₁ n₂) j o) _ hn₂
      · intro n o' hn
        simp only [execD] at hn
        cases hd : den bld v₀ n j with
        | none => rw [hd] at hn; cases hn
        | some o₂ =>
          rw [hd] at hn
          have : o₂ = o₁ := den_det bld v₀ hd hn₁
          subst this
          exact (hb₁ n _ hd).trans (hb₂ n o' hn)

/-- A field whose builder has run is still empty. -/
theorem not_reentrant {j : F} {s s' : St F V W} {o : Outcome V E} (hs : Fits bld v₀ s.cell) (hj : s.cell j = none)
    (h : Good bld v₀ s o s' (fun n => execD (den bld v₀ n) (bld j))) : s'.cell j = none ∧ ∃ n, den bld v₀ n j = some o := by
  have hv : v₀ j = none := by
    cases hv : v₀ j with
    | none => rfl
    | some v => rw [hs.old j v hv] at hj; cases hj
  obtain ⟨⟨n, hn⟩, -, hb⟩ := h
  have hd : ∀ n, den bld v₀ (n + 1) j = execD (den bld v₀ n) (bld j) := by
    intro n; rw [den]; simp only [hv]
  refine ⟨?_, n + 1, by rw [hd]; exact hn⟩
  cases hc : s'.cell j with
  | none => rfl
  | some v =>
    exfalso
    have key : ∀ n, (den bld v₀ n j).isSome = false := by
      intro n
      induction n with
      | zero => rw [den]; simp [hv]
      | succ n ih =>
        cases hdn : den bld v₀ (n + 1) j with
        | none => rfl
        | some o' =>
          have := hb n o' (by show execD _ _ = _; rw [← hd]; exact hdn) j hj (by rw [hc]; simp)
          rw [ih] at this; cases this
    have := key (n + 1)
    have hn' : execD (den bld v₀ n) (bld j) = some o := hn
    rw [hd, hn'] at this
    cases this

theorem exec_pure_next {j : F} {s s₁ : St F V W} {o : Outcome V E} (hs : Fits bld v₀ s.cell) (hj : s.cell j = none)
    (h : Good bld v₀ { s with log := j :: s.log } o s₁ (fun n => execD (den bld v₀ n) (bld j))) :
    Good bld v₀ s o { s₁ with cell := Spec.keep s₁.cell j o } (fun n => den bld v₀ n j) := by
  obtain ⟨hjn, n, hn⟩ := not_reentrant (s := { s with log := j :: s.log }) hs hj h
  obtain ⟨⟨n', hn'⟩, hl, hb⟩ := h
  obtain ⟨l, h1, h2, h3⟩ := hl.log
  have hfits : Fits bld v₀ (Spec.keep s₁.cell j o) := by
    cases o with
    | ok v =>
      constructor
      · intro i w hw
        simp only [Spec.keep]
        split
        · next h => subst h; rw [hs.old _ _ hw] at hj; cases hj
        · exact hl.fits.old i w hw
      · intro i w hw
        simp only [Spec.keep] at hw
        split at hw
        · next h => subst h; cases hw; exact ⟨n, hn⟩
        · exact hl.fits.val i w hw
    | err e => exact hl.fits
    | panic => exact hl.fits
  have hkeep : ∀ i v, s₁.cell i = some v → Spec.keep s₁.cell j o i = some v := by
    intro i v hv
    cases o with
    | ok w =>
      simp only [Spec.keep]
      split
      · next h => subst h; rw [hjn] at hv; cases hv
      · exact hv
    | err e => exact hv
    | panic => exact hv
  refine ⟨⟨n, hn⟩, ⟨hfits, fun i v hv => hkeep i v (hl.keep i v hv), l ++ [j], by rw [h1]; simp, ?_, ?_⟩, ?_⟩
  · intro i hi
    rcases List.mem_append.1 hi with hi | hi
    · exact h2 i hi
    · rw [List.mem_singleton.1 hi]; exact hj
  · intro i m v hd
    obtain ⟨h4, h5⟩ := h3 i m v hd
    by_cases hij : i = j
    · subst hij
      have hnl : i ∉ l := fun hi => by rw [h5 hi] at hjn; cases hjn
      have ho : o = .ok v := den_det bld v₀ hn hd
      subst ho
      refine ⟨by rw [List.count_append, List.count_eq_zero.2 hnl]; simp, fun _ => by simp [Spec.keep]⟩
    · have hji : ¬ j = i := fun h => hij h.symm
      refine ⟨by rw [List.count_append]; simpa [List.count_singleton, hji] using h4, fun hi => ?_⟩
      rcases List.mem_append.1 hi with hi | hi
      · exact hkeep i v (h5 hi)
      · exact absurd (List.mem_singleton.1 hi) hij
  · intro m o' hm k hk1 hk2
    have hm : den bld v₀ m j = some o' := hm
    by_cases hkj : k = j
    · subst hkj; rw [hm]; rfl
    · have hk3 : s₁.cell k ≠ none := by
        intro h
        apply hk2
        show Spec.keep s₁.cell j o k = none
        cases o <;> simp [Spec.keep, h, hkj]
      have hv : v₀ j = none := by
        cases hv : v₀ j with
        | none => rfl
        | some v => rw [hs.old j v hv] at hj; cases hj
      cases m with
      | zero => rw [den] at hm; simp [hv] at hm
      | succ m =>
        rw [den] at hm
        simp only [hv] at hm
        have := hb m o' hm k hk1 hk3
        cases hdk : den bld v₀ m k with
        | none => rw [hdk] at this; cases this
        | some o'' => rw [den_succ bld v₀ m k o'' hdk]; rfl

/-- What `get` does with an empty field. -/
theorem get_miss {n : Nat} {j : F} {s s₁ : St F V W} {o : Outcome V E} (hj : s.cell j = none) (hj₁ : s₁.cell j = none)
    (h : exec (get (fun i => Prog.pure (bld i)) n) (Prog.pure (bld j)) { s with log := j :: s.log } = some (o, s₁)) :
    get (fun i => Prog.pure (bld i)) (n + 1) j s = some (o, { s₁ with cell := Spec.keep s₁.cell j o }) := by
  rw [Model.Plain.get]
  simp only [hj, h]
  cases o with
  | ok v => simp [Model.Plain.set, hj₁, Spec.keep]
  | err e => simp [Spec.keep]
  | panic => simp [Spec.keep]

theorem get_hit {n : Nat} {j : F} {s : St F V W} {v : V} (bld : F → Prog F V E W) (hj : s.cell j = some v) :
    get bld n j s = some (.ok v, s) := by
  rw [Model.Plain.get.eq_def]
  simp only [hj]

/-- Reading agrees with evaluation. -/
theorem get_good (n : Nat) (j : F) (s : St F V W) (o : Outcome V E) (s' : St F V W) (hs : Fits bld v₀ s.cell)
    (h : get (fun i => Prog.pure (bld i)) n j s = some (o, s')) : Good bld v₀ s o s' (fun n => den bld v₀ n j) := by
  induction n generalizing j s o s' with
  | zero =>
    cases hj : s.cell j with
    | some v =>
      rw [get_hit _ hj] at h
      cases h
      exact ⟨hs.val j v hj, Left.refl hs, fun _ _ _ k h1 h2 => absurd h1 h2⟩
    | none => rw [Model.Plain.get.eq_def] at h; simp only [hj] at h; cases h
  | succ n ih =>
    cases hj : s.cell j with
    | some v =>
      rw [get_hit _ hj] at h
      cases h
      exact ⟨hs.val j v hj, Left.refl hs, fun _ _ _ k h1 h2 => absurd h1 h2⟩
    | none =>
      cases he : exec (get (fun i => Prog.pure (bld i)) n) (Prog.pure (bld j)) { s with log := j :: s.log } with
      | none => rw [Model.Plain.get.eq_def] at h; simp only [hj, he] at h; cases h
      | some p =>
        obtain ⟨o₁, s₁⟩ := p
        have hg := exec_good ih (bld j) (s := { s with log := j :: s.log }) hs he
        have hjn := (not_reentrant (s := { s with log := j :: s.log }) hs hj hg).1
        rw [get_miss hj hjn he] at h
        cases h
        exact exec_pure_next hs hj hg

/-- With as much stack as evaluation needs, reading returns. -/
theorem exec_enough {n : Nat} {rd : F → St F V W → Option (Outcome V E × St F V W)}
    (hrd : ∀ j s o, Fits bld v₀ s.cell → den bld v₀ n j = some o → ∃ s', rd j s = some (o, s') ∧ Fits bld v₀ s'.cell)
    (c : Code F V E) {s : St F V W} (hs : Fits bld v₀ s.cell) {o : Outcome V E} (h : execD (den bld v₀ n) c = some o) :
    ∃ s', exec rd (Prog.pure c) s = some (o, s') ∧ Fits bld v₀ s'.cell := by
  induction c generalizing s with
  | ret o' => cases h; exact ⟨s, rfl, hs⟩
  | read q j k ih =>
    simp only [execD] at h
    cases hd : den bld v₀ n j with
    | none => rw [hd] at h; cases h
    | some o₁ =>
      rw [hd] at h
      obtain ⟨s₁, h1, h2⟩ := hrd j s o₁ hs hd
      obtain ⟨s₂, h3, h4⟩ := ih _ h2 h
      exact ⟨s₂, by simp only [Prog.pure, exec, h1]; exact h3, h4⟩

theorem get_enough (n : Nat) (j : F) (s : St F V W) (o : Outcome V E) (hs : Fits bld v₀ s.cell) (h : den bld v₀ n j = some o) :
    ∃ s', get (fun i => Prog.pure (bld i)) n j s = some (o, s') ∧ Fits bld v₀ s'.cell := by
  induction n generalizing j s o with
  | zero =>
    cases hj : s.cell j with
    | some v =>
      obtain ⟨m, hm⟩ := hs.val j v hj
      have := den_det bld v₀ h hm
      subst this
      exact ⟨s, get_hit _ hj, hs⟩
    | none =>
      rw [den.eq_def] at h
      cases hv : v₀ j with
      | none => simp only [hv] at h; cases h
      | some v => rw [hs.old j v hv] at hj; cases hj
  | succ n ih =>
    cases hj : s.cell j with
    | some v =>
      obtain ⟨m, hm⟩ := hs.val j v hj
      have := den_det bld v₀ h hm
      subst this
      exact ⟨s, get_hit _ hj, hs⟩
    | none =>
      have hv : v₀ j = none := by
        cases hv : v₀ j with
        | none => rfl
        | some v => rw [hs.old j v hv] at hj; cases hj
      rw [den] at h
      simp only [hv] at h
      obtain ⟨s₁, h1, -⟩ := exec_enough ih (bld j) (s := { s with log := j :: s.log }) hs h
      have hg := exec_good (fun j s o s' => get_good n j s o s') (bld j) (s := { s with log := j :: s.log }) hs h1
      have hjn := (not_reentrant (s := { s with log := j :: s.log }) hs hj hg).1
      exact ⟨_, get_miss hj hjn h1, (exec_pure_next hs hj hg).2.1.fits⟩

/-- More stack does no harm. -/
theorem exec_mono {rd rd' : F → St F V W → Option (Outcome V E × St F V W)} (h : ∀ j s r, rd j s = some r → rd' j s = some r)
    (c : Prog F V E W) {s : St F V W} {r : Outcome V E × St F V W} (hc : exec rd c s = some r) : exec rd' c s = some r := by
  induction c generalizing s with
  | ret o => exact hc
  | act g k ih => exact ih _ hc
  | read q j k ih =>
    simp only [exec] at hc ⊢
    cases hj : rd j s with
    | none => rw [hj] at hc; cases hc
    | some p => rw [hj] at hc; rw [h j s p hj]; exact ih _ hc

theorem get_succ (b : F → Prog F V E W) (n : Nat) (j : F) (s : St F V W) (r : Outcome V E × St F V W) (h : get b n j s = some r) :
    get b (n + 1) j s = some r := by
  induction n generalizing j s r with
  | zero =>
    cases hj : s.cell j with
    | some v => rw [get_hit b hj] at h ⊢; exact h
    | none => rw [Model.Plain.get.eq_def] at h; simp only [hj] at h; cases h
  | succ n ih =>
    cases hj : s.cell j with
    | some v => rw [get_hit b hj] at h ⊢; exact h
    | none =>
      rw [Model.Plain.get] at h ⊢
      simp only [hj] at h ⊢
      cases he : exec (get b n) (b j) { s with log := j :: s.log } with
      | none => simp only [he] at h; cases h
      | some p => simp only [he] at h; rw [exec_mono ih _ he]; exact h

theorem get_mono (b : F → Prog F V E W) {n m : Nat} (hnm : n ≤ m) (j : F) (s : St F V W) (r : Outcome V E × St F V W)
    (h : get b n j s = some r) : get b m j s = some r := by
  induction hnm with
  | refl => exact h
  | step _ ih => exact get_succ _ _ _ _ _ ih

/-- Who needs more needs it for someone. -/
theorem execD_needs {rd rd' : F → Option (Outcome V E)} (h : ∀ j o, rd j = some o → rd' j = some o) (c : Code F V E) {o : Outcome V E}
    (hc : execD rd' c = some o) (hn : execD rd c = none) : ∃ k, (rd' k).isSome = true ∧ rd k = none := by
  induction c with
  | ret o' => cases hn
  | read q j k ih =>
    simp only [execD] at hc hn
    cases hj : rd j with
    | none =>
      refine ⟨j, ?_, hj⟩
      cases hj' : rd' j with
      | none => rw [hj'] at hc; cases hc
      | some o' => rfl
    | some o' =>
      rw [hj] at hn
      rw [h j o' hj] at hc
      exact ih _ hc hn

/-- Below a field are as many others as the stack it needs. -/
theorem den_chain (n : Nat) {j : F} (h : (den bld v₀ (n + 1) j).isSome = true) (hn : den bld v₀ n j = none) :
    ∃ l : List F, l.Nodup ∧ l.length = n + 1 ∧ ∀ k ∈ l, v₀ k = none ∧ (den bld v₀ (n + 1) k).isSome = true := by
  have hv : v₀ j = none := by
    cases hv : v₀ j with
    | none => rfl
    | some v => rw [den.eq_def] at hn; simp only [hv] at hn; cases hn
  induction n generalizing j with
  | zero => exact ⟨[j], by simp, rfl, fun k hk => by rw [List.mem_singleton.1 hk]; exact ⟨hv, h⟩⟩
  | succ n ih =>
    have hn' := hn
    have h' := h
    rw [den.eq_def] at hn' h'
    simp only [hv] at hn' h'
    cases hc : execD (den bld v₀ (n + 1)) (bld j) with
    | none => rw [hc] at h'; cases h'
    | some o =>
      obtain ⟨k, hk1, hk2⟩ := execD_needs (fun j o => den_succ bld v₀ n j o) (bld j) hc hn'
      have hvk : v₀ k = none := by
        cases hv : v₀ k with
        | none => rfl
        | some v => rw [den.eq_def] at hk2; simp only [hv] at hk2; cases hk2
      obtain ⟨l, h1, h2, h3⟩ := ih hk1 hk2 hvk
      refine ⟨j :: l, List.nodup_cons.2 ⟨fun hj => ?_, h1⟩, by simp [h2], ?_⟩
      · have := (h3 j hj).2
        rw [hn] at this; cases this
      · intro i hi
        rcases List.mem_cons.1 hi with rfl | hi
        · exact ⟨hv, h⟩
        · refine ⟨(h3 i hi).1, ?_⟩
          have := (h3 i hi).2
          cases hd : den bld v₀ (n + 1) i with
          | none => rw [hd] at this; cases this
          | some o' => rw [den_succ bld v₀ _ i o' hd]; rfl

/-- A field needs no more stack than there are empty fields. -/
theorem den_bound (fs : List F) (hfs : ∀ j, v₀ j = none → j ∈ fs) (n : Nat) {j : F} {o : Outcome V E} (h : den bld v₀ n j = some o) :
    den bld v₀ fs.length j = some o := by
  induction n with
  | zero => exact den_mono bld v₀ (Nat.zero_le _) j o h
  | succ n ih =>
    cases hd : den bld v₀ n j with
    | some o' =>
      have : o' = o := den_det bld v₀ hd h
      subst this
      exact ih hd
    | none =>
      obtain ⟨l, h1, h2, h3⟩ := den_chain n (by rw [h]; rfl) hd
      have hle : l.length ≤ fs.length := (h1.subperm fun k hk => hfs k (h3 k hk).1).length_le
      exact den_mono bld v₀ (by omega) j o h

/-- Running a builder is what the specification says. -/
theorem exec_runs {n : Nat} (hrd : ∀ j (s : St F V W) o s', Fits bld v₀ s.cell → s.cell j = none →
      get (fun i => Prog.pure (bld i)) n j s = some (o, s') → ∃ σ, Runs bld s.cell (bld j) o σ ∧ s'.cell = Spec.keep σ j o)
    (c : Code F V E) {s s' : St F V W} {o : Outcome V E} (hs : Fits bld v₀ s.cell)
    (h : exec (get (fun i => Prog.pure (bld i)) n) (Prog.pure c) s = some (o, s')) : Runs bld s.cell c o s'.cell := by
  induction c generalizing s with
  | ret o' => cases h; exact .ret
  | read q j k ih =>
    simp only [Prog.pure, exec] at h
    cases hg : get (fun i => Prog.pure (bld i)) n j s with
    | none => rw [hg] at h; cases h
    | some p =>
      obtain ⟨o₁, s₁⟩ := p
      rw [hg] at h
      have hf := (get_good n j s o₁ s₁ hs hg).2.1.fits
      cases hj : s.cell j with
      | some v =>
        rw [get_hit _ hj] at hg
        cases hg
        exact .hit hj (ih _ hs h)
      | none =>
        obtain ⟨σ, h1, h2⟩ := hrd j s o₁ s₁ hs hj hg
        have := ih _ hf h
        rw [h2] at this
        exact .miss hj h1 this

theorem get_runs (n : Nat) (j : F) (s : St F V W) (o : Outcome V E) (s' : St F V W) (hs : Fits bld v₀ s.cell) (hj : s.cell j = none)
    (h : get (fun i => Prog.pure (bld i)) n j s = some (o, s')) :
    ∃ σ, Runs bld s.cell (bld j) o σ ∧ s'.cell = Spec.keep σ j o := by
  induction n generalizing j s o s' with
  | zero => rw [Model.Plain.get.eq_def] at h; simp only [hj] at h; cases h
  | succ n ih =>
    cases he : exec (get (fun i => Prog.pure (bld i)) n) (Prog.pure (bld j)) { s with log := j :: s.log } with
    | none => rw [Model.Plain.get.eq_def] at h; simp only [hj, he] at h; cases h
    | some p =>
      obtain ⟨o₁, s₁⟩ := p
      have hg := exec_good (fun j s o s' => get_good n j s o s') (bld j) (s := { s with log := j :: s.log }) hs he
      have hjn := (not_reentrant (s := { s with log := j :: s.log }) hs hj hg).1
      rw [get_miss hj hjn he] at h
      cases h
      exact ⟨s₁.cell, exec_runs ih (bld j) (s := { s with log := j :: s.log }) hs he, rfl⟩

/-- And the other way round. -/
theorem runs_exec {σ σ' : F → Option V} {c : Code F V E} {o : Outcome V E} (h : Runs bld σ c o σ') (hs : Fits bld v₀ σ)
    (s : St F V W) (hσ : s.cell = σ) :
    ∃ n s', exec (get (fun i => Prog.pure (bld i)) n) (Prog.pure c) s = some (o, s') ∧ s'.cell = σ' ∧ Fits bld v₀ σ' := by
  induction h generalizing s with
  | ret => exact ⟨0, s, rfl, hσ, hs⟩
  | hit hj _ ih =>
    obtain ⟨n, s', h1, h2, h3⟩ := ih hs s hσ
    refine ⟨n, s', ?_, h2, h3⟩
    simp only [Prog.pure, exec]
    rw [get_hit _ (by rw [hσ]; exact hj)]
    exact h1
  | @miss σ σ₁ σ' q j k o w hj _ _ ih₁ ih₂ =>
    subst hσ
    obtain ⟨n₁, s₁, h1, h2, h3⟩ := ih₁ hs { s with log := j :: s.log } rfl
    have hg := exec_good (fun j s o s' => get_good n₁ j s o s') (bld j) (s := { s with log := j :: s.log }) hs h1
    have hjn := (not_reentrant (s := { s with log := j :: s.log }) hs hj hg).1
    have hget := get_miss hj hjn h1
    have hf := (exec_pure_next hs hj hg).2.1.fits
    rw [← h2] at ih₂
    obtain ⟨n₂, s₂, h4, h5, h6⟩ := ih₂ hf { s₁ with cell := Spec.keep s₁.cell j o } rfl
    refine ⟨max (n₁ + 1) n₂, s₂, ?_, h5, h6⟩
    simp only [Prog.pure, exec]
    rw [get_mono _ (Nat.le_max_left _ _) _ _ _ hget]
    exact exec_mono (fun j s r => get_mono _ (Nat.le_max_right _ _) j s r) _ h4

/-- Reading returns exactly what the specification gives. -/
theorem get_iff (j : F) (s : St F V W) (o : Outcome V E) (hs : Fits bld v₀ s.cell) :
    (∃ n s', get (fun i => Prog.pure (bld i)) n j s = some (o, s')) ↔ Yields bld s.cell j o := by
  constructor
  · rintro ⟨n, s', h⟩
    cases hj : s.cell j with
    | some v => rw [get_hit _ hj] at h; cases h; exact .has hj
    | none =>
      obtain ⟨σ, h1, -⟩ := get_runs n j s o s' hs hj h
      exact .built hj h1
  · intro h
    cases h with
    | has hj => exact ⟨0, s, get_hit _ hj⟩
    | built hj h =>
      obtain ⟨n, s₁, h1, -, -⟩ := runs_exec h hs { s with log := j :: s.log } rfl
      have hg := exec_good (fun j s o s' => get_good n j s o s') (bld j) (s := { s with log := j :: s.log }) hs h1
      have hjn := (not_reentrant (s := { s with log := j :: s.log }) hs hj hg).1
      exact ⟨n + 1, _, get_miss hj hjn h1⟩

/-- In an object that fits, fields come to what they came to at the beginning. -/
theorem yields_iff_den (j : F) (o : Outcome V E) {σ : F → Option V} (hs : Fits bld v₀ σ) :
    Yields bld σ j o ↔ ∃ n, den bld v₀ n j = some o := by
  rw [← get_iff (W := Unit) j ⟨σ, (), []⟩ o hs]
  constructor
  · rintro ⟨n, s', h⟩
    exact (get_good n j _ o s' hs h).1
  · rintro ⟨n, h⟩
    obtain ⟨s', h', -⟩ := get_enough (W := Unit) n j ⟨σ, (), []⟩ o hs h
    exact ⟨n, s', h'⟩

/-- Without any assumption on builders: cells are filled, never changed. -/
theorem exec_keeps {rd : F → St F V W → Option (Outcome V E × St F V W)}
    (hrd : ∀ j s o s', rd j s = some (o, s') → ∀ k v, s.cell k = some v → s'.cell k = some v) (c : Prog F V E W) {s s' : St F V W}
    {o : Outcome V E} (h : exec rd c s = some (o, s')) {k : F} {v : V} (hk : s.cell k = some v) : s'.cell k = some v := by
  induction c generalizing s with
  | ret o => cases h; exact hk
  | act g _ ih => exact ih _ h hk
  | read q j _ ih =>
    simp only [exec] at h
    cases hj : rd j s with
    | none => rw [hj] at h; cases h
    | some p => obtain ⟨o₁, s₁⟩ := p; rw [hj] at h; exact ih _ h (hrd j s o₁ s₁ hj k v hk)

theorem get_keeps (b : F → Prog F V E W) (n : Nat) (j : F) (s : St F V W) (o : Outcome V E) (s' : St F V W) (h : get b n j s = some (o, s')) :
    (∀ k v, s.cell k = some v → s'.cell k = some v) ∧ (∀ v, o = .ok v → s'.cell j = some v) := by
  induction n generalizing j s o s' with
  | zero =>
    cases hj : s.cell j with
    | some v => rw [get_hit b hj] at h; cases h; exact ⟨fun _ _ h => h, fun w hw => by cases hw; exact hj⟩
    | none => rw [Model.Plain.get.eq_def] at h; simp only [hj] at h; cases h
  | succ n ih =>
    cases hj : s.cell j with
    | some v => rw [get_hit b hj] at h; cases h; exact ⟨fun _ _ h => h, fun w hw => by cases hw; exact hj⟩
    | none =>
      rw [Model.Plain.get] at h
      simp only [hj] at h
      cases he : exec (get b n) (b j) { s with log := j :: s.log } with
      | none => simp only [he] at h; cases h
      | some p =>
        obtain ⟨o₁, s₁⟩ := p
        simp only [he] at h
        have hk : ∀ k v, s.cell k = some v → s₁.cell k = some v :=
          fun k v hk => exec_keeps (fun j s o s' h => (ih j s o s' h).1) _ he hk
        cases o₁ with
        | err e => cases h; exact ⟨hk, fun v hv => by cases hv⟩
        | panic => cases h; exact ⟨hk, fun v hv => by cases hv⟩
        | ok v =>
          cases hc : s₁.cell j with
          | some w =>
            simp only [Model.Plain.set, hc] at h
            cases h
            exact ⟨hk, fun v hv => by cases hv⟩
          | none =>
            simp only [Model.Plain.set, hc] at h
            cases h
            refine ⟨fun k w hkw => ?_, fun w hw => by cases hw; simp⟩
            by_cases hkj : k = j
            · subst hkj; rw [hj] at hkw; cases hkw
            · simpa [hkj] using hk k w hkw

end Verif.Proof.Plain
