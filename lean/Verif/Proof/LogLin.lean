import Verif.Model.Log
/-!
# From a log with linearization points to linearizability

Generic helper: a log in which every call shows an invocation, then one linearization event, then a response with the
same result, and whose linearization events are legal for the sequential object, gives a linearizable history.
-/

namespace Verif.Proof
open Verif.Spec Verif.Model

/-- Progress of one call. -/
inductive Phase (Op R : Type) where
  | fresh
  | invoked (op : Op)
  | linearized (op : Op) (r : R)
  | done
deriving DecidableEq, Repr

@[simp] theorem upd_same {A B : Type} [DecidableEq A] (t : A → B) (i : A) (b : B) : upd t i b i = b := by simp [upd]
theorem upd_other {A B : Type} [DecidableEq A] (t : A → B) {i j : A} (b : B) (h : j ≠ i) : upd t i b j = t j := by
  simp [upd, h]

/-- The log follows the order invocation, linearization, response for every call; `t` is the progress reached. -/
inductive Disc {Op R X : Type} : List (LEv Op R X) → (CallId → Phase Op R) → Prop where
  | nil : Disc [] (fun _ => .fresh)
  | inv {l t i op} : Disc l t → t i = .fresh → Disc (l ++ [.inv i op]) (upd t i (.invoked op))
  | lin {l t i op r} : Disc l t → t i = .invoked op → Disc (l ++ [.lin i op r]) (upd t i (.linearized op r))
  | res {l t i op r} : Disc l t → t i = .linearized op r → Disc (l ++ [.res i r]) (upd t i .done)
  | cancel {l t i op} : Disc l t → t i = .invoked op → Disc (l ++ [.cancel i]) (upd t i .done)
  | other {l t x} : Disc l t → Disc (l ++ [.other x]) t

section
variable {Op R X : Type}

@[simp] theorem hist_snoc_inv (l : List (LEv Op R X)) (i op) : hist (l ++ [.inv i op]) = hist l ++ [.inv i op] := by
  simp [hist]
@[simp] theorem hist_snoc_res (l : List (LEv Op R X)) (i r) : hist (l ++ [.res i r]) = hist l ++ [.res i r] := by
  simp [hist]
@[simp] theorem hist_snoc_lin (l : List (LEv Op R X)) (i op r) : hist (l ++ [.lin i op r]) = hist l := by
  simp [hist]
@[simp] theorem hist_snoc_cancel (l : List (LEv Op R X)) (i) : hist (l ++ [.cancel i]) = hist l := by
  simp [hist]
@[simp] theorem hist_snoc_other (l : List (LEv Op R X)) (x) : hist (l ++ [.other x]) = hist l := by
  simp [hist]
@[simp] theorem lins_snoc_inv (l : List (LEv Op R X)) (i op) : lins (l ++ [.inv i op]) = lins l := by
  simp [lins]
@[simp] theorem lins_snoc_res (l : List (LEv Op R X)) (i r) : lins (l ++ [.res i r]) = lins l := by
  simp [lins]
@[simp] theorem lins_snoc_cancel (l : List (LEv Op R X)) (i) : lins (l ++ [.cancel i]) = lins l := by
  simp [lins]
@[simp] theorem lins_snoc_other (l : List (LEv Op R X)) (x) : lins (l ++ [.other x]) = lins l := by
  simp [lins]
@[simp] theorem lins_snoc_lin (l : List (LEv Op R X)) (i op r) : lins (l ++ [.lin i op r]) = lins l ++ [⟨i, op, r⟩] := by
  simp [lins]

theorem before_snoc {α : Type} (l : List α) (x a b : α) :
    Before (l ++ [x]) a b ↔ Before l a b ∨ (a ∈ l ∧ b = x) := by
  constructor
  · rintro ⟨l₁, l₂, l₃, h⟩
    rcases List.eq_nil_or_concat l₃ with h3 | ⟨l₃', y, h3⟩
    · subst h3
      rw [show l₁ ++ a :: l₂ ++ [b] = (l₁ ++ a :: l₂) ++ [b] by simp] at h
      have := List.append_inj' h rfl
      right
      exact ⟨by rw [this.1]; simp, by simpa using this.2.symm⟩
    · subst h3
      rw [show l₁ ++ a :: l₂ ++ b :: (l₃'.concat y) = (l₁ ++ a :: l₂ ++ b :: l₃') ++ [y] by simp] at h
      have := List.append_inj' h rfl
      left
      exact ⟨l₁, l₂, l₃', this.1⟩
  · rintro (⟨l₁, l₂, l₃, h⟩ | ⟨h, rfl⟩)
    · exact ⟨l₁, l₂, l₃ ++ [x], by simp [h]⟩
    · obtain ⟨l₁, l₂, rfl⟩ := List.append_of_mem h
      exact ⟨l₁, l₂, [], by simp⟩

theorem not_before_nil {α : Type} (a b : α) : ¬ Before [] a b := by
  rintro ⟨l₁, l₂, l₃, h⟩; simp at h

/-- Facts about a disciplined log, by phase. -/
structure DiscFacts (l : List (LEv Op R X)) (t : CallId → Phase Op R) : Prop where
  inv_fresh : ∀ i op, HEv.inv i op ∈ hist l → t i ≠ .fresh
  res_done : ∀ i r, HEv.res i r ∈ hist l → t i = .done
  res_lin : ∀ i r, HEv.res i r ∈ hist l → ∃ op, HEv.inv i op ∈ hist l ∧ (⟨i, op, r⟩ : Done Op R) ∈ lins l
  invoked_inv : ∀ i op, t i = .invoked op → HEv.inv i op ∈ hist l
  linearized_inv : ∀ i op r, t i = .linearized op r → HEv.inv i op ∈ hist l ∧ (⟨i, op, r⟩ : Done Op R) ∈ lins l
  lin_inv : ∀ d ∈ lins l, HEv.inv d.id d.op ∈ hist l
  lin_phase : ∀ d ∈ lins l, t d.id = .done ∨ t d.id = .linearized d.op d.ret
  nodup : ((lins l).map Done.id).Nodup
  order : ∀ d ∈ lins l, ∀ e ∈ lins l, Before (hist l) (.res d.id d.ret) (.inv e.id e.op) → Before (lins l) d e

theorem Disc.facts {l : List (LEv Op R X)} {t : CallId → Phase Op R} (h : Disc l t) : DiscFacts l t := by
  induction h with
  | nil =>
    constructor <;> simp [hist, lins]
  | @inv l t i op _ hi ih =>
    constructor
    · intro j op' hj
      by_cases hji : j = i
      · subst hji; simp
      · rw [upd_other _ _ hji]
        refine ih.inv_fresh j op' ?_
        simpa [hji] using hj
    · intro j r hj
      have hj' : HEv.res j r ∈ hist l := by simpa using hj
      have := ih.res_done j r hj'
      rw [upd_other]
      · exact this
      · rintro rfl; rw [hi] at this; cases this
    · intro j r hj
      obtain ⟨op', h1, h2⟩ := ih.res_lin j r (by simpa using hj)
      exact ⟨op', by simp [h1], by simpa using h2⟩
    · intro j op' hj
      by_cases hji : j = i
      · subst hji; simp at hj; simp [hj]
      · rw [upd_other _ _ hji] at hj
        simp [ih.invoked_inv j op' hj]
    · intro j op' r hj
      by_cases hji : j = i
      · subst hji; simp at hj
      · rw [upd_other _ _ hji] at hj
        have := ih.linearized_inv j op' r hj
        simp [this]
    · intro d hd
      have := ih.lin_inv d (by simpa using hd)
      simp [this]
    · intro d hd
      have := ih.lin_phase d (by simpa using hd)
      rw [upd_other]
      · exact this
      · intro hc; rw [hc, hi] at this; simp at this
    · simpa using ih.nodup
    · intro d hd e he hb
      simp only [lins_snoc_inv] at hd he ⊢
      simp only [hist_snoc_inv, before_snoc] at hb
      rcases hb with hb | ⟨_, hb⟩
      · exact ih.order d hd e he hb
      · injection hb with h1 h2
        have := ih.lin_phase e he
        rw [h1, hi] at this; simp at this
  | @lin l t i op r _ hi ih =>
    constructor
    · intro j op' hj
      have := ih.inv_fresh j op' (by simpa using hj)
      by_cases hji : j = i
      · subst hji; simp
      · rwa [upd_other _ _ hji]
    · intro j r' hj
      have := ih.res_done j r' (by simpa using hj)
      rw [upd_other]
      · exact this
      · rintro rfl; rw [hi] at this; cases this
    · intro j r' hj
      obtain ⟨op', h1, h2⟩ := ih.res_lin j r' (by simpa using hj)
      exact ⟨op', by simpa using h1, by simp [h2]⟩
    · intro j op' hj
      by_cases hji : j = i
      · subst hji; simp at hj
      · rw [upd_other _ _ hji] at hj
        simpa using ih.invoked_inv j op' hj
    · intro j op' r' hj
      by_cases hji : j = i
      · subst hji
        simp at hj
        obtain ⟨rfl, rfl⟩ := hj
        exact ⟨by simpa using ih.invoked_inv _ _ hi, by simp⟩
      · rw [upd_other _ _ hji] at hj
        have := ih.linearized_inv j op' r' hj
        simp [this]
    · intro d hd
      simp only [lins_snoc_lin, List.mem_append, List.mem_singleton] at hd
      simp only [hist_snoc_lin]
      rcases hd with hd | rfl
      · exact ih.lin_inv d hd
      · exact ih.invoked_inv _ _ hi
    · intro d hd
      simp only [lins_snoc_lin, List.mem_append, List.mem_singleton] at hd
      rcases hd with hd | rfl
      · have := ih.lin_phase d hd
        rw [upd_other]
        · exact this
        · intro hc; rw [hc, hi] at this; simp at this
      · simp
    · simp only [lins_snoc_lin, List.map_append, List.map_cons, List.map_nil]
      rw [List.nodup_append]
      refine ⟨ih.nodup, by simp, ?_⟩
      intro a ha b hb hab
      simp only [List.mem_singleton] at hb
      obtain ⟨d, hd, hda⟩ := List.mem_map.1 ha
      have := ih.lin_phase d hd
      rw [hda, hab, hb, hi] at this; simp at this
    · intro d hd e he hb
      simp only [hist_snoc_lin] at hb
      simp only [lins_snoc_lin, List.mem_append, List.mem_singleton, before_snoc] at hd he ⊢
      rcases hd with hd | rfl
      · rcases he with he | rfl
        · exact .inl (ih.order d hd e he hb)
        · exact .inr ⟨hd, rfl⟩
      · exfalso
        obtain ⟨l₁, l₂, l₃, hh⟩ := hb
        have := ih.res_done i r (by rw [hh]; simp)
        rw [hi] at this; cases this
  | @res l t i op r _ hi ih =>
    constructor
    · intro j op' hj
      have := ih.inv_fresh j op' (by simpa using hj)
      by_cases hji : j = i
      · subst hji; simp
      · rwa [upd_other _ _ hji]
    · intro j r' hj
      by_cases hji : j = i
      · subst hji; simp
      · rw [upd_other _ _ hji]
        exact ih.res_done j r' (by simpa [hji] using hj)
    · intro j r' hj
      simp only [hist_snoc_res, List.mem_append, List.mem_singleton] at hj
      rcases hj with hj | hj
      · obtain ⟨op', h1, h2⟩ := ih.res_lin j r' hj
        exact ⟨op', by simp [h1], by simpa using h2⟩
      · injection hj with h1 h2; subst h1; subst h2
        have := ih.linearized_inv _ _ _ hi
        exact ⟨op, by simp [this.1], by simpa using this.2⟩
    · intro j op' hj
      by_cases hji : j = i
      · subst hji; simp at hj
      · rw [upd_other _ _ hji] at hj
        simp [ih.invoked_inv j op' hj]
    · intro j op' r' hj
      by_cases hji : j = i
      · subst hji; simp at hj
      · rw [upd_other _ _ hji] at hj
        have := ih.linearized_inv j op' r' hj
        simp [this]
    · intro d hd
      have := ih.lin_inv d (by simpa using hd)
      simp [this]
    · intro d hd
      have := ih.lin_phase d (by simpa using hd)
      by_cases hji : d.id = i
      · rw [hji]; simp
      · rwa [upd_other _ _ hji]
    · simpa using ih.nodup
    · intro d hd e he hb
      simp only [lins_snoc_res] at hd he ⊢
      simp only [hist_snoc_res, before_snoc] at hb
      rcases hb with hb | ⟨_, hb⟩
      · exact ih.order d hd e he hb
      · cases hb
  | @cancel l t i op _ hi ih =>
    constructor
    · intro j op' hj
      have := ih.inv_fresh j op' (by simpa using hj)
      by_cases hji : j = i
      · subst hji; simp
      · rwa [upd_other _ _ hji]
    · intro j r' hj
      by_cases hji : j = i
      · subst hji; simp
      · rw [upd_other _ _ hji]
        exact ih.res_done j r' (by simpa using hj)
    · intro j r' hj
      obtain ⟨op', h1, h2⟩ := ih.res_lin j r' (by simpa using hj)
      exact ⟨op', by simpa using h1, by simpa using h2⟩
    · intro j op' hj
      by_cases hji : j = i
      · subst hji; simp at hj
      · rw [upd_other _ _ hji] at hj
        simpa using ih.invoked_inv j op' hj
    · intro j op' r' hj
      by_cases hji : j = i
      · subst hji; simp at hj
      · rw [upd_other _ _ hji] at hj
        have := ih.linearized_inv j op' r' hj
        simpa using this
    · intro d hd
      have := ih.lin_inv d (by simpa using hd)
      simpa using this
    · intro d hd
      have := ih.lin_phase d (by simpa using hd)
      rw [upd_other]
      · exact this
      · intro hc; rw [hc, hi] at this; simp at this
    · simpa using ih.nodup
    · intro d hd e he hb
      simp only [lins_snoc_cancel] at hd he ⊢
      simp only [hist_snoc_cancel] at hb
      exact ih.order d hd e he hb
  | @other l t x _ ih =>
    constructor <;> simp only [hist_snoc_other, lins_snoc_other]
    · exact ih.inv_fresh
    · exact ih.res_done
    · exact ih.res_lin
    · exact ih.invoked_inv
    · exact ih.linearized_inv
    · exact ih.lin_inv
    · exact ih.lin_phase
    · exact ih.nodup
    · exact ih.order

theorem Disc.linearizable {S : Type} {spec : S → Op → R → S → Prop} {s₀ s : S} {l : List (LEv Op R X)}
    {t : CallId → Phase Op R} (h : Disc l t) (hl : Legal spec s₀ (lins l) s) : Linearizable spec s₀ (hist l) := by
  have f := h.facts
  exact ⟨lins l, s, hl, f.nodup, f.lin_inv, f.res_lin, f.order⟩

theorem snoc_split {α : Type} {l l₁ l₂ : List α} {x y : α} (h : l ++ [x] = l₁ ++ y :: l₂) :
    (∃ l₂', l = l₁ ++ y :: l₂') ∨ (l = l₁ ∧ x = y) := by
  rcases List.eq_nil_or_concat l₂ with h2 | ⟨l₂', z, h2⟩
  · subst h2
    have := List.append_inj' h rfl
    exact .inr ⟨this.1, by simpa using this.2⟩
  · subst h2
    rw [show l₁ ++ y :: (l₂'.concat z) = (l₁ ++ y :: l₂') ++ [z] by simp] at h
    have := List.append_inj' h rfl
    exact .inl ⟨l₂', this.1⟩

theorem Disc.wellFormed {l : List (LEv Op R X)} {t : CallId → Phase Op R} (h : Disc l t) : WellFormed (hist l) := by
  induction h with
  | nil => exact ⟨by simp [hist], by intro i r l₁ l₂ h; simp [hist] at h⟩
  | @inv l t i op hd hi ih =>
    have f := hd.facts
    constructor
    · simp only [hist_snoc_inv, List.map_append, List.map_cons, List.map_nil]
      rw [List.nodup_append]
      refine ⟨ih.once, by simp, ?_⟩
      intro a ha b hb hab
      simp only [List.mem_singleton] at hb
      obtain ⟨e, he, hea⟩ := List.mem_map.1 ha
      rw [hab, hb] at hea
      cases e with
      | inv j op' =>
        simp [HEv.key] at hea; subst hea
        exact f.inv_fresh _ _ he hi
      | res j r => simp [HEv.key] at hea
    · intro j r l₁ l₂ hh
      simp only [hist_snoc_inv] at hh
      rcases snoc_split hh with ⟨l₂', hh⟩ | ⟨_, hc⟩
      · exact ih.after j r l₁ l₂' hh
      · cases hc
  | @lin l t i op r hd hi ih => simpa using ih
  | @res l t i op r hd hi ih =>
    have f := hd.facts
    constructor
    · simp only [hist_snoc_res, List.map_append, List.map_cons, List.map_nil]
      rw [List.nodup_append]
      refine ⟨ih.once, by simp, ?_⟩
      intro a ha b hb hab
      simp only [List.mem_singleton] at hb
      obtain ⟨e, he, hea⟩ := List.mem_map.1 ha
      rw [hab, hb] at hea
      cases e with
      | inv j op' => simp [HEv.key] at hea
      | res j r =>
        simp [HEv.key] at hea; subst hea
        have := f.res_done _ _ he
        rw [hi] at this; cases this
    · intro j r' l₁ l₂ hh
      simp only [hist_snoc_res] at hh
      rcases snoc_split hh with ⟨l₂', hh⟩ | ⟨h1, hc⟩
      · exact ih.after j r' l₁ l₂' hh
      · injection hc with h2 h3; subst h2
        exact ⟨op, h1 ▸ (f.linearized_inv _ _ _ hi).1⟩
  | @cancel l t i op hd hi ih => simpa using ih
  | @other l t x hd ih => simpa using ih

theorem Legal.snoc {S : Type} {spec : S → Op → R → S → Prop} {s s' s'' : S} {ds : List (Done Op R)} {d : Done Op R}
    (h : Legal spec s ds s') (hd : spec s' d.op d.ret s'') : Legal spec s (ds ++ [d]) s'' := by
  induction h with
  | nil => exact .cons hd .nil
  | cons h1 _ ih => exact .cons h1 (ih hd)

end

end Verif.Proof
