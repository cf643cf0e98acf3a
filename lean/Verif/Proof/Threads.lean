import Verif.Proof.ThreadsField
import Verif.Proof.SyncBuild
/-!
# Threads calling helpers: invariants and progress (helper lemmas)
-/

namespace Verif.Proof.Threads
open Verif.Spec Verif.Model Verif.Model.Args Verif.Model.Method Verif.Model.Threads

set_option linter.unusedSectionVars false
set_option linter.unusedSimpArgs false
variable {F L V W E : Type} [DecidableEq F] [DecidableEq L] {lazyCode : F → Kind → Option Body}
  {lockCode : L → Kind → Option Body} {fal cl : F → Bool} {own lcl : L → Bool} {eqv : Option W → Option W → Bool}
  {dep : F ⊕ L → F ⊕ L → Prop} {v₀ : F → Option V} {w₀ : L → Option W} {s s' : St F L V W E}

/-! ## Steps -/

theorem turn_alone {t : Nat} {f : F × Nat} (h : turn s t = true) : alone s t f = true := by
  simp only [turn, atRest, alone, Bool.and_eq_true, List.all_eq_true, Bool.or_eq_true] at h ⊢
  exact ⟨fun g hg => .inr (h.1 g hg), h.2⟩

/-- What an action does to the call it works on. -/
inductive Lowers (s : St F L V W E) (t : Nat) (f : F × Nat) : Act F L V W E → Calls.Act V E → Prop where
  | use {u} : turn s t = true → Lowers s t f (.use f u) (.call u)
  | go : Lowers s t f (.go f) .go
  | finish {o} : turn s t = true → innermost s t = some f → Lowers s t f (.finish o) (.finish o)
  | drop : turn s t = true → Lowers s t f (.drop f) .drop

theorem innermost_mem {t : Nat} {f : F × Nat} (h : innermost s t = some f) :
    f ∈ s.stack t ∧ Multi.building ((s.obj f.1).c.pc f.2) = true :=
  ⟨List.mem_of_find?_eq_some h, List.find?_some (p := fun f : F × Nat => Multi.building ((s.obj f.1).c.pc f.2)) h⟩

theorem step_cases {t : Nat} {a : Act F L V W E} (h : step lazyCode lockCode eqv s t a = some s') :
    (∃ j k v b o, a = .call j k v b ∧ turn s t = true ∧
      Calls.step (lazyCode j) (s.obj j) s.next (.call (.helper k v b)) = some o ∧
      s' = { s with obj := upd s.obj j o, stack := upd s.stack t ((j, s.next) :: s.stack t), next := s.next + 1 }) ∨
    (∃ f b o, f ∈ s.stack t ∧ alone s t f = true ∧ Lowers s t f a b ∧
      Calls.step (lazyCode f.1) (s.obj f.1) f.2 b = some o ∧ s' = settle s t f o) ∨
    (∃ b l, a = .lock b ∧ atRest s t = true ∧ LockCalls.step lockCode eqv s.lk t b = some l ∧ s' = { s with lk := l }) := by
  cases a with
  | call j k v b =>
    left
    simp only [step] at h
    split at h
    · rename_i hu
      simp only [Option.map_eq_some_iff] at h
      obtain ⟨o, h1, rfl⟩ := h
      exact ⟨j, k, v, b, o, rfl, hu, h1, rfl⟩
    · cases h
  | use f op =>
    right; left
    simp only [step] at h
    split at h
    · rename_i hu
      simp only [Option.map_eq_some_iff] at h
      obtain ⟨o, h1, rfl⟩ := h
      exact ⟨f, _, o, hu.1, turn_alone hu.2, .use hu.2, h1, rfl⟩
    · cases h
  | go f =>
    right; left
    simp only [step] at h
    split at h
    · rename_i hu
      simp only [Option.map_eq_some_iff] at h
      obtain ⟨o, h1, rfl⟩ := h
      exact ⟨f, _, o, hu.1, hu.2, .go, h1, rfl⟩
    · cases h
  | finish r =>
    right; left
    simp only [step] at h
    split at h
    · rename_i f hf
      split at h
      · rename_i hu
        simp only [Option.map_eq_some_iff] at h
        obtain ⟨o, h1, rfl⟩ := h
        exact ⟨f, _, o, (innermost_mem hf).1, turn_alone hu, .finish hu hf, h1, rfl⟩
      · cases h
    · cases h
  | drop f =>
    right; left
    simp only [step] at h
    split at h
    · rename_i hu
      simp only [Option.map_eq_some_iff] at h
      obtain ⟨o, h1, rfl⟩ := h
      exact ⟨f, _, o, hu.1, turn_alone hu.2, .drop hu.2, h1, rfl⟩
    · cases h
  | lock b =>
    right; right
    simp only [step] at h
    split at h
    · rename_i hu
      simp only [Option.map_eq_some_iff] at h
      obtain ⟨l, h1, rfl⟩ := h
      exact ⟨b, l, rfl, hu, h1, rfl⟩
    · cases h

/-! ## How stacks and fields fit together -/

/-- The fields have the right helpers. -/
structure Good (fal cl : F → Bool) (own lcl : L → Bool) (W : Type) (lazyCode : F → Kind → Option Body)
    (lockCode : L → Kind → Option Body) : Prop where
  lazy : ∀ i, Calls.Shapes (fal i) (cl i) (lazyCode i)
  lock : LockCalls.Shapes (V := W) own lcl lockCode
  plain : ∀ i, own i = false → lcl i = false

/-- Invariant. -/
structure Inv (fal cl : F → Bool) (own lcl : L → Bool) (eqv : Option W → Option W → Bool) (dep : F ⊕ L → F ⊕ L → Prop)
    (v₀ : F → Option V) (w₀ : L → Option W) (s : St F L V W E) : Prop where
  obj : ∀ i, Calls.Inv (fal i) (cl i) (v₀ i) (s.obj i)
  lk : LockCalls.Inv own lcl eqv (fun i j => dep (.inr i) (.inr j)) w₀ s.lk
  inside : ∀ t i p, (i, p) ∈ s.stack t → p < s.next ∧ gone (s.obj i) p = false
  owner : ∀ i p, gone (s.obj i) p = false → ∃ t, (i, p) ∈ s.stack t
  uniq : ∀ t t' i i' p, (i, p) ∈ s.stack t → (i', p) ∈ s.stack t' → t = t' ∧ i = i'
  nodup : ∀ t, (s.stack t).Nodup
  one : ∀ t f g, f ∈ s.stack t → g ∈ s.stack t → atUser (s.obj f.1) f.2 = false → atUser (s.obj g.1) g.2 = false → f = g
  free : ∀ t, s.lk.pc t ≠ .idle → atRest s t = true
  lazy : ∀ t f, f ∈ s.stack t → busy (s.obj f.1) f.2 = true → atUser (s.obj f.1) f.2 = false →
    (∀ g ∈ s.stack t, g ≠ f → dep (.inl g.1) (.inl f.1)) ∧ ∀ g ∈ s.lk.c.held t, dep (.inr g.1) (.inl f.1)
  nest : ∀ t, (s.stack t).Pairwise fun f g => busy (s.obj f.1) f.2 = true → dep (.inl g.1) (.inl f.1)
  over : ∀ t k, k ∈ pcFields (s.lk.pc t) → ∀ f ∈ s.stack t, dep (.inl f.1) (.inr k)

theorem inv_init : Inv fal cl own lcl eqv dep v₀ w₀ (init v₀ w₀ : St F L V W E) := by
  refine ⟨fun i => Calls.inv_init _, LockCalls.inv_init _, ?_, ?_, ?_, ?_, ?_, ?_, ?_, ?_, ?_⟩ <;>
    simp [init, Calls.init, gone, LockCalls.init]

/-- Process `p` is where it was. -/
def Same (o o' : Calls.St V E) (p : Nat) : Prop := o'.pc p = o.pc p ∧ o'.c.pc p = o.c.pc p

section
variable {o o' : Calls.St V E} {p : Nat}

theorem Same.user (h : Same o o' p) : atUser o' p = atUser o p := by unfold atUser; rw [h.1, h.2]
theorem Same.gone (h : Same o o' p) : gone o' p = gone o p := by unfold Threads.gone; rw [h.1]
theorem Same.busy (h : Same o o' p) : busy o' p = busy o p := by unfold Threads.busy; rw [h.1]

end

/-- After a new call: who is where. -/
theorem call_same (h : Inv fal cl own lcl eqv dep v₀ w₀ s) {j : F} {a : Calls.Act V E} {o : Calls.St V E}
    (ho : Calls.step (lazyCode j) (s.obj j) s.next a = some o) {t : Nat} {i : F} {p : Nat} (hm : (i, p) ∈ s.stack t) :
    Same (s.obj i) (upd s.obj j o i) p := by
  by_cases hi : i = j
  · subst hi
    have := (h.inside _ _ _ hm).1
    rw [upd_same]; exact others (h.obj i) ho (by omega)
  · rw [upd_other _ _ hi]; exact ⟨rfl, rfl⟩

/-- After a step of the call `f`: nobody else moves. -/
theorem move_same (h : Inv fal cl own lcl eqv dep v₀ w₀ s) {f g : F × Nat} {b : Calls.Act V E} {o : Calls.St V E}
    (ho : Calls.step (lazyCode f.1) (s.obj f.1) f.2 b = some o) (hg : g ≠ f) :
    Same (s.obj g.1) (upd s.obj f.1 o g.1) g.2 := by
  by_cases hi : g.1 = f.1
  · rw [hi, upd_same]; exact others (h.obj _) ho (fun h => hg (Prod.ext hi h))
  · rw [upd_other _ _ hi]; exact ⟨rfl, rfl⟩

/-- Calls after a step of the call `f`. -/
theorem settle_sub {t t' : Nat} {f g : F × Nat} {o : Calls.St V E} (hm : g ∈ (settle s t f o).stack t') : g ∈ s.stack t' := by
  simp only [settle, upd] at hm
  split at hm
  · rename_i ht; subst ht
    split at hm
    · exact List.mem_of_mem_erase hm
    · exact hm
  · exact hm

theorem inv_call (hg : Good fal cl own lcl W lazyCode lockCode) {t : Nat} {j : F} {k : Kind} {v : V} {b : Bool}
    {o : Calls.St V E} (h : Inv fal cl own lcl eqv dep v₀ w₀ s) (ha : Allowed dep s t (.call j k v b)) (hu : turn s t = true)
    (ho : Calls.step (lazyCode j) (s.obj j) s.next (.call (.helper k v b)) = some o) :
    Inv fal cl own lcl eqv dep v₀ w₀
      { s with obj := upd s.obj j o, stack := upd s.stack t ((j, s.next) :: s.stack t), next := s.next + 1 } := by
  simp only [turn, atRest, Bool.and_eq_true, List.all_eq_true] at hu
  obtain ⟨hng, hnu, hnk, _, _⟩ := call_inside ho
  have hnew : busy o s.next = true → Precedes dep s t (s.stack t) (.inl j) := by
    intro hb
    obtain ⟨k', h1, h2⟩ := busy_iff.1 hb
    rw [hnk] at h1; cases h1
    cases k
    case predicate => exact absurd rfl h2
    all_goals exact ha
  have hin' : ∀ t' g, g ∈ upd s.stack t ((j, s.next) :: s.stack t) t' →
      (t' = t ∧ g = (j, s.next)) ∨ (g ∈ s.stack t' ∧ g.2 < s.next) := by
    intro t' g hm
    by_cases ht : t' = t
    · subst ht
      simp only [upd, if_true, List.mem_cons] at hm
      rcases hm with hm | hm
      · exact .inl ⟨rfl, hm⟩
      · exact .inr ⟨hm, (h.inside _ _ _ hm).1⟩
    · simp only [upd, ht, if_false] at hm
      exact .inr ⟨hm, (h.inside _ _ _ hm).1⟩
  have hsame : ∀ {t' g}, g ∈ s.stack t' → Same (s.obj g.1) (upd s.obj j o g.1) g.2 := fun hm => call_same h ho hm
  refine ⟨?_, h.lk, ?_, ?_, ?_, ?_, ?_, ?_, ?_, ?_, ?_⟩
  · intro i
    by_cases hi : i = j
    · subst hi; simp only [upd, if_true]; exact Calls.inv_step (hg.lazy i) (h.obj i) ho
    · simp only [upd, hi, if_false]; exact h.obj i
  · intro t' i p hm
    rcases hin' t' _ hm with ⟨rfl, hg⟩ | ⟨hm', hp⟩
    · cases hg
      exact ⟨by simp, by simp only [upd, if_true]; exact hng⟩
    · refine ⟨by simp only at hp ⊢; omega, ?_⟩
      have := (hsame hm').gone
      simp only at this ⊢
      rw [this]; exact (h.inside _ _ _ hm').2
  · intro i p hg
    by_cases hi : i = j ∧ p = s.next
    · obtain ⟨rfl, rfl⟩ := hi
      exact ⟨t, by simp [upd]⟩
    · have : gone (s.obj i) p = false := by
        by_cases hij : i = j
        · subst hij
          simp only [upd, if_true] at hg
          rw [← Same.gone (others (h.obj i) ho (q := p) (by simpa using hi))]; exact hg
        · simpa only [upd, hij, if_false] using hg
      obtain ⟨t', ht'⟩ := h.owner i p this
      refine ⟨t', ?_⟩
      by_cases ht : t' = t
      · subst ht; simp [upd, ht']
      · simpa [upd, ht] using ht'
  · intro t₁ t₂ i₁ i₂ p h1 h2
    rcases hin' _ _ h1 with ⟨rfl, hp⟩ | ⟨h1, hp1⟩ <;> rcases hin' _ _ h2 with ⟨rfl, hp'⟩ | ⟨h2, hp2⟩
    · cases hp; cases hp'; exact ⟨rfl, rfl⟩
    · cases hp; simp at hp2
    · cases hp'; simp at hp1
    · exact h.uniq _ _ _ _ _ h1 h2
  · intro t'
    by_cases ht : t' = t
    · subst ht
      simp only [upd, if_true, List.nodup_cons]
      refine ⟨?_, h.nodup t'⟩
      intro hm
      have := (h.inside _ _ _ hm).1
      omega
    · simpa only [upd, ht, if_false] using h.nodup t'
  · intro t' f g hf hg hf' hg'
    rcases hin' _ _ hf with ⟨rfl, rfl⟩ | ⟨hf1, _⟩ <;> rcases hin' _ _ hg with ⟨ht', rfl⟩ | ⟨hg1, _⟩
    · rfl
    · simp only [(hsame hg1).user] at hg'
      rw [hu.1 _ hg1] at hg'; cases hg'
    · subst ht'
      simp only [(hsame hf1).user] at hf'
      rw [hu.1 _ hf1] at hf'; cases hf'
    · simp only [(hsame hf1).user] at hf'
      simp only [(hsame hg1).user] at hg'
      exact h.one _ _ _ hf1 hg1 hf' hg'
  · intro t' hpc
    have ht : t' ≠ t := by
      rintro rfl
      exact hpc ((lidle_iff _).1 hu.2)
    have := h.free t' hpc
    simp only [atRest, List.all_eq_true] at this ⊢
    intro g hg
    simp only [upd_other _ _ ht] at hg
    simp only [(hsame hg).user]
    exact this g hg
  · intro t' f hf hb hr
    rcases hin' _ _ hf with ⟨rfl, rfl⟩ | ⟨hf1, _⟩
    · simp only [upd_same] at hb
      obtain ⟨h1, h2⟩ := hnew hb
      refine ⟨fun g hg hne => ?_, h2⟩
      rcases hin' _ _ hg with ⟨_, rfl⟩ | ⟨hg1, _⟩
      · exact absurd rfl hne
      · exact h1 g hg1
    · simp only [(hsame hf1).user] at hr
      simp only [(hsame hf1).busy] at hb
      have ht : t' ≠ t := by rintro rfl; rw [hu.1 _ hf1] at hr; cases hr
      obtain ⟨h1, h2⟩ := h.lazy _ _ hf1 hb hr
      refine ⟨fun g hg hne => ?_, h2⟩
      rcases hin' _ _ hg with ⟨h3, _⟩ | ⟨hg1, _⟩
      · exact absurd h3 ht
      · exact h1 g hg1 hne
  · intro t'
    have old : (s.stack t').Pairwise fun f g => busy (upd s.obj j o f.1) f.2 = true → dep (.inl g.1) (.inl f.1) :=
      (h.nest t').imp_of_mem fun hf _ hr he => hr (by rw [← (hsame hf).busy]; exact he)
    by_cases ht : t' = t
    · subst ht
      simp only [upd_same, List.pairwise_cons]
      exact ⟨fun g hg he => (hnew he).1 g hg, old⟩
    · simpa only [upd_other _ _ ht] using old
  · intro t' k hk f hf
    by_cases ht : t' = t
    · subst ht
      simp only [(lidle_iff _).1 hu.2, pcFields] at hk
      cases hk
    · simp only [upd_other _ _ ht] at hf
      exact h.over t' k hk f hf

/-- Only the end of a builder brings a call from the user back to the code of the library. -/
theorem user_finish {o o' : Calls.St V E} {p : Nat} {code : Kind → Option Body} {b : Calls.Act V E}
    (hs : Calls.step code o p b = some o') (hb : busy o p = true) (hu : atUser o p = true) : ∃ r, b = .finish r := by
  unfold atUser at hu
  cases hpc : o.pc p <;> simp only [hpc] at hu
  case keeps => simp [busy, hpc, kindOf] at hb
  case wait f m todo =>
    cases b with
    | call c => simp [Calls.step, Calls.invoke, hpc] at hs
    | go =>
      have := go_user (o := o) (p := p) hs
      simp only [atUser, hpc, hu] at this
      cases this
    | finish r => exact ⟨r, rfl⟩
    | drop => simp [Calls.step, Calls.dropGuard, hpc] at hs
  all_goals cases hu

theorem inv_move (hg : Good fal cl own lcl W lazyCode lockCode) {t : Nat} {f : F × Nat} {a : Act F L V W E}
    {b : Calls.Act V E} {o : Calls.St V E} (h : Inv fal cl own lcl eqv dep v₀ w₀ s) (ha : Allowed dep s t a)
    (hf : f ∈ s.stack t) (hu : alone s t f = true) (hlow : Lowers s t f a b)
    (ho : Calls.step (lazyCode f.1) (s.obj f.1) f.2 b = some o) : Inv fal cl own lcl eqv dep v₀ w₀ (settle s t f o) := by
  simp only [alone, Bool.and_eq_true, List.all_eq_true, Bool.or_eq_true, beq_iff_eq] at hu
  have hown : ∀ t', f ∈ s.stack t' → t' = t := fun t' hm => (h.uniq _ _ f.1 f.1 f.2 hm hf).1
  have hstay : ∀ t', f ∈ (settle s t f o).stack t' → gone o f.2 = false := by
    intro t' hm
    have := hown t' (settle_sub hm)
    subst this
    simp only [settle, upd, if_true] at hm
    cases hg : gone o f.2
    · rfl
    · rw [hg] at hm
      simp only [if_true] at hm
      exact absurd hm (fun hm => ((h.nodup t').mem_erase_iff.1 hm).1 rfl)
  have hsame : ∀ {g}, g ≠ f → Same (s.obj g.1) (upd s.obj f.1 o g.1) g.2 := fun hm => move_same h ho hm
  have hfg := (h.inside t f.1 f.2 hf).2
  refine ⟨?_, h.lk, ?_, ?_, ?_, ?_, ?_, ?_, ?_, ?_, ?_⟩
  · intro i
    by_cases hi : i = f.1
    · subst hi; simp only [settle, upd, if_true]; exact Calls.inv_step (hg.lazy _) (h.obj _) ho
    · simp only [settle, upd, hi, if_false]; exact h.obj i
  · intro t' i p hm
    have hm' := settle_sub hm
    refine ⟨(h.inside _ _ _ hm').1, ?_⟩
    by_cases hg : (i, p) = f
    · have := hstay t' (hg ▸ hm)
      subst hg
      simpa only [settle, upd, if_true] using this
    · have := (hsame hg).gone
      simp only [settle]; simp only at this; rw [this]; exact (h.inside _ _ _ hm').2
  · intro i p hg
    by_cases hip : (i, p) = f
    · subst hip
      simp only [settle, upd, if_true] at hg
      exact ⟨t, by simpa [settle, upd, hg] using hf⟩
    · have hpc := (hsame hip).gone
      simp only [settle] at hg
      simp only at hpc
      rw [hpc] at hg
      obtain ⟨t', ht'⟩ := h.owner i p hg
      refine ⟨t', ?_⟩
      by_cases ht : t' = t
      · subst ht
        simp only [settle, upd, if_true]
        split
        · exact (List.mem_erase_of_ne hip).2 ht'
        · exact ht'
      · simpa [settle, upd, ht] using ht'
  · intro t₁ t₂ i₁ i₂ q h1 h2
    exact h.uniq _ _ _ _ _ (settle_sub h1) (settle_sub h2)
  · intro t'
    by_cases ht : t' = t
    · subst ht
      simp only [settle, upd, if_true]
      split
      · exact (h.nodup t').erase _
      · exact h.nodup t'
    · simpa only [settle, upd, ht, if_false] using h.nodup t'
  · intro t' g g' hg hg' hug hug'
    have hm := settle_sub hg
    have hm' := settle_sub hg'
    by_cases ht : t' = t
    · subst ht
      have key : ∀ g, g ∈ s.stack t' → atUser ((settle s t' f o).obj g.1) g.2 = false → g = f := by
        intro g hg hug
        apply Classical.byContradiction
        intro hne
        simp only [settle, (hsame hne).user] at hug
        rcases hu.1 g hg with h1 | h1
        · exact hne h1
        · rw [h1] at hug; cases hug
      rw [key g hm hug, key g' hm' hug']
    · have hne : ∀ g, g ∈ s.stack t' → g ≠ f := by rintro g hgm rfl; exact ht (hown t' hgm)
      simp only [settle, (hsame (hne _ hm)).user] at hug
      simp only [settle, (hsame (hne _ hm')).user] at hug'
      exact h.one _ _ _ hm hm' hug hug'
  · intro t' hpc
    have ht : t' ≠ t := by
      rintro rfl
      exact hpc ((lidle_iff _).1 hu.2)
    have := h.free t' hpc
    simp only [atRest, List.all_eq_true] at this ⊢
    intro g hg
    have hm := settle_sub hg
    have hne : g ≠ f := by rintro rfl; exact ht (hown t' hm)
    simp only [settle, (hsame hne).user]
    exact this g hm
  · intro t' g hg hb hr
    have hm := settle_sub hg
    by_cases hgf : g = f
    · subst hgf
      have := hown t' hm
      subst this
      simp only [settle, upd_same] at hb hr
      have hb' := busy_step ho hb hfg
      cases hur : atUser (s.obj g.1) g.2 with
      | false =>
        obtain ⟨h2, h3⟩ := h.lazy t' g hm hb' hur
        exact ⟨fun g' hg' hne => h2 g' (settle_sub hg') hne, h3⟩
      | true =>
        obtain ⟨r, rfl⟩ := user_finish ho hb' hur
        cases hlow with
        | finish _ hin =>
          obtain ⟨h2, h3⟩ := ha g hin
          exact ⟨fun g' hg' hne => h2 g' ((List.mem_erase_of_ne hne).2 (settle_sub hg')), h3⟩
    · simp only [settle, (hsame hgf).user] at hr
      simp only [settle, (hsame hgf).busy] at hb
      obtain ⟨h2, h3⟩ := h.lazy t' g hm hb hr
      exact ⟨fun g' hg' hne => h2 g' (settle_sub hg') hne, h3⟩
  · intro t'
    have hsub : ((settle s t f o).stack t').Sublist (s.stack t') := by
      simp only [settle, upd]
      split
      · rename_i ht; subst ht
        split
        · exact List.erase_sublist
        · exact List.Sublist.refl _
      · exact List.Sublist.refl _
    refine (List.Pairwise.sublist hsub (h.nest t')).imp_of_mem ?_
    intro g g' hg _ hr he
    apply hr
    by_cases hgf : g = f
    · subst hgf
      simp only [settle, upd_same] at he
      exact busy_step ho he hfg
    · simpa only [settle, (hsame hgf).busy] using he
  · intro t' k hk g hg
    exact h.over t' k hk g (settle_sub hg)

theorem allowed_lock {t : Nat} {b : LockCalls.Act L W} (h : Allowed dep s t (.lock b)) :
    LockCalls.Allowed (fun i j => dep (.inr i) (.inr j)) s.lk t b ∧
    ∀ c k, b = .call c → k ∈ callFields c → ∀ f ∈ s.stack t, dep (.inl f.1) (.inr k) := by
  cases b with
  | call c =>
    cases c <;> simp only [Allowed] at h
    case helper | clone =>
      refine ⟨h.2, ?_⟩
      intro c k ho hk
      cases ho
      simp only [callFields, List.mem_singleton] at hk
      subst hk; exact h.1
    case eq =>
      refine ⟨⟨fun g hg => ⟨h.1.2 g hg, h.2.1.2 g hg⟩, h.2.2⟩, ?_⟩
      intro c k ho hk
      cases ho
      simp only [callFields, List.mem_cons, List.not_mem_nil, or_false] at hk
      rcases hk with rfl | rfl
      · exact h.1.1
      · exact h.2.1.1
    all_goals
      refine ⟨trivial, ?_⟩
      intro op k ho hk
      cases ho
      simp [callFields] at hk
  | _ => simp [LockCalls.Allowed]

theorem inv_lock (hg : Good fal cl own lcl W lazyCode lockCode) {t : Nat} {b : LockCalls.Act L W} {l : LockCalls.St L W}
    (h : Inv fal cl own lcl eqv dep v₀ w₀ s) (ha : Allowed dep s t (.lock b)) (hu : atRest s t = true)
    (hl : LockCalls.step lockCode eqv s.lk t b = some l) : Inv fal cl own lcl eqv dep v₀ w₀ { s with lk := l } := by
  obtain ⟨ha1, ha2⟩ := allowed_lock ha
  refine ⟨h.obj, LockCalls.inv_step hg.lock hg.plain h.lk ha1 hl, h.inside, h.owner, h.uniq, h.nodup, h.one, ?_, ?_, h.nest, ?_⟩
  · intro t' hpc
    by_cases ht : t' = t
    · subst ht; exact hu
    · simp only [(lothers hl ht).1] at hpc
      exact h.free t' hpc
  · intro t' f hf hb hr
    by_cases ht : t' = t
    · subst ht
      simp only [atRest, List.all_eq_true] at hu
      have h1 := hu f hf
      simp only at hr
      rw [hr] at h1; cases h1
    · simp only [(lothers hl ht).2.1]
      exact h.lazy t' f hf hb hr
  · intro t' k hk f hf
    by_cases ht : t' = t
    · subst ht
      rcases fields_step hl hk with h1 | ⟨c, rfl, h1⟩
      · exact h.over t' k h1 f hf
      · exact ha2 c k rfl h1 f hf
    · simp only [(lothers hl ht).1] at hk
      exact h.over t' k hk f hf

theorem inv_step (hg : Good fal cl own lcl W lazyCode lockCode) {t : Nat} {a : Act F L V W E}
    (h : Inv fal cl own lcl eqv dep v₀ w₀ s) (ha : Allowed dep s t a) (hs : step lazyCode lockCode eqv s t a = some s') :
    Inv fal cl own lcl eqv dep v₀ w₀ s' := by
  rcases step_cases hs with ⟨j, k, v, b, o, rfl, hu, ho, rfl⟩ | ⟨f, b, o, hf, hu, hlow, ho, rfl⟩ | ⟨b, l, rfl, hu, hl, rfl⟩
  · exact inv_call hg h ha hu ho
  · exact inv_move hg h ha hf hu hlow ho
  · exact inv_lock hg h ha hu hl

theorem inv_reach (hg : Good fal cl own lcl W lazyCode lockCode) (h : Reach lazyCode lockCode eqv dep v₀ w₀ s) :
    Inv fal cl own lcl eqv dep v₀ w₀ s := by
  induction h with
  | init => exact inv_init
  | step _ ha hs ih => exact inv_step hg ih ha hs

/-! ## Down to the containers -/

/-- What the threads do to the containers: calls between two operations of a body are not there. -/
def proj (s : St F L V W E) : Mixed.St F L V (Option W) E :=
  { obj := fun i => (s.obj i).c
    stack := fun t => (s.stack t).filter fun f => !Multi.gone ((s.obj f.1).c.pc f.2)
    next := s.next
    lk := s.lk.c }

theorem mem_proj {t : Nat} {f : F × Nat} :
    f ∈ (proj s).stack t ↔ f ∈ s.stack t ∧ Multi.gone ((s.obj f.1).c.pc f.2) = false := by
  simp [proj]

theorem proj_inv (h : Inv fal cl own lcl eqv dep v₀ w₀ s) : Mixed.Inv eqv v₀ w₀ (proj s) := by
  have user : ∀ f : F × Nat, Mixed.atUser ((s.obj f.1).c.pc f.2) = false → atUser (s.obj f.1) f.2 = false := by
    intro f hf
    cases hu : atUser (s.obj f.1) f.2 with
    | false => rfl
    | true => rw [user_user (h.obj _) hu] at hf; cases hf
  constructor
  · exact fun i => (h.obj i).reach
  · exact lreach_mono h.lk.reach fun _ _ _ => trivial
  · intro t i p hm
    obtain ⟨h1, h2⟩ := mem_proj.1 hm
    exact ⟨(h.inside t i p h1).1, h2⟩
  · intro i p hg
    have hg' : gone (s.obj i) p = false := by
      cases hx : gone (s.obj i) p with
      | false => rfl
      | true =>
        have hc := gone_gone (h.obj i) hx
        simp only [proj] at hg
        rw [hc] at hg; cases hg
    obtain ⟨t, ht⟩ := h.owner i p hg'
    exact ⟨t, mem_proj.2 ⟨ht, hg⟩⟩
  · intro t t' i i' p h1 h2
    exact h.uniq t t' i i' p (mem_proj.1 h1).1 (mem_proj.1 h2).1
  · intro t
    exact (h.nodup t).filter _
  · intro t f g hf hg hfu hgu
    exact h.one t f g (mem_proj.1 hf).1 (mem_proj.1 hg).1 (user f hfu) (user g hgu)
  · intro t hp
    have hne : s.lk.pc t ≠ .idle := fun hc => hp (lidle_idle h.lk hc)
    have := h.free t hne
    simp only [atRest, Mixed.atRest, List.all_eq_true] at this ⊢
    intro f hf
    exact user_user (h.obj _) (this f (mem_proj.1 hf).1)

theorem proj_ord (h : Inv fal cl own lcl eqv dep v₀ w₀ s) : Mixed.Ord dep (proj s) := by
  constructor
  · intro t f hf hr
    have hf' := (mem_proj.1 hf).1
    have hr' : Mixed.running ((s.obj f.1).c.pc f.2) = true := hr
    have hb := entered_busy (p := f.2) (h.obj f.1) (by simp [Mixed.entered, hr'])
    have hu : atUser (s.obj f.1) f.2 = false := by
      cases hu : atUser (s.obj f.1) f.2 with
      | false => rfl
      | true => have := user_user (h.obj _) hu; rw [Mixed.running_user hr'] at this; cases this
    obtain ⟨h1, h2⟩ := h.lazy t f hf' hb hu
    exact ⟨fun g hg hne => h1 g (mem_proj.1 hg).1 hne, h2⟩
  · intro t
    have : ((proj s).stack t).Sublist (s.stack t) := List.filter_sublist
    refine (List.Pairwise.sublist this (h.nest t)).imp_of_mem ?_
    intro f g hf _ hr he
    exact hr (entered_busy (p := f.2) (h.obj f.1) he)
  · intro t k hk f hf
    exact h.over t k (targets_fields h.lk hk) f (mem_proj.1 hf).1
  · exact Locks.ord_reach h.lk.reach

theorem proj_waits {t u : Nat} (h : Mixed.WaitsFor (proj s) t u) : WaitsFor s t u := by
  cases h with
  | owner h1 h2 h3 h4 => exact .owner (mem_proj.1 h1).1 h2 h3 (mem_proj.1 h4).1
  | upgrader h1 h2 h3 h4 => exact .upgrader (mem_proj.1 h1).1 h2 h3 (mem_proj.1 h4).1
  | reader h1 h2 h3 h4 => exact .reader (mem_proj.1 h1).1 h2 h3 (mem_proj.1 h4).1
  | lock h => exact .lock h

theorem proj_stuck (h : Inv fal cl own lcl eqv dep v₀ w₀ s) {t : Nat} (hs : Stuck eqv s t) : Mixed.Stuck eqv (proj s) t := by
  rcases hs with ⟨f, hf, hu, hgo⟩ | ⟨hp, hgo⟩
  · obtain ⟨h1, h2, h3⟩ := go_none (h.obj f.1) hu (h.inside t f.1 f.2 hf).2 hgo
    refine .inl ⟨f, mem_proj.2 ⟨hf, ?_⟩, h2, h3⟩
    revert h1
    cases (s.obj f.1).c.pc f.2 <;> simp [Multi.gone]
  · exact .inr (lgo_none h.lk hp hgo)

theorem proj_inside (h : Inv fal cl own lcl eqv dep v₀ w₀ s) {t : Nat} (ht : Mixed.Inside (proj s) t) : Inside s t := by
  rcases ht with ht | ht | ht
  · refine .inl fun hc => ht ?_
    simp [proj, hc]
  · exact .inr (.inl fun hc => ht (lidle_idle h.lk hc))
  · exact .inr (.inr ht)

theorem step_other {t u : Nat} {a : Act F L V W E} (hs : step lazyCode lockCode eqv s t a = some s') (hu : u ≠ t) :
    s'.stack u = s.stack u ∧ s'.lk.pc u = s.lk.pc u ∧ s'.lk.c.held u = s.lk.c.held u := by
  rcases step_cases hs with ⟨j, k, v, b, o, _, _, ho, rfl⟩ | ⟨f, b, o, hf, _, _, ho, rfl⟩ | ⟨b, l, _, _, hl, rfl⟩
  · simp [upd, hu]
  · simp [settle, upd, hu]
  · exact ⟨rfl, (lothers hl hu).1, (lothers hl hu).2.1⟩

theorem finite_inside (h : Reach lazyCode lockCode eqv dep v₀ w₀ s) : ∃ n, ∀ t, n ≤ t → ¬ Inside s t := by
  induction h with
  | init => exact ⟨0, fun t _ => by simp [Inside, init, LockCalls.init, Locks.init]⟩
  | step hr ha hs ih =>
    rename_i t a
    obtain ⟨n, hn⟩ := ih
    refine ⟨max n (t + 1), fun u hu => ?_⟩
    have hut : u ≠ t := by omega
    obtain ⟨h1, h2, h3⟩ := step_other hs hut
    have := hn u (by omega)
    simpa [Inside, h1, h2, h3] using this

/-- From every stuck thread a chain of waiting leads to one which is inside and can move. -/
theorem chain (hg : Good fal cl own lcl W lazyCode lockCode) (hac : ∀ r, ¬ Relation.TransGen dep r r)
    (hr : Reach lazyCode lockCode eqv dep v₀ w₀ s) {t : Nat} (ht : Stuck eqv s t) :
    ∃ u, Relation.TransGen (WaitsFor s) t u ∧ Inside s u ∧ ¬ Stuck eqv s u := by
  have h := inv_reach hg hr
  obtain ⟨r, hw⟩ := Mixed.stuck_wants (proj_inv h) (proj_stuck h ht)
  obtain ⟨n, hn⟩ := finite_inside hr
  have hfin : ∃ n, ∀ t, n ≤ t → ¬ Mixed.Inside (proj s) t := ⟨n, fun t ht hin => hn t ht (proj_inside h hin)⟩
  obtain ⟨u, h1, h2, h3⟩ := Mixed.chain (proj_inv h) (proj_ord h) (Mixed.wf_of_finite hac hfin) r t hw
  exact ⟨u, Relation.TransGen.mono (r := Mixed.WaitsFor (proj s)) (p := WaitsFor s) (fun _ _ => proj_waits) _ _ h1, proj_inside h h2, fun hs => h3 (proj_stuck h hs)⟩

/-! ## Going on -/

/-- A thread which is inside and not stuck can go on without beginning anything. -/
theorem quiet_enabled (hi : Inv fal cl own lcl eqv dep v₀ w₀ s) {t : Nat} (ht : Inside s t) (hs : ¬ Stuck eqv s t) :
    ∃ (a : Act F L V W E) (s' : St F L V W E), quiet a = true ∧ Allowed dep s t a ∧
      step lazyCode lockCode eqv s t a = some s' := by
  by_cases hp : s.lk.pc t = .idle
  · by_cases hr : atRest s t = true
    · have hturn : turn s t = true := by simp [turn, hr, hp, idle]
      simp only [atRest, List.all_eq_true] at hr
      by_cases hd : ∃ f ∈ s.stack t, (s.obj f.1).pc f.2 = .keeps
      · obtain ⟨f, hf, hh⟩ := hd
        have hl := (hi.obj f.1).loc f.2
        rw [hh] at hl
        have hgd : Calls.isGuard ((s.obj f.1).c.pc f.2) = true := by
          revert hl
          generalize (s.obj f.1).c.pc f.2 = x
          generalize (s.obj f.1).c.value = v
          intro hl
          cases hl with
          | keeps h => exact h
        obtain ⟨c', hc'⟩ := Calls.isGuard_drop hgd
        exact ⟨.drop f, _, rfl, trivial, by simp only [step, hf, hturn, Calls.step, Calls.dropGuard, hh, hc']; rfl⟩
      · have hb : ∀ f ∈ s.stack t, Multi.building ((s.obj f.1).c.pc f.2) = true ∧ ∃ fr m todo, (s.obj f.1).pc f.2 = .wait fr m todo := by
          intro f hf
          have h1 := hr f hf
          have h2 : (s.obj f.1).pc f.2 ≠ .keeps := fun h => hd ⟨f, hf, h⟩
          unfold atUser at h1
          cases hx : (s.obj f.1).pc f.2 <;> simp only [hx] at h1
          case keeps => exact absurd hx h2
          case wait => exact ⟨h1, _, _, _, rfl⟩
          all_goals cases h1
        cases hh : s.lk.c.held t with
        | cons g gs =>
          have hr' : atRest s t = true := by simp only [atRest, List.all_eq_true]; exact hr
          obtain ⟨c', hc'⟩ := LockCalls.drop_enabled (c := s.lk.c) (p := t) (g := g) (lidle_idle hi.lk hp) (by rw [hh]; exact .head _)
          exact ⟨.lock (.drop g), _, rfl, trivial, by
            simp only [step, hr', LockCalls.step, LockCalls.dropGuard, hp, hc']; rfl⟩
        | nil =>
          cases hst : s.stack t with
          | nil => rcases ht with ht | ht | ht
                   · exact absurd hst ht
                   · exact absurd hp ht
                   · exact absurd hh ht
          | cons f rest =>
            obtain ⟨hbf, fr, m, todo, hw⟩ := hb f (by rw [hst]; exact .head _)
            have hin : innermost s t = some f := by simp [innermost, hst, hbf]
            have hn := hi.nest t
            rw [hst, List.pairwise_cons] at hn
            have hal : Allowed dep s t (.finish .panic : Act F L V W E) := by
              intro f' hf'
              rw [hin] at hf'; cases hf'
              rw [hst, List.erase_cons_head]
              exact ⟨fun g hg => hn.1 g hg (entered_busy (hi.obj f.1) (by simp [Mixed.entered, hbf])), by simp [hh]⟩
            have : ∃ c', Sync.builderReturns (s.obj f.1).c f.2 .panic = some c' := by
              unfold Sync.builderReturns
              revert hbf
              cases (s.obj f.1).c.pc f.2 <;> simp [Multi.building]
            obtain ⟨c', hc'⟩ := this
            exact ⟨.finish .panic, _, rfl, hal, by simp only [step, hin, hturn, Calls.step, Calls.finish, hw, hc']; rfl⟩
    · have : ∃ f ∈ s.stack t, atUser (s.obj f.1) f.2 = false := by
        simp only [atRest, List.all_eq_true] at hr
        apply Classical.byContradiction
        intro hn
        apply hr
        intro f hf
        cases hx : atUser (s.obj f.1) f.2
        · exact absurd ⟨f, hf, hx⟩ hn
        · rfl
      obtain ⟨f, hf, hu⟩ := this
      have hal : alone s t f = true := by
        simp only [alone, hp, idle, Bool.and_true, List.all_eq_true, Bool.or_eq_true, beq_iff_eq]
        intro g hg
        cases hx : atUser (s.obj g.1) g.2
        · exact .inl (hi.one t g f hg hf hx hu)
        · exact .inr rfl
      cases hg : Calls.go (s.obj f.1) f.2 with
      | none => exact absurd (.inl ⟨f, hf, hu, hg⟩) hs
      | some o => exact ⟨.go f, _, rfl, trivial, by simp only [step, hf, hal, Calls.step, hg]; rfl⟩
  · have hr := hi.free t hp
    cases hg : LockCalls.go eqv s.lk t with
    | none => exact absurd (.inr ⟨hp, hg⟩) hs
    | some l => exact ⟨.lock .go, _, rfl, trivial, by simp only [step, hr, LockCalls.step, hg]; rfl⟩

/-! ## Steps left -/

/-- Steps left for the call `f`. -/
def left (s : St F L V W E) (f : F × Nat) : Nat := Calls.weight ((s.obj f.1).pc f.2) ((s.obj f.1).c.pc f.2)

/-- Steps thread `t` can still make. -/
def weight (s : St F L V W E) (t : Nat) : Nat := ((s.stack t).map (left s)).sum + LockCalls.hload s.lk t

theorem weight_le (hi : Inv fal cl own lcl eqv dep v₀ w₀ s) (t : Nat) :
    weight s t ≤ 79 * (s.stack t).length + 27 + (s.lk.c.held t).length := by
  have h1 : ((s.stack t).map (left s)).sum ≤ 79 * (s.stack t).length := by
    induction s.stack t with
    | nil => simp
    | cons f l ih =>
      have := Calls.weight_le (hi.obj f.1) f.2
      simp only [List.map_cons, List.sum_cons, List.length_cons, left] at ih ⊢
      omega
  have h2 := LockCalls.hload_le hi.lk t
  simp only [weight]
  omega

theorem weight_step {t : Nat} {a : Act F L V W E} (hi : Inv fal cl own lcl eqv dep v₀ w₀ s) (ha : quiet a = true)
    (hs : step lazyCode lockCode eqv s t a = some s') :
    weight s' t < weight s t ∧ ∀ u, u ≠ t → weight s' u = weight s u := by
  rcases step_cases hs with ⟨j, k, v, b, o, rfl, _⟩ | ⟨f, b, o, hf, _, hlow, ho, rfl⟩ | ⟨b, l, rfl, _, hl, rfl⟩
  · simp [quiet] at ha
  · have hb' : ∀ op, b ≠ .call op := by
      rintro op rfl
      cases hlow; simp [quiet] at ha
    have hr := (Calls.less_step (hi.obj f.1) hb' ho).1
    have hother : ∀ l : List (F × Nat), f ∉ l → l.map (left (settle s t f o)) = l.map (left s) := by
      intro l hl
      apply List.map_congr_left
      intro g hg
      have := move_same hi ho (g := g) (by rintro rfl; exact hl hg)
      simp only [left, settle, this.1, this.2]
    have hfs : left (settle s t f o) f = Calls.weight (o.pc f.2) (o.c.pc f.2) := by simp [left, settle]
    have hne : f ∉ (s.stack t).erase f := fun hm => ((hi.nodup t).mem_erase_iff.1 hm).1 rfl
    have hper := List.perm_cons_erase hf
    refine ⟨?_, ?_⟩
    · have hw : weight s t = left s f + (((s.stack t).erase f).map (left s)).sum + LockCalls.hload s.lk t := by
        simp only [weight]
        rw [(hper.map _).sum_nat]
        simp
      have hle : (((settle s t f o).stack t).map (left (settle s t f o))).sum ≤
          Calls.weight (o.pc f.2) (o.c.pc f.2) + (((s.stack t).erase f).map (left s)).sum := by
        have he : (settle s t f o).stack t = if gone o f.2 then (s.stack t).erase f else s.stack t := by simp [settle]
        rw [he]
        split
        · rw [hother _ hne]; omega
        · rw [(hper.map _).sum_nat]
          simp only [List.map_cons, List.sum_cons, hfs]
          rw [hother _ hne]; omega
      rw [hw]
      simp only [weight]
      have : LockCalls.hload (settle s t f o).lk t = LockCalls.hload s.lk t := rfl
      have : left s f = Calls.weight ((s.obj f.1).pc f.2) ((s.obj f.1).c.pc f.2) := rfl
      omega
    · intro u hu
      have hfu : f ∉ s.stack u := fun hm => hu (hi.uniq _ _ f.1 f.1 f.2 hm hf).1
      have he : (settle s t f o).stack u = s.stack u := by simp [settle, upd, hu]
      simp only [weight, he]
      rw [hother _ hfu]; rfl
  · have hq : LockCalls.hquiet b = true := by cases b <;> simp_all [quiet, LockCalls.hquiet]
    have h1 := LockCalls.hload_step hq hl
    refine ⟨by have := h1.1; simp only [weight]; have : left { s with lk := l } = left s := rfl; rw [this]; omega, ?_⟩
    intro u hu
    have h2 := h1.2 u hu
    have : left { s with lk := l } = left s := rfl
    simp only [weight, this, LockCalls.hload, Locks.load, h2.1, h2.2.1, h2.2.2]

/-- Steps left over all threads of a list. -/
def total (s : St F L V W E) (ts : List Nat) : Nat := (ts.map (weight s)).sum

theorem total_step {t : Nat} {a : Act F L V W E} (hi : Inv fal cl own lcl eqv dep v₀ w₀ s) (ha : quiet a = true)
    (hs : step lazyCode lockCode eqv s t a = some s') {ts : List Nat} (hn : ts.Nodup) (ht : t ∈ ts) :
    total s' ts < total s ts := by
  obtain ⟨h1, h2⟩ := weight_step hi ha hs
  induction ts with
  | nil => simp at ht
  | cons q ts ih =>
    simp only [List.nodup_cons] at hn
    simp only [total, List.map_cons, List.sum_cons] at ih ⊢
    by_cases hq : q = t
    · subst hq
      have : ts.map (weight s') = ts.map (weight s) := by
        apply List.map_congr_left
        intro r hr
        rw [h2 r (by rintro rfl; exact hn.1 hr)]
      rw [this]; omega
    · have := ih hn.2 (by simpa [Ne.symm hq] using ht)
      rw [h2 q hq]; omega

/-- Only a thread which is inside can go on with something. -/
theorem quiet_inside {t : Nat} {a : Act F L V W E} (hi : Inv fal cl own lcl eqv dep v₀ w₀ s) (ha : quiet a = true)
    (hs : step lazyCode lockCode eqv s t a = some s') : Inside s t := by
  have := (weight_step hi ha hs).1
  apply Classical.byContradiction
  intro hn
  simp only [Inside, not_or, Classical.not_not] at hn
  have hc := lidle_idle hi.lk hn.2.1
  simp [weight, LockCalls.hload, Locks.load, hn.1, hn.2.1, hn.2.2, hc, Locks.left, LockCalls.hleft] at this

/-! ## The record -/

variable {g : List (Tagged F L V W E)}

theorem trace_reach (h : Trace lazyCode lockCode eqv dep v₀ w₀ s g) : Reach lazyCode lockCode eqv dep v₀ w₀ s := by
  induction h with
  | init => exact .init
  | step _ ha hs ih => exact .step ih ha hs

/-- The record of the helpers. -/
def HRec (s : St F L V W E) (g : List (Tagged F L V W E)) : Prop :=
  Whole.Rec (fun i => (s.obj i).log) s.lk.log s.next (fun i p => ∃ t, (i, p) ∈ s.stack t) g

theorem settle_rec {t : Nat} {f : F × Nat} {o : Calls.St V E} {a : Calls.Act V E} (h : HRec s g) (hf : f ∈ s.stack t)
    (hs : Calls.step (lazyCode f.1) (s.obj f.1) f.2 a = some o) :
    HRec (settle s t f o) (g ++ (Whole.added (s.obj f.1).log ((settle s t f o).obj f.1).log).map (.lazy f.1)) := by
  have e : (settle s t f o).obj f.1 = o := by simp [settle]
  rw [e]
  refine Whole.Rec.onLazy h (grows hs) (.inr ⟨⟨t, hf⟩, rfl⟩) ?_ ?_
  · funext j
    by_cases hj : j = f.1
    · subst hj; simp [settle, upd]
    · simp [settle, upd, hj]
  · rintro j q ⟨u, hu⟩
    exact .inl ⟨u, settle_sub hu⟩

theorem hrec (h : Trace lazyCode lockCode eqv dep v₀ w₀ s g) : HRec s g := by
  induction h with
  | init =>
    constructor
    · intro i; rfl
    · rfl
    · intro _ _ _ h; cases h
    · rintro _ _ ⟨t, ht⟩; cases ht
    · rintro _ _ ⟨t, ht⟩; cases ht
    · rintro _ _ _ ⟨t, ht⟩; cases ht
    · intro _ _ _ _ _ h; cases h
  | @step s s' g t a ht ha hs ih =>
    rcases step_cases hs with ⟨j, k, v, b, o, rfl, _, ho, rfl⟩ | ⟨f, b, o, hf, _, hlow, ho, rfl⟩ | ⟨b, l, rfl, _, hl, rfl⟩
    · simp only [news, upd_same]
      refine Whole.Rec.onLazy ih (p := s.next) (grows ho) (.inl ⟨rfl, rfl⟩) ?_ ?_
      · funext k
        by_cases hk : k = j
        · subst hk; simp [upd]
        · simp [upd, hk]
      · rintro k q ⟨u, hu⟩
        simp only [upd] at hu
        split at hu
        · rename_i hut; subst hut
          rcases List.mem_cons.1 hu with h1 | h1
          · cases h1; exact .inr ⟨rfl, rfl⟩
          · exact .inl ⟨_, h1⟩
        · exact .inl ⟨u, hu⟩
    · have := settle_rec ih hf ho
      cases hlow with
      | finish _ hin => simp only [news, hin]; exact this
      | _ => exact this
    · exact Whole.Rec.onLock ih (lgrows hl) (Nat.le_refl _) fun _ _ h => h

theorem all (hg : Good fal cl own lcl W lazyCode lockCode) (h : Trace lazyCode lockCode eqv dep v₀ w₀ s g) :
    ∃ T τ, Disc (Model.Whole.whole g) T ∧
      Legal (Spec.Whole.Step (fun i => Spec.Calls.CallStep (fal i) (cl i)) (Spec.LockCalls.CallStep own lcl eqv)) ⟨v₀, w₀⟩
        (lins (Model.Whole.whole g)) τ ∧
      ((∀ t, s.stack t = []) → τ = ⟨fun i => (s.obj i).c.value, s.lk.c.val⟩) := by
  have hi := inv_reach hg (trace_reach h)
  refine (hrec h).all (fun i => ?_) ⟨_, hi.lk.disc, hi.lk.legal⟩
  obtain ⟨c, h1, h2⟩ := (hi.obj i).legal
  refine ⟨_, c, (hi.obj i).disc, h2, fun hq => ?_⟩
  obtain ⟨_, c', h3, _, h4⟩ := Sync.logInv_reach (hi.obj i).reach
  have : c = c' := legal_det h1 h3
  subst this
  refine h4 fun p => ?_
  have hgone : gone (s.obj i) p = true := by
    cases hx : gone (s.obj i) p with
    | true => rfl
    | false =>
      obtain ⟨t, ht⟩ := hi.owner i p hx
      rw [hq t] at ht; cases ht
  rw [gone_gone (hi.obj i) hgone]; rfl

end Verif.Proof.Threads
