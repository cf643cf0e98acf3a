import Verif.Proof.BuilderField
import Verif.Proof.InitTy
/-
The builder as a whole: checks and construction over the list of fields.
-/
namespace Verif.Proof.Builder
open Verif.Model.Args Verif.Model.Init Verif.Model.Builder Verif.Spec.InitTy Verif.Proof.BuilderField

variable {V : Type}

/-- There is code for every field of the builder. -/
def Compiles (c : Ctx) : Prop :=
  ∀ f ∈ builderFields c, (∃ τ, declType ⟨c, f⟩ = .ok τ) ∧ ∃ e, builderInit ⟨c, f⟩ = .ok e

/-- A state the builder can be in: only fields with a setter have values. -/
def Settable (c : Ctx) (s : Slots V) : Prop :=
  ∀ n, s n ≠ none → ∃ f ∈ builderFields c, f.ident = n ∧ hasSetter ⟨c, f⟩ = true

theorem not_skipped {c : Ctx} {f : FieldArgs} (h : f ∈ builderFields c) : f.isSkipped = false := by
  have := (List.mem_filter.mp h).2
  simpa using this

theorem runCheckers_some {c : Ctx} {s : Slots V} {fs : List FieldArgs} {n : String} :
    runCheckers c s fs = some n ↔ ∃ pre f post, fs = pre ++ f :: post ∧ f.ident = n ∧ hasChecker ⟨c, f⟩ = true ∧
      s n = none ∧ ∀ g ∈ pre, hasChecker ⟨c, g⟩ = true → s g.ident ≠ none := by
  induction fs with
  | nil => simp [runCheckers]
  | cons f fs ih =>
    unfold runCheckers
    split
    · rename_i h
      simp only [Bool.and_eq_true, Option.isNone_iff_eq_none] at h
      constructor
      · intro hn
        simp only [Option.some.injEq] at hn
        subst hn
        exact ⟨[], f, fs, rfl, rfl, h.1, h.2, by simp⟩
      · rintro ⟨pre, g, post, he, hid, hc, hs, hp⟩
        cases pre with
        | nil => simp only [List.nil_append, List.cons.injEq] at he; rw [he.1, hid]
        | cons a pre =>
          simp only [List.cons_append, List.cons.injEq] at he
          obtain ⟨rfl, _⟩ := he
          exact absurd h.2 (hp f (by simp) h.1)
    · rename_i h
      rw [ih]
      constructor
      · rintro ⟨pre, g, post, rfl, hid, hc, hs, hp⟩
        refine ⟨f :: pre, g, post, rfl, hid, hc, hs, ?_⟩
        intro a ha
        cases ha with
        | head =>
          intro hca hsa
          exact h (by simp [hca, hsa])
        | tail _ ha => exact hp a ha
      · rintro ⟨pre, g, post, he, hid, hc, hs, hp⟩
        cases pre with
        | nil =>
          simp only [List.nil_append, List.cons.injEq] at he
          obtain ⟨rfl, _⟩ := he
          exact absurd (by simp [hc, hid, hs]) h
        | cons a pre =>
          simp only [List.cons_append, List.cons.injEq] at he
          obtain ⟨rfl, rfl⟩ := he
          exact ⟨pre, g, post, rfl, hid, hc, hs, fun b hb => hp b (by simp [hb])⟩

theorem runCheckers_none {c : Ctx} {s : Slots V} {fs : List FieldArgs} :
    runCheckers c s fs = none ↔ ∀ f ∈ fs, hasChecker ⟨c, f⟩ = true → s f.ident ≠ none := by
  induction fs with
  | nil => simp [runCheckers]
  | cons f fs ih =>
    unfold runCheckers
    split
    · rename_i h
      simp only [Bool.and_eq_true, Option.isNone_iff_eq_none] at h
      constructor
      · intro h; cases h
      · intro h'; exact absurd h.2 (h' f (by simp) h.1)
    · rename_i h
      rw [ih]
      constructor
      · intro h' g hg hc
        cases hg with
        | head => intro hs; exact h (by simp [hc, hs])
        | tail _ hg => exact h' g hg hc
      · intro h' g hg; exact h' g (by simp [hg])

theorem construct_not_err {c : Ctx} {w : String → Env V} {fs : List FieldArgs} {n : String} :
    ∀ {s : Slots V}, (construct c w s fs).1 ≠ .err n := by
  induction fs with
  | nil => intro s; simp [construct]
  | cons f fs ih =>
    intro s
    unfold construct
    split
    · split
      · rename_i o _
        have := @ih (s.put f.ident o)
        split
        · simp
        · assumption
      · simp
      · simp
    · simp

/-- What one field ends up with, and what becomes of its slot. -/
structure FieldRes (c : Ctx) (w : String → Env V) (s : Slots V) (f : FieldArgs) (a : Val V) : Prop where
  ty : ∀ τ, declType ⟨c, f⟩ = .ok τ → ValTy a τ
  given : ∀ v, hasSetter ⟨c, f⟩ = true → s f.ident = some v → content a = some v
  absent : (hasSetter ⟨c, f⟩ = false ∨ s f.ident = none) → content a = defaultContent ⟨c, f⟩ (w f.ident)

/-- Will this field's initialiser panic? -/
def FieldPanics (c : Ctx) (s : Slots V) (f : FieldArgs) : Prop := PanicsWhenEmpty ⟨c, f⟩ = true ∧ s f.ident = none

theorem panics_setter {x : FCtx} (h : PanicsWhenEmpty x = true) : hasSetter x = true ∧ hasChecker x = false := by
  unfold PanicsWhenEmpty at h
  simp only [Bool.and_eq_true, Bool.not_eq_true'] at h
  simp [hasSetter, hasChecker, h]

/-- One field in `build()` after the checks. -/
theorem field_step {c : Ctx} {w : String → Env V} {s : Slots V} {f : FieldArgs}
    (hk : f.isSkipped = false) {τ : Ty} (ht : declType ⟨c, f⟩ = .ok τ) {e : IE} (he : builderInit ⟨c, f⟩ = .ok e)
    (hty : HasTy { slot := true } false e τ)
    (hc : hasChecker ⟨c, f⟩ = true → s f.ident ≠ none) :
    (FieldPanics c s f ∧ eval τ (w f.ident) (s f.ident) e = (.panic, none)) ∨
    (¬ FieldPanics c s f ∧ ∃ a, eval τ (w f.ident) (s f.ident) e =
      (.ok a, if hasSetter ⟨c, f⟩ then none else s f.ident) ∧ FieldRes c w s f a) := by
  have hsound := Verif.Proof.InitTy.eval_sound (V := V) hty (w f.ident) (s f.ident)
    ⟨fun τ h => (by cases h), fun τ h => (by cases h), fun h => (by cases h)⟩
  have htyA : ∀ a, (eval τ (w f.ident) (s f.ident) e).1 = .ok a → ∀ σ, declType ⟨c, f⟩ = .ok σ → ValTy a σ := by
    intro a ha σ hσ
    rw [ha] at hsound
    rw [ht] at hσ; cases hσ
    exact hsound
  cases hset : hasSetter ⟨c, f⟩ with
  | false =>
    right
    obtain ⟨a, h1, h2⟩ := builder_noSetter ⟨c, f⟩ hk ht he hset (w f.ident) (s f.ident)
    refine ⟨fun hp => ?_, a, by simpa using h1, htyA a (by rw [h1]), fun v hs => (by rw [hset] at hs; cases hs), fun _ => h2⟩
    have := (panics_setter hp.1).1
    rw [hset] at this; cases this
  | true =>
    cases hs : s f.ident with
    | some v =>
      right
      obtain ⟨a, h1, h2⟩ := builder_some ⟨c, f⟩ hk ht he hset (w f.ident) v
      refine ⟨fun hp => (by have := hp.2; rw [hs] at this; cases this), a, by simpa using h1,
        htyA a (by rw [hs, h1]), fun v' _ hs' => (by rw [hs] at hs'; cases hs'; exact h2), fun h => ?_⟩
      rcases h with h | h
      · rw [hset] at h; cases h
      · rw [hs] at h; cases h
    | none =>
      have hcf : hasChecker ⟨c, f⟩ = false := by
        cases hh : hasChecker ⟨c, f⟩ with
        | false => rfl
        | true => exact absurd hs (hc hh)
      have hn := builder_none ⟨c, f⟩ hk ht he hset hcf (w f.ident)
      cases hp : PanicsWhenEmpty ⟨c, f⟩ with
      | true => left; exact ⟨⟨hp, hs⟩, hn.1 hp⟩
      | false =>
        right
        obtain ⟨a, h1, h2⟩ := hn.2 hp
        refine ⟨fun hp' => (by have := hp'.1; rw [hp] at this; cases this), a, by simpa using h1,
          htyA a (by rw [hs, h1]), fun v' _ hs' => (by rw [hs] at hs'; cases hs'), fun _ => h2⟩

theorem put_other {s : Slots V} {n m : String} {o : Option V} (h : m ≠ n) : (s.put n o) m = s m := by
  simp [Slots.put, h]

theorem put_same {s : Slots V} {n : String} {o : Option V} : (s.put n o) n = o := by simp [Slots.put]

/-- Every field is described, in order. -/
inductive Described (c : Ctx) (w : String → Env V) (s : Slots V) : List FieldArgs → List (String × Val V) → Prop
  | nil : Described c w s [] []
  | cons {f fs a rest} : FieldRes c w s f a → Described c w s fs rest → Described c w s (f :: fs) ((f.ident, a) :: rest)

theorem FieldRes.congr {c : Ctx} {w : String → Env V} {s s' : Slots V} {f : FieldArgs} {a : Val V}
    (h : s' f.ident = s f.ident) (hr : FieldRes c w s f a) : FieldRes c w s' f a :=
  ⟨hr.ty, fun v hs hv => hr.given v hs (by rw [← h]; exact hv), fun hh => hr.absent (by rw [← h]; exact hh)⟩

theorem Described.congr {c : Ctx} {w : String → Env V} {s s' : Slots V} {fs : List FieldArgs}
    {obj : List (String × Val V)} (h : ∀ f ∈ fs, s' f.ident = s f.ident) (hd : Described c w s fs obj) :
    Described c w s' fs obj := by
  induction hd with
  | nil => exact .nil
  | cons hr _ ih => exact .cons (hr.congr (h _ (by simp))) (ih (fun f hf => h f (by simp [hf])))

/-- The construction: either it panics at the first field that has to, or it gives the described object and empties the
slots of all fields with setters. -/
theorem construct_spec {c : Ctx} {w : String → Env V} : ∀ {fs : List FieldArgs} {s : Slots V},
    (fs.map (·.ident)).Nodup →
    (∀ f ∈ fs, f.isSkipped = false ∧ (∃ τ, declType ⟨c, f⟩ = .ok τ) ∧ (∃ e, builderInit ⟨c, f⟩ = .ok e) ∧
      (∀ τ e, declType ⟨c, f⟩ = .ok τ → builderInit ⟨c, f⟩ = .ok e → HasTy { slot := true } false e τ) ∧
      (hasChecker ⟨c, f⟩ = true → s f.ident ≠ none)) →
    ((∃ f ∈ fs, FieldPanics c s f) ∧ (construct c w s fs).1 = .panic) ∨
    ((∀ f ∈ fs, ¬ FieldPanics c s f) ∧ ∃ obj, (construct c w s fs).1 = .ok obj ∧ Described c w s fs obj ∧
      (∀ f ∈ fs, hasSetter ⟨c, f⟩ = true → (construct c w s fs).2 f.ident = none) ∧
      (∀ n, (∀ f ∈ fs, f.ident = n → hasSetter ⟨c, f⟩ = false) → (construct c w s fs).2 n = s n)) := by
  intro fs
  induction fs with
  | nil =>
    intro s _ _
    exact .inr ⟨by simp, [], rfl, .nil, by simp, by simp [construct]⟩
  | cons f fs ih =>
    intro s hnd h
    obtain ⟨hk, ⟨τ, ht⟩, ⟨e, he⟩, hty, hch⟩ := h f (by simp)
    rw [List.map_cons, List.nodup_cons] at hnd
    have hne : ∀ g ∈ fs, g.ident ≠ f.ident := fun g hg hgf => hnd.1 (by rw [← hgf]; exact List.mem_map_of_mem hg)
    rcases field_step (w := w) hk ht he (hty τ e ht he) hch with ⟨hp, hev⟩ | ⟨hp, a, hev, hres⟩
    · left
      refine ⟨⟨f, by simp, hp⟩, ?_⟩
      simp only [construct, ht, he, hev]
    · generalize ho : (if hasSetter ⟨c, f⟩ = true then none else s f.ident) = o at hev
      have hag : ∀ g ∈ fs, (s.put f.ident o) g.ident = s g.ident := fun g hg => put_other (hne g hg)
      have hh := ih (s := s.put f.ident o) hnd.2 (fun g hg => by
        obtain ⟨h1, h2, h3, h4, h5⟩ := h g (by simp [hg])
        exact ⟨h1, h2, h3, h4, fun hc => by rw [hag g hg]; exact h5 hc⟩)
      rcases hh with ⟨⟨g, hg, hpg⟩, hpan⟩ | ⟨hnp, obj, hok, hdesc, hempty, hkeep⟩
      · left
        refine ⟨⟨g, by simp [hg], hpg.1, by rw [← hag g hg]; exact hpg.2⟩, ?_⟩
        simp only [construct, ht, he, hev]
        cases hcons : construct c w (s.put f.ident o) fs with
        | mk r s' => rw [hcons] at hpan; simp only at hpan; subst hpan; rfl
      · right
        have hc : construct c w s (f :: fs) = (.ok ((f.ident, a) :: obj), (construct c w (s.put f.ident o) fs).2) := by
          simp only [construct, ht, he, hev]
          cases hcons : construct c w (s.put f.ident o) fs with
          | mk r s' => rw [hcons] at hok; simp only at hok; subst hok; rfl
        refine ⟨?_, (f.ident, a) :: obj, by rw [hc], .cons hres (hdesc.congr fun g hg => (hag g hg).symm), ?_, ?_⟩
        · intro g hg
          cases hg with
          | head => exact hp
          | tail _ hg =>
            intro hpg
            exact hnp g hg ⟨hpg.1, by rw [hag g hg]; exact hpg.2⟩
        · intro g hg hset
          rw [hc]
          cases hg with
          | head =>
            simp only
            rw [hkeep f.ident (fun g hg hgf => absurd hgf (hne g hg)), put_same, ← ho, if_pos hset]
          | tail _ hg => exact hempty g hg hset
        · intro n hn
          rw [hc]
          simp only
          rw [hkeep n (fun g hg => hn g (by simp [hg]))]
          by_cases hnf : n = f.ident
          · subst hnf
            rw [put_same, ← ho, hn f (by simp) rfl]
            rfl
          · exact put_other hnf

end Verif.Proof.Builder
