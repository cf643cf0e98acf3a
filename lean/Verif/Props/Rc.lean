import Verif.Proof.Rc
/-!
# Reference counted structs: C44

Model: `Verif.Model.Rc`. Histories of any length, of creating objects, cloning and dropping references, moving and cloning
objects, calling `myself` and lazy accessors.
-/

namespace Verif.Props.Rc
open Verif.Model.Rc Verif.Proof.Rc

variable {V : Type} {s s₀ s₁ s' : St V} {sync : Bool}

/-- What can come later. -/
inductive Later (sync : Bool) : St V → St V → Prop
  | refl (s : St V) : Later sync s s
  | step {s s₁ s₂ : St V} {a : Act V} {o : Out V} : Later sync s s₁ → step sync s₁ a = some (s₂, o) → Later sync s s₂

theorem back_made (s : St V) (i : Nat) (r : Ref V) (o : Obj V) : (s.back i r o).made = s.made := by
  unfold St.back
  split <;> rfl

theorem access_made (s : St V) (i : Nat) (r : Ref V) (o : Obj V) (v : V) (keep : Bool) :
    (s.access sync i r o v keep).1.made = s.made := by
  unfold St.access
  split
  · rfl
  · rfl
  · rfl
  · cases keep
    · exact back_made s i r _
    · exact back_made s i r _

theorem made_step {a : Act V} {o : Out V} (h : step sync s a = some (s', o)) {x : Nat} (hx : x ∈ s.made) : x ∈ s'.made := by
  cases a
  case access i v keep =>
    simp only [step] at h
    split at h
    · next r _ =>
      split at h
      · next ob _ =>
        simp only [Option.some.injEq] at h
        have := access_made (sync := sync) s i r ob v keep
        rw [h] at this
        simp only at this
        rw [this]; exact hx
      · cases h
    · cases h
  all_goals
    simp only [step] at h
    (repeat' split at h) <;> try (cases h; done)
  all_goals
    simp only [Option.some.injEq, Prod.mk.injEq] at h
    obtain ⟨rfl, rfl⟩ := h
    first
      | exact hx
      | exact List.mem_cons_of_mem _ hx

theorem made_later (h : Later sync s s') {x : Nat} (hx : x ∈ s.made) : x ∈ s'.made := by
  induction h with
  | refl => exact hx
  | step _ h ih => exact made_step h ih

theorem reach_later (h₀ : Reach sync s₀) (h : Later sync s₀ s) : Reach sync s := by
  induction h with
  | refl => exact h₀
  | step _ h ih => exact .step ih h

/-! ## C44 reference counted objects know themselves -/

/-- A live object from `new()` or `build()` whose `post_build` (if any) gave back the object it got. -/
structure FromNew (sync : Bool) (s : St V) (i a : Nat) : Prop where
  made : ∃ (s₀ s₁ : St V) (k : Nat), Reach sync s₀ ∧ step sync s₀ (.finish k) = some (s₁, .ref (some a)) ∧ Later sync s₁ s
  here : s.refs[i]? = some (.strong a)

theorem FromNew.reach {i a : Nat} (h : FromNew sync s i a) : Reach sync s := by
  obtain ⟨s₀, s₁, k, h1, h2, h3⟩ := h.made
  exact reach_later (.step h1 h2) h3

theorem FromNew.obj {i a : Nat} (h : FromNew sync s i a) :
    ∃ o, (s.box a).obj = some o ∧ o.me = some a ∧ 0 < (s.box a).strong := by
  have hi := inv_reach h.reach
  have hpos : 0 < (s.box a).strong := by rw [hi.cnt]; exact num_pos h.here (by simp [isStrong])
  have hob := (hi.live a).2 hpos
  obtain ⟨o, ho⟩ := Option.isSome_iff_exists.1 hob
  obtain ⟨s₀, s₁, k, h1, h2, h3⟩ := h.made
  have hm : a ∈ s₁.made := by
    simp only [step] at h2
    split at h2
    · simp only [Option.some.injEq, Prod.mk.injEq, Out.ref.injEq] at h2
      obtain ⟨rfl, rfl⟩ := h2
      exact .head _
    · cases h2
  exact ⟨o, ho, hi.made a (made_later h3 hm) o ho, hpos⟩

/-- `myself()` gives a strong reference to that same object. -/
theorem C44_myself_is_same {i a : Nat} (h : FromNew sync s i a) :
    ∃ s', step sync s (.myself i) = some (s', .ref (some a)) ∧ s'.refs = s.refs ++ [.strong a] := by
  obtain ⟨o, h1, h2, h3⟩ := h.obj
  have hu : s.up o.me = some a := by simp [St.up, h2, h3]
  refine ⟨(s.incr a).push (.strong a), ?_, rfl⟩
  simp [step, h.here, St.look, h1, hu]

/-- The lazy accessor does not panic; it gives the value which is there, or what the builder returns, which runs on that
same object, and then that value is there. -/
theorem C44_lazy_no_panic {i a : Nat} (h : FromNew sync s i a) (v : V) (keep : Bool) :
    ∃ s' w b o, step sync s (.access i v keep) = some (s', .value w b) ∧ (s'.box a).obj = some o ∧ o.val = some w ∧
      ((∃ o₀, (s.box a).obj = some o₀ ∧ o₀.val = some w ∧ b = none) ∨
        (∃ o₀, (s.box a).obj = some o₀ ∧ o₀.val = none ∧ w = v ∧ b = some a)) := by
  obtain ⟨o, h1, h2, h3⟩ := h.obj
  have hu : s.up (some a) = some a := by simp [St.up, h3]
  cases o with | mk me val =>
  simp only at h2
  subst h2
  cases hv : val with
  | some w =>
    subst hv
    refine ⟨s, w, none, _, ?_, h1, rfl, .inl ⟨_, h1, rfl, rfl⟩⟩
    cases sync <;> simp [step, h.here, St.look, h1, St.access, hu]
  | none =>
    subst hv
    cases keep with
    | false =>
      refine ⟨s.back i (.strong a) ⟨some a, some v⟩, v, some a, ⟨some a, some v⟩, ?_, ?_, rfl, .inr ⟨_, h1, rfl, rfl, rfl⟩⟩
      · cases sync <;> simp [step, h.here, St.look, h1, St.access, hu]
      · simp [St.back, St.setBox]
    | true =>
      refine ⟨((s.back i (.strong a) ⟨some a, some v⟩).incr a).push (.strong a), v, some a, ⟨some a, some v⟩, ?_, ?_, rfl,
        .inr ⟨_, h1, rfl, rfl, rfl⟩⟩
      · cases sync <;> simp [step, h.here, St.look, h1, St.access, hu]
      · simp [St.back, St.setBox, St.incr, St.push]

/-- On any object whatever: the lazy accessor panics exactly if the self reference is needed (always in sync structs,
otherwise if the field is not set) and there is no strong reference to the object it names. -/
theorem C44_panic_iff (h : Reach sync s) {i : Nat} {r : Ref V} {o : Obj V} (hr : s.refs[i]? = some r)
    (ho : s.look r = some o) (v : V) (keep : Bool) :
    (∃ s', step sync s (.access i v keep) = some (s', .panic)) ↔
      (sync = true ∨ o.val = none) ∧ ¬ ∃ a, o.me = some a ∧ Ref.strong a ∈ s.refs := by
  have hi := inv_reach h
  have hst : ∀ a, 0 < (s.box a).strong ↔ Ref.strong a ∈ s.refs := by
    intro a
    rw [hi.cnt, num, List.countP_pos_iff]
    constructor
    · rintro ⟨x, hx, hxa⟩
      cases x <;> simp [isStrong] at hxa
      subst hxa; exact hx
    · intro hx; exact ⟨_, hx, by simp [isStrong]⟩
  have hup : (∃ a, o.me = some a ∧ Ref.strong a ∈ s.refs) ↔ ∃ a, s.up o.me = some a := by
    constructor
    · rintro ⟨a, h1, h2⟩
      exact ⟨a, by simp [St.up, h1, (hst a).2 h2]⟩
    · rintro ⟨a, h1⟩
      have := up_pos h1
      exact ⟨a, this.1, (hst a).1 this.2⟩
  rw [hup]
  cases hu : s.up o.me <;> cases hv : o.val <;> cases sync <;> simp [step, hr, ho, St.access, hu, hv]

/-- The self reference keeps nobody alive: an object lives exactly as long as there is a strong reference to it. -/
theorem C44_no_leak (h : Reach sync s) (a : Nat) : (s.box a).obj.isSome = true ↔ Ref.strong a ∈ s.refs := by
  have hi := inv_reach h
  rw [hi.live, hi.cnt, num, List.countP_pos_iff]
  constructor
  · rintro ⟨x, hx, hxa⟩
    cases x <;> simp [isStrong] at hxa
    subst hxa; exact hx
  · intro hx; exact ⟨_, hx, by simp [isStrong]⟩

/-- A clone of such an object takes the original for itself: `myself()` gives the original, and its lazy builder runs on the
original. -/
theorem C44_clone_is_not_itself {i a : Nat} (h : FromNew sync s i a) (hs : step sync s (.cloneObj i) = some (s', .done)) :
    (∃ s₂, step sync s' (.myself s.refs.length) = some (s₂, .ref (some a))) ∧
    ((∃ o, (s.box a).obj = some o ∧ o.val = none) → ∀ v keep, ∃ s₂,
      step sync s' (.access s.refs.length v keep) = some (s₂, .value v (some a)) ∧
      ∀ o, (s.box a).obj = some o → (s₂.box a).obj = some o) := by
  obtain ⟨o, h1, h2, h3⟩ := h.obj
  simp [step, h.here, St.look, h1] at hs
  subst hs
  have hu : (s.push (.value o)).up (some a) = some a := by simp [St.up, St.push, h3]
  cases o with | mk me val =>
  simp only at h2
  subst h2
  refine ⟨⟨_, by simp [step, St.look, St.push]; simp [St.push] at hu; rw [hu]⟩, ?_⟩
  rintro ⟨o, h4, h5⟩ v keep
  rw [h1] at h4
  simp only [Option.some.injEq] at h4
  subst h4
  simp only at h5
  subst h5
  have hg : (s.push (.value ⟨some a, none⟩)).refs[s.refs.length]? = some (.value ⟨some a, none⟩) := by simp [St.push]
  cases sync <;> cases keep <;> refine ⟨_, by simp only [step, hg, St.look, St.access, hu]; rfl, ?_⟩ <;>
    intro o ho <;> rw [← ho] <;> simp [St.back, St.push, St.setRef, St.incr, St.setBox]

/-- After the history `l` the lazy accessor on variable `i` panics. -/
def Lost (sync : Bool) (l : List (Act Nat)) (i : Nat) : Prop :=
  ∃ s s' : St Nat, run sync .init l = some s ∧ Reach sync s ∧ step sync s (.access i 5 false) = some (s', .panic)

theorem reach_run {l : List (Act V)} (h₀ : Reach sync s₀) (h : run sync s₀ l = some s) : Reach sync s := by
  induction l generalizing s₀ with
  | nil => simp [run] at h; exact h ▸ h₀
  | cons a l ih =>
    simp only [run, Option.bind_eq_some_iff] at h
    obtain ⟨⟨s₁, o⟩, h2, h3⟩ := h
    exact ih (.step h₀ h2) h3

theorem lost {l : List (Act Nat)} {i : Nat}
    (h : ∃ s s' : St Nat, run sync .init l = some s ∧ step sync s (.access i 5 false) = some (s', .panic)) : Lost sync l i := by
  obtain ⟨s, s', h1, h2⟩ := h
  exact ⟨s, s', h1, reach_run .init h1, h2⟩

/-- Objects without guarantee: made by `Default`, even if put into an `Rc` later; -/
theorem C44_default_lost : Lost sync [.default] 0 ∧ Lost sync [.default, .wrap 0] 0 := by
  cases sync <;> exact ⟨lost ⟨_, _, rfl, rfl⟩, lost ⟨_, _, rfl, rfl⟩⟩

/-- a clone in its own `Rc` when the original has gone; -/
theorem C44_clone_lost : Lost sync [.create, .finish 0, .cloneObj 0, .wrap 1, .drop 0] 1 := by
  cases sync <;> exact lost ⟨_, _, rfl, rfl⟩

/-- an object inside its `post_build`; -/
theorem C44_post_build_lost : Lost sync [.create] 0 := by
  cases sync <;> exact lost ⟨_, _, rfl, rfl⟩

/-- an object made by `build()` where `post_build` returned one made by `Default`; -/
theorem C44_replaced_lost : Lost sync [.create, .default, .finishOther 0 1] 0 := by
  cases sync <;> exact lost ⟨_, _, rfl, rfl⟩

/-- an object on whose only reference `make_mut` or `try_unwrap` was called. -/
theorem C44_moved_lost : Lost sync [.create, .finish 0, .makeMut 0] 0 ∧ Lost sync [.create, .finish 0, .tryUnwrap 0] 0 := by
  cases sync <;> exact ⟨lost ⟨_, _, rfl, rfl⟩, lost ⟨_, _, rfl, rfl⟩⟩

-- a history to which the theorems apply: an object is made, referred to twice, the first reference dropped
example : ∃ s : St Nat, FromNew true s 1 0 ∧ s.refs = [.gone, .strong 0, .value ⟨none, none⟩] := by
  refine ⟨_, ⟨⟨_, _, 0, .step .init (a := .create) rfl, rfl, .step (a := .default) (.step (a := .drop 0)
    (.step (a := .cloneRef 0) (.refl _) rfl) rfl) rfl⟩, rfl⟩, rfl⟩

end Verif.Props.Rc
