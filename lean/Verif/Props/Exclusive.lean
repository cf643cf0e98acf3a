import Verif.Proof.Exclusive
import Verif.Model.Parse
/-
C39: conflicting arguments are rejected, compatible ones accepted.
`Conflict` (Spec/Prec) is stated on the table of alternatives alone.
-/
namespace Verif.Props.Exclusive
open Verif.Model.Args Verif.Model.Exclusive Verif.Spec.Prec Verif.Proof.Exclusive

/-- For every table of groups and every set of arguments: rejected exactly if some group has two different alternatives
that both contain a set argument. -/
theorem C39_rejected_iff (gs : List Group) :
    (∃ e, validate gs = .error e) ↔ ∃ g ∈ gs, Conflict g.2 := by
  have h := errors_nil_iff gs
  unfold validate
  by_cases he : errors gs = []
  · simp only [he, List.length_nil, gt_iff_lt, Nat.lt_irrefl, if_false]
    constructor
    · rintro ⟨e, h⟩; cases h
    · rintro ⟨g, hg, hc⟩; exact absurd hc (h.mp he g hg)
  · have hp : (errors gs).length > 0 := List.length_pos_iff.mpr he
    rw [if_pos hp]
    constructor
    · intro _
      apply Classical.byContradiction
      intro hn
      apply he
      apply h.mpr
      intro g hg hc
      exact hn ⟨g, hg, hc⟩
    · intro _; exact ⟨_, rfl⟩

/-- The error reports exactly the groups in conflict, in table order, and for each of them exactly the arguments that
are set, in table order. -/
theorem C39_error_complete (gs : List Group) (e : List (String × List String)) (h : validate gs = .error e) :
    ∃ gs' : List Group, gs'.Sublist gs ∧ (∀ g ∈ gs', Conflict g.2) ∧ (∀ g ∈ gs, Conflict g.2 → g ∈ gs') ∧
      e = gs'.map (fun g => (g.1, (g.2.flatten.filter (·.2)).map (·.1))) := by
  unfold validate at h
  split at h
  · cases h
    refine ⟨gs.filter (fun g => decide (1 < setAlts g.2)), List.filter_sublist, ?_, ?_, errors_eq gs⟩
    · intro g hg
      have := (List.mem_filter.mp hg).2
      exact (conflict_iff _).mp (by simpa using this)
    · intro g hg hc
      exact List.mem_filter.mpr ⟨hg, by simpa using (conflict_iff _).mpr hc⟩
  · cases h

/-- An argument switched on. -/
def On (h : Option Helper) : Prop := ∃ a, h = some a ∧ a.off = false

/-- The documented conflicts between arguments of one field. -/
inductive FieldConflict (f : FieldArgs) : Prop
  | vis : f.pub ≠ none → f.priv = some true → FieldConflict f
  | copyClone : f.copy = some true → f.clone = some true → FieldConflict f
  | lazyOptional : On f.lazy → f.optional = some true → FieldConflict f
  | lazyInner : On f.lazy → f.innerMut = some true → FieldConflict f
  | fallible (a : Fallible) : f.fallible = some a → a.off = false →
      (f.lock = some true ∨ f.optional = some true ∨ f.innerMut = some true) → FieldConflict f
  | syncAsync : f.modeSync = some true → f.modeAsync = some true → FieldConflict f
  | syncInner : f.modeSync = some true → f.innerMut = some true → FieldConflict f
  | syncMode : f.modeSync = some true → f.mode ≠ none → FieldConflict f
  | asyncInner : f.modeAsync = some true → f.innerMut = some true → FieldConflict f
  | asyncMode : f.modeAsync = some true → f.mode ≠ none → FieldConflict f
  | innerMode : f.innerMut = some true → f.mode ≠ none → FieldConflict f

/-- The documented conflicts between arguments of one struct. -/
inductive StructConflict (s : StructArgs) : Prop
  | vis : s.pub ≠ none → s.priv = some true → StructConflict s
  | copyClone : s.copy = some true → s.clone = some true → StructConflict s
  | lazyOptional : On s.lazy → s.optional = some true → StructConflict s
  | lazyInner : On s.lazy → s.innerMut = some true → StructConflict s
  | syncInner : s.modeSync = some true → s.innerMut = some true → StructConflict s
  | syncMode : s.modeSync = some true → s.mode ≠ none → StructConflict s
  | asyncInner : s.modeAsync = some true → s.innerMut = some true → StructConflict s
  | asyncMode : s.modeAsync = some true → s.mode ≠ none → StructConflict s
  | innerMode : s.innerMut = some true → s.mode ≠ none → StructConflict s
  | serdeRc (a : Serde) : s.serde = some a → a.off = false → On s.rc → StructConflict s

private theorem on_iff (h : Option Helper) : On h ↔ h.elim false (·.isTrue) = true := by
  cases h with
  | none => simp [On]
  | some a => simp [On, Helper.isTrue]

private theorem b2 (o : Option Bool) : o = some true ↔ o.getD false = true := by
  rcases o with _ | _ | _ <;> simp

private theorem flag {α : Type} (o : Option α) : o ≠ none ↔ o.isSome = true := by cases o <;> simp

private theorem fall (o : Option Fallible) : (∃ a, o = some a ∧ a.off = false) ↔ o.elim false (·.isTrue) = true := by
  cases o <;> simp [Fallible.isTrue]

private theorem serd (o : Option Serde) : (∃ a, o = some a ∧ a.off = false) ↔ o.elim false (·.isTrue) = true := by
  cases o <;> simp [Serde.isTrue]

/-- A field's arguments are rejected exactly if two of them conflict. -/
theorem C39_field_rejected_iff (f : FieldArgs) : acceptField f = false ↔ FieldConflict f := by
  have e : FieldConflict f ↔
      (f.pub.isSome = true ∧ f.priv.getD false = true) ∨
      (f.copy.getD false = true ∧ f.clone.getD false = true) ∨
      (f.lazy.elim false (·.isTrue) = true ∧ (f.optional.getD false = true ∨ f.innerMut.getD false = true)) ∨
      (f.fallible.elim false (·.isTrue) = true ∧
        (f.lock.getD false = true ∨ f.optional.getD false = true ∨ f.innerMut.getD false = true)) ∨
      (f.modeSync.getD false = true ∧ f.modeAsync.getD false = true) ∨
      (f.modeSync.getD false = true ∧ f.innerMut.getD false = true) ∨
      (f.modeSync.getD false = true ∧ f.mode.isSome = true) ∨
      (f.modeAsync.getD false = true ∧ f.innerMut.getD false = true) ∨
      (f.modeAsync.getD false = true ∧ f.mode.isSome = true) ∨
      (f.innerMut.getD false = true ∧ f.mode.isSome = true) := by
    simp only [← b2, ← flag, ← on_iff, ← fall]
    constructor
    · rintro (h | h | h | h | h | h | h | h | h | h | h)
      all_goals simp_all
    · rintro (h | h | ⟨h, h' | h'⟩ | ⟨⟨a, ha, hb⟩, h⟩ | h | h | h | h | h | h)
      · exact .vis h.1 h.2
      · exact .copyClone h.1 h.2
      · exact .lazyOptional h h'
      · exact .lazyInner h h'
      · exact .fallible a ha hb h
      · exact .syncAsync h.1 h.2
      · exact .syncInner h.1 h.2
      · exact .syncMode h.1 h.2
      · exact .asyncInner h.1 h.2
      · exact .asyncMode h.1 h.2
      · exact .innerMode h.1 h.2
  rw [e]
  unfold acceptField
  rw [errors_eq]
  simp only [fieldGroups, pubSet, setAlts]
  generalize f.pub.isSome = a1
  generalize f.priv.getD false = a2
  generalize f.copy.getD false = a3
  generalize f.clone.getD false = a4
  generalize f.lazy.elim false (·.isTrue) = a5
  generalize f.optional.getD false = a6
  generalize f.innerMut.getD false = a7
  generalize f.fallible.elim false (·.isTrue) = a8
  generalize f.lock.getD false = a9
  generalize f.modeSync.getD false = a10
  generalize f.modeAsync.getD false = a11
  generalize f.mode.isSome = a12
  clear e f
  revert a1 a2 a3 a4 a5 a6 a7 a8 a9 a10 a11 a12
  simp only [← Bool.and_eq_true, ← Bool.or_eq_true]
  decide +kernel

/-- A struct's arguments are rejected exactly if two of them conflict. -/
theorem C39_struct_rejected_iff (s : StructArgs) : acceptStruct s = false ↔ StructConflict s := by
  have e : StructConflict s ↔
      (s.pub.isSome = true ∧ s.priv.getD false = true) ∨
      (s.copy.getD false = true ∧ s.clone.getD false = true) ∨
      (s.lazy.elim false (·.isTrue) = true ∧ (s.optional.getD false = true ∨ s.innerMut.getD false = true)) ∨
      (s.modeSync.getD false = true ∧ s.innerMut.getD false = true) ∨
      (s.modeSync.getD false = true ∧ s.mode.isSome = true) ∨
      (s.modeAsync.getD false = true ∧ s.innerMut.getD false = true) ∨
      (s.modeAsync.getD false = true ∧ s.mode.isSome = true) ∨
      (s.innerMut.getD false = true ∧ s.mode.isSome = true) ∨
      (s.serde.elim false (·.isTrue) = true ∧ s.rc.elim false (·.isTrue) = true) := by
    simp only [← b2, ← flag, ← on_iff, ← serd]
    constructor
    · rintro (h | h | h | h | h | h | h | h | h | h)
      all_goals simp_all
    · rintro (h | h | ⟨h, h' | h'⟩ | h | h | h | h | h | ⟨⟨a, ha, hb⟩, h⟩)
      · exact .vis h.1 h.2
      · exact .copyClone h.1 h.2
      · exact .lazyOptional h h'
      · exact .lazyInner h h'
      · exact .syncInner h.1 h.2
      · exact .syncMode h.1 h.2
      · exact .asyncInner h.1 h.2
      · exact .asyncMode h.1 h.2
      · exact .innerMode h.1 h.2
      · exact .serdeRc a ha hb h
  rw [e]
  unfold acceptStruct
  rw [errors_eq]
  simp only [structGroups, pubSet, setAlts]
  generalize s.pub.isSome = a1
  generalize s.priv.getD false = a2
  generalize s.copy.getD false = a3
  generalize s.clone.getD false = a4
  generalize s.lazy.elim false (·.isTrue) = a5
  generalize s.optional.getD false = a6
  generalize s.innerMut.getD false = a7
  generalize s.modeSync.getD false = a8
  generalize s.modeAsync.getD false = a9
  generalize s.mode.isSome = a10
  generalize s.serde.elim false (·.isTrue) = a11
  generalize s.rc.elim false (·.isTrue) = a12
  clear e s
  revert a1 a2 a3 a4 a5 a6 a7 a8 a9 a10 a11 a12
  simp only [← Bool.and_eq_true, ← Bool.or_eq_true]
  decide +kernel

/-- The check inside a helper (`get(pub, private(off))`) tests presence, not whether the argument is set: an argument
list in which nothing conflicts is rejected. -/
theorem C39_helper_presence_false :
    ∃ h : Helper, ¬ Conflict [[("public", h.pub.isSome)], [("private", h.priv.getD false)]] ∧ acceptHelper h = false := by
  refine ⟨{ pub := some .crate, priv := some false }, ?_, by decide⟩
  rw [← conflict_iff]; decide

/-- Exact rule of the check inside helpers. -/
theorem C39_helper_rule (present : List Bool) :
    helperGroupOk present = false ↔ ∃ i j : Nat, i ≠ j ∧ present[i]? = some true ∧ present[j]? = some true := by
  have := two_of_filter id present
  simp only [helperGroupOk, Bool.not_eq_false', decide_eq_true_eq, gt_iff_lt, this, id]
  constructor
  · rintro ⟨i, j, h, a, b, h1, h2, rfl, rfl⟩; exact ⟨i, j, h, h1, h2⟩
  · rintro ⟨i, j, h, h1, h2⟩; exact ⟨i, j, h, _, _, h1, h2, rfl, rfl⟩

/-- Two arguments of one helper conflict: both visibilities are written, switched off or not. -/
def HelperConflict (h : Helper) : Prop := h.pub ≠ none ∧ h.priv ≠ none

/-- Two accessor modes are asked for. -/
def AccConflict (a : Accessor) : Prop :=
  HelperConflict a.toHelper ∨ (a.clone = true ∧ a.copy = true) ∨ (a.clone = true ∧ a.asRef = true) ∨
    (a.copy = true ∧ a.asRef = true)

/-- A builder argument not allowed on a field. -/
def FieldBuilderConflict (b : Builder) : Prop :=
  HelperConflict b.toHelper ∨ b.error ≠ none ∨ b.postBuild ≠ none ∨ b.optIn ≠ none

/-- The visibility of the serde shadow struct is said twice. -/
def SerdeConflict (s : Serde) : Prop := s.pub ≠ none ∧ s.priv = some true

private theorem acceptHelper_false (h : Helper) : acceptHelper h = false ↔ HelperConflict h := by
  unfold acceptHelper HelperConflict
  cases h.pub <;> cases h.priv <;> simp [helperGroupOk]

private theorem acceptAccessor_false (a : Accessor) : acceptAccessor a = false ↔ AccConflict a := by
  unfold acceptAccessor AccConflict
  rw [Bool.and_eq_false_iff, acceptHelper_false]
  cases a.clone <;> cases a.copy <;> cases a.asRef <;> simp [helperGroupOk]

private theorem acceptSerde_false (s : Serde) : acceptSerde s = false ↔ SerdeConflict s := by
  unfold acceptSerde SerdeConflict
  rw [errors_eq]
  simp only [setAlts, pubSet]
  cases s.pub <;> rcases s.priv with _ | _ | _ <;> simp

/-- The rule for a builder argument on a field, exactly. -/
theorem C39_field_builder_rule (b : Builder) : acceptFieldBuilder b = false ↔ FieldBuilderConflict b := by
  unfold acceptFieldBuilder FieldBuilderConflict
  simp only [Bool.and_eq_false_iff, acceptHelper_false]
  cases b.error <;> cases b.postBuild <;> cases b.optIn <;> simp

private theorem all_false {α : Type} (o : Option α) (p : α → Bool) :
    o.all p = false ↔ ∃ a, o = some a ∧ p a = false := by cases o <;> simp

/-- All checks on one field together: rejected exactly if two arguments conflict or one helper is in conflict with
itself. -/
theorem C39_field_full_iff (f : FieldArgs) : acceptFieldFull f = false ↔
    FieldConflict f ∨
    (∃ h, (f.lazy = some h ∨ f.accessorMut = some h ∨ (∃ s, f.setter = some s ∧ h = s.toHelper) ∨ f.reader = some h ∨
      f.writer = some h ∨ f.clearer = some h ∨ f.predicate = some h) ∧ HelperConflict h) ∨
    (∃ a, f.accessor = some a ∧ AccConflict a) ∨ (∃ b, f.builder = some b ∧ FieldBuilderConflict b) ∨
    (∃ s, f.serde = some s ∧ SerdeConflict s) := by
  unfold acceptFieldFull
  simp only [Bool.and_eq_false_iff, all_false, C39_field_rejected_iff, acceptHelper_false, acceptAccessor_false,
    acceptSerde_false, C39_field_builder_rule]
  constructor
  · rintro ((((((((((h | ⟨a, h, h'⟩) | h) | ⟨a, h, h'⟩) | ⟨a, h, h'⟩) | ⟨a, h, h'⟩) | ⟨a, h, h'⟩) | ⟨a, h, h'⟩) |
      ⟨a, h, h'⟩) | h) | h)
    · exact .inl h
    · exact .inr (.inl ⟨a, .inl h, h'⟩)
    · exact .inr (.inr (.inl h))
    · exact .inr (.inl ⟨a, .inr (.inl h), h'⟩)
    · exact .inr (.inl ⟨_, .inr (.inr (.inl ⟨a, h, rfl⟩)), h'⟩)
    · exact .inr (.inl ⟨a, .inr (.inr (.inr (.inl h))), h'⟩)
    · exact .inr (.inl ⟨a, .inr (.inr (.inr (.inr (.inl h)))), h'⟩)
    · exact .inr (.inl ⟨a, .inr (.inr (.inr (.inr (.inr (.inl h))))), h'⟩)
    · exact .inr (.inl ⟨a, .inr (.inr (.inr (.inr (.inr (.inr h))))), h'⟩)
    · exact .inr (.inr (.inr (.inl h)))
    · exact .inr (.inr (.inr (.inr h)))
  · rintro (h | ⟨a, h | h | ⟨s, h, rfl⟩ | h | h | h | h, h'⟩ | h | h | h)
    · simp only [h, true_or]
    · have : ∃ a, f.lazy = some a ∧ HelperConflict a := ⟨a, h, h'⟩
      simp only [this, true_or, or_true]
    · have : ∃ a, f.accessorMut = some a ∧ HelperConflict a := ⟨a, h, h'⟩
      simp only [this, true_or, or_true]
    · have : ∃ a, f.setter = some a ∧ HelperConflict a.toHelper := ⟨s, h, h'⟩
      simp only [this, true_or, or_true]
    · have : ∃ a, f.reader = some a ∧ HelperConflict a := ⟨a, h, h'⟩
      simp only [this, true_or, or_true]
    · have : ∃ a, f.writer = some a ∧ HelperConflict a := ⟨a, h, h'⟩
      simp only [this, true_or, or_true]
    · have : ∃ a, f.clearer = some a ∧ HelperConflict a := ⟨a, h, h'⟩
      simp only [this, true_or, or_true]
    · have : ∃ a, f.predicate = some a ∧ HelperConflict a := ⟨a, h, h'⟩
      simp only [this, true_or, or_true]
    · simp only [h, true_or, or_true]
    · simp only [h, true_or, or_true]
    · simp only [h, or_true]

/-- All checks on the struct arguments together. -/
theorem C39_struct_full_iff (f : StructArgs) : acceptStructFull f = false ↔
    StructConflict f ∨
    (∃ h, (f.lazy = some h ∨ f.accessorMut = some h ∨ (∃ s, f.setter = some s ∧ h = s.toHelper) ∨ f.reader = some h ∨
      f.writer = some h ∨ f.clearer = some h ∨ f.predicate = some h ∨ (∃ b, f.builder = some b ∧ h = b.toHelper) ∨
      f.rc = some h) ∧ HelperConflict h) ∨
    (∃ a, f.accessor = some a ∧ AccConflict a) ∨ (∃ s, f.serde = some s ∧ SerdeConflict s) := by
  unfold acceptStructFull
  simp only [Bool.and_eq_false_iff, all_false, C39_struct_rejected_iff, acceptHelper_false, acceptAccessor_false,
    acceptSerde_false]
  constructor
  · rintro (((((((((((h | ⟨a, h, h'⟩) | h) | ⟨a, h, h'⟩) | ⟨a, h, h'⟩) | ⟨a, h, h'⟩) | ⟨a, h, h'⟩) | ⟨a, h, h'⟩) |
      ⟨a, h, h'⟩) | ⟨a, h, h'⟩) | ⟨a, h, h'⟩) | h)
    · exact .inl h
    · exact .inr (.inl ⟨a, .inl h, h'⟩)
    · exact .inr (.inr (.inl h))
    · exact .inr (.inl ⟨a, .inr (.inl h), h'⟩)
    · exact .inr (.inl ⟨_, .inr (.inr (.inl ⟨a, h, rfl⟩)), h'⟩)
    · exact .inr (.inl ⟨a, .inr (.inr (.inr (.inl h))), h'⟩)
    · exact .inr (.inl ⟨a, .inr (.inr (.inr (.inr (.inl h)))), h'⟩)
    · exact .inr (.inl ⟨a, .inr (.inr (.inr (.inr (.inr (.inl h))))), h'⟩)
    · exact .inr (.inl ⟨a, .inr (.inr (.inr (.inr (.inr (.inr (.inl h)))))), h'⟩)
    · exact .inr (.inl ⟨_, .inr (.inr (.inr (.inr (.inr (.inr (.inr (.inl ⟨a, h, rfl⟩))))))), h'⟩)
    · exact .inr (.inl ⟨a, .inr (.inr (.inr (.inr (.inr (.inr (.inr (.inr h))))))), h'⟩)
    · exact .inr (.inr (.inr h))
  · rintro (h | ⟨a, h | h | ⟨s, h, rfl⟩ | h | h | h | h | ⟨s, h, rfl⟩ | h, h'⟩ | h | h)
    · simp only [h, true_or]
    · have : ∃ a, f.lazy = some a ∧ HelperConflict a := ⟨a, h, h'⟩
      simp only [this, true_or, or_true]
    · have : ∃ a, f.accessorMut = some a ∧ HelperConflict a := ⟨a, h, h'⟩
      simp only [this, true_or, or_true]
    · have : ∃ a, f.setter = some a ∧ HelperConflict a.toHelper := ⟨s, h, h'⟩
      simp only [this, true_or, or_true]
    · have : ∃ a, f.reader = some a ∧ HelperConflict a := ⟨a, h, h'⟩
      simp only [this, true_or, or_true]
    · have : ∃ a, f.writer = some a ∧ HelperConflict a := ⟨a, h, h'⟩
      simp only [this, true_or, or_true]
    · have : ∃ a, f.clearer = some a ∧ HelperConflict a := ⟨a, h, h'⟩
      simp only [this, true_or, or_true]
    · have : ∃ a, f.predicate = some a ∧ HelperConflict a := ⟨a, h, h'⟩
      simp only [this, true_or, or_true]
    · have : ∃ a, f.builder = some a ∧ HelperConflict a.toHelper := ⟨s, h, h'⟩
      simp only [this, true_or, or_true]
    · have : ∃ a, f.rc = some a ∧ HelperConflict a := ⟨a, h, h'⟩
      simp only [this, true_or, or_true]
    · simp only [h, true_or, or_true]
    · simp only [h, or_true]

/-- Non-trivial cases: `builder(opt_in)` on a field; `get(copy, clone)`. -/
example : FieldBuilderConflict { optIn := some true } := .inr (.inr (.inr (by simp)))
example : AccConflict { copy := true, clone := true } := .inr (.inl ⟨rfl, rfl⟩)

/-- Non-trivial cases: `sync` and `async` together are a conflict on a field but not on a struct. -/
example : FieldConflict { modeSync := some true, modeAsync := some true } := .syncAsync rfl rfl
example : acceptStruct { modeSync := some true, modeAsync := some true } = true := by decide
example : Conflict [[("a", false)], [("b", true), ("c", false)], [("d", true)]] :=
  ⟨1, 2, by decide, _, _, rfl, rfl, ⟨"b", by simp⟩, ⟨"d", by simp⟩⟩

/-- The argument of a field with the name `n` is switched on (fieldx_derive/src/fields.rs 25-76). -/
def FieldOn (f : FieldArgs) (n : String) : Prop :=
  (n = "public" ∧ f.pub ≠ none) ∨ (n = "private" ∧ f.priv = some true) ∨ (n = "copy" ∧ f.copy = some true) ∨
  (n = "clone" ∧ f.clone = some true) ∨ (n = "lazy" ∧ ∃ h, f.lazy = some h ∧ h.isTrue = true) ∨
  (n = "optional" ∧ f.optional = some true) ∨ (n = "inner_mut" ∧ f.innerMut = some true) ∨
  (n = "fallible" ∧ ∃ h, f.fallible = some h ∧ h.isTrue = true) ∨ (n = "lock" ∧ f.lock = some true) ∨
  (n = "sync" ∧ f.modeSync = some true) ∨ (n = "async" ∧ f.modeAsync = some true) ∨ (n = "mode" ∧ f.mode ≠ none)

/-- The argument of a struct with the name `n` is switched on (fieldx_derive/src/util/args.rs 19-65). -/
def StructOn (s : StructArgs) (n : String) : Prop :=
  (n = "public" ∧ s.pub ≠ none) ∨ (n = "private" ∧ s.priv = some true) ∨ (n = "copy" ∧ s.copy = some true) ∨
  (n = "clone" ∧ s.clone = some true) ∨ (n = "lazy" ∧ ∃ h, s.lazy = some h ∧ h.isTrue = true) ∨
  (n = "optional" ∧ s.optional = some true) ∨ (n = "inner_mut" ∧ s.innerMut = some true) ∨
  (n = "sync" ∧ s.modeSync = some true) ∨ (n = "r#async" ∧ s.modeAsync = some true) ∨ (n = "mode" ∧ s.mode ≠ none) ∨
  (n = "serde" ∧ ∃ h, s.serde = some h ∧ h.isTrue = true) ∨ (n = "rc" ∧ ∃ h, s.rc = some h ∧ h.isTrue = true)

private theorem named {gs : List Group} {t : String} {ns : List String} (h : (t, ns) ∈ errors gs) :
    ∃ g ∈ gs, g.1 = t ∧ ∀ n ∈ ns, ∃ sub ∈ g.2, (n, true) ∈ sub := by
  rw [errors_eq] at h
  simp only [List.mem_map, List.mem_filter, Prod.mk.injEq] at h
  obtain ⟨g, ⟨hg, _⟩, h1, rfl⟩ := h
  refine ⟨g, hg, h1, fun n hn => ?_⟩
  simp only [setNames, List.mem_map, List.mem_filter, List.mem_flatten] at hn
  obtain ⟨⟨a, b⟩, ⟨⟨sub, h2, h3⟩, h4⟩, rfl⟩ := hn
  have h5 : b = true := h4
  subst h5
  exact ⟨sub, h2, h3⟩

private theorem elim_on {α : Type} {o : Option α} {p : α → Bool} (h : o.elim false p = true) : ∃ a, o = some a ∧ p a = true := by
  cases o with
  | none => cases h
  | some a => exact ⟨a, rfl, h⟩

private theorem getD_on {o : Option Bool} (h : o.getD false = true) : o = some true := by
  cases o with
  | none => cases h
  | some a => cases a <;> simp_all

private theorem isSome_on {α : Type} {o : Option α} (h : o.isSome = true) : o ≠ none := by cases o <;> simp_all

/-- Every argument which an error about a field names is switched on, and is named as the user writes it, but for `r#async`,
which the message calls `async`. -/
theorem C39_field_named {f : FieldArgs} {t : String} {ns : List String} (h : (t, ns) ∈ errors (fieldGroups f)) :
    ∀ n ∈ ns, FieldOn f n ∧ (n = "async" ∨ n ∈ Verif.Model.Parse.fieldNames) := by
  intro n hn
  obtain ⟨g, hg, _, hs⟩ := named h
  obtain ⟨sub, h1, h2⟩ := hs n hn
  simp only [fieldGroups, List.mem_cons, List.not_mem_nil, or_false] at hg
  rcases hg with rfl | rfl | rfl | rfl | rfl <;>
    simp only [List.mem_cons, List.not_mem_nil, or_false] at h1 <;>
    rcases h1 with rfl | rfl | rfl | rfl <;>
    simp only [List.mem_cons, List.not_mem_nil, or_false, Prod.mk.injEq] at h2 <;>
    rcases h2 with ⟨rfl, _⟩ | ⟨rfl, _⟩ | ⟨rfl, _⟩ <;>
    rename_i h3 <;>
    refine ⟨?_, by decide⟩ <;>
    first
    | (have := getD_on h3.symm; simp [FieldOn, this]; done)
    | (have := elim_on h3.symm; simp [FieldOn, this]; done)
    | (have := isSome_on h3.symm; simp [FieldOn, this]; done)

/-- The same for a struct. -/
theorem C39_struct_named {s : StructArgs} {t : String} {ns : List String} (h : (t, ns) ∈ errors (structGroups s)) :
    ∀ n ∈ ns, StructOn s n ∧ n ∈ Verif.Model.Parse.structNames := by
  intro n hn
  obtain ⟨g, hg, _, hs⟩ := named h
  obtain ⟨sub, h1, h2⟩ := hs n hn
  simp only [structGroups, List.mem_cons, List.not_mem_nil, or_false] at hg
  rcases hg with rfl | rfl | rfl | rfl | rfl <;>
    simp only [List.mem_cons, List.not_mem_nil, or_false] at h1 <;>
    rcases h1 with rfl | rfl | rfl | rfl <;>
    simp only [List.mem_cons, List.not_mem_nil, or_false, Prod.mk.injEq] at h2 <;>
    rcases h2 with ⟨rfl, _⟩ | ⟨rfl, _⟩ | ⟨rfl, _⟩ <;>
    rename_i h3 <;>
    refine ⟨?_, by decide⟩ <;>
    first
    | (have := getD_on h3.symm; simp [StructOn, this]; done)
    | (have := elim_on h3.symm; simp [StructOn, this]; done)
    | (have := isSome_on h3.symm; simp [StructOn, this]; done)

/-- Concrete case: `lazy, optional, r#async, sync`. -/
example : errors (fieldGroups
      { ident := "a", lazy := some {}, optional := some true, modeSync := some true, modeAsync := some true }) =
    [("field mode", ["lazy", "optional"]), ("concurrency mode", ["sync", "async"])] := by decide

end Verif.Props.Exclusive
