import Verif.Model.Default
import Verif.Props.Init
import Verif.Props.Builder
/-
The generated `Default` and `new()`: C55, C56.
-/
namespace Verif.Props.Default
open Verif.Model.Args Verif.Model.Init Verif.Model.Exclusive Verif.Model.Builder Verif.Model.Default Verif.Spec.InitTy
  Verif.Proof.BuilderField Verif.Proof.Builder Verif.Props.Init Verif.Props.Builder

variable {V : Type}

/-! ## C55: what `Default::default()` contains -/

theorem default_content (x : FCtx) (hk : ¬ SkippedLock x) {τ : Ty} (ht : declType x = .ok τ) {e : IE}
    (he : defaultInit x = .ok e) (env : Env V) :
    ∃ w, (eval τ env none e).1 = .ok w ∧ content w = defaultContent x env := by
  cases hs : x.field.isSkipped with
  | false =>
    obtain ⟨w, hw, hc⟩ := default_eval x hs ht he env none
    exact ⟨w, by rw [hw], hc⟩
  | true =>
    have hz : x.isLazy = false := by simp [FCtx.isLazy, FieldArgs.isLazy, hs]
    have ho : x.isOptional = false := by simp [FCtx.isOptional, hs]
    unfold SkippedLock at hk
    unfold declType syncType plainType builderWrapper at ht
    unfold defaultInit defaultWrap syncWrap plainWrap defaultRepr syncType builderWrapper at he
    unfold defaultContent
    cases hsy : x.isSync <;> cases hi : x.isInnerMut <;> cases hl : x.needsLock <;>
      cases hf : (x.isFallible && !hasErrorType x) <;> cases hd : x.defaultValue.isSome <;>
      simp [hsy, hz, ho, hi, hl, hf, hs, hd, bind, Gen.bind, pure, VRepr.map, fixup] at ht he hk <;>
      subst ht <;> subst he <;>
      simp [eval, Out.map, content, dfltAt, hz, ho]

theorem holds_default (x : FCtx) (env : Env V) : Holds x env none (defaultContent x env) := by
  unfold defaultContent
  cases hd : x.defaultValue with
  | some d => exact .declared d hd
  | none =>
    cases hz : x.isLazy <;> cases ho : x.isOptional <;> simp
    · exact .zero hd hz ho
    · exact .empty hd (.inr ho)
    · exact .empty hd (.inl hz)
    · exact .empty hd (.inl hz)

theorem holds_unique {x : FCtx} {env : Env V} {s a b : Option V} (h : Holds x env s a) (h' : Holds x env s b) : a = b := by
  cases h <;> cases h' <;> simp_all

/-- The expansion of every field succeeds and none is a skipped field under a struct-wide lock. -/
def Sound (c : Ctx) : Prop :=
  ∀ f ∈ c.allFields, (∃ τ, declType ⟨c, f⟩ = .ok τ) ∧ ¬ SkippedLock ⟨c, f⟩

/-- `Default::default()` does not panic and gives every field, in declaration order and with its declared type, the
declared default; a lazy or optional field without one is empty; any other field holds `T::default()`. Skipped fields
included. -/
theorem C55_contents (c : Ctx) (w : String → Env V) (hs : Sound c) :
    ∃ obj, makeDefault c w = .ok obj ∧ obj.map (·.1) = c.allFields.map (·.ident) ∧
      ∀ (i : Nat) (f : FieldArgs), c.allFields[i]? = some f → ∃ a, obj[i]? = some (f.ident, a) ∧
        (∀ τ, declType ⟨c, f⟩ = .ok τ → ValTy a τ) ∧ Holds ⟨c, f⟩ (w f.ident) none (content a) := by
  unfold makeDefault
  unfold Sound at hs
  revert hs
  generalize c.allFields = l
  intro hs
  induction l with
  | nil => exact ⟨[], rfl, rfl, by intro i f h; simp at h⟩
  | cons f fs ih =>
    obtain ⟨rest, hr, hn, hall⟩ := ih (fun g hg => hs g (List.mem_cons_of_mem _ hg))
    obtain ⟨⟨τ, ht⟩, hsk⟩ := hs f List.mem_cons_self
    obtain ⟨e, he⟩ := C23_default_generated ⟨c, f⟩ ht
    obtain ⟨a, ha, hca⟩ := default_content ⟨c, f⟩ hsk ht he (w f.ident)
    have hty : ValTy a τ := by
      rcases C23_evaluates ((C23_default_iff ⟨c, f⟩ ht he).mpr hsk) (w f.ident) none
        ⟨by simp, by simp, by simp⟩ with ⟨a', h1, h2⟩ | h
      · rw [ha] at h1; cases h1; exact h2
      · rw [ha] at h; cases h
    refine ⟨(f.ident, a) :: rest, ?_, by simp [hn], ?_⟩
    · simp [defaultObj, ht, he, ha, hr]
    · intro i g hg
      cases i with
      | zero =>
        simp only [List.getElem?_cons_zero, Option.some.injEq] at hg
        subst hg
        refine ⟨a, rfl, fun τ' h => ?_, ?_⟩
        · rw [ht] at h; cases h; exact hty
        · rw [hca]; exact holds_default _ _
      | succ i =>
        simp only [List.getElem?_cons_succ] at hg ⊢
        exact hall i g hg

/-- A builder on which no setter was called gives, for a struct without mandatory fields, each field the content
`Default::default()` gives it. -/
theorem C55_builder_agrees (c : Ctx) (w : String → Env V) (hs : Sound c) (hd : Distinct c) (hc : Compiles c)
    (obj : List (String × Val V)) (h : (build c w Slots.new).1 = .ok obj) :
    ∃ obj', makeDefault c w = .ok obj' ∧ ∀ f ∈ builderFields c, ∃ a b, (f.ident, a) ∈ obj ∧ (f.ident, b) ∈ obj' ∧
      content a = content b := by
  obtain ⟨obj', h1, _, h3⟩ := C55_contents c w hs
  refine ⟨obj', h1, fun f hf => ?_⟩
  obtain ⟨a, ha, _, hha⟩ := (C28_contents c w Slots.new hd hc (settable_new c) obj h).2 f hf
  obtain ⟨i, hi⟩ := List.getElem?_of_mem (List.mem_filter.mp hf).1
  obtain ⟨b, hb, _, hhb⟩ := h3 i f hi
  exact ⟨a, b, ha, List.mem_of_getElem? hb, holds_unique hha hhb⟩

/-- Non-trivial case: a declared default, a lazy field, an optional one, a skipped one, and an ordinary one. -/
def exDef : Ctx :=
  { args := { modeSync := some true }
    fields := [{ ident := "a", default := some { value := some "1" } }, { ident := "b", lazy := some {} },
      { ident := "c", optional := some true }, { ident := "d", skip := true }, { ident := "e", reader := some {} }] }

example : Sound exDef := by
  have h : exDef.allFields.all (fun f => (match declType ⟨exDef, f⟩ with | .ok _ => true | _ => false) &&
      !(FCtx.isSync ⟨exDef, f⟩ && f.isSkipped && FCtx.needsLock ⟨exDef, f⟩)) = true := by decide +kernel
  intro f hf
  have := List.all_eq_true.mp h f hf
  rw [Bool.and_eq_true] at this
  constructor
  · cases hd : declType ⟨exDef, f⟩ with
    | ok τ => exact ⟨τ, rfl⟩
    | error => rw [hd] at this; simp at this
    | panic => rw [hd] at this; simp at this
  · rintro ⟨h1, h2, h3⟩
    have h2' : f.isSkipped = true := h2
    simp [h1, h2', h3] at this

example : makeDefault exDef (fun _ => (⟨7, 0, 9, .none, .none, none⟩ : Env Nat)) =
    .ok [("a", .val 7), ("b", .proxy false .none), ("c", .lock false .none), ("d", .val 9), ("e", .lock false (.val 9))] := by
  decide +kernel

/-! ## C56: which constructors exist -/

/-- `Default` is wanted: switched on by `default`, or not switched off and either `new()` is wanted (no `no_new`) or some
field asks for it - it has a default, or it is lazy (by its own argument) in a sync struct. -/
inductive Wanted (c : Ctx) : Prop
  | asked : c.args.default = some true → Wanted c
  | new : c.args.default = none → c.args.noNew ≠ some true → Wanted c
  | field (f : FieldArgs) (d : Default) : c.args.default = none → f ∈ c.fields → f.default = some d → d.off = false → Wanted c
  | lazy (f : FieldArgs) (h : Helper) : c.args.default = none → c.isRatherSync = true → f ∈ c.fields → f.skip = false →
      f.lazy = some h → h.off = false → Wanted c

theorem wanted_iff (c : Ctx) : c.needsDefault = true ↔ Wanted c := by
  unfold Ctx.needsDefault StructArgs.needsDefault
  cases hd : c.args.default with
  | some b =>
    constructor
    · intro h; simp only at h; subst h; exact .asked hd
    · rintro (h | ⟨h, _⟩ | ⟨f, d, h, _⟩ | ⟨f, d, h, _⟩) <;> rw [hd] at h <;> simp_all
  | none =>
    have hn : c.args.needsNew = true ↔ c.args.noNew ≠ some true := by
      unfold StructArgs.needsNew StructArgs.needsDefault
      rw [hd]
      rcases c.args.noNew with _ | _ | _ <;> simp
    cases hnn : c.args.needsNew with
    | true => simp only [if_true, true_iff]; exact .new hd (hn.mp hnn)
    | false =>
      have hn' : ¬ c.args.noNew ≠ some true := by rw [← hn, hnn]; simp
      simp only [Bool.false_eq_true, if_false, List.any_eq_true, Bool.or_eq_true, Bool.and_eq_true]
      constructor
      · rintro ⟨f, hf, h | ⟨hr, h⟩⟩
        · unfold FieldArgs.hasDefaultValue at h
          cases hfd : f.default with
          | none => rw [hfd] at h; simp at h
          | some d => rw [hfd] at h; exact .field f d hd hf hfd (by simpa [Default.isTrue] using h)
        · unfold FieldArgs.isLazy FieldArgs.isSkipped at h
          cases hsk : f.skip with
          | true => rw [hsk] at h; simp at h
          | false =>
            cases hl : f.lazy with
            | none => rw [hsk, hl] at h; simp at h
            | some l => rw [hsk, hl] at h; exact .lazy f l hd hr hf hsk hl (by simpa [Helper.isTrue] using h)
      · rintro (h | ⟨_, h⟩ | ⟨f, d, _, hf, h, h'⟩ | ⟨f, l, _, hr, hf, hsk, hl, ho⟩)
        · rw [hd] at h; cases h
        · exact absurd h hn'
        · exact ⟨f, hf, .inl (by simp [FieldArgs.hasDefaultValue, h, Default.isTrue, h'])⟩
        · exact ⟨f, hf, .inr ⟨hr, by simp [FieldArgs.isLazy, FieldArgs.isSkipped, hsk, hl, Helper.isTrue, ho]⟩⟩

/-- Exactly when there is a constructor function, and its name: `new` unless `no_new` is given. -/
theorem C56_constructor_iff (c : Ctx) (n : String) :
    constructor c = some n ↔ Wanted c ∧ n = (if c.args.noNew = some true then "__fieldx_new" else "new") := by
  have hnn : c.needsDefault = true → c.args.needsNew = !(c.args.noNew == some true) := by
    intro h
    unfold StructArgs.needsNew StructArgs.needsDefault
    unfold Ctx.needsDefault StructArgs.needsDefault at h
    rcases hd : c.args.default with _ | _ | _
    · rcases c.args.noNew with _ | _ | _ <;> rfl
    · rw [hd] at h; cases h
    · rcases c.args.noNew with _ | _ | _ <;> rfl
  unfold constructor
  rw [← wanted_iff]
  by_cases h : c.needsDefault = true
  · rw [if_pos h, hnn h]
    rcases c.args.noNew with _ | _ | _ <;> simp [h, eq_comm]
  · rw [if_neg h]; simp [h]

/-- Part of the full claim "a constructor function is only written together with the `Default` it calls": it is if the
struct has a field (the self reference of a reference counted struct counts). Missing: structs without fields, for which
it is false (`C56_empty_false`). -/
theorem C56_has_default_partial (c : Ctx) (h : c.allFields ≠ []) : hasDefaultImpl c = true ↔ constructor c ≠ none := by
  unfold hasDefaultImpl constructor
  cases c.needsDefault <;> cases hl : c.allFields <;> simp_all

/-- `#[fxstruct] struct S {}`: `new()` calls a `Default` that is not written. -/
theorem C56_empty_false : ∃ c : Ctx, acceptStructFull c.args = true ∧ constructor c = some "new" ∧
    hasDefaultImpl c = false := ⟨{}, by decide, by decide, by decide⟩

/-- Non-trivial cases: `no_new` with a lazy field, in a plain and in a sync struct. -/
example : constructor { args := { noNew := some true }, fields := [{ lazy := some {} }] } = none ∧
    constructor { args := { noNew := some true, modeSync := some true }, fields := [{ lazy := some {} }] } =
      some "__fieldx_new" := by decide
example : Wanted { args := { noNew := some true, modeSync := some true }, fields := [{ lazy := some {} }] } :=
  .lazy { lazy := some {} } {} rfl (by decide) (by simp) rfl rfl rfl

end Verif.Props.Default
