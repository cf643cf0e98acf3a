import Verif.Model.Builder
import Verif.Spec.InitTy
/-
What the initialisers of a single field evaluate to.
-/
namespace Verif.Proof.BuilderField
open Verif.Model.Args Verif.Model.Init Verif.Model.Builder Verif.Spec.InitTy

/-- Content of a field nobody gave a value: the declared default, else empty (lazy, optional), else `T::default()`. -/
def defaultContent {V : Type} (x : FCtx) (env : Env V) : Option V :=
  if x.defaultValue.isSome then some env.dv else if x.isLazy || x.isOptional then none else some env.dflt

/-- A versatile value is wrapped into the container of the field. -/
theorem wrap_versatile {V : Type} (x : FCtx) (hk : x.field.isSkipped = false) {τ : Ty} (ht : declType x = .ok τ)
    {e e' : IE} (he : valueWrap x (.versatile e) = .ok e') (env : Env V) (s : Option V) :
    (∀ v s', eval .t env s e = (.ok (.val v), s') → ∃ w, eval τ env s e' = (.ok w, s') ∧ content w = some v) ∧
    (∀ s', eval .t env s e = (.panic, s') → eval τ env s e' = (.panic, s')) := by
  unfold declType syncType plainType builderWrapper at ht
  unfold valueWrap syncWrap plainWrap syncType builderWrapper at he
  cases hsy : x.isSync <;> cases hz : x.isLazy <;> cases ho : x.isOptional <;> cases hi : x.isInnerMut <;>
    cases hl : x.needsLock <;> cases hf : (x.isFallible && !hasErrorType x) <;>
    simp [hsy, hz, ho, hi, hl, hf, hk, bind, Gen.bind, pure] at ht he <;>
    subst ht <;> subst he <;>
    (refine ⟨fun v s' h => ?_, fun s' h => ?_⟩ <;>
      simp [eval, h, Out.map, content])

/-- The default initialiser gives the default content. -/
theorem default_eval {V : Type} (x : FCtx) (hk : x.field.isSkipped = false) {τ : Ty} (ht : declType x = .ok τ)
    {e : IE} (he : defaultWrap x = .ok e) (env : Env V) (s : Option V) :
    ∃ w, eval τ env s e = (.ok w, s) ∧ content w = defaultContent x env := by
  unfold declType syncType plainType builderWrapper at ht
  unfold defaultWrap syncWrap plainWrap defaultRepr syncType builderWrapper at he
  unfold defaultContent
  cases hsy : x.isSync <;> cases hz : x.isLazy <;> cases ho : x.isOptional <;> cases hi : x.isInnerMut <;>
    cases hl : x.needsLock <;> cases hf : (x.isFallible && !hasErrorType x) <;> cases hd : x.defaultValue.isSome <;>
    simp [hsy, hz, ho, hi, hl, hf, hk, hd, bind, Gen.bind, pure, VRepr.map, fixup] at ht he <;>
    subst ht <;> subst he <;>
    simp [eval, Out.map, content, dfltAt]

/-- The same for the unrewritten default (sync builder without setter). -/
theorem syncDefault_eval {V : Type} (x : FCtx) (hk : x.field.isSkipped = false) (hs : x.isSync = true) {τ : Ty}
    (ht : declType x = .ok τ) {e : IE} (he : syncWrap x (defaultRepr x) = .ok e) (env : Env V) (s : Option V) :
    ∃ w, eval τ env s e = (.ok w, s) ∧ content w = defaultContent x env := by
  apply default_eval x hk ht _ env s
  unfold defaultWrap
  rw [if_pos hs]; exact he

/-- `field_builder_value_for_set` with a value given. -/
theorem forSet_some {V : Type} (x : FCtx) (hk : x.field.isSkipped = false) {τ : Ty} (ht : declType x = .ok τ)
    {e : IE} (he : builderValueForSet x = .ok e) (env : Env V) (v : V) :
    ∃ w, eval τ env (some v) e = (.ok w, none) ∧ content w = some v := by
  unfold builderValueForSet at he
  split at he
  · obtain ⟨alt, h1, h2⟩ : ∃ alt, defaultWrap x = .ok alt ∧ ∃ m, valueWrap x (.versatile .var) = .ok m ∧
        e = .ifLetSlot m alt := by
      cases hd : defaultWrap x <;> cases hv : valueWrap x (.versatile .var) <;>
        simp [hd, hv, bind, Gen.bind, pure] at he
      exact ⟨_, rfl, _, rfl, he.symm⟩
    obtain ⟨m, hm, rfl⟩ := h2
    obtain ⟨w, h3, h4⟩ := (wrap_versatile x hk ht hm { env with var := some v } none).1 v none (by simp [eval])
    exact ⟨w, by simp only [eval, h3], h4⟩
  · split at he
    · obtain ⟨alt, h1, h2⟩ : ∃ alt, valueWrap x (.exact .none) = .ok alt ∧ ∃ m, valueWrap x (.versatile .var) = .ok m ∧
          e = .ifLetSlot m alt := by
        cases hd : valueWrap x (.exact .none) <;> cases hv : valueWrap x (.versatile .var) <;>
          simp [hd, hv, bind, Gen.bind, pure] at he
        exact ⟨_, rfl, _, rfl, he.symm⟩
      obtain ⟨m, hm, rfl⟩ := h2
      obtain ⟨w, h3, h4⟩ := (wrap_versatile x hk ht hm { env with var := some v } none).1 v none (by simp [eval])
      exact ⟨w, by simp only [eval, h3], h4⟩
    · exact (wrap_versatile x hk ht he env (some v)).1 v none (by simp [eval])

/-- `Exact(None)` wrapped for an optional field is empty; only the sync generator asks for it. -/
theorem exactNone_eval {V : Type} (x : FCtx) (hk : x.field.isSkipped = false) {τ : Ty} (ht : declType x = .ok τ)
    (hz : x.isLazy = false) (ho : x.isOptional = true) (hs : x.isSync = true)
    {e : IE} (he : valueWrap x (.exact .none) = .ok e) (env : Env V) (s : Option V) :
    ∃ w, eval τ env s e = (.ok w, s) ∧ content w = none := by
  unfold declType syncType builderWrapper at ht
  unfold valueWrap syncWrap at he
  cases hl : x.needsLock <;> cases hf : (x.isFallible && !hasErrorType x) <;>
    simp [hs, hz, ho, hl, hf, hk, bind, Gen.bind, pure] at ht he <;>
    subst ht <;> subst he <;>
    simp [eval, Out.map, content]

/-- `field_builder_value_for_set` without a value: the default, or empty, or a panic. -/
theorem forSet_none {V : Type} (x : FCtx) (hk : x.field.isSkipped = false) (hz : x.isLazy = false) {τ : Ty}
    (ht : declType x = .ok τ) {e : IE} (he : builderValueForSet x = .ok e)
    (hp : x.isSync = false → (x.isOptional && !x.isBuilderRequired) = false) (env : Env V) :
    (if x.field.hasDefaultValue || (x.isOptional && !x.isBuilderRequired) then
      ∃ w, eval τ env none e = (.ok w, none) ∧ content w = defaultContent x env
    else eval τ env none e = (.panic, none)) := by
  unfold builderValueForSet at he
  split at he
  · rename_i hd
    rw [if_pos (by simp [hd])]
    obtain ⟨alt, h1, h2⟩ : ∃ alt, defaultWrap x = .ok alt ∧ ∃ m, valueWrap x (.versatile .var) = .ok m ∧
        e = .ifLetSlot m alt := by
      cases hd : defaultWrap x <;> cases hv : valueWrap x (.versatile .var) <;>
        simp [hd, hv, bind, Gen.bind, pure] at he
      exact ⟨_, rfl, _, rfl, he.symm⟩
    obtain ⟨m, hm, rfl⟩ := h2
    obtain ⟨w, h3, h4⟩ := default_eval x hk ht h1 env none
    exact ⟨w, by simp only [eval, h3], h4⟩
  · rename_i hd
    split at he
    · rename_i hor
      rw [if_pos (by simp at hor; simp [hor])]
      have hsy : x.isSync = true := by
        cases hsy : x.isSync with
        | true => rfl
        | false => rw [hp hsy] at hor; cases hor
      simp at hor
      obtain ⟨alt, h1, h2⟩ : ∃ alt, valueWrap x (.exact .none) = .ok alt ∧ ∃ m, valueWrap x (.versatile .var) = .ok m ∧
          e = .ifLetSlot m alt := by
        cases hd : valueWrap x (.exact .none) <;> cases hv : valueWrap x (.versatile .var) <;>
          simp [hd, hv, bind, Gen.bind, pure] at he
        exact ⟨_, rfl, _, rfl, he.symm⟩
      obtain ⟨m, hm, rfl⟩ := h2
      obtain ⟨w, h3, h4⟩ := exactNone_eval x hk ht hz hor.1 hsy h1 env none
      refine ⟨w, by simp only [eval, h3], ?_⟩
      rw [h4]
      unfold defaultContent
      have : x.defaultValue.isSome = false := by
        unfold FCtx.defaultValue
        cases hh : x.field.hasDefaultValue with
        | true => exact absurd hh hd
        | false => rfl
      simp [this, hor.1]
    · rename_i hor
      rw [if_neg (by simp at hor ⊢; exact ⟨by simpa using hd, hor⟩)]
      exact (wrap_versatile x hk ht he env none).2 none (by simp [eval])

/-- The initialiser of a field with a value in its slot. -/
theorem builder_some {V : Type} (x : FCtx) (hk : x.field.isSkipped = false) {τ : Ty} (ht : declType x = .ok τ)
    {e : IE} (he : builderInit x = .ok e) (hset : hasSetter x = true) (env : Env V) (v : V) :
    ∃ w, eval τ env (some v) e = (.ok w, none) ∧ content w = some v := by
  unfold builderInit at he
  have hns : (!x.forcedBuilder && !x.needsBuilder) = false := by
    unfold hasSetter at hset
    revert hset; cases x.forcedBuilder <;> cases x.needsBuilder <;> simp
  split at he
  · rename_i hsy
    unfold syncBuilderInit at he
    rw [hns] at he
    have ht' := ht
    unfold declType at ht'
    rw [if_pos hsy] at ht'
    have hbw : builderWrapper x = .ok () := by
      unfold syncType at ht'
      cases hb : builderWrapper x <;> simp [hb, bind, Gen.bind] at ht'
      rfl
    unfold syncType at ht'
    rw [hbw] at ht'
    simp only [bind, Gen.bind, syncType, hbw, hk] at he ht'
    cases hd : x.field.hasDefaultValue <;> cases hz : x.isLazy <;> cases hl : x.needsLock <;>
      cases ho : x.isOptional <;> cases hr : (defaultRepr x).expect <;>
      simp [hd, hz, hl, ho, hr, pure] at he ht' <;>
      first
      | exact forSet_some x hk ht he env v
      | (subst he; subst ht'; simp [eval, Out.map, content, ofOpt])
  · rename_i hsy
    unfold plainBuilderInit at he
    rw [hns] at he
    have ht' := ht
    unfold declType plainType at ht'
    rw [if_neg hsy] at ht'
    cases hd : defaultWrap x <;> cases hz : x.isLazy <;> cases ho : (x.isOptional && !x.isBuilderRequired) <;>
      cases hi : x.isInnerMut <;> simp only [hd, hz, ho, hi, bind, Gen.bind, pure] at he ht' <;>
      first
      | (simp at he; done)
      | exact forSet_some x hk ht (by simpa using he) env v
      | (simp at he ht'; simp at ho; subst he; subst ht'; simp [eval, Out.map, content, ofOpt])

/-- The initialiser of a field without a setter. -/
theorem builder_noSetter {V : Type} (x : FCtx) (hk : x.field.isSkipped = false) {τ : Ty} (ht : declType x = .ok τ)
    {e : IE} (he : builderInit x = .ok e) (hset : hasSetter x = false) (env : Env V) (s : Option V) :
    ∃ w, eval τ env s e = (.ok w, s) ∧ content w = defaultContent x env := by
  unfold builderInit at he
  have hns : (!x.forcedBuilder && !x.needsBuilder) = true := by
    unfold hasSetter at hset
    revert hset; cases x.forcedBuilder <;> cases x.needsBuilder <;> simp
  split at he
  · rename_i hsy
    unfold syncBuilderInit at he
    rw [hns] at he
    have hst : syncType x = .ok τ := by unfold declType at ht; rw [if_pos hsy] at ht; exact ht
    cases hd : x.field.hasDefaultValue <;> cases hr : (defaultRepr x).expect <;>
      simp [hd, hr, hst, bind, Gen.bind, pure] at he <;>
      exact syncDefault_eval x hk hsy ht he env s
  · unfold plainBuilderInit at he
    rw [hns] at he
    cases hd : defaultWrap x <;> simp [hd, bind, Gen.bind, pure] at he
    subst he
    exact default_eval x hk ht hd env s

/-- The field panics in `build()` if nothing was given. -/
def PanicsWhenEmpty (x : FCtx) : Bool :=
  x.forcedBuilder && !x.needsBuilder && !x.isBuilderRequired && !x.isLazy && !x.isOptional && !x.field.hasDefaultValue

theorem noValue_of_noDefault (x : FCtx) (h : x.field.hasDefaultValue = false) : x.defaultValue.isSome = false := by
  simp [FCtx.defaultValue, h]

/-- The initialiser of a field with a setter, an empty slot, and no check before. -/
theorem builder_none {V : Type} (x : FCtx) (hk : x.field.isSkipped = false) {τ : Ty} (ht : declType x = .ok τ)
    {e : IE} (he : builderInit x = .ok e) (hset : hasSetter x = true) (hc : hasChecker x = false) (env : Env V) :
    (PanicsWhenEmpty x = true → eval τ env none e = (.panic, none)) ∧
    (PanicsWhenEmpty x = false → ∃ w, eval τ env none e = (.ok w, none) ∧ content w = defaultContent x env) := by
  have hns : (!x.forcedBuilder && !x.needsBuilder) = false := by
    unfold hasSetter at hset
    revert hset; cases x.forcedBuilder <;> cases x.needsBuilder <;> simp
  have hrq : x.isBuilderRequired = false := by
    unfold hasChecker at hc
    revert hc; cases x.isBuilderRequired <;> simp
  have hpe : x.isLazy = false → (PanicsWhenEmpty x = true ↔ (x.field.hasDefaultValue || x.isOptional) = false) := by
    unfold PanicsWhenEmpty
    unfold hasChecker at hc
    revert hc hns
    cases x.forcedBuilder <;> cases x.needsBuilder <;> cases x.isOptional <;> cases x.field.hasDefaultValue <;>
      cases x.isLazy <;> cases x.isBuilderRequired <;> simp_all
  have hpl : x.isLazy = true → PanicsWhenEmpty x = false := by intro h; simp [PanicsWhenEmpty, h]
  have hforSet : x.isLazy = false → (x.isSync = false → x.isOptional = false) → builderValueForSet x = .ok e →
      (PanicsWhenEmpty x = true → eval τ env none e = (.panic, none)) ∧
      (PanicsWhenEmpty x = false → ∃ w, eval τ env none e = (.ok w, none) ∧ content w = defaultContent x env) := by
    intro hz hp hv
    have h := forSet_none x hk hz ht hv (fun hs => by simp [hp hs]) env
    rw [hrq] at h
    simp only [Bool.not_false, Bool.and_true] at h
    refine ⟨fun hpp => ?_, fun hpp => ?_⟩
    · rw [(hpe hz).mp hpp] at h; simpa using h
    · rw [if_pos] at h
      · exact h
      · cases hh : (x.field.hasDefaultValue || x.isOptional) with
        | true => rfl
        | false => rw [(hpe hz).mpr hh] at hpp; cases hpp
  unfold builderInit at he
  split at he
  · rename_i hsy
    unfold syncBuilderInit at he
    rw [hns] at he
    have ht' := ht
    unfold declType at ht'
    rw [if_pos hsy] at ht'
    have hbw : builderWrapper x = .ok () := by
      unfold syncType at ht'
      cases hb : builderWrapper x <;> simp [hb, bind, Gen.bind] at ht'
      rfl
    unfold syncType at ht'
    rw [hbw] at ht'
    have hnd := noValue_of_noDefault x
    simp only [bind, Gen.bind, syncType, hbw, hk] at he ht'
    cases hd : x.field.hasDefaultValue <;> cases hz : x.isLazy <;> cases hl : x.needsLock <;>
      cases ho : x.isOptional <;> cases hdv : x.defaultValue.isSome <;>
      simp [hd, hz, hl, ho, pure, defaultRepr, hdv, VRepr.expect] at he ht' hnd <;>
      first
      | exact hforSet hz (fun h => by rw [hsy] at h; cases h) he
      | (subst he; subst ht'
         refine ⟨fun h => ?_, fun _ => ?_⟩
         · simp [PanicsWhenEmpty, hz, ho, hd] at h
         · simp [eval, Out.map, content, ofOpt, defaultContent, hz, ho, hdv, fixup])
      | (rw [hnd hd] at hdv; cases hdv)
  · rename_i hsy
    unfold plainBuilderInit at he
    rw [hns, hrq] at he
    have hsy' : x.isSync = false := by simpa using hsy
    cases hd : defaultWrap x with
    | error => simp [hd, bind, Gen.bind] at he
    | panic => simp [hd, bind, Gen.bind] at he
    | ok d =>
      obtain ⟨w, h1, h2⟩ := default_eval x hk ht hd env none
      cases hz : x.isLazy with
      | true =>
        simp [hd, hz, bind, Gen.bind, pure] at he
        subst he
        exact ⟨fun h => (by rw [hpl hz] at h; cases h), fun _ => ⟨w, by simp [eval, h1], h2⟩⟩
      | false =>
        cases ho : x.isOptional with
        | true =>
          simp [hd, hz, ho, bind, Gen.bind, pure] at he
          subst he
          refine ⟨fun h => ?_, fun _ => ⟨w, by simp [eval, h1], h2⟩⟩
          simp [PanicsWhenEmpty, ho] at h
        | false =>
          simp [hd, hz, ho, bind, Gen.bind] at he
          exact hforSet hz (fun _ => ho) he

end Verif.Proof.BuilderField
