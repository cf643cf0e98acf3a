import Verif.Spec.Gated
import Verif.Model.Structs
/-!
C81, C82: features of the crate and the crates named by generated code.
-/

namespace Verif.Props.Features
open Verif.Model.Args Verif.Model.Init Verif.Model.Method Verif.Model.Features Verif.Spec.Gated

/-! ### Names in initialisers -/

/-- All names in an initialiser are the module of the field's container. -/
def Only (x : FCtx) (e : IE) : Prop := ∀ p ∈ iePaths e, x.isSync = true ∧ (x.isLazy = true ∨ x.needsLock = true) ∧ p = modOf x.isAsync

theorem only_nil (x : FCtx) {e : IE} (h : iePaths e = []) : Only x e := by simp [Only, h]

theorem only_two (x : FCtx) {e a b : IE} (h : iePaths e = iePaths a ++ iePaths b) (ha : Only x a) (hb : Only x b) :
    Only x e := by
  intro p hp
  rw [h, List.mem_append] at hp
  rcases hp with hp | hp
  · exact ha p hp
  · exact hb p hp

theorem fixup_paths (e : IE) : iePaths (fixup e) = iePaths e := by
  induction e <;> simp_all [fixup, iePaths]

theorem defaultRepr_cases (x : FCtx) :
    defaultRepr x = .none ∨ (∃ e, defaultRepr x = .exact e ∧ iePaths e = []) ∨
      (∃ e, defaultRepr x = .versatile e ∧ iePaths e = []) := by
  unfold defaultRepr
  split
  · exact .inr (.inr ⟨_, rfl, rfl⟩)
  · split
    · exact .inl rfl
    · exact .inr (.inl ⟨_, rfl, rfl⟩)

/-- A value representation without names. -/
def Clean : VRepr → Prop
  | .none => True
  | .exact e | .versatile e => iePaths e = []

theorem clean_default (x : FCtx) : Clean (defaultRepr x) := by
  rcases defaultRepr_cases x with h | ⟨e, h, he⟩ | ⟨e, h, he⟩ <;> simp [Clean, *]

theorem clean_fixup (r : VRepr) (h : Clean r) : Clean (r.map fixup) := by
  cases r <;> simp_all [Clean, VRepr.map, fixup_paths]

theorem plainWrap_paths (x : FCtx) (r : VRepr) (hr : Clean r) (e : IE) (h : plainWrap x r = .ok e) : iePaths e = [] := by
  cases r <;> cases hl : x.isLazy <;> cases ho : x.isOptional <;> cases hi : x.isInnerMut <;>
    simp [plainWrap, hl, ho, hi] at h <;> subst h <;> simp_all [Clean, iePaths]

theorem syncWrap_only (x : FCtx) (hs : x.isSync = true) (r : VRepr) (hr : Clean r) (e : IE) (h : syncWrap x r = .ok e) :
    Only x e := by
  cases hb : builderWrapper x <;> cases r <;> cases hl : x.isLazy <;> cases ho : x.isOptional <;> cases hk : x.needsLock <;>
    cases hf : x.field.isSkipped <;>
    simp [syncWrap, syncType, hl, ho, hk, hb, hf, bind, Gen.bind, pure] at h <;> subst h <;>
    simp_all [Only, Clean, iePaths, useAsync]

theorem valueWrap_only (x : FCtx) (r : VRepr) (hr : Clean r) (e : IE) (h : valueWrap x r = .ok e) : Only x e := by
  unfold valueWrap at h
  split at h
  · exact syncWrap_only x (by assumption) r hr e h
  · exact only_nil x (plainWrap_paths x r hr e h)

theorem defaultWrap_only (x : FCtx) (e : IE) (h : defaultWrap x = .ok e) : Only x e := by
  unfold defaultWrap at h
  split at h
  · exact syncWrap_only x (by assumption) _ (clean_default x) e h
  · exact only_nil x (plainWrap_paths x _ (clean_fixup _ (clean_default x)) e h)

theorem bind_ok {α β : Type} {a : Gen α} {f : α → Gen β} {b : β} (h : (a >>= f) = .ok b) : ∃ y, a = .ok y ∧ f y = .ok b := by
  cases a with
  | ok y => exact ⟨y, rfl, h⟩
  | error => cases h
  | panic => cases h

theorem ifLet_only (x : FCtx) {a b : IE} (ha : Only x a) (hb : Only x b) : Only x (.ifLetSlot a b) := only_two x rfl ha hb

theorem builderValueForSet_only (x : FCtx) (e : IE) (h : builderValueForSet x = .ok e) : Only x e := by
  unfold builderValueForSet at h
  split at h
  · obtain ⟨a, ha, h⟩ := bind_ok h
    obtain ⟨m, hm, h⟩ := bind_ok h
    cases h
    exact ifLet_only x (valueWrap_only x _ (by exact rfl) _ hm) (defaultWrap_only x _ ha)
  · split at h
    · obtain ⟨a, ha, h⟩ := bind_ok h
      obtain ⟨m, hm, h⟩ := bind_ok h
      cases h
      exact ifLet_only x (valueWrap_only x _ (by exact rfl) _ hm) (valueWrap_only x _ (by exact rfl) _ ha)
    · exact valueWrap_only x _ (by exact rfl) _ h

theorem plainBuilderInit_only (x : FCtx) (e : IE) (h : plainBuilderInit x = .ok e) : Only x e := by
  unfold plainBuilderInit at h
  obtain ⟨d, hd, h⟩ := bind_ok h
  have hd := defaultWrap_only x d hd
  split at h
  · cases h; exact hd
  · split at h
    · cases h; exact only_two x (a := .onceFrom .slotUnwrap) rfl (only_nil x rfl) hd
    · split at h
      · cases h
        refine only_two x (a := if x.isInnerMut then .cellNew .slotTake else .slotTake) rfl (only_nil x ?_) hd
        cases x.isInnerMut <;> rfl
      · exact builderValueForSet_only x e h

theorem expect_clean (r : VRepr) (hr : Clean r) (d : IE) (h : r.expect = .ok d) : iePaths d = [] := by
  cases r <;> simp [VRepr.expect] at h <;> subst h <;> exact hr

theorem syncBuilderInit_only (x : FCtx) (hs : x.isSync = true) (e : IE) (h : syncBuilderInit x = .ok e) : Only x e := by
  unfold syncBuilderInit at h
  obtain ⟨_, _, h⟩ := bind_ok h
  have key : ∀ g : IE → IE, iePaths (g .slotTake) = [] →
      (if (!x.forcedBuilder && !x.needsBuilder) = true then syncWrap x (defaultRepr x)
       else if x.isLazy = true then do
         builderWrapper x
         pure (.proxyNew (useAsync x) x.isFallible (g .slotTake))
       else if x.needsLock = true then builderValueForSet x
       else if x.isOptional = true then pure (g .slotTake) else builderValueForSet x) = Gen.ok e → Only x e := by
    intro g hgp h
    split at h
    · exact syncWrap_only x hs _ (clean_default x) e h
    · split at h
      · rename_i hl
        obtain ⟨_, _, h⟩ := bind_ok h
        cases h
        simp [Only, iePaths, hgp, hs, hl, useAsync]
      · split at h
        · exact builderValueForSet_only x e h
        · split at h
          · cases h; exact only_nil x hgp
          · exact builderValueForSet_only x e h
  dsimp only at h
  split at h
  · obtain ⟨d, hd, h⟩ := bind_ok h
    refine key (fun e => e.orElseSome (fixup d)) ?_ h
    simp [iePaths, fixup_paths, expect_clean _ (clean_default x) d hd]
  · exact key id rfl h

theorem builderInit_only (x : FCtx) (e : IE) (h : builderInit x = .ok e) : Only x e := by
  unfold builderInit at h
  split at h
  · exact syncBuilderInit_only x (by assumption) e h
  · exact plainBuilderInit_only x e h

theorem fromShadow_only (x : FCtx) (e : IE) (h : fromShadow x = .ok e) : Only x e := by
  unfold fromShadow at h
  split at h
  · exact syncWrap_only x (by assumption) _ (by exact rfl) e h
  · split at h
    · obtain ⟨d, hd, h⟩ := bind_ok h
      obtain ⟨v, hv, h⟩ := bind_ok h
      cases h
      exact only_two x (a := d) (b := v) rfl (defaultWrap_only x d hd) (only_nil x (plainWrap_paths x _ (by exact rfl) v hv))
    · split at h
      · exact only_nil x (plainWrap_paths x _ (by exact rfl) e h)
      · cases h; exact only_nil x rfl

/-- Names in what a generator makes, if it makes something without other names. -/
theorem genPaths_only (x : FCtx) {g : Gen IE} (h : ∀ e, g = .ok e → Only x e) {p : Path} (hp : p ∈ genPaths iePaths g) :
    x.isSync = true ∧ (x.isLazy = true ∨ x.needsLock = true) ∧ p = modOf x.isAsync := by
  cases g with
  | ok e => exact h e rfl p hp
  | error => cases hp
  | panic => cases hp

/-! ### Names in signatures -/

/-- The names in the return types of the helpers of a sync field. -/
def retPaths (x : FCtx) : Kind → List Path
  | .accessor => if x.isClone || x.isCopy then [] else if x.isLazy || x.needsLock then [crateOf x.isAsync] else []
  | .accessorMut => if x.isLazy || x.needsLock then [crateOf x.isAsync] else []
  | .reader => [crateOf x.isAsync]
  | .writer => if x.isLazy then [modOf x.isAsync] else [crateOf x.isAsync]
  | _ => []

theorem wrapper_ok (x : FCtx) (τ : Ty) (h : declType x = .ok τ) (hs : x.isSync = true) :
    x.isFallible = true → hasErrorType x = true := by
  intro hf
  cases he : hasErrorType x with
  | true => rfl
  | false => simp [declType, hs, syncType, builderWrapper, hf, he, bind, Gen.bind] at h

theorem sync_body_paths (x : FCtx) (hs : x.isSync = true) (he : x.isFallible = true → hasErrorType x = true) (k : Kind) :
    genPaths (fun b => ctyPaths b.ret) (body x k) = retPaths x k := by
  have hfr : ∀ a, fallibleRet x a = .ok (if x.isFallible then .res a else a) := by
    intro a
    unfold fallibleRet
    cases hf : x.isFallible with
    | false => simp
    | true => simp [he hf]
  have hbw : builderWrapper x = .ok () := by
    unfold builderWrapper
    cases hf : x.isFallible with
    | false => simp
    | true => simp [he hf]
  have hif : ∀ a, ctyPaths (if x.isFallible then .res a else a) = ctyPaths a := by
    intro a; cases x.isFallible <;> rfl
  cases k <;> cases hl : x.isLazy <;> cases hk : x.needsLock <;> cases ho : x.isOptional <;>
    simp [body, hs, retPaths, syncAccessor, syncAccessorMut, syncReader, syncWriter, syncSetter, syncClearer, syncPredicate,
      hl, hk, ho, hfr, hbw, bind, Gen.bind, pure, genPaths, ctyPaths, guardPaths, hif, mappedRead,
      maybeOpt] <;>
    (try cases x.isClone <;> cases x.isCopy <;> cases x.isFallible <;> cases x.isAsync <;>
      simp [genPaths, ctyPaths, guardPaths, crateOf])

theorem plain_body_paths (x : FCtx) (hs : x.isSync = false) (k : Kind) :
    genPaths (fun b => ctyPaths b.ret) (body x k) = [] := by
  cases k <;> cases hl : x.isLazy <;> cases hi : x.isInnerMut <;> cases ho : x.isOptional <;>
    simp [body, hs, plainAccessor, plainAccessorMut, plainSetter, plainClearer, plainPredicate, hl, hi, ho, genPaths,
      ctyPaths, guardPaths, fallibleRet] <;>
    (try cases x.accessorMode <;> cases x.isClone <;> cases x.isCopy <;> cases x.isFallible <;> cases hasErrorType x <;>
      simp [bind, Gen.bind, pure, ctyPaths, guardPaths])

/-! ### Names of a field -/

theorem modOf_ne_crateOf (a b : Bool) : modOf a ≠ crateOf b := by cases a <;> cases b <;> simp [modOf, crateOf]

theorem modOf_inj (a b : Bool) : modOf a = modOf b ↔ a = b := by cases a <;> cases b <;> simp [modOf]

theorem crateOf_inj (a b : Bool) : crateOf a = crateOf b ↔ a = b := by cases a <;> cases b <;> simp [crateOf]

/-- The names in the declared type. -/
theorem decl_paths (x : FCtx) (τ : Ty) (h : declType x = .ok τ) :
    tyPaths τ = if x.isSync && !x.field.isSkipped && (x.isLazy || x.needsLock) then [modOf x.isAsync] else [] := by
  unfold declType at h
  cases hs : x.isSync with
  | false =>
    simp only [hs, Bool.false_eq_true, if_false, Gen.ok.injEq, plainType] at h
    subst h
    cases x.isLazy <;> cases x.isOptional <;> cases x.isInnerMut <;> simp [tyPaths]
  | true =>
    simp only [hs, if_true] at h
    cases hb : builderWrapper x <;> cases hf : x.field.isSkipped <;> cases hl : x.isLazy <;> cases hk : x.needsLock <;>
      cases ho : x.isOptional <;> simp [syncType, hb, hf, hl, hk, ho, bind, Gen.bind, pure] at h <;> subst h <;>
      simp [tyPaths, useAsync]

theorem default_paths (x : FCtx) (τ : Ty) (h : declType x = .ok τ) (hs : x.isSync = true)
    (hc : x.isLazy = true ∨ x.needsLock = true) : modOf x.isAsync ∈ genPaths iePaths (defaultInit x) := by
  have he := wrapper_ok x τ h hs
  have hb : builderWrapper x = .ok () := by
    unfold builderWrapper
    cases hf : x.isFallible with
    | false => simp
    | true => simp [he hf]
  have hd : defaultRepr x = .none → x.isLazy = true ∨ x.isOptional = true := by
    unfold defaultRepr
    cases x.defaultValue.isSome <;> cases x.isLazy <;> cases x.isOptional <;> simp
  unfold defaultInit defaultWrap
  rcases defaultRepr_cases x with h | ⟨e, h, _⟩ | ⟨e, h, _⟩ <;> cases hl : x.isLazy <;> cases ho : x.isOptional <;>
    cases hk : x.needsLock <;> cases hf : x.field.isSkipped <;> simp_all [syncWrap, syncType, bind, Gen.bind, pure, genPaths, iePaths, useAsync]

theorem mem_names (F : Features) (x : FCtx) (p : Path) :
    p ∈ names F x ↔ p ∈ genPaths tyPaths (declType x) ∨
      (x.ctx.needsDefault = true ∧ p ∈ genPaths iePaths (defaultInit x)) ∨
      (x.ctx.needsBuilderStruct = true ∧ x.field.isSkipped = false ∧ p ∈ genPaths iePaths (builderInit x)) ∨
      (F.serde = true ∧ Verif.Model.Serde.deserialised x = true ∧ p ∈ genPaths iePaths (fromShadow x)) ∨
      (∃ k ∈ kinds, Verif.Model.Emit.emits x k = true ∧ p ∈ genPaths (fun b => ctyPaths b.ret) (body x k)) := by
  unfold names
  have hif : ∀ (b : Prop) [Decidable b] (l : List Path), (p ∈ if b then l else []) ↔ b ∧ p ∈ l := by
    intro b _ l; by_cases hb : b <;> simp [hb]
  simp only [List.mem_append, hif, List.mem_flatMap, List.mem_filter, Bool.and_eq_true, Bool.not_eq_true', or_assoc, and_assoc]

theorem emits_unskipped (x : FCtx) (k : Kind) (h : Verif.Model.Emit.emits x k = true) : x.field.isSkipped = false := by
  unfold Verif.Model.Emit.emits at h
  cases hs : x.field.isSkipped with
  | false => rfl
  | true => simp [hs] at h

theorem deserialised_unskipped (x : FCtx) (h : Verif.Model.Serde.deserialised x = true) : x.field.isSkipped = false := by
  unfold Verif.Model.Serde.deserialised FCtx.isSerde at h
  cases hs : x.field.isSkipped with
  | false => rfl
  | true => simp [hs] at h

theorem skipped_not_lazy (x : FCtx) (h : x.field.isSkipped = true) : x.isLazy = false := by
  simp [FCtx.isLazy, FieldArgs.isLazy, h]

/-- The code of a field names the module of sync or async containers exactly if the field is sync, of that mode, and kept
in a container. -/
theorem C81_names (F : Features) (x : FCtx) (τ : Ty) (hτ : declType x = .ok τ) (a : Bool) :
    modOf a ∈ names F x ↔
      x.isSync = true ∧ x.isAsync = a ∧ Contained x.isLazy x.needsLock x.field.isSkipped x.ctx.needsDefault := by
  rw [mem_names]
  constructor
  · have fin : x.field.isSkipped = false → x.isSync = true ∧ (x.isLazy = true ∨ x.needsLock = true) ∧ modOf a = modOf x.isAsync →
        x.isSync = true ∧ x.isAsync = a ∧ Contained x.isLazy x.needsLock x.field.isSkipped x.ctx.needsDefault :=
      fun hf h => ⟨h.1, ((modOf_inj _ _).1 h.2.2).symm, .inl ⟨hf, h.2.1⟩⟩
    rintro (h | ⟨hd, h⟩ | ⟨_, hf, h⟩ | ⟨_, hz, h⟩ | ⟨k, hk, he, h⟩)
    · rw [hτ, genPaths, decl_paths x τ hτ] at h
      split at h
      · rename_i hc
        simp only [Bool.and_eq_true, Bool.not_eq_true', Bool.or_eq_true] at hc
        exact fin hc.1.2 ⟨hc.1.1, hc.2, by simpa using h⟩
      · cases h
    · have h := genPaths_only x (defaultWrap_only x) h
      cases hf : x.field.isSkipped with
      | false => rw [← hf]; exact fin hf h
      | true =>
        refine ⟨h.1, ((modOf_inj _ _).1 h.2.2).symm, .inr ⟨rfl, hd, ?_⟩⟩
        rcases h.2.1 with hl | hl
        · rw [skipped_not_lazy x hf] at hl; cases hl
        · exact hl
    · exact fin hf (genPaths_only x (builderInit_only x) h)
    · exact fin (deserialised_unskipped x hz) (genPaths_only x (fromShadow_only x) h)
    · have hf := emits_unskipped x k he
      rcases Bool.eq_false_or_eq_true x.isSync with hs | hs
      · rw [sync_body_paths x hs (wrapper_ok x τ hτ hs)] at h
        refine fin hf ?_
        cases k <;> simp only [retPaths] at h <;> (try split at h) <;> (try split at h) <;>
          simp [modOf_ne_crateOf, modOf_inj] at h
        rename_i hl
        exact ⟨hs, .inl hl, by rw [h]⟩
      · rw [plain_body_paths x hs] at h; cases h
  · rintro ⟨hs, rfl, hc⟩
    rcases hc with ⟨hf, hc⟩ | ⟨hf, hd, hk⟩
    · left
      rw [hτ, genPaths, decl_paths x τ hτ]
      rcases hc with hc | hc <;> simp [hs, hf, hc]
    · exact .inr (.inl ⟨hd, default_paths x τ hτ hs (.inr hk)⟩)

/-- The feature of the container of a field. -/
def Backed (F : Features) (x : FCtx) : Prop :=
  x.isSync = true → Contained x.isLazy x.needsLock x.field.isSkipped x.ctx.needsDefault →
    (if x.isAsync then F.async else F.sync) = true

theorem provided_iff (F : Features) (x : FCtx) (τ : Ty) (hτ : declType x = .ok τ) :
    (∀ p ∈ names F x, Provided F p) ↔ Backed F x := by
  constructor
  · intro h hs hc
    have := h (modOf x.isAsync) ((C81_names F x τ hτ _).2 ⟨hs, rfl, hc⟩)
    cases ha : x.isAsync <;> simpa [ha, modOf, Provided] using this
  · intro h p hp
    have key : ∀ a, p = modOf a → Provided F p := by
      rintro a rfl
      obtain ⟨hs, ha, hc⟩ := (C81_names F x τ hτ a).1 hp
      have := h hs hc
      rw [ha] at this
      cases a <;> simpa [modOf, Provided] using this
    cases p with
    | fxSync => exact key false rfl
    | fxAsync => exact key true rfl
    | parkingLot => trivial
    | tokio => trivial

/-- Exactly when the code of a struct names only modules of fieldx that exist with the features. -/
theorem C81_provided_iff (F : Features) (c : Ctx) (hg : ∀ f ∈ c.allFields, ∃ τ, declType ⟨c, f⟩ = .ok τ) :
    (∀ f ∈ c.allFields, ∀ p ∈ names F ⟨c, f⟩, Provided F p) ↔ ∀ f ∈ c.allFields, Backed F ⟨c, f⟩ := by
  constructor
  · intro h f hf
    obtain ⟨τ, hτ⟩ := hg f hf
    exact (provided_iff F ⟨c, f⟩ τ hτ).1 (h f hf)
  · intro h f hf
    obtain ⟨τ, hτ⟩ := hg f hf
    exact (provided_iff F ⟨c, f⟩ τ hτ).2 (h f hf)

theorem required_empty (on : Bool) (n : String) (a : Option Bool) : featureRequired on n a = [] ↔ (a = some true → on = true) := by
  unfold featureRequired
  cases on <;> rcases a with _ | _ | _ <;> simp

theorem fieldRefusals_empty (F : Features) (f : FieldArgs) : (fieldRefusals F f).isEmpty = true ↔
    (f.modeSync = some true → F.sync = true) ∧ (f.modeAsync = some true → F.async = true) ∧
      (f.serde.map (·.isTrue) = some true → F.serde = true) := by
  simp [fieldRefusals, required_empty, and_assoc]

theorem structRefusals_empty (F : Features) (s : StructArgs) : (structRefusals F s).isEmpty = true ↔
    (s.modeSync = some true → F.sync = true) ∧ (s.modeAsync = some true → F.async = true) ∧
      (s.serde.map (·.isTrue) = some true → F.serde = true) := by
  simp [structRefusals, required_empty, and_assoc]

/-- Accepted with the features = accepted with all features, and each of the keywords `sync`, `r#async`, `serde` that is on
has its feature. -/
theorem C81_accepted_iff (F : Features) (c : Ctx) : accepted F c = true ↔
    accepted ⟨true, true, true⟩ c = true ∧
    ((c.args.modeSync = some true ∨ ∃ f ∈ c.fields, f.modeSync = some true) → F.sync = true) ∧
    ((c.args.modeAsync = some true ∨ ∃ f ∈ c.fields, f.modeAsync = some true) → F.async = true) ∧
    ((c.args.serde.map (·.isTrue) = some true ∨ ∃ f ∈ c.fields, f.serde.map (·.isTrue) = some true) → F.serde = true) := by
  unfold accepted
  simp only [Bool.and_eq_true, List.all_eq_true, fieldRefusals_empty, structRefusals_empty, implies_true, and_true]
  constructor
  · rintro ⟨⟨h1, h2, h3, h4⟩, h5⟩
    refine ⟨⟨h1, fun f hf => (h5 f hf).1⟩, ?_, ?_, ?_⟩
    · rintro (h | ⟨f, hf, h⟩)
      · exact h2 h
      · exact (h5 f hf).2.1 h
    · rintro (h | ⟨f, hf, h⟩)
      · exact h3 h
      · exact (h5 f hf).2.2.1 h
    · rintro (h | ⟨f, hf, h⟩)
      · exact h4 h
      · exact (h5 f hf).2.2.2 h
  · rintro ⟨⟨h1, h5⟩, h2, h3, h4⟩
    exact ⟨⟨h1, fun h => h2 (.inl h), fun h => h3 (.inl h), fun h => h4 (.inl h)⟩,
      fun f hf => ⟨h5 f hf, fun h => h2 (.inr ⟨f, hf, h⟩), fun h => h3 (.inr ⟨f, hf, h⟩), fun h => h4 (.inr ⟨f, hf, h⟩)⟩⟩

theorem required_mem (on : Bool) (n m : String) (arg : Option Bool) :
    n ∈ featureRequired on m arg ↔ n = m ∧ on = false ∧ arg = some true := by
  unfold featureRequired
  cases on <;> rcases arg with _ | _ | _ <;> simp

/-- What is reported names the features which are missing and asked for, and no others, at the struct and at each field. -/
theorem C81_refusals (F : Features) (s : StructArgs) (f : FieldArgs) (n : String) :
    (n ∈ structRefusals F s ↔
      (n = "sync" ∧ F.sync = false ∧ s.modeSync = some true) ∨ (n = "async" ∧ F.async = false ∧ s.modeAsync = some true) ∨
      (n = "serde" ∧ F.serde = false ∧ s.serde.map (·.isTrue) = some true)) ∧
    (n ∈ fieldRefusals F f ↔
      (n = "sync" ∧ F.sync = false ∧ f.modeSync = some true) ∨ (n = "async" ∧ F.async = false ∧ f.modeAsync = some true) ∨
      (n = "serde" ∧ F.serde = false ∧ f.serde.map (·.isTrue) = some true)) := by
  simp only [structRefusals, fieldRefusals, List.mem_append, required_mem, or_assoc, and_self]

example : structRefusals ⟨true, false, false⟩ { modeAsync := some true, serde := some {} } = ["async", "serde"] := by
  decide +kernel

/-- Serde support is asked for only with the feature. -/
theorem C81_serde (F : Features) (c : Ctx) (h : accepted F c = true) (hs : c.args.isSerde = true) : F.serde = true := by
  refine ((C81_accepted_iff F c).1 h).2.2.2 (.inl ?_)
  unfold StructArgs.isSerde at hs
  cases hz : c.args.serde with
  | none => simp [hz] at hs
  | some z =>
    cases ho : z.off with
    | false => simp [Serde.isTrue, ho]
    | true => simp [hz, Serde.isSerde, Serde.isTrue, ho] at hs

/-- No field is sync or async, and no struct, without a keyword. -/
theorem field_sync_keyword (f : FieldArgs) (hk : KeywordsOnly f.mode f.lock f.reader f.writer) (hi : f.innerMut ≠ some false)
    (h : f.isSync = some true) : f.modeSync = some true ∨ f.modeAsync = some true := by
  obtain ⟨h1, h2, h3, h4⟩ := hk
  unfold FieldArgs.isSync FieldArgs.isAsync FieldArgs.isPlain FieldArgs.isInnerMut at h
  rw [h1, h2, h3, h4] at h
  rcases ha : f.modeSync with _ | _ | _ <;> rcases hb : f.modeAsync with _ | _ | _ <;> rcases hm : f.innerMut with _ | _ | _ <;>
    simp_all

theorem struct_sync_keyword (s : StructArgs) (hk : KeywordsOnly s.mode s.lock s.reader s.writer) (h : s.isSync = some true) :
    s.modeSync = some true ∨ s.modeAsync = some true := by
  obtain ⟨h1, h2, h3, h4⟩ := hk
  unfold StructArgs.isSync StructArgs.isAsync at h
  rw [h1, h2, h3, h4] at h
  rcases ha : s.modeSync with _ | _ | _ <;> rcases hb : s.modeAsync with _ | _ | _ <;> simp_all

theorem prepare_field (s : StructArgs) (fs : List FieldArgs) (f : FieldArgs) (hf : f ∈ (Verif.Model.Structs.prepare s fs).allFields) :
    f ∈ fs ∨ ∃ n, f = Verif.Model.Structs.hidden n := by
  unfold Verif.Model.Structs.prepare Ctx.allFields at hf
  simp only [List.mem_append] at hf
  rcases hf with hf | hf
  · split at hf
    · obtain ⟨n, _, rfl⟩ := List.mem_map.1 hf
      exact .inr ⟨n, rfl⟩
    · cases hf
  · exact .inl hf

/-- Partial: if concurrency is asked for by the keywords `sync` and `r#async` only (no `mode`, `lock`, `reader`, `writer`, no
`inner_mut(off)`), and the feature `sync` is on whenever `async` is, then an accepted struct names only modules of fieldx that
exist. Missing: the other ways of asking are not checked, see `C81_full_false`. -/
theorem C81_provided_partial (F : Features) (s : StructArgs) (fs : List FieldArgs)
    (hg : ∀ f ∈ (Verif.Model.Structs.prepare s fs).allFields, ∃ τ, declType ⟨Verif.Model.Structs.prepare s fs, f⟩ = .ok τ)
    (ha : accepted F (Verif.Model.Structs.prepare s fs) = true) (hF : F.async = true → F.sync = true)
    (hs : KeywordsOnly s.mode s.lock s.reader s.writer)
    (hf : ∀ f ∈ fs, KeywordsOnly f.mode f.lock f.reader f.writer ∧ f.innerMut ≠ some false) :
    ∀ f ∈ (Verif.Model.Structs.prepare s fs).allFields, ∀ p ∈ names F ⟨Verif.Model.Structs.prepare s fs, f⟩, Provided F p := by
  rw [C81_provided_iff F _ hg]
  obtain ⟨_, hS, hA, _⟩ := (C81_accepted_iff F _).1 ha
  have fieldSync : ∀ f ∈ (Verif.Model.Structs.prepare s fs).allFields, f.isSync = some true → F.sync = true := by
    intro f hm h
    rcases prepare_field s fs f hm with hm | ⟨n, rfl⟩
    · rcases field_sync_keyword f (hf f hm).1 (hf f hm).2 h with h | h
      · exact hS (.inr ⟨f, hm, h⟩)
      · exact hF (hA (.inr ⟨f, hm, h⟩))
    · cases h
  have fieldAsync : ∀ f ∈ (Verif.Model.Structs.prepare s fs).allFields, f.isAsync = some true → F.async = true := by
    intro f hm h
    rcases prepare_field s fs f hm with hm | ⟨n, rfl⟩
    · unfold FieldArgs.isAsync at h
      rw [(hf f hm).1.1] at h
      exact hA (.inr ⟨f, hm, by simpa using h⟩)
    · cases h
  intro f hm hsync _
  have hrs : ∀ g ∈ (Verif.Model.Structs.prepare s fs).allFields, FCtx.isSync ⟨Verif.Model.Structs.prepare s fs, g⟩ = true → F.sync = true := by
    intro g hg h
    unfold FCtx.isSync at h
    cases hq : g.isSync with
    | some b =>
      simp only [hq, Option.getD_some] at h
      subst h
      exact fieldSync g hg hq
    | none =>
      simp only [hq, Option.getD_none] at h
      unfold Ctx.isRatherSync at h
      cases hz : (Verif.Model.Structs.prepare s fs).args.isSync with
      | some b =>
        simp only [hz, Option.getD_some] at h
        subst h
        rcases struct_sync_keyword s hs hz with h | h
        · exact hS (.inl h)
        · exact hF (hA (.inl h))
      | none =>
        simp only [hz, Option.getD_none] at h
        cases hw : (Verif.Model.Structs.prepare s fs).allFields.findSome? (·.isSync) with
        | none => simp [hw] at h
        | some b =>
          simp only [hw, Option.getD_some] at h
          subst h
          obtain ⟨g', hg', hq'⟩ := List.exists_of_findSome?_eq_some hw
          exact fieldSync g' hg' hq'
  cases hq : FCtx.isAsync ⟨Verif.Model.Structs.prepare s fs, f⟩ with
  | false => simpa using hrs f hm hsync
  | true =>
    unfold FCtx.isAsync at hq
    cases hz : f.isAsync with
    | some b =>
      simp only [hz, Option.or_some] at hq
      subst hq
      simpa using fieldAsync f hm hz
    | none =>
      simp only [hz, Option.none_or] at hq
      have : s.isAsync = some true := by
        cases hy : s.isAsync with
        | none => rw [show (Verif.Model.Structs.prepare s fs).args = s from rfl, hy] at hq; cases hq
        | some b => rw [show (Verif.Model.Structs.prepare s fs).args = s from rfl, hy] at hq; simpa using hq
      unfold StructArgs.isAsync at this
      rw [hs.1] at this
      exact hA (.inl (show s.modeAsync = some true by simpa using this))

/-- Without any feature, `#[fxstruct(sync)]` is refused. -/
example : accepted ⟨false, false, false⟩ { args := { modeSync := some true }, fields := [{ ident := "a" }] } = false := by decide

/-- With the feature it is accepted, and a lazy field names the module. -/
example : accepted ⟨true, false, false⟩ { args := { modeSync := some true }, fields := [{ ident := "a", lazy := some {} }] } = true ∧
    Path.fxSync ∈ names ⟨true, false, false⟩
      ⟨{ args := { modeSync := some true }, fields := [{ ident := "a", lazy := some {} }] }, { ident := "a", lazy := some {} }⟩ := by
  decide

/-- A case of `C81_provided_partial`: a struct with a sync and an async lazy field. -/
example : KeywordsOnly (none : Option SyncMode) none none none ∧
    accepted ⟨true, true, false⟩ (Verif.Model.Structs.prepare { modeSync := some true, rc := some {} }
      [{ ident := "a", lazy := some {} }, { ident := "b", modeAsync := some true, lazy := some {} }]) = true ∧
    (∀ f ∈ (Verif.Model.Structs.prepare { modeSync := some true, rc := some {} }
      [{ ident := "a", lazy := some {} }, { ident := "b", modeAsync := some true, lazy := some {} }]).allFields,
      ∃ τ, declType ⟨Verif.Model.Structs.prepare { modeSync := some true, rc := some {} }
        [{ ident := "a", lazy := some {} }, { ident := "b", modeAsync := some true, lazy := some {} }], f⟩ = .ok τ) := by
  refine ⟨⟨rfl, rfl, rfl, rfl⟩, by decide, ?_⟩
  intro f hf
  simp only [Verif.Model.Structs.prepare, Ctx.allFields, StructArgs.isRefCounted, Helper.isTrue, Option.elim,
    Verif.Model.Structs.myselfField] at hf
  simp at hf
  rcases hf with rfl | rfl | rfl
  · exact ⟨.t, by decide⟩
  · exact ⟨.proxy false false, by decide⟩
  · exact ⟨.proxy true false, by decide⟩

/-- The property fails: a struct is accepted without the feature `sync`, and its code names `::fieldx::sync`:
* with `lock` on the struct, and with `mode(sync)` on a lazy field;
* with `inner_mut(off)` on a lazy field, which makes it a sync one;
* with only the feature `async`: an async field makes the lazy field beside it a sync one. -/
theorem C81_full_false :
    (∃ (s : StructArgs) (f : FieldArgs), accepted ⟨false, false, false⟩ (Verif.Model.Structs.prepare s [f]) = true ∧
      declType ⟨Verif.Model.Structs.prepare s [f], f⟩ = .ok (.lock false .t) ∧
      ∃ p ∈ names ⟨false, false, false⟩ ⟨Verif.Model.Structs.prepare s [f], f⟩, ¬ Provided ⟨false, false, false⟩ p) ∧
    (∃ (f : FieldArgs), f.mode = some .sync ∧ accepted ⟨false, false, false⟩ (Verif.Model.Structs.prepare {} [f]) = true ∧
      ∃ p ∈ names ⟨false, false, false⟩ ⟨Verif.Model.Structs.prepare {} [f], f⟩, ¬ Provided ⟨false, false, false⟩ p) ∧
    (∃ (f : FieldArgs), KeywordsOnly f.mode f.lock f.reader f.writer ∧ f.modeSync = none ∧ f.modeAsync = none ∧
      accepted ⟨false, false, false⟩ (Verif.Model.Structs.prepare {} [f]) = true ∧
      ∃ p ∈ names ⟨false, false, false⟩ ⟨Verif.Model.Structs.prepare {} [f], f⟩, ¬ Provided ⟨false, false, false⟩ p) ∧
    (∃ (f g : FieldArgs), KeywordsOnly f.mode f.lock f.reader f.writer ∧ KeywordsOnly g.mode g.lock g.reader g.writer ∧
      g.modeSync = none ∧ g.modeAsync = none ∧
      accepted ⟨false, true, false⟩ (Verif.Model.Structs.prepare {} [f, g]) = true ∧
      ∃ p ∈ names ⟨false, true, false⟩ ⟨Verif.Model.Structs.prepare {} [f, g], g⟩, ¬ Provided ⟨false, true, false⟩ p) := by
  refine ⟨⟨{ lock := some true }, { ident := "a" }, by decide, by decide, .fxSync, by decide, by simp [Provided]⟩,
    ⟨{ ident := "a", mode := some .sync, lazy := some {} }, rfl, by decide, .fxSync, by decide, by simp [Provided]⟩,
    ⟨{ ident := "a", innerMut := some false, lazy := some {} }, ⟨rfl, rfl, rfl, rfl⟩, rfl, rfl, by decide, .fxSync, by decide,
      by simp [Provided]⟩,
    ⟨{ ident := "a", modeAsync := some true }, { ident := "b", lazy := some {} }, ⟨rfl, rfl, rfl, rfl⟩, ⟨rfl, rfl, rfl, rfl⟩,
      rfl, rfl, by decide, .fxSync, by decide, by simp [Provided]⟩⟩

/-! ### Other crates -/

/-- The code of a field names `::parking_lot` (or `::tokio`) exactly if the field is sync (async) and some helper returns a
guard of its lock. -/
theorem C82_names (F : Features) (x : FCtx) (τ : Ty) (hτ : declType x = .ok τ) (a : Bool) :
    crateOf a ∈ names F x ↔ x.isSync = true ∧ x.isAsync = a ∧
      Guarded (Verif.Model.Emit.emits x) x.isLazy x.needsLock (x.isClone || x.isCopy) := by
  rw [mem_names]
  have none_ : ∀ {g : Gen IE}, (∀ e, g = .ok e → Only x e) → crateOf a ∉ genPaths iePaths g := fun h hp =>
    modOf_ne_crateOf _ _ (genPaths_only x h hp).2.2.symm
  constructor
  · rintro (h | ⟨_, h⟩ | ⟨_, _, h⟩ | ⟨_, _, h⟩ | ⟨k, hk, he, h⟩)
    · rw [hτ, genPaths, decl_paths x τ hτ] at h
      split at h
      · exact absurd (by simpa using h) (modOf_ne_crateOf _ _).symm
      · cases h
    · exact absurd h (none_ (defaultWrap_only x))
    · exact absurd h (none_ (builderInit_only x))
    · exact absurd h (none_ (fromShadow_only x))
    · rcases Bool.eq_false_or_eq_true x.isSync with hs | hs
      · rw [sync_body_paths x hs (wrapper_ok x τ hτ hs)] at h
        have ha : x.isAsync = a ∧ Guarded (Verif.Model.Emit.emits x) x.isLazy x.needsLock (x.isClone || x.isCopy) := by
          cases k <;> simp only [retPaths] at h <;> (try split at h) <;> (try split at h) <;>
            simp [crateOf_inj, (modOf_ne_crateOf _ _).symm] at h <;> refine ⟨h.symm, ?_⟩ <;> simp_all [Guarded]
        exact ⟨hs, ha⟩
      · rw [plain_body_paths x hs] at h; cases h
  · rintro ⟨hs, rfl, hG⟩
    refine .inr (.inr (.inr (.inr ?_)))
    have hb := fun k => sync_body_paths x hs (wrapper_ok x τ hτ hs) k
    rcases hG with h | ⟨h, hl⟩ | ⟨h, hv, hc⟩ | ⟨h, hc⟩
    · exact ⟨.reader, by decide, h, by rw [hb]; simp [retPaths]⟩
    · exact ⟨.writer, by decide, h, by rw [hb]; simp [retPaths, hl]⟩
    · exact ⟨.accessor, by decide, h, by rw [hb]; rcases hc with hc | hc <;> simp [retPaths, hv, hc]⟩
    · exact ⟨.accessorMut, by decide, h, by rw [hb]; rcases hc with hc | hc <;> simp [retPaths, hc]⟩

/-- Exactly when all the code of a struct names exists at the place where the macro is used: the containers need the
features of fieldx, the guards need the crates themselves among the dependencies of the user. -/
theorem C82_exists_iff (s : Site) (c : Ctx) (hg : ∀ f ∈ c.allFields, ∃ τ, declType ⟨c, f⟩ = .ok τ) :
    (∀ f ∈ c.allFields, ∀ p ∈ names s.feat ⟨c, f⟩, Resolves s p) ↔
      (∀ f ∈ c.allFields, Backed s.feat ⟨c, f⟩) ∧
      (∀ f ∈ c.allFields, (FCtx.mk c f).isSync = true →
        Guarded (Verif.Model.Emit.emits ⟨c, f⟩) (FCtx.mk c f).isLazy (FCtx.mk c f).needsLock
          ((FCtx.mk c f).isClone || (FCtx.mk c f).isCopy) →
        (if (FCtx.mk c f).isAsync then s.tokio else s.parkingLot) = true) := by
  rw [← C81_provided_iff s.feat c hg]
  constructor
  · intro h
    refine ⟨fun f hf p hp => ?_, fun f hf hs hG => ?_⟩
    · have := h f hf p hp
      cases p <;> first | exact this | trivial
    · obtain ⟨τ, hτ⟩ := hg f hf
      have := h f hf _ ((C82_names s.feat ⟨c, f⟩ τ hτ _).2 ⟨hs, rfl, hG⟩)
      cases ha : (FCtx.mk c f).isAsync <;> simpa [ha, crateOf, Resolves] using this
  · rintro ⟨h1, h2⟩ f hf p hp
    obtain ⟨τ, hτ⟩ := hg f hf
    have key : ∀ a, p = crateOf a → Resolves s p := by
      rintro a rfl
      obtain ⟨hs, ha, hG⟩ := (C82_names s.feat ⟨c, f⟩ τ hτ a).1 hp
      have := h2 f hf hs hG
      rw [ha] at this
      cases a <;> simpa [crateOf, Resolves] using this
    cases p with
    | fxSync => exact h1 f hf _ hp
    | fxAsync => exact h1 f hf _ hp
    | parkingLot => exact key false rfl
    | tokio => exact key true rfl

/-- With all features on and the two crates among the dependencies, everything named exists. -/
theorem C82_exists_partial (c : Ctx) (hg : ∀ f ∈ c.allFields, ∃ τ, declType ⟨c, f⟩ = .ok τ) (z : Bool) :
    ∀ f ∈ c.allFields, ∀ p ∈ names ⟨true, true, z⟩ ⟨c, f⟩, Resolves ⟨⟨true, true, z⟩, true, true⟩ p := by
  refine (C82_exists_iff ⟨⟨true, true, z⟩, true, true⟩ c hg).2 ⟨fun f _ _ _ => ?_, fun f _ _ _ => ?_⟩ <;> simp

/-- The property fails: with all features of fieldx on, an accepted struct with an accessor of a lazy sync field does not
compile in a crate without `parking_lot`; with `clone` on the accessor it does. -/
theorem C82_full_false : ∃ (s : StructArgs) (f : FieldArgs),
    accepted ⟨true, true, true⟩ (Verif.Model.Structs.prepare s [f]) = true ∧
    (∃ p ∈ names ⟨true, true, true⟩ ⟨Verif.Model.Structs.prepare s [f], f⟩, ¬ Resolves ⟨⟨true, true, true⟩, false, false⟩ p) ∧
    (∀ p ∈ names ⟨true, true, true⟩ ⟨Verif.Model.Structs.prepare s [{ f with clone := some true }], { f with clone := some true }⟩,
      Resolves ⟨⟨true, true, true⟩, false, false⟩ p) := by
  refine ⟨{ modeSync := some true }, { ident := "a", lazy := some {} }, by decide, ⟨.parkingLot, by decide, by simp [Resolves]⟩, ?_⟩
  intro p hp
  have : p = .fxSync := by
    revert hp
    cases p <;> decide
  subst this
  rfl

/-- Cases of `C82_names`: the writer of a lazy field returns fieldx's own guard, that of a locked field one of the crate. -/
example : Path.parkingLot ∉ names ⟨true, true, true⟩ ⟨Verif.Model.Structs.prepare { modeSync := some true, accessor := some { off := true } }
      [{ ident := "a", lazy := some {}, writer := some {} }], { ident := "a", lazy := some {}, writer := some {} }⟩ ∧
    Path.parkingLot ∈ names ⟨true, true, true⟩ ⟨Verif.Model.Structs.prepare { modeSync := some true, accessor := some { off := true } }
      [{ ident := "a", lock := some true, writer := some {} }], { ident := "a", lock := some true, writer := some {} }⟩ := by
  decide

end Verif.Props.Features
