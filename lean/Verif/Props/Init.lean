import Verif.Proof.InitTy
import Verif.Model.Exclusive
/-
C23: the declared container type of a field and every expression generated to initialise it fit together.
C52: `Self` in a default expression denotes the user's struct wherever the expression is written.

Typing (`HasTy`) is specified in `Verif.Spec.InitTy`, independently of the generators.
-/
namespace Verif.Props.Init
open Verif.Model.Args Verif.Model.Init Verif.Model.Exclusive Verif.Spec.InitTy Verif.Proof.InitTy

/-! ### Dependencies between the resolved arguments -/

theorem skip_lazy (x : FCtx) (h : x.field.isSkipped = true) : x.isLazy = false := by
  simp [FCtx.isLazy, FieldArgs.isLazy, h]

theorem skip_optional (x : FCtx) (h : x.field.isSkipped = true) : x.isOptional = false := by
  simp [FCtx.isOptional, h]

theorem value_hasDefault (x : FCtx) (h : x.defaultValue.isSome = true) : x.field.hasDefaultValue = true := by
  unfold FCtx.defaultValue at h
  split at h
  · assumption
  · simp at h

/- What the generators look at, as flags. -/
set_option hygiene false in
local macro "gen_flags " x:ident : tactic => `(tactic| (
  have hsl := skip_lazy $x
  have hso := skip_optional $x
  have hvd := value_hasDefault $x
  generalize ($x).isLazy = lz at *
  generalize ($x).isOptional = op at *
  generalize ($x).isInnerMut = im at *
  generalize ($x).field.isSkipped = sk at *
  generalize ($x).isSync = sy at *
  generalize ($x).isAsync = as at *
  generalize ($x).isFallible = fa at *
  generalize hasErrorType $x = er at *
  generalize ($x).needsLock = lk at *
  generalize ($x).field.hasDefaultValue = hd at *
  generalize ($x).defaultValue.isSome = dv at *
  generalize ($x).forcedBuilder = fb at *
  generalize ($x).needsBuilder = nb at *
  generalize ($x).isBuilderRequired = rq at *))

/-- Both generated, then the condition. -/
def both (g : Gen Ty) (h : Gen IE) (f : Ty → IE → Bool) : Bool :=
  match g, h with
  | .ok τ, .ok e => f τ e
  | _, _ => true

theorem both_elim {g : Gen Ty} {h : Gen IE} {f : Ty → IE → Bool} (H : both g h f = true) {τ : Ty} {e : IE}
    (hg : g = .ok τ) (hh : h = .ok e) : f τ e = true := by
  subst hg hh; exact H

/-! ### `Default` -/

/-- The combination for which the declared type and the generated initialisers disagree: a skipped field of a sync (or
async) generator that takes a lock from the struct. -/
def SkippedLock (x : FCtx) : Prop := x.isSync = true ∧ x.field.isSkipped = true ∧ x.needsLock = true

theorem default_table (x : FCtx) : both (declType x) (defaultInit x) (fun τ e =>
    check {} false e τ == !(x.isSync && x.field.isSkipped && x.needsLock)) = true := by
  unfold declType defaultInit defaultWrap syncWrap syncType plainType plainWrap defaultRepr builderWrapper useAsync
  gen_flags x
  clear hvd hd fb nb rq
  revert lz op im sk sy as fa er lk dv
  decide +kernel

/-- The initialiser in `Default` has the declared type, except exactly for a skipped field under a struct-wide lock. -/
theorem C23_default_iff (x : FCtx) {τ : Ty} {e : IE} (ht : declType x = .ok τ) (he : defaultInit x = .ok e) :
    HasTy {} false e τ ↔ ¬ SkippedLock x := by
  have h := both_elim (default_table x) ht he
  rw [← check_iff]
  unfold SkippedLock
  cases hs : x.isSync <;> cases hk : x.field.isSkipped <;> cases hl : x.needsLock <;> simp_all

/-- A lazy field of a sync struct with a default. -/
def exLazy : FCtx :=
  ⟨{ args := { modeSync := some true, builder := some {} } },
   { ident := "a", lazy := some {}, default := some { value := some "1" } }⟩

example : acceptStructFull exLazy.ctx.args = true ∧ acceptFieldFull exLazy.field = true ∧
    declType exLazy = .ok (.proxy false false) ∧ defaultInit exLazy = .ok (.proxyNew false false (.some (.dv false))) ∧
    ¬ SkippedLock exLazy := by
  refine ⟨by decide +kernel, by decide +kernel, by decide +kernel, by decide +kernel, ?_⟩
  rintro ⟨_, h, _⟩; exact absurd h (by decide +kernel)

/-- The self reference field of `#[fxstruct(sync, rc, lock)]`: fieldx_derive/src/codegen.rs 133-163. -/
def exMyself : FCtx :=
  ⟨{ args := { modeSync := some true, rc := some {}, lock := some true } },
   { ident := "myself", skip := true, builder := some { off := true }, serde := some { off := true } }⟩

/-! ### The builder -/

theorem builder_table (x : FCtx) : (!x.field.isSkipped && !both (declType x) (builderInit x) (fun τ e =>
    check { slot := true } false e τ)) = false := by
  unfold declType builderInit syncBuilderInit plainBuilderInit builderValueForSet valueWrap defaultWrap
  unfold syncWrap syncType plainType plainWrap defaultRepr builderWrapper useAsync
  gen_flags x
  revert lz op im sk sy as fa er lk hd dv fb nb rq
  decide +kernel

/-- The initialiser in `build()` always has the declared type. -/
theorem C23_builder (x : FCtx) (hk : x.field.isSkipped = false) {τ : Ty} {e : IE} (ht : declType x = .ok τ)
    (he : builderInit x = .ok e) : HasTy { slot := true } false e τ := by
  have h := builder_table x
  rw [hk] at h
  exact (check_iff _ _ _ _).mp (both_elim (by simpa using h) ht he)

example : builderInit exLazy = .ok (.proxyNew false false (.orElseSome .slotTake (.dv true))) := by decide +kernel

/-! ### Conversions from and into the serde shadow -/

theorem fromShadow_table (x : FCtx) : (!x.field.isSkipped && !both (declType x) (fromShadow x) (fun τ e =>
    check { shadow := some (shadowType x) } false e τ)) = false := by
  unfold declType fromShadow shadowType serdeOptional defaultWrap
  unfold syncWrap syncType plainType plainWrap defaultRepr builderWrapper useAsync
  gen_flags x
  clear fb nb rq
  revert lz op im sk sy as fa er lk hd dv
  decide +kernel

/-- The expression for a field in the conversion from the shadow always has the declared type. -/
theorem C23_fromShadow (x : FCtx) (hk : x.field.isSkipped = false) {τ : Ty} {e : IE} (ht : declType x = .ok τ)
    (he : fromShadow x = .ok e) : HasTy { shadow := some (shadowType x) } false e τ := by
  have h := fromShadow_table x
  rw [hk] at h
  exact (check_iff _ _ _ _).mp (both_elim (by simpa using h) ht he)

/-- An optional field of a sync struct whose lock is switched off. -/
def OptionalNoLock (x : FCtx) : Prop :=
  x.isSync = true ∧ x.isOptional = true ∧ x.isLazy = false ∧ x.needsLock = false

theorem intoShadow_table (x : FCtx) : (!x.field.isSkipped && !both (declType x) (.ok (intoShadow x)) (fun τ e =>
    check { me := some τ } false e (shadowType x) ==
      !(x.isSync && x.isOptional && !x.isLazy && !x.needsLock))) = false := by
  unfold declType intoShadow shadowType serdeOptional syncType plainType builderWrapper useAsync
  gen_flags x
  clear fb nb rq hvd hd dv
  revert lz op im sk sy as fa er lk
  decide +kernel

/-- The expression for a field in the conversion into the shadow has the type of the shadow field, except exactly for an
optional field of a sync struct whose lock is switched off. -/
theorem C23_intoShadow_iff (x : FCtx) (hk : x.field.isSkipped = false) {τ : Ty} (ht : declType x = .ok τ) :
    HasTy { me := some τ } false (intoShadow x) (shadowType x) ↔ ¬ OptionalNoLock x := by
  have h := intoShadow_table x
  rw [hk] at h
  have h := both_elim (f := fun τ e => check { me := some τ } false e (shadowType x) ==
      !(x.isSync && x.isOptional && !x.isLazy && !x.needsLock)) (by simpa using h) ht rfl
  rw [← check_iff]
  unfold OptionalNoLock
  cases hs : x.isSync <;> cases hk : x.isOptional <;> cases hz : x.isLazy <;> cases hl : x.needsLock <;> simp_all

/-- `#[fxstruct(sync, lock(off), serde)] struct S { #[fieldx(optional)] a: T }`. (A field-level `lock(off)` alone would
select the plain generator for the field.) -/
def exNoLock : FCtx :=
  ⟨{ args := { modeSync := some true, lock := some false, serde := some {} } }, { ident := "a", optional := some true }⟩

/-- The initialiser in `Default` of the shadow has the type of the shadow field. -/
theorem C23_shadowDefault (x : FCtx) : HasTy {} false (shadowDefault x) (shadowType x) := by
  rw [← check_iff]
  unfold shadowDefault shadowType shadowValue defaultRepr serdeOptional
  gen_flags x
  clear hsl hso hvd fb nb rq hd im sk sy as fa er lk
  revert lz op dv
  decide +kernel

/-- The function made of a field's serde default returns the type of the shadow field. -/
theorem C23_serdeDefaultFn (x : FCtx) : HasTy {} false (serdeDefaultFn x) (shadowType x) := by
  rw [← check_iff]
  unfold serdeDefaultFn shadowType shadowValue serdeOptional
  cases x.isOptional <;> cases x.isLazy <;> decide

example : shadowDefault exLazy = .some (.dv true) ∧ shadowType exLazy = .opt .t := by decide +kernel

/-! ### When is there no code -/

/-- The declaration fails exactly if a sync or async field is fallible and no error type is known. -/
theorem C23_declType_error (x : FCtx) :
    (declType x = .error ↔ x.isSync = true ∧ x.isFallible = true ∧ hasErrorType x = false) ∧ declType x ≠ .panic := by
  unfold declType syncType builderWrapper
  cases x.isSync <;> cases x.isFallible <;> cases hasErrorType x <;> cases x.field.isSkipped <;> cases x.isLazy <;>
    simp [bind, Gen.bind, pure]

theorem defaultInit_table (x : FCtx) :
    (match declType x, defaultInit x with
    | .ok _, .ok _ => true
    | .ok _, _ => false
    | _, _ => true) = true := by
  unfold declType defaultInit defaultWrap syncWrap syncType plainType plainWrap defaultRepr builderWrapper useAsync
  gen_flags x
  clear fb nb rq
  revert lz op im sk sy as fa er lk hd dv
  decide +kernel

/-- If there is a declaration there is a default initialiser. -/
theorem C23_default_generated (x : FCtx) {τ : Ty} (ht : declType x = .ok τ) : ∃ e, defaultInit x = .ok e := by
  have h := defaultInit_table x
  rw [ht] at h
  cases hd : defaultInit x with
  | ok e => exact ⟨e, rfl⟩
  | error => rw [hd] at h; cases h
  | panic => rw [hd] at h; cases h

/-- The bare keyword `default` on a lazy or optional field of a sync or async struct. -/
def BareDefault (x : FCtx) : Prop :=
  x.isSync = true ∧ x.field.hasDefaultValue = true ∧ x.defaultValue = none ∧ (x.isLazy = true ∨ x.isOptional = true)

instance (x : FCtx) : Decidable (BareDefault x) := by unfold BareDefault; infer_instance

theorem builderInit_table (x : FCtx) :
    (match declType x, builderInit x with
    | .ok _, .ok _ => !(x.isSync && x.field.hasDefaultValue && !x.defaultValue.isSome && (x.isLazy || x.isOptional))
    | .ok _, .panic => (x.isSync && x.field.hasDefaultValue && !x.defaultValue.isSome && (x.isLazy || x.isOptional))
    | .ok _, .error => false
    | _, _ => true) = true := by
  unfold declType builderInit syncBuilderInit plainBuilderInit builderValueForSet valueWrap defaultWrap
  unfold syncWrap syncType plainType plainWrap defaultRepr builderWrapper useAsync
  gen_flags x
  revert lz op im sk sy as fa er lk hd dv fb nb rq
  decide +kernel

/-- If there is a declaration, the builder initialiser is generated, or the macro panics; it panics exactly on a bare
`default` on a lazy or optional field in sync mode. -/
theorem C23_builder_generated (x : FCtx) {τ : Ty} (ht : declType x = .ok τ) :
    (BareDefault x ∧ builderInit x = .panic) ∨ (¬ BareDefault x ∧ ∃ e, builderInit x = .ok e) := by
  have h := builderInit_table x
  rw [ht] at h
  have hb : BareDefault x ↔
      (x.isSync && x.field.hasDefaultValue && !x.defaultValue.isSome && (x.isLazy || x.isOptional)) = true := by
    unfold BareDefault
    cases x.defaultValue <;> simp [and_assoc]
  rw [hb]
  cases hd : builderInit x with
  | ok e => rw [hd] at h; exact .inr ⟨by simpa only [Bool.not_eq_true', Bool.not_eq_true] using h, e, rfl⟩
  | error => rw [hd] at h; cases h
  | panic => rw [hd] at h; exact .inl ⟨h, rfl⟩

/-- `#[fxstruct(sync, builder)] struct S { #[fieldx(lazy, default)] a: T }` makes the macro panic. -/
def exBare : FCtx :=
  ⟨{ args := { modeSync := some true, builder := some {} } }, { ident := "a", lazy := some {}, default := some {} }⟩

example : acceptStructFull exBare.ctx.args = true ∧ acceptFieldFull exBare.field = true ∧ BareDefault exBare ∧
    builderInit exBare = .panic := by decide +kernel

/-! ### The whole field -/

/-- Every piece of initialising code that exists for the field has the type of its place. -/
structure WellTyped (x : FCtx) : Prop where
  default : x.ctx.needsDefault = true → ∀ τ e, declType x = .ok τ → defaultInit x = .ok e → HasTy {} false e τ
  builder : x.ctx.needsBuilderStruct = true → x.field.isSkipped = false →
    ∀ τ e, declType x = .ok τ → builderInit x = .ok e → HasTy { slot := true } false e τ
  fromShadow : x.isSerde = true → ∀ τ e, declType x = .ok τ → fromShadow x = .ok e →
    HasTy { shadow := some (shadowType x) } false e τ
  intoShadow : x.isSerde = true → x.needsSerialize = true → ∀ τ, declType x = .ok τ →
    HasTy { me := some τ } false (intoShadow x) (shadowType x)
  shadowDefault : HasTy {} false (shadowDefault x) (shadowType x)
  serdeDefault : HasTy {} false (serdeDefaultFn x) (shadowType x)

theorem serde_not_skipped (x : FCtx) (h : x.isSerde = true) : x.field.isSkipped = false := by
  unfold FCtx.isSerde at h
  cases hk : x.field.isSkipped with
  | false => rfl
  | true => simp [hk] at h

/-- C23 as far as it is true. Missing from the full claim: skipped fields under a lock, and serialised optional fields
with the lock switched off. -/
theorem C23_welltyped_partial (x : FCtx) (h1 : ¬ SkippedLock x) (h2 : ¬ OptionalNoLock x) : WellTyped x where
  default := fun _ _ _ ht he => (C23_default_iff x ht he).mpr h1
  builder := fun _ hk _ _ ht he => C23_builder x hk ht he
  fromShadow := fun hs _ _ ht he => C23_fromShadow x (serde_not_skipped x hs) ht he
  intoShadow := fun hs _ _ ht => (C23_intoShadow_iff x (serde_not_skipped x hs) ht).mpr h2
  shadowDefault := C23_shadowDefault x
  serdeDefault := C23_serdeDefaultFn x

example : ¬ SkippedLock exLazy ∧ ¬ OptionalNoLock exLazy := by
  refine ⟨?_, ?_⟩
  · rintro ⟨_, h, _⟩; exact absurd h (by decide +kernel)
  · rintro ⟨_, _, h, _⟩; exact absurd h (by decide +kernel)

/-- The full claim C23 is false: `#[fxstruct(sync, rc, lock)]` declares the self reference as `Weak<Self>` and
initialises it in `Default` with a lock. -/
theorem C23_full_false_skip : acceptStructFull exMyself.ctx.args = true ∧ acceptFieldFull exMyself.field = true ∧
    exMyself.ctx.needsDefault = true ∧ declType exMyself = .ok .t ∧ defaultInit exMyself = .ok (.lockNew false .dflt) ∧
    ¬ WellTyped exMyself := by
  have ha : exMyself.ctx.needsDefault = true := by decide +kernel
  have hb : declType exMyself = .ok .t := by decide +kernel
  have hc : defaultInit exMyself = .ok (.lockNew false .dflt) := by decide +kernel
  refine ⟨by decide +kernel, by decide +kernel, ha, hb, hc, fun h => ?_⟩
  have := h.default ha _ _ hb hc
  exact ((C23_default_iff _ hb hc).mp this) ⟨by decide +kernel, by decide +kernel, by decide +kernel⟩

/-- The full claim C23 is false: an optional field with `lock(off)` is moved into the shadow by `Option::into_inner`. -/
theorem C23_full_false_serde : acceptStructFull exNoLock.ctx.args = true ∧ acceptFieldFull exNoLock.field = true ∧
    exNoLock.isSerde = true ∧ exNoLock.needsSerialize = true ∧ declType exNoLock = .ok (.opt .t) ∧
    intoShadow exNoLock = .meIntoInner ∧ ¬ WellTyped exNoLock := by
  have ha : exNoLock.isSerde = true := by decide +kernel
  have hb : declType exNoLock = .ok (.opt .t) := by decide +kernel
  have hc : exNoLock.needsSerialize = true := by decide +kernel
  refine ⟨by decide +kernel, by decide +kernel, ha, hc, hb, by decide +kernel, fun h => ?_⟩
  have := h.intoShadow ha hc _ hb
  exact ((C23_intoShadow_iff _ (serde_not_skipped _ ha) hb).mp this)
    ⟨by decide +kernel, by decide +kernel, by decide +kernel, by decide +kernel⟩

/-- Consequence at run time: wherever the types fit, evaluating a generated initialiser gives a value of the declared
type or panics on an `unwrap`, and never anything else. -/
theorem C23_evaluates {V : Type} {Γ : TEnv} {b : Bool} {e : IE} {τ : Ty} (h : HasTy Γ b e τ) (env : Env V)
    (slot : Option V) (he : EnvTy Γ b env) :
    (∃ a, (eval τ env slot e).1 = .ok a ∧ ValTy a τ) ∨ (eval τ env slot e).1 = .panic := by
  have := eval_sound h env slot he
  cases ho : (eval τ env slot e).1 with
  | ok a => rw [ho] at this; exact .inl ⟨a, rfl, this⟩
  | panic => exact .inr rfl
  | stuck => rw [ho] at this; exact this.elim

example : (eval (.proxy false false) ⟨5, 0, 0, .none, .none, none⟩ (none : Option Nat)
    (.proxyNew false false (.orElseSome .slotTake (.dv true)))).1 = .ok (.proxy false (.some (.val 5))) := by decide

/-! ### C52: `Self` in default expressions -/

/-- `Default` of the struct and the conversion from the shadow are written inside an `impl` of the struct itself; there
`Self` is right whatever the expression. -/
theorem selfOk_struct (e : IE) : selfOk true e = true := by
  induction e <;> simp_all [selfOk]

/-- In `Default` of the shadow `Self` in a default expression denotes the user's struct. -/
theorem C52_shadowDefault (x : FCtx) : selfOk false (shadowDefault x) = true := by
  unfold shadowDefault shadowValue defaultRepr serdeOptional
  gen_flags x
  clear hsl hso hvd fb nb rq hd im sk sy as fa er lk
  revert lz op dv
  decide +kernel

/-- In sync and async modes the builder writes the default expression without rewriting `Self` if the field has no
setter in the builder, or is kept in a lock, or is neither lazy nor optional. -/
def RawSelf (x : FCtx) : Prop :=
  x.isSync = true ∧ x.defaultValue ≠ none ∧
    ((x.forcedBuilder = false ∧ x.needsBuilder = false) ∨ (x.isLazy = false ∧ (x.needsLock = true ∨ x.isOptional = false)))

theorem builderSelf_table (x : FCtx) :
    (match builderInit x with
    | .ok e => selfOk false e == !(x.isSync && x.defaultValue.isSome &&
        ((!x.forcedBuilder && !x.needsBuilder) || (!x.isLazy && (x.needsLock || !x.isOptional))))
    | _ => true) = true := by
  unfold builderInit syncBuilderInit plainBuilderInit builderValueForSet valueWrap defaultWrap
  unfold syncWrap syncType plainWrap defaultRepr builderWrapper useAsync
  gen_flags x
  revert lz op im sk sy as fa er lk hd dv fb nb rq
  decide +kernel

/-- In `build()`, `Self` in a default expression denotes the user's struct exactly outside the cases of `RawSelf`. -/
theorem C52_builder_iff (x : FCtx) {e : IE} (he : builderInit x = .ok e) : selfOk false e = true ↔ ¬ RawSelf x := by
  have h := builderSelf_table x
  rw [he] at h
  simp only [beq_iff_eq] at h
  rw [h]
  unfold RawSelf
  cases x.isSync <;> cases x.defaultValue <;> cases x.forcedBuilder <;> cases x.needsBuilder <;> cases x.isLazy <;>
    cases x.needsLock <;> cases x.isOptional <;> simp

/-- C52 as far as it is true: plain structs. Missing from the full claim: the builder of sync and async structs
(`C52_builder_iff` tells exactly which fields). -/
theorem C52_builder_partial (x : FCtx) (hp : x.isSync = false) {e : IE} (he : builderInit x = .ok e) :
    selfOk false e = true := (C52_builder_iff x he).mpr (fun h => by have := h.1; rw [hp] at this; cases this)

/-- `#[fxstruct(sync, builder)] struct S { #[fieldx(default(Self::init()))] a: T }`. -/
def exSelf : FCtx :=
  ⟨{ args := { modeSync := some true, builder := some {} } },
   { ident := "a", default := some { value := some "Self::init()" } }⟩

/-- The same without `sync`. -/
def exSelfPlain : FCtx :=
  ⟨{ args := { builder := some {} } }, { ident := "a", default := some { value := some "Self::init()" } }⟩

example : acceptStructFull exSelfPlain.ctx.args = true ∧ acceptFieldFull exSelfPlain.field = true ∧
    exSelfPlain.isSync = false ∧ builderInit exSelfPlain = .ok (.ifLetSlot .var (.dv true)) := by decide +kernel

/-- The full claim C52 is false: the builder of a sync struct evaluates `Self::init()` where `Self` is the builder. -/
theorem C52_full_false : acceptStructFull exSelf.ctx.args = true ∧ acceptFieldFull exSelf.field = true ∧
    exSelf.ctx.needsBuilderStruct = true ∧ builderInit exSelf = .ok (.ifLetSlot .var (.dv false)) ∧
    selfOk false (.ifLetSlot .var (.dv false)) = false := by decide +kernel

end Verif.Props.Init
