import Verif.Proof.MethodTy
import Verif.Model.Emit
import Verif.Model.Exclusive
/-
C54: the generated helper methods type-check.
-/
namespace Verif.Props.MethodTy
open Verif.Model.Args Verif.Model.Init Verif.Model.Method Verif.Spec.MethodTy Verif.Proof.MethodTy
open Verif.Model.Emit (emits)
open Verif.Model.Exclusive (acceptFieldFull acceptStructFull)

/-- `T: Copy` is known if the user asked for copying. -/
def wantsCopy (x : FCtx) : Bool := x.isCopy || x.accessorMode == .copy

/-- The helpers of this file: not the builder method and not the user's lazy builder. -/
def isHelper : Kind → Bool
  | .builder | .lazy => false
  | _ => true

/-- Accessors the compiler refuses. -/
def refusedAccessor (x : FCtx) : Bool :=
  if x.isSync then
    if x.isClone || x.isCopy then
      if x.isLazy then x.isOptional                          -- `.as_ref().cloned()` on a `T`
      else x.needsLock && (x.isFallible || x.isAsync)        -- `read()?`, or `read()` not awaited
    else if x.isLazy then false
    else if x.needsLock then x.isOptional && x.isFallible    -- `try_read()` gives an `Option` or a `Result`
    else x.isFallible                                        -- `&Result<T, E>` declared for `&self.f`
  else if x.isLazy then x.accessorMode == .asRef             -- `.as_ref()` on a `T`
  else if x.isInnerMut then
    x.accessorMode == .asRef                                 -- refers to a temporary `Ref`
      || (if x.isClone || x.isCopy then x.accessorMode == .none && !x.isCopy  -- moves out of a `Ref`
          else x.accessorMode == .clone)                     -- `T` where `Ref<T>` is declared
  else x.accessorMode == .asRef && !x.isOptional             -- `.as_ref()` on a `T`

/-- `get_mut` accessors the compiler refuses: `write()` not awaited. -/
def refusedAccessorMut (x : FCtx) : Bool := x.isSync && !x.isLazy && x.needsLock && x.isAsync

/-- Readers the compiler refuses: no lock to read, or `try_read()` where a guard is declared. -/
def refusedReader (x : FCtx) : Bool := !x.isLazy && (!x.needsLock || x.isOptional && x.isFallible)

/-- Writers the compiler refuses: no lock to write. -/
def refusedWriter (x : FCtx) : Bool := !x.isLazy && !x.needsLock

/-- Clearers the compiler refuses: no lock or no `Option`; `OnceCell::take` on `&self`. -/
def refusedClearer (x : FCtx) : Bool :=
  if x.isSync then !x.isLazy && !(x.needsLock && x.isOptional)
  else if x.isLazy then x.isInnerMut
  else !x.isInnerMut && !x.isOptional

/-- Predicates the compiler refuses: `is_some()` on something else than an `Option`, `.await` on tokio's `try_read()`. -/
def refusedPredicate (x : FCtx) : Bool :=
  x.isSync && !x.isLazy && (if x.needsLock && x.isFallible then x.isAsync else !x.isOptional)

/-- The configurations in which a helper is written that the compiler refuses, by kind of helper. -/
def refused (x : FCtx) : Kind → Bool
  | .accessor => refusedAccessor x
  | .accessorMut => refusedAccessorMut x
  | .reader => refusedReader x
  | .writer => refusedWriter x
  | .clearer => refusedClearer x
  | .predicate => refusedPredicate x
  | _ => false

set_option hygiene false in
/- Replaces every derived flag of the field by a variable. -/
local macro "gen_flags" : tactic => `(tactic| (
  generalize x.isLazy = lz at *
  generalize x.isOptional = op at *
  generalize x.isInnerMut = im at *
  generalize x.needsLock = lk at *
  generalize x.isSync = sy at *
  generalize x.isAsync = ay at *
  generalize x.isFallible = fa at *
  generalize x.isCopy = cp at *
  generalize x.isClone = cl at *
  generalize x.accessorMode = md at *
  generalize hasErrorType x = he at *
  generalize x.ctx.args.isRefCounted = rc at *
  generalize x.field.isSkipped = sk at *))

/- The tables behind C54, with the declared type and the body as the generators give them. -/

theorem table_accessor (x : FCtx) (hs : x.field.isSkipped = false) :
    (match declType x, ((if x.isSync then syncAccessor x else plainAccessor x) : Gen Body) with
     | .ok τ, .ok b => checkBody τ (wantsCopy x) b == !refusedAccessor x
     | _, _ => true) = true := by
  unfold declType plainType syncType wantsCopy refusedAccessor syncAccessor plainAccessor syncReader syncCMethod mappedRead plainMeth plainLazyInit awaitCall okReturn
    shortcut fallibleRet maybeOpt builderWrapper rc useAsync
  gen_flags
  subst hs
  cases md <;> revert lz op im lk sy ay fa cp cl he rc <;> decide +kernel

theorem table_accessorMut (x : FCtx) (hs : x.field.isSkipped = false) :
    (match declType x, ((if x.isSync then syncAccessorMut x else plainAccessorMut x) : Gen Body) with
     | .ok τ, .ok b => checkBody τ (wantsCopy x) b == !refusedAccessorMut x
     | _, _ => true) = true := by
  unfold declType plainType syncType wantsCopy refusedAccessorMut syncAccessorMut plainAccessorMut plainLazyInit awaitCall okReturn shortcut fallibleRet maybeOpt
    builderWrapper rc useAsync
  gen_flags
  subst hs
  cases md <;> revert lz op im lk sy ay fa cp cl he rc <;> decide +kernel

theorem table_reader (x : FCtx) (hs : x.field.isSkipped = false) :
    (match declType x, ((if x.isSync then syncReader x else .error) : Gen Body) with
     | .ok τ, .ok b => checkBody τ (wantsCopy x) b == !refusedReader x
     | _, _ => true) = true := by
  unfold declType plainType syncType wantsCopy refusedReader syncReader mappedRead awaitCall fallibleRet builderWrapper rc useAsync
  gen_flags
  subst hs
  cases md <;> revert lz op im lk sy ay fa cp cl he rc <;> decide +kernel

theorem table_writer (x : FCtx) (hs : x.field.isSkipped = false) :
    (match declType x, ((if x.isSync then syncWriter x else .error) : Gen Body) with
     | .ok τ, .ok b => checkBody τ (wantsCopy x) b == !refusedWriter x
     | _, _ => true) = true := by
  unfold declType plainType syncType wantsCopy refusedWriter syncWriter awaitCall maybeOpt builderWrapper useAsync
  gen_flags
  subst hs
  cases md <;> revert lz op im lk sy ay fa cp cl he rc <;> decide +kernel

theorem table_setter (x : FCtx) (hs : x.field.isSkipped = false) :
    (match declType x, ((if x.isSync then syncSetter x else plainSetter x) : Gen Body) with
     | .ok τ, .ok b => checkBody τ (wantsCopy x) b == !false
     | _, _ => true) = true := by
  unfold declType plainType syncType wantsCopy  syncSetter plainSetter awaitCall maybeOpt builderWrapper useAsync
  gen_flags
  subst hs
  cases md <;> revert lz op im lk sy ay fa cp cl he rc <;> decide +kernel

theorem table_clearer (x : FCtx) (hs : x.field.isSkipped = false) :
    (match declType x, ((if x.isSync then syncClearer x else plainClearer x) : Gen Body) with
     | .ok τ, .ok b => checkBody τ (wantsCopy x) b == !refusedClearer x
     | _, _ => true) = true := by
  unfold declType plainType syncType wantsCopy refusedClearer syncClearer plainClearer awaitCall maybeOpt builderWrapper useAsync
  gen_flags
  subst hs
  cases md <;> revert lz op im lk sy ay fa cp cl he rc <;> decide +kernel

theorem table_predicate (x : FCtx) (hs : x.field.isSkipped = false)
    (hp : (!x.isSync && !(x.isLazy || x.isOptional)) = false) :
    (match declType x, ((if x.isSync then syncPredicate x else plainPredicate x) : Gen Body) with
     | .ok τ, .ok b => checkBody τ (wantsCopy x) b == !refusedPredicate x
     | _, _ => true) = true := by
  unfold declType plainType syncType wantsCopy refusedPredicate syncPredicate plainPredicate awaitCall builderWrapper useAsync
  gen_flags
  subst hs
  cases md <;> revert lz op im lk sy ay fa cp cl he rc <;> decide +kernel

/-- C54, as far as it holds: a helper that is written type-checks exactly if it is not one of the `refused` ones. -/
theorem helper_typechecks_partial (x : FCtx) (k : Kind) (τ : Ty) (b : Body) (hk : isHelper k = true)
    (hem : emits x k = true) (hτ : declType x = .ok τ) (hb : body x k = .ok b) :
    BodyTy τ (wantsCopy x) b ↔ refused x k = false := by
  have hs : x.field.isSkipped = false := by
    unfold emits at hem
    split at hem
    · cases hem
    · simp_all
  rw [← checkBody_iff]
  have key : (checkBody τ (wantsCopy x) b == !refused x k) = true := by
    cases k with
    | accessor => have h := table_accessor x hs; simp only [body] at hb; rw [hτ, hb] at h; exact h
    | accessorMut => have h := table_accessorMut x hs; simp only [body] at hb; rw [hτ, hb] at h; exact h
    | reader => have h := table_reader x hs; simp only [body] at hb; rw [hτ, hb] at h; exact h
    | writer => have h := table_writer x hs; simp only [body] at hb; rw [hτ, hb] at h; exact h
    | setter => have h := table_setter x hs; simp only [body] at hb; rw [hτ, hb] at h; exact h
    | clearer => have h := table_clearer x hs; simp only [body] at hb; rw [hτ, hb] at h; exact h
    | predicate =>
      have hp : (!x.isSync && !(x.isLazy || x.isOptional)) = false := by
        simp only [emits, hs, Bool.false_eq_true, if_false] at hem
        revert hem
        generalize x.isSync = a; generalize x.needsPredicate = b; generalize x.isLazy = c; generalize x.isOptional = d
        revert a b c d; decide
      have h := table_predicate x hs hp; simp only [body] at hb; rw [hτ, hb] at h; exact h
    | builder => cases hk
    | lazy => cases hk
  simp only [beq_iff_eq] at key
  rw [key]
  simp

/-- C54 read off the arguments: without `fallible`, `async`, `inner_mut`, `lock(off)`, `optional(off)`, and with `optional`
and `as_ref` left alone, every helper that is written type-checks. -/
theorem helper_typechecks_common (x : FCtx) (k : Kind) (τ : Ty) (b : Body) (hk : isHelper k = true)
    (hem : emits x k = true) (hτ : declType x = .ok τ) (hb : body x k = .ok b)
    (hf : x.field.fallible = none ∧ x.ctx.args.fallible = none)
    (ha : x.field.modeAsync = none ∧ x.field.mode = none ∧ x.ctx.args.modeAsync = none ∧ x.ctx.args.mode = none)
    (hi : x.field.innerMut = none ∧ x.ctx.args.innerMut = none)
    (hl : x.field.lock ≠ some false ∧ x.ctx.args.lock ≠ some false)
    (ho : x.field.optional = none ∧ x.ctx.args.optional = none)
    (hm : x.accessorMode ≠ .asRef) :
    BodyTy τ (wantsCopy x) b := by
  rw [helper_typechecks_partial x k τ b hk hem hτ hb]
  have hs : x.field.isSkipped = false := by
    unfold emits at hem
    split at hem
    · cases hem
    · simp_all
  have h1 : x.isFallible = false := by simp [FCtx.isFallible, FieldArgs.isFallible, StructArgs.isFallible, hf]
  have h2 : x.isAsync = false := by simp [FCtx.isAsync, FieldArgs.isAsync, StructArgs.isAsync, ha]
  have h3 : x.isInnerMut = false := by simp [FCtx.isInnerMut, FieldArgs.isInnerMut, StructArgs.isInnerMut, hi]
  have h4 : x.isOptional = (!x.isLazy && (x.needsClearer || x.needsPredicate)) := by
    simp [FCtx.isOptional, FieldArgs.isOptional, StructArgs.isOptional, ho, hs]
  have h5 : (x.needsReader || x.needsWriter || x.isOptional) = true → x.needsLock = true := by
    intro h
    obtain ⟨hl1, hl2⟩ := hl
    unfold FCtx.needsLock FieldArgs.needsLock StructArgs.needsLock
    rw [h]
    revert hl1 hl2
    generalize x.field.lock = a; generalize x.ctx.args.lock = b
    rcases a with _ | _ | _ <;> rcases b with _ | _ | _ <;> decide
  have hem' := hem
  unfold emits at hem'
  rw [hs] at hem'
  cases k <;> simp only [Bool.false_eq_true, if_false] at hem' <;> unfold refused <;>
    simp only [refusedAccessor, refusedAccessorMut, refusedReader, refusedWriter, refusedClearer, refusedPredicate]
  all_goals
    revert hem'
    try simp only [h1, h2, h3]
    try simp only [beq_eq_false_iff_ne.mpr hm]
    try rw [h4]
    rw [h4] at h5
    clear hem hb hτ h1 h2 h3 h4 hs hl hf ha hi ho hk
    generalize x.isLazy = lz at *; generalize x.needsClearer = nc at *; generalize x.needsPredicate = np at *
    generalize x.needsReader = nr at *; generalize x.needsWriter = nw at *; generalize x.needsLock = lk at *
    generalize x.isSync = sy at *
    cases lz <;> cases nc <;> cases np <;> cases lk <;> cases sy <;> simp_all

/-- The arguments are accepted, a helper is written for the field, and the compiler refuses the helper. -/
def WrittenButRefused (x : FCtx) (k : Kind) : Prop :=
  acceptFieldFull x.field = true ∧ acceptStructFull x.ctx.args = true ∧ emits x k = true ∧ ∃ τ b, declType x = .ok τ ∧ body x k = .ok b ∧ ¬ BodyTy τ (wantsCopy x) b

/-- Reduces a case to evaluation. -/
theorem writtenButRefused_of (x : FCtx) (k : Kind)
    (h : (acceptFieldFull x.field && acceptStructFull x.ctx.args && emits x k && (match declType x, body x k with
      | .ok τ, .ok b => !checkBody τ (wantsCopy x) b
      | _, _ => false)) = true) : WrittenButRefused x k := by
  simp only [Bool.and_eq_true] at h
  obtain ⟨⟨⟨ha, hs⟩, he⟩, h2⟩ := h
  refine ⟨ha, hs, he, ?_⟩
  rcases hd : declType x with τ | _ | _ <;> rcases hb : body x k with b | _ | _ <;> rw [hd, hb] at h2 <;>
    simp at h2
  refine ⟨τ, b, rfl, rfl, ?_⟩
  rw [← checkBody_iff, h2]; simp

/-- `#[fxstruct(r#async)]` with a field `#[fieldx(lock, get(copy))]`. -/
def asyncLockCopy : FCtx :=
  { ctx := { args := { modeAsync := some true } }, field := { lock := some true, accessor := some { copy := true } } }

/-- `#[fxstruct(r#async)]` with a field `#[fieldx(lock, get_mut)]`. -/
def asyncLockMut : FCtx :=
  { ctx := { args := { modeAsync := some true } }, field := { lock := some true, accessorMut := some {} } }

/-- `#[fxstruct(sync, fallible(error(E)))]` with a field `#[fieldx(optional, get)]`. -/
def syncFallibleOptional : FCtx :=
  { ctx := { args := { modeSync := some true, fallible := some { error := some "E" } } }
    field := { optional := some true, accessor := some {} } }

/-- A plain struct with a field `#[fieldx(lazy, get(as_ref))]`. -/
def plainLazyAsRef : FCtx :=
  { ctx := { }, field := { lazy := some {}, accessor := some { asRef := true } } }

/-- `#[fxstruct(inner_mut)]` with a field `#[fieldx(lazy, clearer)]`. -/
def innerMutLazyClearer : FCtx :=
  { ctx := { args := { innerMut := some true } }, field := { lazy := some {}, clearer := some {} } }

/-- `#[fxstruct(sync)]` with a field `#[fieldx(optional, lock(off), clearer)]` made sync explicitly. -/
def syncUnlockedClearer : FCtx :=
  { ctx := { args := { modeSync := some true } }
    field := { optional := some true, lock := some false, clearer := some {}, modeSync := some true } }

/-- `#[fxstruct(sync)]` with a field `#[fieldx(reader, lock(off))]` made sync explicitly. -/
def syncUnlockedReader : FCtx :=
  { ctx := { args := { modeSync := some true } }, field := { reader := some {}, lock := some false, modeSync := some true } }

/-- `#[fxstruct(sync)]` with a field `#[fieldx(writer, lock(off))]` made sync explicitly. -/
def syncUnlockedWriter : FCtx :=
  { ctx := { args := { modeSync := some true } }, field := { writer := some {}, lock := some false, modeSync := some true } }

/-- `#[fxstruct(sync)]` with a field `#[fieldx(predicate, optional(off))]`. -/
def syncNotOptionalPredicate : FCtx :=
  { ctx := { args := { modeSync := some true } }, field := { predicate := some {}, optional := some false } }

/-- C54 is false of the code: for every kind of helper but the setter there is an accepted struct whose helper the compiler
refuses. -/
theorem helper_typechecks_fails :
    WrittenButRefused asyncLockCopy .accessor ∧ WrittenButRefused asyncLockMut .accessorMut ∧
    WrittenButRefused syncFallibleOptional .accessor ∧ WrittenButRefused plainLazyAsRef .accessor ∧
    WrittenButRefused innerMutLazyClearer .clearer ∧ WrittenButRefused syncUnlockedClearer .clearer ∧
    WrittenButRefused syncUnlockedReader .reader ∧ WrittenButRefused syncUnlockedWriter .writer ∧
    WrittenButRefused syncNotOptionalPredicate .predicate := by
  refine ⟨?_, ?_, ?_, ?_, ?_, ?_, ?_, ?_, ?_⟩ <;> apply writtenButRefused_of <;> decide +kernel

/-- C54 for setters: they always type-check. -/
theorem setter_typechecks (x : FCtx) (τ : Ty) (b : Body) (hem : emits x .setter = true)
    (hτ : declType x = .ok τ) (hb : body x .setter = .ok b) : BodyTy τ (wantsCopy x) b :=
  (helper_typechecks_partial x .setter τ b rfl hem hτ hb).mpr rfl

/-- A sync struct with a lazy field having accessor, setter, clearer, predicate, reader and writer. -/
def fullSync : FCtx :=
  { ctx := { args := { modeSync := some true } }
    field := { lazy := some {}, accessor := some { clone := true }, accessorMut := some {}, setter := some {}
               clearer := some {}, predicate := some {}, reader := some {}, writer := some {} } }

example : ∀ k ∈ [Kind.accessor, .accessorMut, .setter, .clearer, .predicate, .reader, .writer],
    emits fullSync k = true ∧ refused fullSync k = false ∧
    (match declType fullSync, body fullSync k with | .ok τ, .ok b => decide (BodyTy τ (wantsCopy fullSync) b) | _, _ => false)
      = true := by decide +kernel

example : fullSync.accessorMode ≠ .asRef ∧ fullSync.field.fallible = none ∧ fullSync.ctx.args.innerMut = none := by
  decide +kernel

end Verif.Props.MethodTy
