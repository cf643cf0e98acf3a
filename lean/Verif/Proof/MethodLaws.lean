import Verif.Proof.Method
import Verif.Props.MethodTy
/-
The cell laws of the helpers, by configuration.
-/
namespace Verif.Proof.MethodLaws
open Verif.Model.Args Verif.Model.Init Verif.Model.Method Verif.Spec.InitTy Verif.Spec.Helper Verif.Proof.Method
open Verif.Model.Emit (emits)
open Verif.Props.MethodTy
open Verif.Spec (Outcome)

variable {V E : Type}

/-- The value of a field with the given content. -/
def valOf (sy lz op lk im ay : Bool) (c : Option V) : Val V :=
  let a : Val V := match c with | none => .none | some w => if lz || op then .some (.val w) else .val w
  if sy then (if lz then .proxy ay a else if lk then .lock ay a else a)
  else (if lz then .once a else if im then .cell a else a)

theorem content_valOf (sy lz op lk im ay : Bool) (c : Option V) : content (valOf sy lz op lk im ay c) = c := by
  cases sy <;> cases lz <;> cases op <;> cases lk <;> cases im <;> cases c <;> rfl

theorem valTy_valOf (sy lz op lk im ay fa : Bool) (c : Option V) (h : lz = false → op = false → c ≠ none) :
    ValTy (valOf sy lz op lk im ay c) (typeOf sy lz op lk im ay fa) := by
  cases sy <;> cases lz <;> cases op <;> cases lk <;> cases im <;> cases c <;> simp [valOf, typeOf] at h ⊢ <;>
    repeat (first | constructor)

theorem exists_valOf {v : Val V} {sy lz op lk im ay fa : Bool} (h : ValTy v (typeOf sy lz op lk im ay fa)) :
    ∃ c : Option V, (lz = false → op = false → c ≠ none) ∧ v = valOf sy lz op lk im ay c := valTy_typeOf h

/-- Field values of the declared type, by content. -/
theorem field_form (x : FCtx) (τ : Ty) (k : Kind) (hem : emits x k = true) (hτ : declType x = .ok τ)
    {f : Field V} (hv : ValTy f.val τ) (hfree : Free f) :
    ∃ c : Option V, (x.isLazy = false → x.isOptional = false → c ≠ none) ∧
      f = { val := valOf x.isSync x.isLazy x.isOptional x.needsLock x.isInnerMut x.isAsync c } := by
  have h := declType_typeOf x τ (notSkipped hem) hτ
  rw [h] at hv
  obtain ⟨c, hc, hv⟩ := exists_valOf hv
  refine ⟨c, hc, ?_⟩
  obtain ⟨v, rd, wr⟩ := f
  obtain ⟨h1, h2⟩ := hfree
  simp only at h1 h2 hv
  rw [h1, h2, hv]

set_option maxHeartbeats 1000000 in
theorem setter_run (x : FCtx) (b : Body) (hb : body x .setter = .ok b) (env : CallEnv V E) (c : Option V)
    (hc : x.isLazy = false → x.isOptional = false → c ≠ none) :
    ∃ a, call b env { val := valOf x.isSync x.isLazy x.isOptional x.needsLock x.isInnerMut x.isAsync c } =
        (.value (.own a), { val := valOf x.isSync x.isLazy x.isOptional x.needsLock x.isInnerMut x.isAsync (some env.arg) }, none) ∧
      content a = c := by
  simp only [body, syncSetter, plainSetter, awaitCall, maybeOpt] at hb
  revert hb hc
  generalize x.isSync = sy; generalize x.isLazy = lz; generalize x.isOptional = op; generalize x.needsLock = lk
  generalize x.isInnerMut = im; generalize x.isAsync = ay
  cases sy <;> cases lz <;> cases op <;> cases lk <;> cases im <;> cases ay <;> cases c <;> simp <;> intro hb <;> subst hb <;>
    exact ⟨_, rfl, rfl⟩

/-- The form of the field with content `c`. -/
abbrev fieldOf (x : FCtx) (c : Option V) : Field V :=
  { val := valOf x.isSync x.isLazy x.isOptional x.needsLock x.isInnerMut x.isAsync c }

theorem clearer_run (x : FCtx) (b : Body) (hb : body x .clearer = .ok b) (env : CallEnv V E) (c : Option V)
    (hc : x.isLazy = false → x.isOptional = false → c ≠ none) (hr : refusedClearer x = false)
    (hx : (x.isLazy || x.isOptional) = true) :
    ∃ a, call b env (fieldOf x c) = (.value (.own a), fieldOf x none, none) ∧ content a = c := by
  simp only [body, syncClearer, plainClearer, awaitCall, maybeOpt] at hb
  unfold refusedClearer at hr
  unfold fieldOf
  revert hb hc hr hx
  generalize x.isSync = sy; generalize x.isLazy = lz; generalize x.isOptional = op; generalize x.needsLock = lk
  generalize x.isInnerMut = im; generalize x.isAsync = ay
  cases sy <;> cases lz <;> cases op <;> cases lk <;> cases im <;> cases ay <;> cases c <;> simp <;> intro hb <;> subst hb <;>
    exact ⟨_, rfl, rfl⟩

/-- The exception: a `RefCell<T>` that is not optional is left with `T::default()`. -/
theorem clearer_run_cell (x : FCtx) (b : Body) (hb : body x .clearer = .ok b) (env : CallEnv V E) (w : V)
    (hr : refusedClearer x = false) (hx : (x.isLazy || x.isOptional) = false) :
    call b env (fieldOf x (some w)) = (.value (.own (.val w)), fieldOf x (some env.dflt), none) := by
  simp only [body, syncClearer, plainClearer, awaitCall, maybeOpt] at hb
  unfold refusedClearer at hr
  unfold fieldOf
  revert hb hr hx
  generalize x.isSync = sy; generalize x.isLazy = lz; generalize x.isOptional = op; generalize x.needsLock = lk
  generalize x.isInnerMut = im; generalize x.isAsync = ay
  cases sy <;> cases lz <;> cases op <;> cases lk <;> cases im <;> cases ay <;> simp <;> intro hb <;> subst hb <;>
    rfl

theorem predicate_run (x : FCtx) (b : Body) (hb : body x .predicate = .ok b) (env : CallEnv V E) (c : Option V)
    (hp : (!x.isSync && !(x.isLazy || x.isOptional)) = false) (hr : refusedPredicate x = false)
    (hx : (x.isSync && !x.isLazy && x.needsLock && x.isFallible) = false) :
    call b env (fieldOf x c) = (.value (.bool c.isSome), fieldOf x c, none) := by
  simp only [body, syncPredicate, plainPredicate, awaitCall] at hb
  unfold refusedPredicate at hr
  unfold fieldOf
  revert hb hr hx hp
  generalize x.isSync = sy; generalize x.isLazy = lz; generalize x.isOptional = op; generalize x.needsLock = lk
  generalize x.isInnerMut = im; generalize x.isAsync = ay; generalize x.isFallible = fa
  cases sy <;> cases lz <;> cases op <;> cases lk <;> cases im <;> cases ay <;> cases fa <;> cases c <;> simp <;>
    intro hb <;> subst hb <;> rfl

/-- The exception: with `fallible`, the predicate of an optional field behind a lock tells whether the lock can be taken. -/
theorem predicate_run_try (x : FCtx) (b : Body) (hb : body x .predicate = .ok b) (env : CallEnv V E) (f : Field V) (c : Option V)
    (hf : f.val = valOf x.isSync x.isLazy x.isOptional x.needsLock x.isInnerMut x.isAsync c) (hr : refusedPredicate x = false)
    (hx : (x.isSync && !x.isLazy && x.needsLock && x.isFallible) = true) :
    call b env f = (.value (.bool !f.wr), f, none) := by
  simp only [body, syncPredicate, plainPredicate, awaitCall] at hb
  unfold refusedPredicate at hr
  obtain ⟨v, rd, wr⟩ := f
  simp only at hf
  subst hf
  revert hb hr hx
  generalize x.isSync = sy; generalize x.isLazy = lz; generalize x.isOptional = op; generalize x.needsLock = lk
  generalize x.isInnerMut = im; generalize x.isAsync = ay; generalize x.isFallible = fa
  cases sy <;> cases lz <;> cases op <;> cases lk <;> cases im <;> cases ay <;> cases fa <;> cases c <;> cases wr <;> simp <;>
    intro hb <;> subst hb <;> rfl

/-- The call ends with a result through which `c` is seen, and leaves `f1` once the result is dropped. -/
def Reads (b : Body) (env : CallEnv V E) (f : Field V) (c : Option V) (f1 : Field V) (ran : Option (Outcome V E)) : Prop :=
  ∃ a f', call b env f = (.value a, f', ran) ∧ seen f' a = c ∧ dropped f' a = f1

/-- In addition the result can be overwritten. -/
def Writes (b : Body) (env : CallEnv V E) (f : Field V) (c : Option V) (f0 : Field V) (f1 : V → Field V)
    (ran : Option (Outcome V E)) : Prop :=
  ∃ a f', call b env f = (.value a, f', ran) ∧ seen f' a = c ∧ dropped f' a = f0 ∧ ∀ v, dropped (overwrite f' v a) a = f1 v

set_option hygiene false in
/-- Replaces the flags of the field by variables. -/
macro "flags" x:ident : tactic => `(tactic| (
  generalize ($x).isSync = sy; generalize ($x).isLazy = lz; generalize ($x).isOptional = op; generalize ($x).needsLock = lk
  generalize ($x).isInnerMut = im; generalize ($x).isAsync = ay; generalize ($x).isFallible = fa
  generalize ($x).isCopy = cp; generalize ($x).isClone = cl; generalize ($x).accessorMode = md
  generalize hasErrorType $x = he; generalize rc $x = rc))

set_option hygiene false in
/-- Finishes a case where the body is known. -/
macro "fin" : tactic => `(tactic| (
  simp [Bind.bind, Gen.bind, pure] <;> intros <;> subst_vars <;> exact ⟨_, _, rfl, rfl, rfl⟩))

set_option maxHeartbeats 1000000 in
theorem accessor_hit (x : FCtx) (b : Body) (hb : body x .accessor = .ok b) (env : CallEnv V E) (c : Option V)
    (hc : x.isLazy = true ∨ x.isOptional = false → c ≠ none) (hr : refusedAccessor x = false)
    (hal : rc x = true → env.alive = true) :
    Reads b env (fieldOf x c) c (fieldOf x c) none := by
  simp only [body, syncAccessor, plainAccessor, syncReader, syncCMethod, mappedRead, plainMeth, plainLazyInit, awaitCall,
    okReturn, shortcut, fallibleRet, maybeOpt] at hb
  unfold refusedAccessor at hr
  unfold fieldOf Reads
  obtain ⟨arg, bld, alive, dflt⟩ := env
  simp only at hal
  revert hb hr hc hal
  flags x
  cases sy
  · cases lz
    · cases im
      · cases md <;> cases op <;> cases c <;> fin
      · cases md <;> cases op <;> cases cl <;> cases cp <;> cases c <;> fin
    · cases md <;> cases fa <;> cases he <;> cases c <;> fin
  · cases lz
    · cases lk
      · cases cl <;> cases cp <;> cases op <;> cases fa <;> cases c <;> fin
      · cases cl <;> cases cp <;> cases op <;> cases fa <;> cases ay <;> cases c <;> fin
    · cases rc
      · cases cl <;> cases cp <;> cases op <;> cases fa <;> cases he <;> cases ay <;> cases c <;> fin
      · cases cl <;> cases cp <;> cases op <;> cases fa <;> cases he <;> cases ay <;> cases c <;> fin

set_option hygiene false in
/-- Finishes a case where the body is known and the result is given. -/
macro "finC" : tactic => `(tactic| (
  simp [Bind.bind, Gen.bind, pure] <;> intros <;> subst_vars <;> rfl))

set_option hygiene false in
/-- Finishes a case where the body is known and gives a place to write. -/
macro "finW" : tactic => `(tactic| (
  simp [Bind.bind, Gen.bind, pure] <;> intros <;> subst_vars <;> exact ⟨_, _, rfl, rfl, rfl, fun _ => rfl⟩))

set_option maxHeartbeats 2000000 in
theorem accessor_build (x : FCtx) (b : Body) (hb : body x .accessor = .ok b) (env : CallEnv V E) (v : V) (hbld : env.bld = .ok v)
    (hl : x.isLazy = true) (hr : refusedAccessor x = false) (hal : rc x = true → env.alive = true) :
    Reads b env (fieldOf x none) (some v) (fieldOf x (some v)) (some (.ok v)) := by
  simp only [body, syncAccessor, plainAccessor, syncReader, syncCMethod, mappedRead, plainMeth, plainLazyInit, awaitCall,
    okReturn, shortcut, fallibleRet, maybeOpt] at hb
  unfold refusedAccessor at hr
  unfold fieldOf Reads
  obtain ⟨arg, bld, alive, dflt⟩ := env
  simp only at hal hbld
  subst hbld
  rw [hl] at hb hr ⊢
  revert hb hr hal
  flags x
  cases sy
  · cases rc <;> cases md <;> cases fa <;> cases he <;> fin
  · cases rc <;> cases cl <;> cases cp <;> cases op <;> cases fa <;> cases he <;> cases ay <;> fin

set_option maxHeartbeats 2000000 in
theorem accessor_fail (x : FCtx) (b : Body) (hb : body x .accessor = .ok b) (env : CallEnv V E) (e : E) (hbld : env.bld = .err e)
    (hl : x.isLazy = true) (hfa : x.isFallible = true) (hr : refusedAccessor x = false) (hal : rc x = true → env.alive = true) :
    call b env (fieldOf x none) = (.error e, fieldOf x none, some (.err e)) := by
  simp only [body, syncAccessor, plainAccessor, syncReader, syncCMethod, mappedRead, plainMeth, plainLazyInit, awaitCall,
    okReturn, shortcut, fallibleRet, maybeOpt] at hb
  unfold refusedAccessor at hr
  unfold fieldOf
  obtain ⟨arg, bld, alive, dflt⟩ := env
  simp only at hal hbld
  subst hbld
  rw [hl, hfa] at hb
  rw [hl] at hr ⊢
  revert hb hr hal
  flags x
  cases sy
  · cases rc <;> cases md <;> cases he <;> finC
  · cases rc <;> cases cl <;> cases cp <;> cases op <;> cases he <;> cases ay <;> finC

set_option maxHeartbeats 2000000 in
theorem accessor_panic (x : FCtx) (b : Body) (hb : body x .accessor = .ok b) (env : CallEnv V E) (hbld : env.bld = .panic)
    (hl : x.isLazy = true) (hr : refusedAccessor x = false) (hal : rc x = true → env.alive = true) :
    call b env (fieldOf x none) = (.panicked, fieldOf x none, some .panic) := by
  simp only [body, syncAccessor, plainAccessor, syncReader, syncCMethod, mappedRead, plainMeth, plainLazyInit, awaitCall,
    okReturn, shortcut, fallibleRet, maybeOpt] at hb
  unfold refusedAccessor at hr
  unfold fieldOf
  obtain ⟨arg, bld, alive, dflt⟩ := env
  simp only at hal hbld
  subst hbld
  rw [hl] at hb hr ⊢
  revert hb hr hal
  flags x
  cases sy
  · cases rc <;> cases md <;> cases fa <;> cases he <;> finC
  · cases rc <;> cases cl <;> cases cp <;> cases op <;> cases fa <;> cases he <;> cases ay <;> finC

set_option maxHeartbeats 2000000 in
theorem accessorMut_build (x : FCtx) (b : Body) (hb : body x .accessorMut = .ok b) (env : CallEnv V E) (v : V) (hbld : env.bld = .ok v)
    (hl : x.isLazy = true) (hr : refusedAccessorMut x = false) (hal : rc x = true → env.alive = true) :
    Writes b env (fieldOf x none) (some v) (fieldOf x (some v)) (fun w => fieldOf x (some w)) (some (.ok v)) := by
  simp only [body, syncAccessorMut, plainAccessorMut, plainLazyInit, awaitCall, okReturn, shortcut, fallibleRet,
    maybeOpt] at hb
  unfold refusedAccessorMut at hr
  unfold fieldOf Writes
  obtain ⟨arg, bld, alive, dflt⟩ := env
  simp only at hal hbld
  subst hbld
  rw [hl] at hb hr ⊢
  revert hb hr hal
  flags x
  cases sy
  · cases rc <;> cases fa <;> cases he <;> finW
  · cases rc <;> cases fa <;> cases he <;> cases ay <;> finW

set_option maxHeartbeats 2000000 in
theorem accessorMut_fail (x : FCtx) (b : Body) (hb : body x .accessorMut = .ok b) (env : CallEnv V E) (e : E) (hbld : env.bld = .err e)
    (hl : x.isLazy = true) (hfa : x.isFallible = true) (hr : refusedAccessorMut x = false) (hal : rc x = true → env.alive = true) :
    call b env (fieldOf x none) = (.error e, fieldOf x none, some (.err e)) := by
  simp only [body, syncAccessorMut, plainAccessorMut, plainLazyInit, awaitCall, okReturn, shortcut, fallibleRet,
    maybeOpt] at hb
  unfold refusedAccessorMut at hr
  unfold fieldOf
  obtain ⟨arg, bld, alive, dflt⟩ := env
  simp only at hal hbld
  subst hbld
  rw [hl, hfa] at hb
  rw [hl] at hr ⊢
  revert hb hr hal
  flags x
  cases sy
  · cases rc <;> cases he <;> finC
  · cases rc <;> cases he <;> cases ay <;> finC

set_option maxHeartbeats 2000000 in
theorem accessorMut_panic (x : FCtx) (b : Body) (hb : body x .accessorMut = .ok b) (env : CallEnv V E) (hbld : env.bld = .panic)
    (hl : x.isLazy = true) (hr : refusedAccessorMut x = false) (hal : rc x = true → env.alive = true) :
    call b env (fieldOf x none) = (.panicked, fieldOf x none, some .panic) := by
  simp only [body, syncAccessorMut, plainAccessorMut, plainLazyInit, awaitCall, okReturn, shortcut, fallibleRet,
    maybeOpt] at hb
  unfold refusedAccessorMut at hr
  unfold fieldOf
  obtain ⟨arg, bld, alive, dflt⟩ := env
  simp only at hal hbld
  subst hbld
  rw [hl] at hb hr ⊢
  revert hb hr hal
  flags x
  cases sy
  · cases rc <;> cases fa <;> cases he <;> finC
  · cases rc <;> cases fa <;> cases he <;> cases ay <;> finC

set_option maxHeartbeats 2000000 in
theorem reader_build (x : FCtx) (b : Body) (hb : body x .reader = .ok b) (env : CallEnv V E) (v : V) (hbld : env.bld = .ok v)
    (hl : x.isLazy = true) (hr : refusedReader x = false) (hal : rc x = true → env.alive = true) :
    Reads b env (fieldOf x none) (some v) (fieldOf x (some v)) (some (.ok v)) := by
  simp only [body, syncReader, mappedRead, awaitCall, fallibleRet] at hb
  unfold refusedReader at hr
  unfold fieldOf Reads
  obtain ⟨arg, bld, alive, dflt⟩ := env
  simp only at hal hbld
  subst hbld
  rw [hl] at hb hr ⊢
  revert hb hr hal
  flags x
  cases sy
  · finC
  · cases rc <;> cases fa <;> cases he <;> cases ay <;> fin

set_option maxHeartbeats 2000000 in
theorem reader_fail (x : FCtx) (b : Body) (hb : body x .reader = .ok b) (env : CallEnv V E) (e : E) (hbld : env.bld = .err e)
    (hl : x.isLazy = true) (hfa : x.isFallible = true) (hr : refusedReader x = false) (hal : rc x = true → env.alive = true) :
    call b env (fieldOf x none) = (.error e, fieldOf x none, some (.err e)) := by
  simp only [body, syncReader, mappedRead, awaitCall, fallibleRet] at hb
  unfold refusedReader at hr
  unfold fieldOf
  obtain ⟨arg, bld, alive, dflt⟩ := env
  simp only at hal hbld
  subst hbld
  rw [hl, hfa] at hb
  rw [hl] at hr ⊢
  revert hb hr hal
  flags x
  cases sy
  · finC
  · cases rc <;> cases he <;> cases ay <;> finC

set_option maxHeartbeats 2000000 in
theorem reader_panic (x : FCtx) (b : Body) (hb : body x .reader = .ok b) (env : CallEnv V E) (hbld : env.bld = .panic)
    (hl : x.isLazy = true) (hr : refusedReader x = false) (hal : rc x = true → env.alive = true) :
    call b env (fieldOf x none) = (.panicked, fieldOf x none, some .panic) := by
  simp only [body, syncReader, mappedRead, awaitCall, fallibleRet] at hb
  unfold refusedReader at hr
  unfold fieldOf
  obtain ⟨arg, bld, alive, dflt⟩ := env
  simp only at hal hbld
  subst hbld
  rw [hl] at hb hr ⊢
  revert hb hr hal
  flags x
  cases sy
  · finC
  · cases rc <;> cases fa <;> cases he <;> cases ay <;> finC

set_option maxHeartbeats 1000000 in
theorem accessorMut_hit (x : FCtx) (b : Body) (hb : body x .accessorMut = .ok b) (env : CallEnv V E) (c : Option V)
    (hc : x.isLazy = true ∨ x.isOptional = false → c ≠ none) (hr : refusedAccessorMut x = false)
    (hal : rc x = true → env.alive = true) :
    Writes b env (fieldOf x c) c (fieldOf x c) (fun w => fieldOf x (some w)) none := by
  simp only [body, syncAccessorMut, plainAccessorMut, plainLazyInit, awaitCall, okReturn, shortcut, fallibleRet,
    maybeOpt] at hb
  unfold refusedAccessorMut at hr
  unfold fieldOf Writes
  obtain ⟨arg, bld, alive, dflt⟩ := env
  simp only at hal
  revert hb hr hc hal
  flags x
  cases sy
  · cases lz
    · cases im <;> cases op <;> cases c <;> finW
    · cases rc <;> cases fa <;> cases he <;> cases c <;> finW
  · cases lz
    · cases lk <;> cases op <;> cases ay <;> cases c <;> finW
    · cases rc <;> cases fa <;> cases he <;> cases ay <;> cases c <;> finW

set_option maxHeartbeats 1000000 in
theorem reader_hit (x : FCtx) (b : Body) (hb : body x .reader = .ok b) (env : CallEnv V E) (c : Option V)
    (hc : x.isLazy = true ∨ x.isOptional = false → c ≠ none) (hr : refusedReader x = false)
    (hal : rc x = true → env.alive = true) :
    Reads b env (fieldOf x c) c (fieldOf x c) none := by
  simp only [body, syncReader, mappedRead, awaitCall, fallibleRet] at hb
  unfold refusedReader at hr
  unfold fieldOf Reads
  obtain ⟨arg, bld, alive, dflt⟩ := env
  simp only at hal
  revert hb hr hc hal
  flags x
  cases sy
  · simp
  · cases lz
    · cases lk <;> cases op <;> cases fa <;> cases ay <;> cases c <;> fin
    · cases rc <;> cases fa <;> cases he <;> cases ay <;> cases c <;> fin

set_option maxHeartbeats 1000000 in
theorem writer_run (x : FCtx) (b : Body) (hb : body x .writer = .ok b) (env : CallEnv V E) (c : Option V)
    (hc : x.isLazy = false → x.isOptional = false → c ≠ none) (hr : refusedWriter x = false) :
    Writes b env (fieldOf x c) c (fieldOf x c) (fun w => fieldOf x (some w)) none := by
  simp only [body, syncWriter, awaitCall, maybeOpt, builderWrapper] at hb
  unfold refusedWriter at hr
  unfold fieldOf Writes
  revert hb hr hc
  flags x
  cases sy
  · simp
  · cases lz
    · cases lk <;> cases op <;> cases ay <;> cases c <;> finW
    · cases fa <;> cases he <;> cases ay <;> cases c <;> finW

end Verif.Proof.MethodLaws
