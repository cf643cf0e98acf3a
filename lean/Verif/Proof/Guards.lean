import Verif.Proof.MethodLaws
import Verif.Spec.Guards
/-
Calls with guards alive on the field, by configuration.
-/
namespace Verif.Proof.Guards
open Verif.Model.Args Verif.Model.Init Verif.Model.Method Verif.Spec.InitTy Verif.Spec.Helper Verif.Proof.Method
open Verif.Proof.MethodLaws Verif.Spec.Guards
open Verif.Model.Emit (emits)
open Verif.Props.MethodTy
open Verif.Spec (Outcome)

variable {V E : Type}

def isBlocked : Got V E → Bool
  | .blocked => true
  | _ => false

/-- The call waits if a guard is in the way, and otherwise does what it does on a field without guards. -/
def Framed (b : Body) (env : CallEnv V E) (f : Field V) (n : Need) : Prop :=
  match inTheWay f n with
  | true => call b env f = (.blocked, f, none)
  | false => isBlocked (call b env f).1 = false ∧ call b env f = beside f (call b env (alone f))

/-- A field with content `c` and guards. -/
abbrev guarded (x : FCtx) (c : Option V) (rd : Nat) (wr : Bool) : Field V :=
  { val := valOf x.isSync x.isLazy x.isOptional x.needsLock x.isInnerMut x.isAsync c, rd := rd, wr := wr }

set_option hygiene false in
macro "finG" : tactic => `(tactic| (
  simp [Bind.bind, Gen.bind, pure] <;> intros <;> subst_vars <;> (first | exact rfl | exact ⟨rfl, rfl⟩)))

set_option maxHeartbeats 4000000 in
theorem setter_framed (x : FCtx) (b : Body) (hb : body x .setter = .ok b) (env : CallEnv V E) (c : Option V)
    (rd : Nat) (wr : Bool) (hs : x.isSync = true) (hc : x.isLazy = false → x.isOptional = false → c ≠ none) :
    Framed b env (guarded x c rd wr) (need x.isLazy x.needsLock x.isAsync x.isFallible c.isSome .setter) := by
  simp only [body, syncSetter, awaitCall, maybeOpt] at hb
  unfold guarded
  rw [hs] at hb ⊢
  revert hb hc
  flags x
  cases lz
  · cases lk
    · cases op <;> cases ay <;> cases c <;> cases wr <;> cases rd <;> finG
    · cases op <;> cases ay <;> cases c <;> cases wr <;> cases rd <;> finG
  · cases ay <;> cases c <;> cases wr <;> cases rd <;> finG

set_option maxHeartbeats 4000000 in
theorem writer_framed (x : FCtx) (b : Body) (hb : body x .writer = .ok b) (env : CallEnv V E) (c : Option V)
    (rd : Nat) (wr : Bool) (hs : x.isSync = true) (hr : refusedWriter x = false) :
    Framed b env (guarded x c rd wr) (need x.isLazy x.needsLock x.isAsync x.isFallible c.isSome .writer) := by
  simp only [body, syncWriter, awaitCall, maybeOpt, builderWrapper] at hb
  unfold refusedWriter at hr
  unfold guarded
  rw [hs] at hb ⊢
  revert hb hr
  flags x
  cases lz
  · cases lk <;> cases op <;> cases ay <;> cases c <;> cases wr <;> cases rd <;> finG
  · cases ay <;> cases fa <;> cases he <;> cases c <;> cases wr <;> cases rd <;> finG

set_option maxHeartbeats 4000000 in
theorem clearer_framed (x : FCtx) (b : Body) (hb : body x .clearer = .ok b) (env : CallEnv V E) (c : Option V)
    (rd : Nat) (wr : Bool) (hs : x.isSync = true) (hr : refusedClearer x = false) :
    Framed b env (guarded x c rd wr) (need x.isLazy x.needsLock x.isAsync x.isFallible c.isSome .clearer) := by
  simp only [body, syncClearer, awaitCall, maybeOpt] at hb
  unfold refusedClearer at hr
  unfold guarded
  rw [hs] at hb hr ⊢
  revert hb hr
  flags x
  cases lz
  · cases lk <;> cases op <;> cases ay <;> cases c <;> cases wr <;> cases rd <;> finG
  · cases ay <;> cases c <;> cases wr <;> cases rd <;> finG

set_option maxHeartbeats 4000000 in
theorem predicate_framed (x : FCtx) (b : Body) (hb : body x .predicate = .ok b) (env : CallEnv V E) (c : Option V)
    (rd : Nat) (wr : Bool) (hs : x.isSync = true) (hr : refusedPredicate x = false)
    (hx : (!x.isLazy && x.needsLock && x.isFallible) = false) :
    Framed b env (guarded x c rd wr) (need x.isLazy x.needsLock x.isAsync x.isFallible c.isSome .predicate) := by
  simp only [body, syncPredicate, awaitCall, maybeOpt] at hb
  unfold refusedPredicate at hr
  unfold guarded
  rw [hs] at hb hr ⊢
  revert hb hr hx
  flags x
  cases lz
  · cases lk <;> cases op <;> cases ay <;> cases fa <;> cases c <;> cases wr <;> cases rd <;> finG
  · cases ay <;> cases c <;> cases wr <;> cases rd <;> finG

set_option maxHeartbeats 8000000 in
theorem reader_framed (x : FCtx) (b : Body) (hb : body x .reader = .ok b) (env : CallEnv V E) (c : Option V)
    (rd : Nat) (wr : Bool) (hs : x.isSync = true) (hr : refusedReader x = false) (hal : rc x = true → env.alive = true) :
    Framed b env (guarded x c rd wr) (need x.isLazy x.needsLock x.isAsync x.isFallible c.isSome .reader) := by
  simp only [body, syncReader, mappedRead, fallibleRet, awaitCall, maybeOpt] at hb
  unfold refusedReader at hr
  unfold guarded
  obtain ⟨arg, bld, alive, dflt⟩ := env
  simp only at hal
  rw [hs] at hb ⊢
  revert hb hr hal
  flags x
  cases lz
  · cases lk <;> cases op <;> cases ay <;> cases fa <;> cases c <;> cases wr <;> cases rd <;> finG
  · cases rc <;> cases bld <;> cases ay <;> cases fa <;> cases he <;> cases c <;> cases wr <;> cases rd <;> finG

set_option maxHeartbeats 8000000 in
theorem accessorMut_framed (x : FCtx) (b : Body) (hb : body x .accessorMut = .ok b) (env : CallEnv V E) (c : Option V)
    (rd : Nat) (wr : Bool) (hs : x.isSync = true) (hr : refusedAccessorMut x = false) (hal : rc x = true → env.alive = true) :
    Framed b env (guarded x c rd wr) (need x.isLazy x.needsLock x.isAsync x.isFallible c.isSome .accessorMut) := by
  simp only [body, syncAccessorMut, fallibleRet, awaitCall, maybeOpt] at hb
  unfold refusedAccessorMut at hr
  unfold guarded
  obtain ⟨arg, bld, alive, dflt⟩ := env
  simp only at hal
  rw [hs] at hb hr ⊢
  revert hb hr hal
  flags x
  cases lz
  · cases lk <;> cases op <;> cases ay <;> cases c <;> cases wr <;> cases rd <;> finG
  · cases rc <;> cases bld <;> cases ay <;> cases fa <;> cases he <;> cases c <;> cases wr <;> cases rd <;> finG

set_option maxHeartbeats 8000000 in
theorem accessor_framed (x : FCtx) (b : Body) (hb : body x .accessor = .ok b) (env : CallEnv V E) (c : Option V)
    (rd : Nat) (wr : Bool) (hs : x.isSync = true) (hr : refusedAccessor x = false) (hal : rc x = true → env.alive = true)
    (hc : x.isLazy = false → x.isOptional = false → c ≠ none) :
    Framed b env (guarded x c rd wr) (need x.isLazy x.needsLock x.isAsync x.isFallible c.isSome .accessor) := by
  cases hcc : x.isClone || x.isCopy with
  | false =>
    cases hl : x.isLazy || x.needsLock with
    | true =>
      have hb' : body x .reader = .ok b := by
        simpa [body, hs, syncAccessor, hcc, hl] using hb
      have hr' : refusedReader x = false := by
        unfold refusedAccessor at hr
        unfold refusedReader
        rw [hs, hcc] at hr
        simp only [if_true, Bool.false_eq_true, if_false] at hr
        revert hr hl
        generalize x.isLazy = a; generalize x.needsLock = b; generalize x.isOptional = c; generalize x.isFallible = d
        revert a b c d; decide
      exact reader_framed x b hb' env c rd wr hs hr' hal
    | false =>
      simp only [body, syncAccessor, fallibleRet, maybeOpt, hcc, hl, hs] at hb
      unfold guarded
      rw [hs]
      revert hb hl
      flags x
      cases lz <;> cases lk <;> cases fa <;> cases he <;> cases c <;> cases wr <;> cases rd <;> finG
  | true =>
    simp only [body, syncAccessor, syncCMethod, awaitCall, okReturn, shortcut, fallibleRet, maybeOpt, hcc, if_true] at hb
    unfold refusedAccessor at hr
    rw [hcc] at hr
    unfold guarded
    obtain ⟨arg, bld, alive, dflt⟩ := env
    simp only at hal
    rw [hs] at hb hr ⊢
    revert hb hr hal hc
    clear hcc
    flags x
    cases lz
    · cases lk
      · cases cp <;> cases op <;> cases c <;> cases wr <;> cases rd <;> finG
      · cases cp <;> cases op <;> cases ay <;> cases fa <;> cases c <;> cases wr <;> cases rd <;> finG
    · cases op
      · cases rc <;> cases cp <;> cases bld <;> cases ay <;> cases fa <;> cases he <;> cases c <;> cases wr <;> cases rd <;> finG
      · simp

end Verif.Proof.Guards
