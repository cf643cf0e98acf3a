import Verif.Model.User
import Verif.Spec.User
import Verif.Proof.MethodLaws
/-
What helpers call, for each kind of helper.
-/
namespace Verif.Proof.User
open Verif.Model.Args Verif.Model.Init Verif.Model.Method Verif.Model.User Verif.Spec.InitTy Verif.Spec.MethodTy
open Verif.Proof.Method Verif.Proof.MethodLaws Verif.Props.MethodTy
open Verif.Spec (Outcome)

variable {V E : Type}

/-- The field with content `c` and guards of a helper. -/
def withGuards (x : FCtx) (c : Option V) (g : Nat × Bool) : Field V := { fieldOf x c with rd := g.1, wr := g.2 }

/-- One call: guards as expected, the content given, and after a panic the same content without guards. -/
def visit (x : FCtx) (u : Code) (c : Option V) : Visit V := ⟨u, withGuards x c (Spec.User.guards x u), fieldOf x c⟩

theorem setter_visits (x : FCtx) (b : Body) (hb : body x .setter = .ok b) (into : Bool) (env : CallEnv V E) (c : Option V)
    (hc : x.isLazy = false → x.isOptional = false → c ≠ none) :
    visits into b env (fieldOf x c) =
      if into then [visit x .convert (if x.isSync = false ∧ x.isLazy = true then none else c)] else [] := by
  simp only [body, syncSetter, plainSetter, awaitCall, maybeOpt] at hb
  unfold visit withGuards fieldOf Spec.User.guards Spec.User.locked
  revert hb hc
  generalize x.isSync = sy; generalize x.isLazy = lz; generalize x.isOptional = op; generalize x.needsLock = lk
  generalize x.isInnerMut = im; generalize x.isAsync = ay
  cases into <;> cases sy <;> cases lz <;> cases op <;> cases lk <;> cases im <;> cases ay <;> cases c <;> simp <;> intro hb <;>
    subst hb <;> rfl

/-- The content once the builder has run. -/
def final (c : Option V) (bld : Outcome V E) : Option V :=
  match c, bld with
  | some v, _ => some v
  | none, .ok v => some v
  | none, _ => none

set_option hygiene false in
/-- Finishes a case where the body is known. -/
macro "finU" : tactic => `(tactic| (
  simp [Bind.bind, Gen.bind, pure] <;> intros <;> subst_vars <;> rfl))

set_option maxHeartbeats 4000000 in
theorem accessor_visits (x : FCtx) (b : Body) (hb : body x .accessor = .ok b) (into : Bool) (env : CallEnv V E) (c : Option V)
    (hc : x.isLazy = false → x.isOptional = false → c ≠ none) (hr : refusedAccessor x = false)
    (hal : rc x = true → env.alive = true) :
    visits into b env (fieldOf x c) =
      (if Spec.User.builds x c then [visit x .build none] else []) ++
        (if Spec.User.clones x && Spec.User.filled x c env.bld then [visit x .clone (final c env.bld)] else []) := by
  simp only [body, syncAccessor, plainAccessor, syncReader, syncCMethod, mappedRead, plainMeth, plainLazyInit, awaitCall,
    okReturn, shortcut, fallibleRet, maybeOpt] at hb
  unfold refusedAccessor at hr
  unfold visit withGuards fieldOf Spec.User.guards Spec.User.locked Spec.User.builds Spec.User.clones Spec.User.filled
  obtain ⟨arg, bld, alive, dflt⟩ := env
  simp only at hal
  revert hb hr hc hal
  flags x
  cases sy
  · cases lz
    · cases im
      · cases md <;> cases op <;> cases c <;> finU
      · cases md <;> cases op <;> cases cl <;> cases cp <;> cases c <;> finU
    · cases rc
      · cases md <;> cases fa <;> cases he <;> cases c <;> cases bld <;> finU
      · cases md <;> cases fa <;> cases he <;> cases c <;> cases bld <;> finU
  · cases lz
    · cases lk
      · cases cl <;> cases cp <;> cases op <;> cases fa <;> cases c <;> finU
      · cases cl <;> cases cp <;> cases op <;> cases fa <;> cases ay <;> cases c <;> finU
    · cases rc
      · cases cl <;> cases cp <;> cases op <;> cases fa <;> cases he <;> cases ay <;> cases c <;> cases bld <;> finU
      · cases cl <;> cases cp <;> cases op <;> cases fa <;> cases he <;> cases ay <;> cases c <;> cases bld <;> finU

set_option maxHeartbeats 4000000 in
theorem accessorMut_visits (x : FCtx) (b : Body) (hb : body x .accessorMut = .ok b) (into : Bool) (env : CallEnv V E) (c : Option V)
    (hc : x.isLazy = false → x.isOptional = false → c ≠ none) (hr : refusedAccessorMut x = false)
    (hal : rc x = true → env.alive = true) :
    visits into b env (fieldOf x c) = if Spec.User.builds x c then [visit x .build none] else [] := by
  simp only [body, syncAccessorMut, plainAccessorMut, plainLazyInit, okReturn, shortcut, awaitCall, fallibleRet, maybeOpt] at hb
  unfold refusedAccessorMut at hr
  unfold visit withGuards fieldOf Spec.User.guards Spec.User.locked Spec.User.builds
  obtain ⟨arg, bld, alive, dflt⟩ := env
  simp only at hal
  revert hb hr hc hal
  flags x
  cases sy
  · cases lz
    · cases im <;> cases op <;> cases c <;> finU
    · cases rc
      · cases fa <;> cases he <;> cases c <;> cases bld <;> finU
      · cases fa <;> cases he <;> cases c <;> cases bld <;> finU
  · cases lz
    · cases lk <;> cases op <;> cases ay <;> cases c <;> finU
    · cases rc
      · cases fa <;> cases he <;> cases ay <;> cases c <;> cases bld <;> finU
      · cases fa <;> cases he <;> cases ay <;> cases c <;> cases bld <;> finU

set_option maxHeartbeats 4000000 in
theorem reader_visits (x : FCtx) (b : Body) (hb : body x .reader = .ok b) (into : Bool) (env : CallEnv V E) (c : Option V)
    (hc : x.isLazy = false → x.isOptional = false → c ≠ none) (hr : refusedReader x = false)
    (hal : rc x = true → env.alive = true) :
    visits into b env (fieldOf x c) = if Spec.User.builds x c then [visit x .build none] else [] := by
  simp only [body, syncReader, mappedRead, awaitCall, fallibleRet, maybeOpt] at hb
  unfold refusedReader at hr
  unfold visit withGuards fieldOf Spec.User.guards Spec.User.locked Spec.User.builds
  obtain ⟨arg, bld, alive, dflt⟩ := env
  simp only at hal
  revert hb hr hc hal
  flags x
  cases sy
  · cases lz <;> finU
  · cases lz
    · cases lk <;> cases op <;> cases ay <;> cases fa <;> cases c <;> finU
    · cases rc
      · cases fa <;> cases he <;> cases ay <;> cases c <;> cases bld <;> finU
      · cases fa <;> cases he <;> cases ay <;> cases c <;> cases bld <;> finU

set_option maxHeartbeats 4000000 in
theorem other_visits (x : FCtx) (k : Kind) (b : Body) (hb : body x k = .ok b) (hk : k = .writer ∨ k = .clearer ∨ k = .predicate)
    (hr : refused x k = false) (into : Bool) (env : CallEnv V E) (c : Option V)
    (hc : x.isLazy = false → x.isOptional = false → c ≠ none) :
    visits into b env (fieldOf x c) = [] := by
  rcases hk with rfl | rfl | rfl
  all_goals
    simp only [body, syncWriter, syncClearer, plainClearer, syncPredicate, plainPredicate, builderWrapper, awaitCall, fallibleRet,
      maybeOpt] at hb
    unfold refused at hr
    unfold fieldOf
    revert hb hr hc
    try unfold refusedWriter
    try unfold refusedClearer
    try unfold refusedPredicate
    flags x
    cases sy <;> cases lz <;> cases lk <;> cases im <;> cases op <;> cases ay <;> cases fa <;> cases he <;> cases c <;> finU

set_option maxHeartbeats 4000000 in
/-- Helpers of a plain `inner_mut` field on which there are `n` shared guards. -/
theorem cell_panics (x : FCtx) (k : Kind) (b : Body) (hb : body x k = .ok b) (hr : refused x k = false) (env : CallEnv V E)
    (c : Option V) (hc : x.isLazy = false → x.isOptional = false → c ≠ none) (hs : x.isSync = false) (hl : x.isLazy = false)
    (hi : x.isInnerMut = true) (n : Nat) :
    (call b env (withGuards x c (n, false))).1 = .panicked ↔ n ≠ 0 ∧ (k = .setter ∨ k = .clearer ∨ k = .accessorMut) := by
  cases k
  all_goals
    simp only [body, plainAccessor, plainMeth, plainAccessorMut, plainSetter, plainClearer, plainPredicate, maybeOpt, hs, hl, hi] at hb
    unfold refused at hr
    revert hb hr hc
    try unfold refusedAccessor
    try unfold refusedAccessorMut
    try unfold refusedClearer
    try unfold refusedPredicate
    unfold withGuards fieldOf
    rw [hs, hl, hi]
    flags x
    cases n <;> cases md <;> cases cl <;> cases cp <;> cases op <;> cases c <;> simp <;> intros <;> subst_vars <;>
      first | rfl | (intro h; cases h)

end Verif.Proof.User
