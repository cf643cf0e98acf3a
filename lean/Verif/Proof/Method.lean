import Verif.Spec.Helper
import Verif.Proof.MethodTy
import Verif.Model.Emit
/-
What calls of generated helpers do, by configuration.
-/
namespace Verif.Proof.Method
open Verif.Model.Args Verif.Model.Init Verif.Model.Method Verif.Spec.InitTy Verif.Spec.Helper
open Verif.Spec (Outcome)

/-- The declared type by the flags, for a field that is not skipped. -/
def typeOf (sy lz op lk im ay fa : Bool) : Ty :=
  let a := if op then Ty.opt .t else .t
  if sy then (if lz then .proxy ay fa else if lk then .lock ay a else a)
  else (if lz then .once .t else if im then .cell a else a)

theorem declType_typeOf (x : FCtx) (τ : Ty) (hs : x.field.isSkipped = false) (hτ : declType x = .ok τ) :
    τ = typeOf x.isSync x.isLazy x.isOptional x.needsLock x.isInnerMut x.isAsync x.isFallible := by
  unfold declType plainType syncType builderWrapper useAsync at hτ
  unfold typeOf
  rw [hs] at hτ
  revert hτ
  generalize x.isSync = sy; generalize x.isLazy = lz; generalize x.isOptional = op; generalize x.needsLock = lk
  generalize x.isInnerMut = im; generalize x.isAsync = ay; generalize x.isFallible = fa; generalize hasErrorType x = he
  cases sy <;> cases lz <;> cases op <;> cases lk <;> cases im <;> cases fa <;> cases he <;>
    simp [Bind.bind, Gen.bind, pure] <;> intro h <;> exact h.symm

section
variable {V : Type}

theorem valTy_t {v : Val V} (h : ValTy v .t) : ∃ w, v = .val w := by cases h; exact ⟨_, rfl⟩
theorem valTy_opt {v : Val V} (h : ValTy v (.opt .t)) : v = .none ∨ ∃ w, v = .some (.val w) := by
  cases h with
  | none => exact .inl rfl
  | some h => obtain ⟨w, rfl⟩ := valTy_t h; exact .inr ⟨w, rfl⟩
theorem valTy_once {v : Val V} (h : ValTy v (.once .t)) : v = .once .none ∨ ∃ w, v = .once (.some (.val w)) := by
  cases h with
  | once h => rcases valTy_opt h with rfl | ⟨w, rfl⟩; exact .inl rfl; exact .inr ⟨w, rfl⟩
theorem valTy_proxy {v : Val V} {a f : Bool} (h : ValTy v (.proxy a f)) :
    v = .proxy a .none ∨ ∃ w, v = .proxy a (.some (.val w)) := by
  cases h with
  | proxy h => rcases valTy_opt h with rfl | ⟨w, rfl⟩; exact .inl rfl; exact .inr ⟨w, rfl⟩
theorem valTy_lock {v : Val V} {a : Bool} {τ : Ty} (h : ValTy v (.lock a τ)) : ∃ w, v = .lock a w ∧ ValTy w τ := by
  cases h with | lock h => exact ⟨_, rfl, h⟩
theorem valTy_cell {v : Val V} {τ : Ty} (h : ValTy v (.cell τ)) : ∃ w, v = .cell w ∧ ValTy w τ := by
  cases h with | cell h => exact ⟨_, rfl, h⟩

/-- The values of a type. -/
theorem valTy_typeOf {v : Val V} {sy lz op lk im ay fa : Bool} (h : ValTy v (typeOf sy lz op lk im ay fa)) :
    ∃ c : Option V, (lz = false → op = false → c ≠ none) ∧
      v = (let a : Val V := match c with | none => .none | some w => if lz || op then .some (.val w) else .val w
           if sy then (if lz then .proxy ay a else if lk then .lock ay a else a)
           else (if lz then .once a else if im then .cell a else a)) := by
  cases sy <;> cases lz <;> cases op <;> cases lk <;> cases im <;>
    simp only [typeOf, if_true, if_false, Bool.false_eq_true] at h
  all_goals
    first
    | (obtain ⟨w, rfl⟩ := valTy_t h; refine ⟨some w, ?_⟩; simp; done)
    | (rcases valTy_opt h with rfl | ⟨w, rfl⟩ <;>
          first | exact ⟨none, by simp, rfl⟩ | exact ⟨some _, by simp, rfl⟩)
    | (rcases valTy_once h with rfl | ⟨w, rfl⟩ <;>
          first | exact ⟨none, by simp, rfl⟩ | exact ⟨some _, by simp, rfl⟩)
    | (rcases valTy_proxy h with rfl | ⟨w, rfl⟩ <;>
          first | exact ⟨none, by simp, rfl⟩ | exact ⟨some _, by simp, rfl⟩)
    | (obtain ⟨u, hu, hc⟩ := valTy_lock h; subst hu
       first
       | (obtain ⟨w, rfl⟩ := valTy_t hc; refine ⟨some w, ?_⟩; simp; done)
       | (rcases valTy_opt hc with rfl | ⟨w, rfl⟩ <;>
          first | exact ⟨none, by simp, rfl⟩ | exact ⟨some _, by simp, rfl⟩))
    | (obtain ⟨u, hu, hc⟩ := valTy_cell h; subst hu
       first
       | (obtain ⟨w, rfl⟩ := valTy_t hc; refine ⟨some w, ?_⟩; simp; done)
       | (rcases valTy_opt hc with rfl | ⟨w, rfl⟩ <;>
          first | exact ⟨none, by simp, rfl⟩ | exact ⟨some _, by simp, rfl⟩))

end

theorem notSkipped {x : FCtx} {k : Kind} (h : Verif.Model.Emit.emits x k = true) : x.field.isSkipped = false := by
  unfold Verif.Model.Emit.emits at h
  split at h
  · cases h
  · simp_all

end Verif.Proof.Method
