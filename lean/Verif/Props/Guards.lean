import Verif.Proof.Guards
import Verif.Props.Method
/-
C106: helpers called while guards are alive on their own field.

`Verif.Props.Method` (C24, C25) says what helpers do on a field without guards. Here guards are alive: `rd` shared ones, and
possibly an exclusive one. `need` (`Verif.Spec.Guards`) says by kind of field and helper what the call needs of the lock.
-/
namespace Verif.Props.Guards
open Verif.Model.Args Verif.Model.Init Verif.Model.Method Verif.Spec.InitTy Verif.Spec.MethodTy Verif.Spec.Helper
open Verif.Spec.Guards Verif.Proof.Guards Verif.Proof.Method Verif.Proof.MethodLaws Verif.Props.Method Verif.Props.MethodTy
open Verif.Model.Emit (emits)
open Verif.Spec (Outcome)

variable {V E : Type}

/-- What the helper `k` of the field needs, given what the field contains. -/
def needOf (x : FCtx) (f : Field V) (k : Kind) : Need :=
  need x.isLazy x.needsLock x.isAsync x.isFallible (content f.val).isSome k

/-- The predicate of a `fallible` field in a lock of its own, which tries the lock (`C25_predicate_tries_lock`). -/
def Tries (x : FCtx) (k : Kind) : Prop :=
  k = .predicate ∧ x.isLazy = false ∧ x.needsLock = true ∧ x.isFallible = true

instance (x : FCtx) (k : Kind) : Decidable (Tries x k) := by unfold Tries; infer_instance

theorem framed {x : FCtx} {k : Kind} {τ : Ty} {b : Body} (h : Helper x k τ b) {f : Field V} (hf : ValTy f.val τ)
    (env : CallEnv V E) (hs : x.isSync = true) (hal : rc x = true → env.alive = true) (hx : ¬ Tries x k) :
    Framed b env f (needOf x f k) := by
  have hf' := hf
  rw [declType_typeOf x τ (notSkipped h.emit) h.type] at hf'
  obtain ⟨c, hc, hv⟩ := exists_valOf hf'
  have hr := h.ok
  have hcc : content f.val = c := by rw [hv]; exact content_valOf ..
  unfold needOf
  rw [hcc]
  obtain ⟨v, rd, wr⟩ := f
  simp only at hv
  subst hv
  have hk := h.kind
  cases k with
  | accessor => exact accessor_framed x b h.code env c rd wr hs hr hal hc
  | accessorMut => exact accessorMut_framed x b h.code env c rd wr hs hr hal
  | reader => exact reader_framed x b h.code env c rd wr hs hr hal
  | writer => exact writer_framed x b h.code env c rd wr hs hr
  | setter => exact setter_framed x b h.code env c rd wr hs hc
  | clearer => exact clearer_framed x b h.code env c rd wr hs hr
  | predicate =>
    refine predicate_framed x b h.code env c rd wr hs hr ?_
    cases hh : (!x.isLazy && x.needsLock && x.isFallible) with
    | false => rfl
    | true =>
      simp only [Bool.and_eq_true, Bool.not_eq_true'] at hh
      exact absurd ⟨rfl, hh.1.1, hh.1.2, hh.2⟩ hx
  | builder => cases hk
  | «lazy» => cases hk

/-- **C106.** A helper of a sync or async field waits exactly if a guard is in its way. -/
theorem C106_waits_iff {x : FCtx} {k : Kind} {τ : Ty} {b : Body} (h : Helper x k τ b) {f : Field V} (hf : ValTy f.val τ)
    (env : CallEnv V E) (hs : x.isSync = true) (hal : rc x = true → env.alive = true) :
    (call b env f).1 = .blocked ↔ inTheWay f (needOf x f k) = true := by
  by_cases hx : Tries x k
  · obtain ⟨rfl, h1, h2, h3⟩ := hx
    rw [C25_predicate_tries_lock h hf env ⟨hs, h1, h2, h3⟩]
    simp [needOf, need, h1, h2, h3, lockNeed, inTheWay]
  · have hfr := framed h hf env hs hal hx
    unfold Framed at hfr
    cases hw : inTheWay f (needOf x f k) with
    | true =>
      rw [hw] at hfr
      simp only at hfr
      simp [hfr]
    | false =>
      rw [hw] at hfr
      refine ⟨fun hh => ?_, fun hh => (nomatch hh)⟩
      have := hfr.1
      rw [hh] at this
      cases this

/-- **C106.** While it waits nothing has happened: the field is as it was and no builder has been run. -/
theorem C106_waits {x : FCtx} {k : Kind} {τ : Ty} {b : Body} (h : Helper x k τ b) {f : Field V} (hf : ValTy f.val τ)
    (env : CallEnv V E) (hs : x.isSync = true) (hal : rc x = true → env.alive = true)
    (hw : inTheWay f (needOf x f k) = true) : call b env f = (.blocked, f, none) := by
  by_cases hx : Tries x k
  · obtain ⟨rfl, h1, h2, h3⟩ := hx
    simp [needOf, need, h1, h2, h3, lockNeed, inTheWay] at hw
  · have hfr := framed h hf env hs hal hx
    unfold Framed at hfr
    rw [hw] at hfr
    exact hfr

/-- **C106.** If no guard is in its way, the guards alive make no difference: the result, the content left behind and the
builder run are those of C24 and C25, and the guards alive stay so. -/
theorem C106_beside {x : FCtx} {k : Kind} {τ : Ty} {b : Body} (h : Helper x k τ b) {f : Field V} (hf : ValTy f.val τ)
    (env : CallEnv V E) (hs : x.isSync = true) (hal : rc x = true → env.alive = true) (hx : ¬ Tries x k)
    (hw : inTheWay f (needOf x f k) = false) : call b env f = beside f (call b env (alone f)) := by
  have hfr := framed h hf env hs hal hx
  unfold Framed at hfr
  rw [hw] at hfr
  exact hfr.2

/-- **C106.** With an exclusive guard alive, kept by the same thread or task, only the predicate of a lazy field, predicates
which try the lock, and helpers of fields without a container can be called. -/
theorem C106_beside_writer {x : FCtx} {k : Kind} {τ : Ty} {b : Body} (h : Helper x k τ b) {f : Field V} (hf : ValTy f.val τ)
    (env : CallEnv V E) (hs : x.isSync = true) (hal : rc x = true → env.alive = true) (hw : f.wr = true) :
    (call b env f).1 = .blocked ↔
      (x.isLazy = true ∧ k ≠ .predicate) ∨
      (x.isLazy = false ∧ x.needsLock = true ∧ ¬ (k = .predicate ∧ x.isFallible = true)) := by
  rw [C106_waits_iff h hf env hs hal]
  have hk := h.kind
  unfold needOf need
  generalize x.isLazy = a; generalize x.needsLock = b; generalize x.isAsync = c; generalize x.isFallible = d
  generalize (content f.val).isSome = e
  cases k <;> cases a <;> cases b <;> cases c <;> cases d <;> cases e <;> simp [lazyNeed, lockNeed, inTheWay, hw]

/-- **C106.** With shared guards alive and no exclusive one, everything which only reads can be called; an async lazy field can
not even be read, and a sync one only if it is initialised. -/
theorem C106_beside_readers {x : FCtx} {k : Kind} {τ : Ty} {b : Body} (h : Helper x k τ b) {f : Field V} (hf : ValTy f.val τ)
    (env : CallEnv V E) (hs : x.isSync = true) (hal : rc x = true → env.alive = true) (hw : f.wr = false) (hr : f.rd ≠ 0) :
    (call b env f).1 = .blocked ↔
      (x.isLazy = true ∨ x.needsLock = true) ∧
      ((k = .setter ∨ k = .writer ∨ k = .clearer ∨ k = .accessorMut) ∨
        ((k = .accessor ∨ k = .reader) ∧ x.isLazy = true ∧ (x.isAsync = true ∨ content f.val = none))) := by
  rw [C106_waits_iff h hf env hs hal]
  have hk := h.kind
  have he : content f.val = none ↔ (content f.val).isSome = false := by
    cases content f.val <;> simp
  rw [he]
  unfold needOf need
  generalize x.isLazy = a; generalize x.needsLock = b; generalize x.isAsync = c; generalize x.isFallible = d
  generalize (content f.val).isSome = e
  cases k <;> simp [isHelper] at hk <;>
    (cases a <;> cases b <;> cases c <;> cases d <;> cases e <;> simp [lazyNeed, lockNeed, inTheWay, hw, hr])

/-! ## Concrete cases -/

/-- `#[fxstruct(sync)] struct S { #[fieldx(lazy, reader, set)] f: T }` -/
def lazyReader : FCtx :=
  { ctx := { args := { modeSync := some true } }
    field := { «lazy» := some {}, reader := some {}, setter := some {} } }

/-- The same with `r#async`. -/
def asyncReader : FCtx :=
  { ctx := { args := { modeAsync := some true } }
    field := { «lazy» := some {}, reader := some {}, setter := some {} } }

theorem lazyReader_reader : Props.Method.Helper lazyReader .reader (.proxy false false)
    { ret := .guard .mapRead .t, main := [.lazyRead false false false] } := helper_of (by decide +kernel)

theorem lazyReader_setter : Props.Method.Helper lazyReader .setter (.proxy false false)
    { ret := .own (.opt .t), main := [.write, .storeV] } := helper_of (by decide +kernel)

theorem asyncReader_reader : Props.Method.Helper asyncReader .reader (.proxy true false)
    { isAsync := true, ret := .guard (.read true) .t, main := [.lazyRead false false false, .await] } :=
  helper_of (by decide +kernel)

/-- An initialised field, one shared guard alive. -/
def readOnce (async : Bool) : Field Nat := { val := .proxy async (.some (.val 7)), rd := 1 }

def env : CallEnv Nat Nat := { arg := 3, bld := .ok 5, dflt := 0 }

theorem readOnce_typed (async : Bool) : ValTy (readOnce async).val (.proxy async false) := by
  unfold readOnce
  repeat constructor

-- a second guard of the sync field can be taken
example : call { ret := .guard .mapRead .t, main := [.lazyRead false false false] } env (readOnce false) =
    (.value (.guard false 2), { readOnce false with rd := 2 }, none) := by decide +kernel
example : inTheWay (readOnce false) (needOf lazyReader (readOnce false) .reader) = false := by decide +kernel
-- not of the async one
example : (call { isAsync := true, ret := .guard (.read true) .t, main := [.lazyRead false false false, .await] } env
    (readOnce true)).1 = .blocked :=
  (C106_beside_readers asyncReader_reader (readOnce_typed true) env (by decide +kernel) (fun _ => rfl) rfl (by decide)).mpr
    ⟨by decide +kernel, .inr ⟨.inr rfl, by decide +kernel, by decide +kernel⟩⟩
-- and the setter waits
example : call { ret := .own (.opt .t), main := [.write, .storeV] } env (readOnce false) = (.blocked, readOnce false, none) :=
  C106_waits lazyReader_setter (readOnce_typed false) env (by decide +kernel) (fun _ => rfl) (by decide +kernel)
example : ¬ Tries lazyReader .setter := by decide +kernel

end Verif.Props.Guards
