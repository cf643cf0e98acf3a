import Verif.Spec.Signature
import Verif.Props.Method
import Verif.Props.Args
/-
Types of fields and signatures of helpers: C57, C58.
-/
namespace Verif.Props.Signature
open Verif.Model.Args Verif.Model.Init Verif.Model.Method Verif.Spec.Signature Verif.Spec.Prec Verif.Props.Args
open Verif.Props.Method Verif.Props.MethodTy
open Verif.Model.Emit (emits plainAccMode syncAccMode)
open Verif.Model.Exclusive (acceptFieldFull acceptStructFull)

/-! ## C57: fields have the documented types -/

/-- Part of C57: every field that is not skipped has the documented type, where lazy, optional, locked, inner mutable and
fallible are what the arguments say (field, then struct, then what readers, writers, clearers and predicates imply).
Missing: skipped fields, see `C57_skipped_partial`. -/
theorem C57_documented_partial (x : FCtx) (hs : x.field.skip = false) (c p l r w o k i f : Bool)
    (hc : Implied x .clearer c) (hp : Implied x .predicate p) (hl : Implied x .lazy l)
    (hr : Implied x .reader r) (hw : Implied x .writer w)
    (ho : Decides [x.field.optional, x.ctx.args.optional] (!l && (c || p)) o)
    (hk : Decides [x.field.lock, x.ctx.args.lock] (r || w || o) k)
    (hi : Decides [x.field.innerMut, x.ctx.args.innerMut] false i)
    (hf : Decides [x.field.fallible.map (!·.off), x.ctx.args.fallible.map (!·.off)] false f)
    {τ : Ty} (h : declType x = .ok τ) : DocType (genMode x) l o k i f τ := by
  obtain ⟨h1, h2, h3⟩ := C20_storage_precedence x hs c p l r w o hc hp hl hr hw ho
  have e3 := decides_unique hl (C20_precedence x .lazy (by decide) (fun _ => hs))
  have e4 := decides_unique hk h2
  have e5 := decides_unique hi h3
  have e6 := decides_unique hf (C20_details_precedence x).2.2.2
  simp only [needs] at e3
  subst e3 e4 e5 e6 h1
  unfold declType syncType plainType builderWrapper useAsync at h
  unfold genMode
  have hs' : x.field.isSkipped = false := hs
  rw [hs'] at h
  cases h1 : x.isSync <;> cases h2 : x.isAsync <;> cases h3 : x.isLazy <;> cases h4 : x.isOptional <;>
    cases h5 : x.needsLock <;> cases h6 : x.isInnerMut <;> cases h7 : x.isFallible <;> cases h8 : hasErrorType x <;>
    simp only [h1, h2, h3, h4, h5, h6, h7, h8, bind, Gen.bind, pure, Bool.false_eq_true, if_true, if_false,
      Bool.true_and, Bool.false_and, Bool.not_true, Bool.not_false, Gen.ok.injEq, reduceCtorEq] at h ⊢ <;>
    subst h <;> first | exact .bare | exact .optPlain | (constructor; done) | (constructor; decide)

/-- Exactly when the expansion reports an error instead of a type: a fallible field of a sync struct with no error type. -/
theorem C57_error_iff (x : FCtx) :
    (¬ ∃ τ, declType x = .ok τ) ↔ genMode x ≠ .plain ∧ x.isFallible = true ∧
      (x.field.fallible.bind (·.error)) = none ∧ (x.ctx.args.fallible.bind (·.error)) = none := by
  have he : hasErrorType x = false ↔
      (x.field.fallible.bind (·.error)) = none ∧ (x.ctx.args.fallible.bind (·.error)) = none := by
    unfold hasErrorType
    cases (x.field.fallible.bind (·.error)) <;> cases (x.ctx.args.fallible.bind (·.error)) <;> simp
  rw [← he]
  unfold declType syncType builderWrapper genMode
  cases h1 : x.isSync <;> cases h2 : x.isAsync <;> cases h3 : x.isFallible <;> cases h4 : hasErrorType x <;>
    simp [bind, Gen.bind, pure] <;> (repeat' split) <;> simp

/-- Part of C57: a skipped field keeps its type, unless the struct is plain and `inner_mut`. -/
theorem C57_skipped_partial (x : FCtx) (hs : x.field.skip = true)
    (hi : genMode x = .plain → x.field.innerMut ≠ some true ∧ (x.field.innerMut = none → x.ctx.args.innerMut ≠ some true))
    {τ : Ty} (h : declType x = .ok τ) : τ = .t := by
  obtain ⟨h1, h2, -, -⟩ := C20_skipped x hs
  have hs' : x.field.isSkipped = true := hs
  unfold declType syncType plainType builderWrapper at h
  unfold genMode at hi
  rw [hs', h1, h2] at h
  have him : x.isSync = false → x.isInnerMut = false := by
    intro hn
    have := hi (by simp [hn])
    unfold FCtx.isInnerMut FieldArgs.isInnerMut StructArgs.isInnerMut
    rcases h5 : x.field.innerMut with _ | _ | _ <;> rcases h6 : x.ctx.args.innerMut with _ | _ | _ <;> simp_all
  cases h3 : x.isSync
  · rw [h3, him h3] at h; simpa using h.symm
  · rw [h3] at h
    cases h4 : (x.isFallible && !hasErrorType x) <;> rw [h4] at h <;> simp [bind, Gen.bind, pure] at h
    exact h.symm

/-- "Skipped fields retain their original type" is false of the code: in a plain `#[fxstruct(inner_mut)]` struct a field
`#[fieldx(skip)]` becomes a `RefCell`. -/
theorem C57_skipped_false : ∃ x : FCtx, acceptFieldFull x.field = true ∧ acceptStructFull x.ctx.args = true ∧
    x.field = { skip := true } ∧ declType x = .ok (.cell .t) :=
  ⟨{ ctx := { args := { innerMut := some true } }, field := { skip := true } }, by decide, by decide, rfl, by decide⟩

/-- Non-trivial case: a sync struct, a field with a reader and a clearer. -/
example :
    let x : FCtx := { ctx := { args := { modeSync := some true, clearer := some {} } }, field := { reader := some {} } }
    Implied x .clearer true ∧ Implied x .predicate false ∧ Implied x .lazy false ∧ Implied x .reader true ∧
    Decides [x.field.optional, x.ctx.args.optional] (!false && (true || false)) true ∧
    declType x = .ok (.lock false (.opt .t)) := by
  refine ⟨?_, ?_, ?_, ?_, ?_, by decide⟩
  · exact .next (.here _ _ _)
  · exact .next (.next (.dflt _))
  · exact .next (.next (.dflt _))
  · exact .here _ _ _
  · exact .next (.next (.dflt _))

/-! ## C58: helpers have the documented signatures -/

/-- The accessor mode in force (C21 says which that is). -/
def modeOf (x : FCtx) : AccMode := if x.isSync then syncAccMode x else plainAccMode x

theorem isCopy_eq (x : FCtx) : x.isCopy = (x.accessorMode == .copy) := by
  have := C21_copy_agrees x
  unfold plainAccMode syncAccMode at this
  cases h : x.isCopy <;> cases h' : x.isClone <;> cases h2 : x.accessorMode <;> simp_all

/-- The signature of a body. -/
def sigOf (b : Body) : Sig := ⟨b.recvMut, b.isAsync, b.ret⟩

set_option hygiene false in
/- Replaces every derived flag of the field by a variable. -/
local macro "gen_flags" : tactic => `(tactic| (
  generalize x.isLazy = lz at *
  generalize x.isOptional = op at *
  generalize x.isInnerMut = im at *
  generalize x.needsLock = lk at *
  generalize x.isSync = sy at *
  generalize x.isAsync = ay at *
  generalize x.isFallible = fa at *
  generalize x.isCopy = cp at *
  generalize x.isClone = cl at *
  generalize x.accessorMode = md at *
  generalize hasErrorType x = he at *
  generalize x.ctx.args.isRefCounted = rc at *
  generalize x.field.isSkipped = sk at *))

theorem sig_accessor (x : FCtx) (hs : x.field.isSkipped = false) (hc : x.isCopy = (x.accessorMode == .copy)) :
    (match declType x, (if x.isSync then syncAccessor x else plainAccessor x : Gen Body) with
     | .ok τ, .ok b => refusedAccessor x || documented τ (modeOf x) x.isFallible .accessor == some (sigOf b)
     | _, _ => true) = true := by
  unfold declType plainType syncType modeOf plainAccMode syncAccMode refusedAccessor syncAccessor plainAccessor syncReader syncCMethod mappedRead plainMeth plainLazyInit okReturn shortcut fallibleRet rc awaitCall maybeOpt builderWrapper useAsync
  gen_flags
  subst hs
  cases md <;> revert lz op im lk sy ay fa cp cl he rc <;> decide +kernel

theorem sig_accessorMut (x : FCtx) (hs : x.field.isSkipped = false) (hc : x.isCopy = (x.accessorMode == .copy)) :
    (match declType x, (if x.isSync then syncAccessorMut x else plainAccessorMut x : Gen Body) with
     | .ok τ, .ok b => refusedAccessorMut x || documented τ (modeOf x) x.isFallible .accessorMut == some (sigOf b)
     | _, _ => true) = true := by
  unfold declType plainType syncType modeOf plainAccMode syncAccMode refusedAccessorMut syncAccessorMut plainAccessorMut plainLazyInit okReturn shortcut fallibleRet rc awaitCall maybeOpt builderWrapper useAsync
  gen_flags
  subst hs
  cases md <;> revert lz op im lk sy ay fa cp cl he rc <;> decide +kernel

theorem sig_reader (x : FCtx) (hs : x.field.isSkipped = false) (hc : x.isCopy = (x.accessorMode == .copy)) :
    (match declType x, (if x.isSync then syncReader x else .error : Gen Body) with
     | .ok τ, .ok b => refusedReader x || documented τ (modeOf x) x.isFallible .reader == some (sigOf b)
     | _, _ => true) = true := by
  unfold declType plainType syncType modeOf plainAccMode syncAccMode refusedReader syncReader mappedRead fallibleRet rc awaitCall builderWrapper useAsync
  gen_flags
  subst hs
  cases md <;> revert lz op im lk sy ay fa cp cl he rc <;> decide +kernel

theorem sig_writer (x : FCtx) (hs : x.field.isSkipped = false) (hc : x.isCopy = (x.accessorMode == .copy)) :
    (match declType x, (if x.isSync then syncWriter x else .error : Gen Body) with
     | .ok τ, .ok b => refusedWriter x || documented τ (modeOf x) x.isFallible .writer == some (sigOf b)
     | _, _ => true) = true := by
  unfold declType plainType syncType modeOf plainAccMode syncAccMode refusedWriter syncWriter awaitCall maybeOpt builderWrapper useAsync
  gen_flags
  subst hs
  cases md <;> revert lz op im lk sy ay fa cp cl he rc <;> decide +kernel

theorem sig_setter (x : FCtx) (hs : x.field.isSkipped = false) (hc : x.isCopy = (x.accessorMode == .copy)) :
    (match declType x, (if x.isSync then syncSetter x else plainSetter x : Gen Body) with
     | .ok τ, .ok b => false || documented τ (modeOf x) x.isFallible .setter == some (sigOf b)
     | _, _ => true) = true := by
  unfold declType plainType syncType modeOf plainAccMode syncAccMode syncSetter plainSetter awaitCall maybeOpt builderWrapper useAsync
  gen_flags
  subst hs
  cases md <;> revert lz op im lk sy ay fa cp cl he rc <;> decide +kernel

theorem sig_clearer (x : FCtx) (hs : x.field.isSkipped = false) (hc : x.isCopy = (x.accessorMode == .copy)) :
    (match declType x, (if x.isSync then syncClearer x else plainClearer x : Gen Body) with
     | .ok τ, .ok b => refusedClearer x || documented τ (modeOf x) x.isFallible .clearer == some (sigOf b)
     | _, _ => true) = true := by
  unfold declType plainType syncType modeOf plainAccMode syncAccMode refusedClearer syncClearer plainClearer awaitCall maybeOpt builderWrapper useAsync
  gen_flags
  subst hs
  cases md <;> revert lz op im lk sy ay fa cp cl he rc <;> decide +kernel

theorem sig_predicate (x : FCtx) (hs : x.field.isSkipped = false) (hc : x.isCopy = (x.accessorMode == .copy)) :
    (match declType x, (if x.isSync then syncPredicate x else plainPredicate x : Gen Body) with
     | .ok τ, .ok b => refusedPredicate x || documented τ (modeOf x) x.isFallible .predicate == some (sigOf b)
     | _, _ => true) = true := by
  unfold declType plainType syncType modeOf plainAccMode syncAccMode refusedPredicate syncPredicate plainPredicate awaitCall builderWrapper useAsync
  gen_flags
  subst hs
  cases md <;> revert lz op im lk sy ay fa cp cl he rc <;> decide +kernel

/-- Every helper that is written and compiles has the documented signature, which depends on nothing but the type of the
field, the accessor mode, and `fallible`. -/
theorem C58_documented {x : FCtx} {k : Kind} {τ : Ty} {b : Body} (h : Helper x k τ b) :
    documented τ (modeOf x) x.isFallible k = some (sigOf b) := by
  have hr := h.ok
  have hs := Verif.Proof.Method.notSkipped h.emit
  have ht := h.type
  have hb := h.code
  have hc := isCopy_eq x
  cases k with
  | accessor => have g := sig_accessor x hs hc; simp only [body] at hb; rw [ht, hb] at g; simpa [show refusedAccessor x = false from hr] using g
  | accessorMut => have g := sig_accessorMut x hs hc; simp only [body] at hb; rw [ht, hb] at g; simpa [show refusedAccessorMut x = false from hr] using g
  | reader => have g := sig_reader x hs hc; simp only [body] at hb; rw [ht, hb] at g; simpa [show refusedReader x = false from hr] using g
  | writer => have g := sig_writer x hs hc; simp only [body] at hb; rw [ht, hb] at g; simpa [show refusedWriter x = false from hr] using g
  | setter => have g := sig_setter x hs hc; simp only [body] at hb; rw [ht, hb] at g; simpa using g
  | clearer => have g := sig_clearer x hs hc; simp only [body] at hb; rw [ht, hb] at g; simpa [show refusedClearer x = false from hr] using g
  | predicate => have g := sig_predicate x hs hc; simp only [body] at hb; rw [ht, hb] at g; simpa [show refusedPredicate x = false from hr] using g
  | builder => cases h.kind
  | lazy => cases h.kind

/-- Non-trivial cases: see the examples of `Helper` in `Verif.Props.Method`. -/
example : documented (.proxy false false) .clone false .accessor = some ⟨false, false, .own .t⟩ ∧
    documented (.lock true (.opt .t)) .none true .setter = some ⟨false, true, .own (.opt .t)⟩ := by decide
example : Helper fullSync .setter (.proxy false false) { ret := .own (.opt .t), main := [.write, .storeV] } ∧
    modeOf fullSync = .clone := by
  exact ⟨⟨rfl, by decide, by decide, by decide, by decide +kernel⟩, by decide⟩

end Verif.Props.Signature
