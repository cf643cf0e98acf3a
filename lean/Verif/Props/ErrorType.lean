import Verif.Spec.ErrorType
import Verif.Model.ErrorType
import Verif.Proof.Lower
/-
C125: an error type for the whole struct.
-/
namespace Verif.Props.ErrorType
open Verif.Model.Args Verif.Model.Init Verif.Model.Emit Verif.Model Verif.Model.Expand Verif.Model.Exclusive Verif.Model.ErrorType
open Verif.Spec.Lower Verif.Spec.ErrorType Verif.Spec.Expansion Verif.Proof.Lower Verif.Props.Expand
open Verif.Model.Structs (prepare)

variable {s : StructArgs} {fs : List FieldArgs}

/-- Alike, and accepted alike. -/
private theorem written {s t : StructArgs} {fs gs : List FieldArgs} (l : Lits) (h : AlikeStruct (prepare s fs) (prepare t gs))
    (hn : DistinctNames (prepare s fs)) (ha : Accepted true t gs ↔ Accepted true s fs) : whole t gs l = whole s fs l := by
  by_cases hc : Accepted true s fs
  · exact whole_eq l h hn hc (ha.2 hc)
  · have hn' : DistinctNames (prepare t gs) := by
      unfold DistinctNames
      rw [h.fields.each (F := fun f => f.ident) (fun f g a => a.ident)]
      exact hn
    have hc' : ¬ Accepted true t gs := fun k => hc (ha.1 k)
    have e1 : fxstruct true s fs l = .refused := by
      rcases outcome (parsed := true) (l := l) hn with ⟨-, k⟩ | ⟨k, -⟩ | ⟨k, -⟩
      · exact k
      · exact absurd k hc
      · exact absurd k hc
    have e2 : fxstruct true t gs l = .refused := by
      rcases outcome (parsed := true) (l := l) hn' with ⟨-, k⟩ | ⟨k, -⟩ | ⟨k, -⟩
      · exact k
      · exact absurd k hc'
      · exact absurd k hc'
    unfold whole
    rw [e1, e2, h.fields.each (F := fun f => Spec.Lower.sheet ⟨prepare s fs, f⟩) (fun f g a => a.sheet)]

private theorem field (e : String) (h0 : s.fallible = none) (ex : List FieldArgs) (f : FieldArgs) :
    Alike ⟨⟨common s e, fs, ex⟩, f⟩ ⟨⟨s, fs.map (apart e), ex⟩, apart e f⟩ := by
  have hr : (Ctx.mk s (fs.map (apart e)) ex).isRatherSync = (Ctx.mk (common s e) fs ex).isRatherSync := by
    unfold Ctx.isRatherSync Ctx.allFields
    have h2 : ((fun f : FieldArgs => f.isSync) ∘ apart e) = fun f : FieldArgs => f.isSync := rfl
    simp only [List.findSome?_append, List.findSome?_map, h2]
    rfl
  have hs : (FCtx.mk ⟨s, fs.map (apart e), ex⟩ (apart e f)).isSync = (FCtx.mk ⟨common s e, fs, ex⟩ f).isSync := by
    unfold FCtx.isSync
    rw [hr]
    rfl
  have hf : (FCtx.mk ⟨s, fs.map (apart e), ex⟩ (apart e f)).isFallible = (FCtx.mk ⟨common s e, fs, ex⟩ f).isFallible := by
    simp only [FCtx.isFallible, FieldArgs.isFallible, StructArgs.isFallible, h0, common, apart]
    rcases f.fallible with - | ⟨off, er⟩
    · rfl
    · cases off <;> cases er <;> rfl
  have he : (FCtx.mk ⟨common s e, fs, ex⟩ f).isFallible = true →
      hasErrorType (FCtx.mk ⟨s, fs.map (apart e), ex⟩ (apart e f)) = hasErrorType (FCtx.mk ⟨common s e, fs, ex⟩ f) := by
    simp only [FCtx.isFallible, FieldArgs.isFallible, StructArgs.isFallible, hasErrorType, h0, common, apart]
    rcases f.fallible with - | ⟨off, er⟩
    · intro h
      cases h
    · cases off <;> cases er <;> intro h <;> first | rfl | cases h
  constructor <;> first
    | rfl
    | exact hs
    | exact hf
    | exact he
    | exact fun _ => rfl
    | exact fun _ _ => rfl
    | (intro k; cases k <;> rfl)

/-- **C125.** `fallible(off, error(e))` of a struct is the same as `error(e)` in `fallible` of each field which is fallible itself and
names no error type: the same structs are refused, and all code is the same. -/
theorem C125_default (e : String) (h0 : s.fallible = none) (hn : ((prepare s fs).allFields.map (·.ident)).Nodup) (l : Lits) :
    whole (common s e) fs l = whole s (fs.map (apart e)) l := by
  have hn' : DistinctNames (prepare (common s e) fs) := hn
  refine (written l ?_ hn' ?_).symm
  · have e1 : prepare (common s e) fs = ⟨common s e, fs, (prepare s fs).extra⟩ := rfl
    have e2 : prepare s (fs.map (apart e)) = ⟨s, fs.map (apart e), (prepare s fs).extra⟩ := rfl
    rw [e1, e2]
    have hr : (Ctx.mk s (fs.map (apart e)) (prepare s fs).extra).isRatherSync =
        (Ctx.mk (common s e) fs (prepare s fs).extra).isRatherSync := by
      unfold Ctx.isRatherSync Ctx.allFields
      have h2 : ((fun f : FieldArgs => f.isSync) ∘ apart e) = fun f : FieldArgs => f.isSync := rfl
      simp only [List.findSome?_append, List.findSome?_map, h2]
      rfl
    refine ⟨?_, ?_, rfl, ?_⟩
    · unfold Ctx.needsBuilderStruct
      have h2 : ((fun f : FieldArgs => f.needsBuilder == some true) ∘ apart e) = fun f : FieldArgs => f.needsBuilder == some true := rfl
      simp only [List.any_map, h2]
      rfl
    · unfold Ctx.needsDefault
      rw [hr]
      have h2 : ∀ b : Bool, ((fun f : FieldArgs => f.hasDefaultValue || (b && f.isLazy.getD false)) ∘ apart e) =
          fun f : FieldArgs => f.hasDefaultValue || (b && f.isLazy.getD false) := fun _ => rfl
      simp only [List.any_map, h2]
      rfl
    · have hx : (prepare s fs).extra.map (apart e) = (prepare s fs).extra := by
        unfold prepare
        dsimp only
        split
        · rw [List.map_map]
          rfl
        · rfl
      have := Both.map (R := fun f g => Alike ⟨⟨common s e, fs, (prepare s fs).extra⟩, f⟩
          ⟨⟨s, fs.map (apart e), (prepare s fs).extra⟩, g⟩)
        (as := (Ctx.mk (common s e) fs (prepare s fs).extra).allFields) (u := apart e) (fun f _ => field e h0 _ f)
      unfold Ctx.allFields at this ⊢
      dsimp only at this ⊢
      rw [List.map_append, hx] at this
      exact this
  · unfold Accepted
    have h1 : acceptStructFull (common s e) = acceptStructFull s := rfl
    have h2 : ∀ f, acceptFieldFull (apart e f) = acceptFieldFull f := fun f => by
      have hf : (apart e f).fallible.elim false (·.isTrue) = f.fallible.elim false (·.isTrue) := by
        show (own e f.fallible).elim false _ = _
        rcases f.fallible with - | ⟨off, er⟩
        · rfl
        · cases off <;> cases er <;> rfl
      have hg : fieldGroups (apart e f) = fieldGroups f := by
        unfold fieldGroups
        rw [hf]
        rfl
      unfold acceptFieldFull acceptField
      rw [hg]
      rfl
    simp [h1, h2]

/-- **C125.** A field with a result writes the error type it names itself, and otherwise that of the struct. A field which does not say
`fallible` has no result. -/
theorem C125_type (e : String) (f : FieldArgs) :
    writtenError ⟨prepare (common s e) fs, f⟩ =
      if f.fallible.elim false (fun h => !h.off) then some ((named f).getD e) else none := by
  simp only [writtenError, errorType, FCtx.isFallible, FieldArgs.isFallible, StructArgs.isFallible, prepare, common, named]
  obtain h | ⟨⟨off, er⟩, h⟩ : f.fallible = none ∨ ∃ h, f.fallible = some h := by cases f.fallible <;> simp
  · simp [h, Fallible.isTrue]
  · cases off <;> cases er <;> simp [h, Fallible.isTrue]

/-- **C125.** So do both forms. -/
theorem C125_same_type (e : String) (h0 : s.fallible = none) (f : FieldArgs) :
    writtenError ⟨prepare (common s e) fs, f⟩ = writtenError ⟨prepare s (fs.map (apart e)), apart e f⟩ := by
  rw [C125_type]
  simp only [writtenError, errorType, FCtx.isFallible, FieldArgs.isFallible, StructArgs.isFallible, prepare, h0, named, apart]
  rcases f.fallible with - | ⟨off, er⟩
  · rfl
  · cases off <;> cases er <;> rfl

/-- **C125.** No field lacks an error type under it: a fallible field writes one. -/
theorem C125_known (e : String) (f : FieldArgs) : hasErrorType ⟨prepare (common s e) fs, f⟩ = true := by
  simp only [hasErrorType, prepare, common]
  rcases f.fallible with - | ⟨off, er⟩
  · rfl
  · cases er <;> rfl

/-! ### Cases -/

def exStruct : StructArgs := { modeSync := some true, lazy := some {}, accessor := some {} }
def exFields : List FieldArgs :=
  [{ ident := "a", fallible := some {} }, { ident := "b", fallible := some { error := some "Own" } }, { ident := "c" },
    { ident := "d", fallible := some { off := true } }]

/-- The example of lib.rs 509-516, with a field of another type and two which are not fallible. -/
example : whole (common exStruct "MyError") exFields {} = whole exStruct (exFields.map (apart "MyError")) {} ∧
    exFields.map (fun f => writtenError ⟨prepare (common exStruct "MyError") exFields, f⟩) = [some "MyError", some "Own", none, none] ∧
    Accepted true (common exStruct "MyError") exFields :=
  ⟨C125_default "MyError" rfl (by decide +kernel) {}, by decide +kernel, by decide +kernel⟩

/-- Without any error type the struct has errors. -/
example : (∃ out, fxstruct true (common exStruct "MyError") exFields {} = .code out []) ∧
    ¬ (∃ out, fxstruct true exStruct exFields {} = .code out []) := by
  refine ⟨⟨_, rfl⟩, ?_⟩
  rintro ⟨out, h⟩
  have h2 : (match fxstruct true exStruct exFields {} with | .code _ es => es.isEmpty | _ => false) = false := by decide +kernel
  rw [h] at h2
  cases h2

end Verif.Props.ErrorType
