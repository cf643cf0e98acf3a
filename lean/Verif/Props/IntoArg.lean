import Verif.Spec.IntoArg
import Verif.Proof.Lower
/-
C127: `into` is a default for `set` and `builder`.
-/
namespace Verif.Props.IntoArg
open Verif.Model.Args Verif.Model.Init Verif.Model.Emit Verif.Model Verif.Model.Expand Verif.Model.Exclusive
open Verif.Spec.Lower Verif.Spec.IntoArg Verif.Spec.Expansion Verif.Proof.Lower Verif.Props.Expand
open Verif.Model.Structs (prepare)

variable {s : StructArgs} {fs : List FieldArgs}

/-- Alike, and accepted alike. -/
private theorem written {s t : StructArgs} {fs gs : List FieldArgs} (l : Lits) (h : AlikeStruct (prepare s fs) (prepare t gs))
    (hn : DistinctNames (prepare s fs)) (ha : Accepted true t gs ↔ Accepted true s fs) : whole t gs l = whole s fs l := by
  by_cases hc : Accepted true s fs
  · exact whole_eq l h hn hc (ha.2 hc)
  · have hn' : DistinctNames (prepare t gs) := by
      unfold DistinctNames
      rw [h.fields.each (F := fun f => f.ident) (fun f g a => a.ident)]
      exact hn
    have hc' : ¬ Accepted true t gs := fun k => hc (ha.1 k)
    have e1 : fxstruct true s fs l = .refused := by
      rcases outcome (parsed := true) (l := l) hn with ⟨-, k⟩ | ⟨k, -⟩ | ⟨k, -⟩
      · exact k
      · exact absurd k hc
      · exact absurd k hc
    have e2 : fxstruct true t gs l = .refused := by
      rcases outcome (parsed := true) (l := l) hn' with ⟨-, k⟩ | ⟨k, -⟩ | ⟨k, -⟩
      · exact k
      · exact absurd k hc'
      · exact absurd k hc'
    unfold whole
    rw [e1, e2, h.fields.each (F := fun f => Spec.Lower.sheet ⟨prepare s fs, f⟩) (fun f g a => a.sheet)]

private theorem rather (ex : List FieldArgs) :
    (Ctx.mk s (fs.map spreadField) ex).isRatherSync = (Ctx.mk s fs ex).isRatherSync := by
  unfold Ctx.isRatherSync Ctx.allFields
  have h2 : ((fun f : FieldArgs => f.isSync) ∘ spreadField) = fun f : FieldArgs => f.isSync := rfl
  simp only [List.findSome?_append, List.findSome?_map, h2]

private theorem field (ex : List FieldArgs) (f : FieldArgs) (hc : Complete f) :
    Alike ⟨⟨s, fs, ex⟩, f⟩ ⟨⟨s, fs.map spreadField, ex⟩, spreadField f⟩ := by
  have hs : (FCtx.mk ⟨s, fs.map spreadField, ex⟩ (spreadField f)).isSync = (FCtx.mk ⟨s, fs, ex⟩ f).isSync := by
    unfold FCtx.isSync
    rw [rather]
    rfl
  have h1 : (FCtx.mk ⟨s, fs.map spreadField, ex⟩ (spreadField f)).isSetterInto = (FCtx.mk ⟨s, fs, ex⟩ f).isSetterInto := by
    unfold FCtx.isSetterInto FieldArgs.isSetterInto FieldArgs.isInto spreadField
    cases h1 : f.setter with
    | none =>
      cases h2 : f.into with
      | none => rfl
      | some i => exact absurd h1 (hc (by simp [h2])).1
    | some h => cases h2 : f.into <;> cases h3 : h.into <;> simp [withIntoS, h3]
  have h2 : (FCtx.mk ⟨s, fs.map spreadField, ex⟩ (spreadField f)).isBuilderInto = (FCtx.mk ⟨s, fs, ex⟩ f).isBuilderInto := by
    unfold FCtx.isBuilderInto FieldArgs.isBuilderInto FieldArgs.isInto spreadField
    cases h1 : f.builder with
    | none =>
      cases h2 : f.into with
      | none => rfl
      | some i => exact absurd h1 (hc (by simp [h2])).2
    | some h => cases h2 : f.into <;> cases h3 : h.into <;> simp [withIntoB, h3]
  constructor <;> first
    | rfl
    | exact hs
    | exact h1
    | exact h2
    | exact fun _ => rfl
    | exact fun _ _ => rfl
    | (intro k; cases k <;> first
        | rfl
        | (cases h : f.setter <;> simp [FCtx.publicMode, FieldArgs.publicMode, attributesFn, FieldArgs.getHelper, spreadField, withIntoS, h] <;> rfl)
        | (cases h : f.builder <;> simp [FCtx.publicMode, FieldArgs.publicMode, attributesFn, FieldArgs.getHelper, spreadField, withIntoB, h] <;> rfl))
    | (intro; cases h : f.setter <;> simp [FCtx.needsSetter, FieldArgs.needsSetter, spreadField, withIntoS, h] <;> rfl)
    | (cases h : f.builder <;> simp [FCtx.needsBuilder, FieldArgs.needsBuilder, FCtx.forcedBuilder, FCtx.isBuilderRequired, spreadField, withIntoB, h] <;> rfl)

private theorem builderTrue (f : FieldArgs) : (spreadField f).needsBuilder = f.needsBuilder := by
  unfold FieldArgs.needsBuilder spreadField
  cases f.builder <;> rfl

private theorem acceptedField (f : FieldArgs) : acceptFieldFull (spreadField f) = acceptFieldFull f := by
  have h1 : (spreadField f).setter.all (fun s => acceptHelper s.toHelper) = f.setter.all (fun s => acceptHelper s.toHelper) := by
    unfold spreadField
    cases f.setter <;> rfl
  have h2 : (spreadField f).builder.all acceptFieldBuilder = f.builder.all acceptFieldBuilder := by
    unfold spreadField
    cases f.builder <;> rfl
  unfold acceptFieldFull
  rw [h1, h2]
  rfl

private theorem acceptedStruct (s : StructArgs) : acceptStructFull (spreadStruct s) = acceptStructFull s := by
  have h1 : (spreadStruct s).setter.all (fun s => acceptHelper s.toHelper) = s.setter.all (fun s => acceptHelper s.toHelper) := by
    unfold spreadStruct
    cases s.setter <;> rfl
  have h2 : (spreadStruct s).builder.all (fun b => acceptHelper b.toHelper) = s.builder.all (fun b => acceptHelper b.toHelper) := by
    unfold spreadStruct
    cases s.builder <;> rfl
  unfold acceptStructFull
  rw [h1, h2]
  rfl

/-- **C127.** `into` of a field is a default for its `set` and `builder`: it may be written in both of them instead, where they do not say
it themselves. The same structs are refused, and all code is the same. -/
theorem C127_field (hc : ∀ f ∈ fs, Complete f) (hn : ((prepare s fs).allFields.map (·.ident)).Nodup) (l : Lits) :
    whole s (fs.map spreadField) l = whole s fs l := by
  refine written l ?_ hn ?_
  · have e1 : prepare s fs = ⟨s, fs, (prepare s fs).extra⟩ := rfl
    have e2 : prepare s (fs.map spreadField) = ⟨s, fs.map spreadField, (prepare s fs).extra⟩ := rfl
    rw [e1, e2]
    refine ⟨?_, ?_, rfl, ?_⟩
    · unfold Ctx.needsBuilderStruct
      have h2 : ((fun f : FieldArgs => f.needsBuilder == some true) ∘ spreadField) = fun f : FieldArgs => f.needsBuilder == some true := by
        funext f
        simp only [Function.comp, builderTrue]
      simp only [List.any_map, h2]
    · unfold Ctx.needsDefault
      rw [rather]
      have h2 : ∀ b : Bool, ((fun f : FieldArgs => f.hasDefaultValue || (b && f.isLazy.getD false)) ∘ spreadField) =
          fun f : FieldArgs => f.hasDefaultValue || (b && f.isLazy.getD false) := fun _ => rfl
      simp only [List.any_map, h2]
    · have hx : (prepare s fs).extra.map spreadField = (prepare s fs).extra ∧ ∀ f ∈ (prepare s fs).extra, Complete f := by
        unfold prepare
        dsimp only
        split
        · rw [List.map_map]
          refine ⟨rfl, fun f hf => ?_⟩
          obtain ⟨n, -, rfl⟩ := List.mem_map.mp hf
          exact fun h => absurd rfl h
        · exact ⟨rfl, fun f hf => by cases hf⟩
      refine Both.append ?_ ?_
      · have := Both.map (R := fun f g => Alike ⟨⟨s, fs, (prepare s fs).extra⟩, f⟩
          ⟨⟨s, fs.map spreadField, (prepare s fs).extra⟩, g⟩) (as := (prepare s fs).extra) (u := spreadField)
          (fun f hf => field _ f (hx.2 f hf))
        rwa [hx.1] at this
      · exact Both.map (R := fun f g => Alike ⟨⟨s, fs, (prepare s fs).extra⟩, f⟩
          ⟨⟨s, fs.map spreadField, (prepare s fs).extra⟩, g⟩) (as := fs) (u := spreadField) (fun f hf => field _ f (hc f hf))
  · unfold Accepted
    simp [acceptedField]

private theorem below (ex : List FieldArgs) (hc : CompleteStruct s) (f : FieldArgs) :
    Alike ⟨⟨s, fs, ex⟩, f⟩ ⟨⟨spreadStruct s, fs, ex⟩, f⟩ := by
  have h1 : (FCtx.mk ⟨spreadStruct s, fs, ex⟩ f).isSetterInto = (FCtx.mk ⟨s, fs, ex⟩ f).isSetterInto := by
    unfold FCtx.isSetterInto StructArgs.isSetterInto StructArgs.isInto spreadStruct
    cases h1 : s.setter with
    | none =>
      cases h2 : s.into with
      | none => rfl
      | some i => exact absurd h1 (hc (by simp [h2])).1
    | some h => cases h2 : s.into <;> cases h3 : h.into <;> simp [withIntoS, h3]
  have h2 : (FCtx.mk ⟨spreadStruct s, fs, ex⟩ f).isBuilderInto = (FCtx.mk ⟨s, fs, ex⟩ f).isBuilderInto := by
    unfold FCtx.isBuilderInto StructArgs.isBuilderInto StructArgs.isInto spreadStruct
    cases h1 : s.builder with
    | none =>
      cases h2 : s.into with
      | none => rfl
      | some i => exact absurd h1 (hc (by simp [h2])).2
    | some h => cases h2 : s.into <;> cases h3 : h.into <;> simp [withIntoB, h3]
  constructor <;> first
    | rfl
    | exact h1
    | exact h2
    | exact fun _ => rfl
    | exact fun _ _ => rfl
    | (intro k; cases k <;> first
        | rfl
        | (cases h : s.setter <;> simp [FCtx.publicMode, StructArgs.publicMode, attributesFn, StructArgs.getHelper, spreadStruct, withIntoS, h] <;> rfl)
        | (cases h : s.builder <;> simp [FCtx.publicMode, StructArgs.publicMode, attributesFn, StructArgs.getHelper, spreadStruct, withIntoB, h] <;> rfl))
    | (intro; cases h : s.setter <;> simp [FCtx.needsSetter, StructArgs.needsSetter, spreadStruct, withIntoS, h] <;> rfl)
    | (cases h : s.builder <;> simp [FCtx.needsBuilder, StructArgs.needsBuilder, FCtx.isBuilderRequired, StructArgs.isBuilderRequired,
        Ctx.isBuilderOptIn, Builder.isBuilderOptIn, spreadStruct, withIntoB, h] <;> rfl)

/-- **C127.** The same of `into` of a struct. -/
theorem C127_struct (hc : CompleteStruct s) (hn : ((prepare s fs).allFields.map (·.ident)).Nodup) (l : Lits) :
    whole (spreadStruct s) fs l = whole s fs l := by
  refine written l ?_ hn ?_
  · have e1 : prepare s fs = ⟨s, fs, (prepare s fs).extra⟩ := rfl
    have e2 : prepare (spreadStruct s) fs = ⟨spreadStruct s, fs, (prepare s fs).extra⟩ := rfl
    rw [e1, e2]
    refine ⟨?_, rfl, rfl, ?_⟩
    · unfold Ctx.needsBuilderStruct StructArgs.needsBuilder spreadStruct
      cases s.builder <;> rfl
    · have := Both.map (R := fun f g => Alike ⟨⟨s, fs, (prepare s fs).extra⟩, f⟩ ⟨⟨spreadStruct s, fs, (prepare s fs).extra⟩, g⟩)
        (as := (Ctx.mk s fs (prepare s fs).extra).allFields) (u := id) (fun f _ => below _ hc f)
      rw [List.map_id] at this
      exact this
  · unfold Accepted
    rw [acceptedStruct]

/-! ### Cases -/

def exFields : List FieldArgs :=
  [{ ident := "a", into := some true, setter := some {}, builder := some { into := some false } },
    { ident := "b", setter := some { into := some true } }, { ident := "c" }]

private theorem exFields_complete : ∀ f ∈ exFields, Complete f := by
  intro f hf
  simp only [exFields, List.mem_cons, List.not_mem_nil, or_false] at hf
  rcases hf with rfl | rfl | rfl <;> simp [Complete]

/-- The setter of `a` converts by `into`, its builder does not because it says so itself. -/
example : whole { modeSync := some true } (exFields.map spreadField) {} = whole { modeSync := some true } exFields {} ∧
    (exFields.map spreadField).map (fun f => (f.into, f.isSetterInto, f.isBuilderInto)) =
      [(none, some true, some false), (none, some true, none), (none, none, none)] ∧
    (whole { modeSync := some true } exFields {}).2.map (·.into) = [(true, false), (true, false), (false, false)] :=
  ⟨C127_field exFields_complete (by decide +kernel) {}, by decide +kernel, by decide +kernel⟩

def exStruct : StructArgs := { into := some true, setter := some {}, builder := some { into := some false }, rc := some {} }

example : whole (spreadStruct exStruct) exFields {} = whole exStruct exFields {} ∧
    (whole exStruct exFields {}).2.map (·.into) = [(true, false), (true, false), (true, false), (true, false)] :=
  ⟨C127_struct (fun _ => by simp [exStruct]) (by decide +kernel) {}, by decide +kernel⟩

/-- **C127.** A struct with `into` alone, whose field says `set`: the setter converts, though there is no `set` of the struct to write it
in. So the condition is needed. -/
theorem C127_alone : ∃ s fs, ¬ CompleteStruct s ∧ Accepted true s fs ∧ (whole (spreadStruct s) fs {}).2 ≠ (whole s fs {}).2 :=
  ⟨{ into := some true }, [{ ident := "a", setter := some {} }], fun h => (h (by simp)).1 rfl, by decide +kernel, fun h => by
    have := congrArg (fun l => l.map fun z : Sheet => z.into) h
    revert this
    simp only [whole, List.map_map]
    decide +kernel⟩

/-- **C127.** `into` is only a default: no helper is there because of it. -/
theorem C127_no_helper (c : Ctx) (f : FieldArgs) (i : Option Bool) (k : Kind) :
    emits ⟨{ c with args := { c.args with into := i } }, { f with into := i }⟩ k = emits ⟨c, f⟩ k := by
  cases k <;> rfl

example : emits ⟨prepare { into := some true } [], { ident := "a", into := some true }⟩ .setter = false := by decide +kernel

end Verif.Props.IntoArg
