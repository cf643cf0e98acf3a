import Verif.Spec.OptIn
import Verif.Proof.Lower
/-
C129: `opt_in` of `builder`.
-/
namespace Verif.Props.OptIn
open Verif.Model.Args Verif.Model.Init Verif.Model.Emit Verif.Model Verif.Model.Expand Verif.Model.Exclusive
open Verif.Spec.Lower Verif.Spec.OptIn Verif.Spec.Expansion Verif.Proof.Lower Verif.Props.Expand
open Verif.Model.Structs (prepare)

variable {s : StructArgs} {fs : List FieldArgs}

/-- Alike, and accepted alike. -/
private theorem written {s t : StructArgs} {fs gs : List FieldArgs} (l : Lits) (h : AlikeStruct (prepare s fs) (prepare t gs))
    (hn : DistinctNames (prepare s fs)) (ha : Accepted true t gs ↔ Accepted true s fs) : whole t gs l = whole s fs l := by
  by_cases hc : Accepted true s fs
  · exact whole_eq l h hn hc (ha.2 hc)
  · have hn' : DistinctNames (prepare t gs) := by
      unfold DistinctNames
      rw [h.fields.each (F := fun f => f.ident) (fun f g a => a.ident)]
      exact hn
    have hc' : ¬ Accepted true t gs := fun k => hc (ha.1 k)
    have e1 : fxstruct true s fs l = .refused := by
      rcases outcome (parsed := true) (l := l) hn with ⟨-, k⟩ | ⟨k, -⟩ | ⟨k, -⟩
      · exact k
      · exact absurd k hc
      · exact absurd k hc
    have e2 : fxstruct true t gs l = .refused := by
      rcases outcome (parsed := true) (l := l) hn' with ⟨-, k⟩ | ⟨k, -⟩ | ⟨k, -⟩
      · exact k
      · exact absurd k hc'
      · exact absurd k hc'
    unfold whole
    rw [e1, e2, h.fields.each (F := fun f => Spec.Lower.sheet ⟨prepare s fs, f⟩) (fun f g a => a.sheet)]

private theorem rather (t : StructArgs) (ht : t.isSync = s.isSync) (ex : List FieldArgs) :
    (Ctx.mk t (fs.map markField) ex).isRatherSync = (Ctx.mk s fs ex).isRatherSync := by
  unfold Ctx.isRatherSync Ctx.allFields
  have h2 : ((fun f : FieldArgs => f.isSync) ∘ markField) = fun f : FieldArgs => f.isSync := rfl
  simp only [List.findSome?_append, List.findSome?_map, h2, ht]

private theorem field (ex : List FieldArgs) (ho : OptsIn s) (f : FieldArgs) :
    Alike ⟨⟨s, fs, ex⟩, f⟩ ⟨⟨plainStruct s, fs.map markField, ex⟩, markField f⟩ := by
  obtain ⟨b, hb, hi⟩ := ho
  have hs : (FCtx.mk ⟨plainStruct s, fs.map markField, ex⟩ (markField f)).isSync = (FCtx.mk ⟨s, fs, ex⟩ f).isSync := by
    unfold FCtx.isSync
    rw [rather (s := s) (plainStruct s) rfl]
    rfl
  constructor <;> first
    | rfl
    | exact hs
    | exact fun _ => rfl
    | exact fun _ _ => rfl
    | (intro k; cases k <;> first
        | rfl
        | (cases h : f.builder <;> simp [FCtx.publicMode, FieldArgs.publicMode, StructArgs.publicMode, attributesFn, FieldArgs.getHelper,
            StructArgs.getHelper, Helper.publicMode, Args.publicMode, markField, plainStruct, h, hb]))
    | (cases h : f.builder <;> simp [FCtx.needsBuilder, FieldArgs.needsBuilder, StructArgs.needsBuilder, FCtx.forcedBuilder,
        FCtx.isBuilderRequired, StructArgs.isBuilderRequired, FCtx.isBuilderInto, FieldArgs.isBuilderInto, StructArgs.isBuilderInto,
        FieldArgs.isInto, StructArgs.isInto, Ctx.isBuilderOptIn, Builder.isBuilderOptIn, Helper.isTrue, markField, plainStruct, h, hb, hi])

private theorem acceptedField (f : FieldArgs) : acceptFieldFull (markField f) = acceptFieldFull f := by
  have h2 : (markField f).builder.all acceptFieldBuilder = f.builder.all acceptFieldBuilder := by
    unfold markField
    cases f.builder <;> rfl
  unfold acceptFieldFull
  rw [h2]
  rfl

private theorem acceptedStruct (s : StructArgs) : acceptStructFull (plainStruct s) = acceptStructFull s := by
  have h2 : (plainStruct s).builder.all (fun b => acceptHelper b.toHelper) = s.builder.all (fun b => acceptHelper b.toHelper) := by
    unfold plainStruct
    cases s.builder <;> rfl
  unfold acceptStructFull
  rw [h2]
  rfl

/-- **C129.** `opt_in` in `builder` of a struct is the same as `builder(off)` at each field which says nothing of `builder`. The same structs
are refused, and all code is the same. -/
theorem C129_marked (ho : OptsIn s) (hn : ((prepare s fs).allFields.map (·.ident)).Nodup) (l : Lits) :
    whole (plainStruct s) (fs.map markField) l = whole s fs l := by
  refine written l ?_ hn ?_
  · have e1 : prepare s fs = ⟨s, fs, (prepare s fs).extra⟩ := rfl
    have e2 : prepare (plainStruct s) (fs.map markField) = ⟨plainStruct s, fs.map markField, (prepare s fs).extra⟩ := rfl
    rw [e1, e2]
    refine ⟨?_, ?_, rfl, ?_⟩
    · obtain ⟨b, hb, -⟩ := ho
      simp [Ctx.needsBuilderStruct, StructArgs.needsBuilder, plainStruct, hb]
    · unfold Ctx.needsDefault
      rw [rather (s := s) (plainStruct s) rfl]
      have h2 : ∀ b : Bool, ((fun f : FieldArgs => f.hasDefaultValue || (b && f.isLazy.getD false)) ∘ markField) =
          fun f : FieldArgs => f.hasDefaultValue || (b && f.isLazy.getD false) := fun _ => rfl
      simp only [List.any_map, h2]
      rfl
    · have hx : (prepare s fs).extra.map markField = (prepare s fs).extra := by
        unfold prepare
        dsimp only
        split
        · rw [List.map_map]
          rfl
        · rfl
      refine Both.append ?_ ?_
      · have := Both.map (R := fun f g => Alike ⟨⟨s, fs, (prepare s fs).extra⟩, f⟩
          ⟨⟨plainStruct s, fs.map markField, (prepare s fs).extra⟩, g⟩) (as := (prepare s fs).extra) (u := markField)
          (fun f _ => field _ ho f)
        rwa [hx] at this
      · exact Both.map (R := fun f g => Alike ⟨⟨s, fs, (prepare s fs).extra⟩, f⟩
          ⟨⟨plainStruct s, fs.map markField, (prepare s fs).extra⟩, g⟩) (as := fs) (u := markField) (fun f _ => field _ ho f)
  · unfold Accepted
    rw [acceptedStruct]
    simp [acceptedField]

private theorem below (ex : List FieldArgs) (hb : s.builder = none) (f : FieldArgs) :
    Alike ⟨⟨s, fs, ex⟩, f⟩ ⟨⟨optingIn s, fs, ex⟩, f⟩ := by
  constructor <;> first
    | rfl
    | exact fun _ => rfl
    | exact fun _ _ => rfl
    | (intro k; cases k <;> first
        | rfl
        | (simp [FCtx.publicMode, StructArgs.publicMode, attributesFn, StructArgs.getHelper, Helper.publicMode, Args.publicMode, optingIn, hb] <;> rfl)
        | (simp [attributesFn, StructArgs.getHelper, optingIn, hb]; done))
    | (simp [FCtx.needsBuilder, StructArgs.needsBuilder, FCtx.isBuilderRequired, StructArgs.isBuilderRequired, FCtx.isBuilderInto,
        StructArgs.isBuilderInto, StructArgs.isInto, Ctx.isBuilderOptIn, Builder.isBuilderOptIn, optingIn, hb]; done)

/-- **C129.** In a struct without `builder` where some field says `builder`, `builder(opt_in)` may be written at the struct or left out. -/
theorem C129_implied (hb : s.builder = none) (hf : ∃ f ∈ fs, f.needsBuilder = some true)
    (hn : ((prepare s fs).allFields.map (·.ident)).Nodup) (l : Lits) : whole (optingIn s) fs l = whole s fs l := by
  refine written l ?_ hn ?_
  · have e1 : prepare s fs = ⟨s, fs, (prepare s fs).extra⟩ := rfl
    have e2 : prepare (optingIn s) fs = ⟨optingIn s, fs, (prepare s fs).extra⟩ := rfl
    rw [e1, e2]
    refine ⟨?_, rfl, rfl, ?_⟩
    · obtain ⟨f, hf, h⟩ := hf
      have : fs.any (fun f => f.needsBuilder == some true) = true := List.any_eq_true.mpr ⟨f, hf, by simp [h]⟩
      simp [Ctx.needsBuilderStruct, StructArgs.needsBuilder, optingIn, hb, this, Helper.isTrue]
    · have := Both.map (R := fun f g => Alike ⟨⟨s, fs, (prepare s fs).extra⟩, f⟩ ⟨⟨optingIn s, fs, (prepare s fs).extra⟩, g⟩)
        (as := (Ctx.mk s fs (prepare s fs).extra).allFields) (u := id) (fun f _ => below _ hb f)
      rw [List.map_id] at this
      exact this
  · have : acceptStructFull (optingIn s) = acceptStructFull s := by
      have h2 : (optingIn s).builder.all (fun b => acceptHelper b.toHelper) = s.builder.all (fun b => acceptHelper b.toHelper) := by
        rw [hb]
        rfl
      unfold acceptStructFull
      rw [h2]
      rfl
    unfold Accepted
    rw [this]

/-- **C129.** With `opt_in` a field can be set by the builder exactly if it says `builder` itself. -/
theorem C129_explicit {c : Ctx} (ho : OptsIn c.args) (hb : c.needsBuilderStruct = true) {f : FieldArgs} (hk : f.skip = false) :
    emits ⟨c, f⟩ .builder = true ↔ Explicit f := by
  obtain ⟨b, hs, hi⟩ := ho
  cases h : f.builder with
  | none =>
    simp [emits, Explicit, FCtx.forcedBuilder, FCtx.needsBuilder, FieldArgs.needsBuilder,
      StructArgs.needsBuilder, Ctx.isBuilderOptIn, Builder.isBuilderOptIn, h, hs, hi]
  | some d =>
    cases ho : d.off <;> cases hm : d.name <;>
      simp [emits, Explicit, FCtx.forcedBuilder, FCtx.needsBuilder, FieldArgs.needsBuilder, FieldArgs.isSkipped, Helper.isTrue, h, hb, hk, ho, hm]

/-! ### Cases -/

def exStruct : StructArgs := { builder := some { optIn := some true, into := some true }, rc := some {} }

def exFields : List FieldArgs :=
  [{ ident := "a", builder := some {} }, { ident := "b", setter := some {} }, { ident := "c", builder := some { off := true } },
    { ident := "d", builder := some { off := true, name := some "n" } }]

/-- Fields `a` and `d` can be set. -/
example : whole (plainStruct exStruct) (exFields.map markField) {} = whole exStruct exFields {} ∧
    (exFields.map markField).map (·.needsBuilder) = [some true, some false, some false, some false] ∧
    exFields.map (fun f => emits ⟨prepare exStruct exFields, f⟩ .builder) = [true, false, false, true] ∧
    exFields.map (fun f => emits ⟨prepare (plainStruct exStruct) exFields, f⟩ .builder) = [true, true, false, true] :=
  ⟨C129_marked ⟨_, rfl, rfl⟩ (by decide +kernel) {}, by decide +kernel, by decide +kernel, by decide +kernel⟩

example : whole (optingIn { modeSync := some true }) exFields {} = whole { modeSync := some true } exFields {} ∧
    (prepare { modeSync := some true } exFields).needsBuilderStruct = true :=
  ⟨C129_implied rfl ⟨_, List.mem_cons_self, rfl⟩ (by decide +kernel) {}, by decide +kernel⟩

example : emits ⟨prepare exStruct exFields, exFields[3]⟩ .builder = true ∧ ¬ Explicit exFields[1] :=
  ⟨(C129_explicit (c := prepare exStruct exFields) ⟨_, rfl, rfl⟩ (by decide +kernel) rfl).2 ⟨_, rfl, .inr rfl⟩,
    fun ⟨_, h, _⟩ => by cases h⟩

/-- **C129.** If no field says `builder`, `builder(opt_in)` is not without effect: the struct gets a builder by which nothing can be set. -/
theorem C129_none : ∃ s fs, s.builder = none ∧ Accepted true s fs ∧ (∀ f ∈ fs, f.builder = none) ∧
    (prepare (optingIn s) fs).needsBuilderStruct = true ∧ (prepare s fs).needsBuilderStruct = false ∧
    ∀ f ∈ fs, emits ⟨prepare (optingIn s) fs, f⟩ .builder = false :=
  ⟨{}, [{ ident := "a" }], by decide +kernel⟩

end Verif.Props.OptIn
