import Verif.Spec.AutoGet
import Verif.Proof.Lower
/-
C130: accessors nobody asked for.
-/
namespace Verif.Props.AutoGet
open Verif.Model.Args Verif.Model.Init Verif.Model.Emit Verif.Model Verif.Model.Expand Verif.Model.Exclusive
open Verif.Spec.Lower Verif.Spec.AutoOptional Verif.Spec.AutoGet Verif.Spec.Expansion Verif.Proof.Lower Verif.Props.Expand
open Verif.Model.Structs (prepare)

variable {s : StructArgs} {fs : List FieldArgs}

/-- Alike, and accepted alike. -/
private theorem written {s t : StructArgs} {fs gs : List FieldArgs} (l : Lits) (h : AlikeStruct (prepare s fs) (prepare t gs))
    (hn : DistinctNames (prepare s fs)) (ha : Accepted true t gs ↔ Accepted true s fs) : whole t gs l = whole s fs l := by
  by_cases hc : Accepted true s fs
  · exact whole_eq l h hn hc (ha.2 hc)
  · have hn' : DistinctNames (prepare t gs) := by
      unfold DistinctNames
      rw [h.fields.each (F := fun f => f.ident) (fun f g a => a.ident)]
      exact hn
    have hc' : ¬ Accepted true t gs := fun k => hc (ha.1 k)
    have e1 : fxstruct true s fs l = .refused := by
      rcases outcome (parsed := true) (l := l) hn with ⟨-, k⟩ | ⟨k, -⟩ | ⟨k, -⟩
      · exact k
      · exact absurd k hc
      · exact absurd k hc
    have e2 : fxstruct true t gs l = .refused := by
      rcases outcome (parsed := true) (l := l) hn' with ⟨-, k⟩ | ⟨k, -⟩ | ⟨k, -⟩
      · exact k
      · exact absurd k hc'
      · exact absurd k hc'
    unfold whole
    rw [e1, e2, h.fields.each (F := fun f => Spec.Lower.sheet ⟨prepare s fs, f⟩) (fun f g a => a.sheet)]

private theorem asked_eq (a b : Option Helper) : ((a.map (·.isTrue)).or (b.map (·.isTrue))).getD false = asked a b := by
  cases a <;> cases b <;> rfl

private theorem unasked_eq (c : Ctx) (f : FieldArgs) : unasked c.args f =
    ((FCtx.mk c f).needsClearer || (FCtx.mk c f).needsPredicate || (FCtx.mk c f).isLazy || (FCtx.mk c f).isInnerMut) := by
  have h1 : (FCtx.mk c f).needsClearer = asked f.clearer c.args.clearer := asked_eq _ _
  have h2 : (FCtx.mk c f).needsPredicate = asked f.predicate c.args.predicate := asked_eq _ _
  have h3 : (FCtx.mk c f).isLazy = (!f.skip && asked f.lazy c.args.lazy) := by
    cases hk : f.skip
    · have : f.isLazy = f.lazy.map (·.isTrue) := by simp [FieldArgs.isLazy, FieldArgs.isSkipped, hk]
      unfold FCtx.isLazy
      dsimp only
      rw [this, Bool.not_false, Bool.true_and]
      exact asked_eq _ _
    · simp [FCtx.isLazy, FieldArgs.isLazy, FieldArgs.isSkipped, hk]
  rw [h1, h2, h3]
  rfl

/-- **C130.** Where neither the field nor the struct says anything of `get`, there is an accessor exactly if the field is lazy, has a clearer, a
predicate or interior mutability. -/
theorem C130_automatic (c : Ctx) (f : FieldArgs) (h1 : f.accessor = none) (h2 : c.args.accessor = none) (hk : f.skip = false) :
    emits ⟨c, f⟩ .accessor = unasked c.args f := by
  rw [unasked_eq]
  simp [emits, FieldArgs.isSkipped, hk, FCtx.needsAccessor, FieldArgs.needsAccessor, StructArgs.needsAccessor, h1, h2]

/-- **C130.** `get` and `get(off)`, of the field or else of the struct, come before it. -/
theorem C130_said (c : Ctx) (f : FieldArgs) (a : Accessor) (h : f.accessor.or c.args.accessor = some a) (hk : f.skip = false) :
    emits ⟨c, f⟩ .accessor = !a.off := by
  have : (FieldArgs.needsAccessor f).or c.args.needsAccessor = some (!a.off) := by
    unfold FieldArgs.needsAccessor StructArgs.needsAccessor
    cases h1 : f.accessor with
    | some b => rw [h1] at h; cases h; rfl
    | none =>
      rw [h1] at h
      rw [Option.none_or] at h
      rw [h]
      rfl
  simp [emits, FieldArgs.isSkipped, hk, FCtx.needsAccessor, this]

private theorem rather (ex : List FieldArgs) :
    (Ctx.mk s (fs.map (spelled s)) ex).isRatherSync = (Ctx.mk s fs ex).isRatherSync := by
  unfold Ctx.isRatherSync Ctx.allFields
  have h2 : ((fun f : FieldArgs => f.isSync) ∘ spelled s) = fun f : FieldArgs => f.isSync := rfl
  simp only [List.findSome?_append, List.findSome?_map, h2]

private theorem field (ex : List FieldArgs) (f : FieldArgs) :
    Alike ⟨⟨s, fs, ex⟩, f⟩ ⟨⟨s, fs.map (spelled s), ex⟩, spelled s f⟩ := by
  have hs : (FCtx.mk ⟨s, fs.map (spelled s), ex⟩ (spelled s f)).isSync = (FCtx.mk ⟨s, fs, ex⟩ f).isSync := by
    unfold FCtx.isSync
    rw [rather]
    rfl
  have ha : (FCtx.mk ⟨s, fs.map (spelled s), ex⟩ (spelled s f)).needsAccessor = (FCtx.mk ⟨s, fs, ex⟩ f).needsAccessor := by
    have hu := unasked_eq ⟨s, fs, ex⟩ f
    unfold FCtx.needsAccessor
    cases h1 : f.accessor with
    | some a => simp [FieldArgs.needsAccessor, spelled, h1]
    | none =>
      cases h2 : s.accessor with
      | some a =>
        have : spelled s f = f := by
          cases f
          simp_all [spelled]
        rw [this]
        simp [FieldArgs.needsAccessor, StructArgs.needsAccessor, h1, h2]
      | none =>
        dsimp only at hu ⊢
        simp only [FieldArgs.needsAccessor, StructArgs.needsAccessor, spelled, h1, h2, ← hu]
        simp [Helper.isTrue]
  constructor <;> first
    | rfl
    | exact hs
    | exact ha
    | exact fun _ => rfl
    | exact fun _ _ => rfl
    | (intro k; cases k <;> first
        | rfl
        | (cases h : f.accessor <;> cases h2 : s.accessor <;> simp [FCtx.publicMode, FieldArgs.publicMode, attributesFn, FieldArgs.getHelper,
            StructArgs.getHelper, Helper.publicMode, Args.publicMode, spelled, h, h2] <;> done))
    | (cases h : f.accessor <;> cases h2 : s.accessor <;> simp [FCtx.isCopy, FCtx.isClone, FCtx.accessorMode, FieldArgs.isAccessorCopy,
        FieldArgs.isAccessorClone, FieldArgs.accessorMode, Accessor.mode, FieldArgs.isCopy, FieldArgs.isClone, spelled, h, h2] <;> done)

private theorem same (ex : List FieldArgs) (f : FieldArgs) : Alike ⟨⟨s, fs, ex⟩, f⟩ ⟨⟨s, fs.map (spelled s), ex⟩, f⟩ := by
  have hs : (FCtx.mk ⟨s, fs.map (spelled s), ex⟩ f).isSync = (FCtx.mk ⟨s, fs, ex⟩ f).isSync := by
    unfold FCtx.isSync
    rw [rather]
  constructor <;> first
    | rfl
    | exact hs
    | exact fun _ => rfl
    | exact fun _ _ => rfl

private theorem alike : AlikeStruct (prepare s fs) (prepare s (fs.map (spelled s))) := by
  have e1 : prepare s fs = ⟨s, fs, (prepare s fs).extra⟩ := rfl
  have e2 : prepare s (fs.map (spelled s)) = ⟨s, fs.map (spelled s), (prepare s fs).extra⟩ := rfl
  rw [e1, e2]
  refine ⟨?_, ?_, rfl, ?_⟩
  · unfold Ctx.needsBuilderStruct
    have h2 : ((fun f : FieldArgs => f.needsBuilder == some true) ∘ spelled s) = fun f : FieldArgs => f.needsBuilder == some true := rfl
    simp only [List.any_map, h2]
  · unfold Ctx.needsDefault
    rw [rather]
    have h2 : ∀ b : Bool, ((fun f : FieldArgs => f.hasDefaultValue || (b && f.isLazy.getD false)) ∘ spelled s) =
        fun f : FieldArgs => f.hasDefaultValue || (b && f.isLazy.getD false) := fun _ => rfl
    simp only [List.any_map, h2]
  · refine Both.append ?_ ?_
    · have := Both.map (R := fun f g => Alike ⟨⟨s, fs, (prepare s fs).extra⟩, f⟩
        ⟨⟨s, fs.map (spelled s), (prepare s fs).extra⟩, g⟩) (as := (prepare s fs).extra) (u := id) (fun f _ => same _ f)
      rwa [List.map_id] at this
    · exact Both.map (R := fun f g => Alike ⟨⟨s, fs, (prepare s fs).extra⟩, f⟩
        ⟨⟨s, fs.map (spelled s), (prepare s fs).extra⟩, g⟩) (as := fs) (u := spelled s) (fun f _ => field _ f)

private theorem accepted (f : FieldArgs) : acceptFieldFull (spelled s f) = acceptFieldFull f := by
  have h2 : (spelled s f).accessor.all acceptAccessor = f.accessor.all acceptAccessor := by
    unfold spelled
    cases f.accessor <;> cases s.accessor <;> rfl
  unfold acceptFieldFull
  rw [h2]
  rfl

/-- **C130.** `get` may be written at the fields which have an accessor by themselves, and `get(off)` at the others: the same structs are refused,
and all code is the same. -/
theorem C130_spelled (hn : ((prepare s fs).allFields.map (·.ident)).Nodup) (l : Lits) :
    whole s (fs.map (spelled s)) l = whole s fs l := by
  refine written l alike hn ?_
  unfold Accepted
  simp [accepted]

/-! ### Cases -/

def exStruct : StructArgs := { lazy := some {}, rc := some {} }
def exFields : List FieldArgs :=
  [{ ident := "a" }, { ident := "b", lazy := some { off := true } }, { ident := "c", lazy := some { off := true }, predicate := some {} },
    { ident := "d", accessor := some { off := true, clone := true } }, { ident := "e", skip := true }]

/-- `a`, which is lazy, and `c` have accessors. -/
example : whole exStruct (exFields.map (spelled exStruct)) {} = whole exStruct exFields {} ∧
    (exFields.map (spelled exStruct)).map (·.needsAccessor) = [some true, some false, some true, some false, some false] ∧
    exFields.map (fun f => emits ⟨prepare exStruct exFields, f⟩ .accessor) = [true, false, true, false, false] :=
  ⟨C130_spelled (by decide +kernel) {}, by decide +kernel, by decide +kernel⟩

example : emits ⟨prepare exStruct exFields, exFields[2]⟩ .accessor = true ∧ emits ⟨prepare exStruct exFields, exFields[3]⟩ .accessor = false :=
  ⟨C130_automatic _ _ rfl rfl rfl, C130_said _ _ { off := true, clone := true } rfl rfl⟩

end Verif.Props.AutoGet
