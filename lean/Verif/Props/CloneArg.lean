import Verif.Spec.CloneArg
import Verif.Proof.Lower
/-
C128: `clone` and `copy` are defaults for `get`.
-/
namespace Verif.Props.CloneArg
open Verif.Model.Args Verif.Model.Init Verif.Model.Emit Verif.Model Verif.Model.Expand Verif.Model.Exclusive
open Verif.Spec.Lower Verif.Spec.CloneArg Verif.Spec.Expansion Verif.Proof.Lower Verif.Props.Expand
open Verif.Model.Structs (prepare)

variable {s : StructArgs} {fs : List FieldArgs}

/-- Alike, and accepted alike. -/
private theorem written {s t : StructArgs} {fs gs : List FieldArgs} (l : Lits) (h : AlikeStruct (prepare s fs) (prepare t gs))
    (hn : DistinctNames (prepare s fs)) (ha : Accepted true t gs ↔ Accepted true s fs) : whole t gs l = whole s fs l := by
  by_cases hc : Accepted true s fs
  · exact whole_eq l h hn hc (ha.2 hc)
  · have hn' : DistinctNames (prepare t gs) := by
      unfold DistinctNames
      rw [h.fields.each (F := fun f => f.ident) (fun f g a => a.ident)]
      exact hn
    have hc' : ¬ Accepted true t gs := fun k => hc (ha.1 k)
    have e1 : fxstruct true s fs l = .refused := by
      rcases outcome (parsed := true) (l := l) hn with ⟨-, k⟩ | ⟨k, -⟩ | ⟨k, -⟩
      · exact k
      · exact absurd k hc
      · exact absurd k hc
    have e2 : fxstruct true t gs l = .refused := by
      rcases outcome (parsed := true) (l := l) hn' with ⟨-, k⟩ | ⟨k, -⟩ | ⟨k, -⟩
      · exact k
      · exact absurd k hc'
      · exact absurd k hc'
    unfold whole
    rw [e1, e2, h.fields.each (F := fun f => Spec.Lower.sheet ⟨prepare s fs, f⟩) (fun f g a => a.sheet)]

/-- What the three questions for the mode ask of one level: the mode in `get`, and the keywords. -/
private theorem level {cl cp : Option Bool} (h : Said cl cp) (a : Option Accessor) (ha : cl ≠ none ∨ cp ≠ none → a ≠ none) :
    let m := a.bind (·.mode)
    let m' := (a.map (withMode cl cp)).bind (·.mode)
    m'.map (· == .copy) = (m.map (· == .copy)).or (if cl.getD false then some false else cp) ∧
    m'.map (· == .clone) = (m.map (· == .clone)).or (if cp.getD false then some false else cl) ∧
    m' = m.or ((if cl.getD false then some false else cp).bind fun c => if c then some .copy else some .clone) := by
  cases a with
  | none =>
    rcases h with ⟨rfl, rfl⟩ | ⟨rfl, rfl⟩ | ⟨rfl, rfl⟩
    · exact ⟨rfl, rfl, rfl⟩
    · exact absurd rfl (ha (.inl (by simp)))
    · exact absurd rfl (ha (.inr (by simp)))
  | some a =>
    rcases h with ⟨rfl, rfl⟩ | ⟨rfl, rfl⟩ | ⟨rfl, rfl⟩ <;> cases h1 : a.clone <;> cases h2 : a.copy <;> cases h3 : a.asRef <;>
      simp [withMode, Accessor.mode, h1, h2, h3]

private theorem rather (ex : List FieldArgs) :
    (Ctx.mk s (fs.map spreadField) ex).isRatherSync = (Ctx.mk s fs ex).isRatherSync := by
  unfold Ctx.isRatherSync Ctx.allFields
  have h2 : ((fun f : FieldArgs => f.isSync) ∘ spreadField) = fun f : FieldArgs => f.isSync := rfl
  simp only [List.findSome?_append, List.findSome?_map, h2]

private theorem toHelper_eq (cl cp : Option Bool) (h : Accessor) : (withMode cl cp h).toHelper = h.toHelper := by
  unfold withMode
  split <;> rfl

private theorem field (ex : List FieldArgs) (f : FieldArgs) (hc : Complete f) :
    Alike ⟨⟨s, fs, ex⟩, f⟩ ⟨⟨s, fs.map spreadField, ex⟩, spreadField f⟩ := by
  have hs : (FCtx.mk ⟨s, fs.map spreadField, ex⟩ (spreadField f)).isSync = (FCtx.mk ⟨s, fs, ex⟩ f).isSync := by
    unfold FCtx.isSync
    rw [rather]
    rfl
  obtain ⟨l1, l2, l3⟩ := level hc.1 f.accessor hc.2
  have h1 : (FCtx.mk ⟨s, fs.map spreadField, ex⟩ (spreadField f)).isCopy = (FCtx.mk ⟨s, fs, ex⟩ f).isCopy := by
    unfold FCtx.isCopy FieldArgs.isAccessorCopy FieldArgs.isCopy FieldArgs.accessorMode spreadField
    dsimp only
    rw [l1]
    simp
  have h2 : (FCtx.mk ⟨s, fs.map spreadField, ex⟩ (spreadField f)).isClone = (FCtx.mk ⟨s, fs, ex⟩ f).isClone := by
    unfold FCtx.isClone FieldArgs.isAccessorClone FieldArgs.isClone FieldArgs.accessorMode spreadField
    dsimp only
    rw [l2]
    simp
  have h3 : (FCtx.mk ⟨s, fs.map spreadField, ex⟩ (spreadField f)).accessorMode = (FCtx.mk ⟨s, fs, ex⟩ f).accessorMode := by
    unfold FCtx.accessorMode FieldArgs.isCopy FieldArgs.accessorMode spreadField
    dsimp only
    rw [l3]
    simp
  have h4 : (FCtx.mk ⟨s, fs.map spreadField, ex⟩ (spreadField f)).needsAccessor = (FCtx.mk ⟨s, fs, ex⟩ f).needsAccessor := by
    have : (spreadField f).needsAccessor = f.needsAccessor := by
      unfold FieldArgs.needsAccessor spreadField
      cases h : f.accessor with
      | none => rfl
      | some a => exact congrArg (fun z : Helper => some z.isTrue) (toHelper_eq f.clone f.copy a)
    unfold FCtx.needsAccessor
    dsimp only
    rw [this]
    rfl
  constructor <;> first
    | rfl
    | exact hs
    | exact h1
    | exact h2
    | exact h3
    | exact h4
    | exact fun _ => rfl
    | exact fun _ _ => rfl
    | (intro k; cases k <;> first
        | rfl
        | (cases h : f.accessor <;> simp [FCtx.publicMode, FieldArgs.publicMode, attributesFn, FieldArgs.getHelper, spreadField, toHelper_eq, h] <;> rfl))

private theorem below (ex : List FieldArgs) (hc : CompleteStruct s) (f : FieldArgs) :
    Alike ⟨⟨s, fs, ex⟩, f⟩ ⟨⟨spreadStruct s, fs, ex⟩, f⟩ := by
  obtain ⟨l1, l2, l3⟩ := level hc.1 s.accessor hc.2
  have h1 : (FCtx.mk ⟨spreadStruct s, fs, ex⟩ f).isCopy = (FCtx.mk ⟨s, fs, ex⟩ f).isCopy := by
    unfold FCtx.isCopy StructArgs.isAccessorCopy StructArgs.isCopy StructArgs.accessorMode spreadStruct
    dsimp only
    rw [l1]
    simp [Option.or_assoc]
  have h2 : (FCtx.mk ⟨spreadStruct s, fs, ex⟩ f).isClone = (FCtx.mk ⟨s, fs, ex⟩ f).isClone := by
    unfold FCtx.isClone StructArgs.isAccessorClone StructArgs.isClone StructArgs.accessorMode spreadStruct
    dsimp only
    rw [l2]
    simp [Option.or_assoc]
  have h3 : (FCtx.mk ⟨spreadStruct s, fs, ex⟩ f).accessorMode = (FCtx.mk ⟨s, fs, ex⟩ f).accessorMode := by
    unfold FCtx.accessorMode StructArgs.isCopy StructArgs.accessorMode spreadStruct
    dsimp only
    rw [l3]
    simp [Option.or_assoc]
  have h4 : (FCtx.mk ⟨spreadStruct s, fs, ex⟩ f).needsAccessor = (FCtx.mk ⟨s, fs, ex⟩ f).needsAccessor := by
    have : (spreadStruct s).needsAccessor = s.needsAccessor := by
      unfold StructArgs.needsAccessor spreadStruct
      cases h : s.accessor with
      | none => rfl
      | some a => exact congrArg (fun z : Helper => some z.isTrue) (toHelper_eq s.clone s.copy a)
    unfold FCtx.needsAccessor
    dsimp only
    rw [this]
    rfl
  constructor <;> first
    | rfl
    | exact h1
    | exact h2
    | exact h3
    | exact h4
    | exact fun _ => rfl
    | exact fun _ _ => rfl
    | (intro k; cases k <;> first
        | rfl
        | (cases h : s.accessor <;> simp [FCtx.publicMode, StructArgs.publicMode, attributesFn, StructArgs.getHelper, spreadStruct, toHelper_eq, h] <;> rfl))

/-! ### Acceptance -/

/-- No error: none of this group, and none of the rest. -/
private theorem one (g : String) (subs : List (List Param)) (r : List Group) :
    (errors ((g, subs) :: r)).isEmpty = (!decide ((scanGroup subs ⟨[], 0⟩).subgroupsSet > 1) && (errors r).isEmpty) := by
  rw [errors]
  by_cases h : (scanGroup subs ⟨[], 0⟩).subgroupsSet > 1
  · rw [if_pos h, decide_eq_true h]
    rfl
  · rw [if_neg h, decide_eq_false h]
    rfl

private theorem acceptAcc {cl cp : Option Bool} (h : Said cl cp) (a : Accessor) : acceptAccessor (withMode cl cp a) = acceptAccessor a := by
  unfold acceptAccessor
  rw [toHelper_eq]
  rcases h with ⟨rfl, rfl⟩ | ⟨rfl, rfl⟩ | ⟨rfl, rfl⟩ <;> cases h1 : a.clone <;> cases h2 : a.copy <;> cases h3 : a.asRef <;>
    simp [withMode, h1, h2, h3, helperGroupOk]

private theorem acceptedField (f : FieldArgs) (hc : Complete f) : acceptFieldFull (spreadField f) = acceptFieldFull f := by
  have h1 : (spreadField f).accessor.all acceptAccessor = f.accessor.all acceptAccessor := by
    unfold spreadField
    cases h : f.accessor with
    | none => rfl
    | some a => exact acceptAcc hc.1 a
  have h2 : acceptField (spreadField f) = acceptField f := by
    unfold acceptField fieldGroups spreadField
    simp only [one]
    rcases hc.1 with ⟨e1, e2⟩ | ⟨e1, e2⟩ | ⟨e1, e2⟩ <;> rw [e1, e2] <;> rfl
  unfold acceptFieldFull
  rw [h1, h2]
  rfl

private theorem acceptedStruct (s : StructArgs) (hc : CompleteStruct s) : acceptStructFull (spreadStruct s) = acceptStructFull s := by
  have h1 : (spreadStruct s).accessor.all acceptAccessor = s.accessor.all acceptAccessor := by
    unfold spreadStruct
    cases h : s.accessor with
    | none => rfl
    | some a => exact acceptAcc hc.1 a
  have h2 : acceptStruct (spreadStruct s) = acceptStruct s := by
    unfold acceptStruct structGroups spreadStruct
    simp only [one]
    rcases hc.1 with ⟨e1, e2⟩ | ⟨e1, e2⟩ | ⟨e1, e2⟩ <;> rw [e1, e2] <;> rfl
  unfold acceptStructFull
  rw [h1, h2]
  rfl

/-! ### The property -/

/-- **C128.** `clone` or `copy` of a field is a default for its `get`: the keyword may be written in it instead, or left out if `get` says
itself how to return the value. The same structs are refused, and all code is the same. -/
theorem C128_field (hc : ∀ f ∈ fs, Complete f) (hn : ((prepare s fs).allFields.map (·.ident)).Nodup) (l : Lits) :
    whole s (fs.map spreadField) l = whole s fs l := by
  refine written l ?_ hn ?_
  · have e1 : prepare s fs = ⟨s, fs, (prepare s fs).extra⟩ := rfl
    have e2 : prepare s (fs.map spreadField) = ⟨s, fs.map spreadField, (prepare s fs).extra⟩ := rfl
    rw [e1, e2]
    refine ⟨?_, ?_, rfl, ?_⟩
    · unfold Ctx.needsBuilderStruct
      have h2 : ((fun f : FieldArgs => f.needsBuilder == some true) ∘ spreadField) = fun f : FieldArgs => f.needsBuilder == some true := rfl
      simp only [List.any_map, h2]
    · unfold Ctx.needsDefault
      rw [rather]
      have h2 : ∀ b : Bool, ((fun f : FieldArgs => f.hasDefaultValue || (b && f.isLazy.getD false)) ∘ spreadField) =
          fun f : FieldArgs => f.hasDefaultValue || (b && f.isLazy.getD false) := fun _ => rfl
      simp only [List.any_map, h2]
    · have hx : (prepare s fs).extra.map spreadField = (prepare s fs).extra ∧ ∀ f ∈ (prepare s fs).extra, Complete f := by
        unfold prepare
        dsimp only
        split
        · rw [List.map_map]
          refine ⟨rfl, fun f hf => ?_⟩
          obtain ⟨n, -, rfl⟩ := List.mem_map.mp hf
          exact ⟨.inl ⟨rfl, rfl⟩, fun h => by rcases h with h | h <;> exact absurd rfl h⟩
        · exact ⟨rfl, fun f hf => by cases hf⟩
      refine Both.append ?_ ?_
      · have := Both.map (R := fun f g => Alike ⟨⟨s, fs, (prepare s fs).extra⟩, f⟩
          ⟨⟨s, fs.map spreadField, (prepare s fs).extra⟩, g⟩) (as := (prepare s fs).extra) (u := spreadField)
          (fun f hf => field _ f (hx.2 f hf))
        rwa [hx.1] at this
      · exact Both.map (R := fun f g => Alike ⟨⟨s, fs, (prepare s fs).extra⟩, f⟩
          ⟨⟨s, fs.map spreadField, (prepare s fs).extra⟩, g⟩) (as := fs) (u := spreadField) (fun f hf => field _ f (hc f hf))
  · unfold Accepted
    have : (∀ f ∈ fs.map spreadField, acceptFieldFull f = true) ↔ ∀ f ∈ fs, acceptFieldFull f = true := by
      simp only [List.mem_map, forall_exists_index, and_imp, forall_apply_eq_imp_iff₂]
      exact ⟨fun h f hf => acceptedField f (hc f hf) ▸ h f hf, fun h f hf => (acceptedField f (hc f hf)).trans (h f hf)⟩
    rw [this]

/-- **C128.** The same of a struct. -/
theorem C128_struct (hc : CompleteStruct s) (hn : ((prepare s fs).allFields.map (·.ident)).Nodup) (l : Lits) :
    whole (spreadStruct s) fs l = whole s fs l := by
  refine written l ?_ hn ?_
  · have e1 : prepare s fs = ⟨s, fs, (prepare s fs).extra⟩ := rfl
    have e2 : prepare (spreadStruct s) fs = ⟨spreadStruct s, fs, (prepare s fs).extra⟩ := rfl
    rw [e1, e2]
    refine ⟨rfl, rfl, rfl, ?_⟩
    have := Both.map (R := fun f g => Alike ⟨⟨s, fs, (prepare s fs).extra⟩, f⟩ ⟨⟨spreadStruct s, fs, (prepare s fs).extra⟩, g⟩)
      (as := (Ctx.mk s fs (prepare s fs).extra).allFields) (u := id) (fun f _ => below _ hc f)
    rw [List.map_id] at this
    exact this
  · unfold Accepted
    rw [acceptedStruct s hc]

/-! ### Cases -/

def exFields : List FieldArgs :=
  [{ ident := "a", clone := some true, accessor := some {} }, { ident := "b", copy := some true, accessor := some { clone := true } },
    { ident := "c", copy := some true, accessor := some {} }, { ident := "d" }]

private theorem exFields_complete : ∀ f ∈ exFields, Complete f := by
  intro f hf
  simp only [exFields, List.mem_cons, List.not_mem_nil, or_false] at hf
  rcases hf with rfl | rfl | rfl | rfl <;> simp [Complete, Said]

/-- `a` returns a clone, `b` too because `get` says so itself, and `c` a copy. -/
example : whole {} (exFields.map spreadField) {} = whole {} exFields {} ∧ Accepted true {} exFields ∧
    exFields.map (fun f => (FCtx.mk (prepare {} exFields) f).accessorMode) = [.clone, .clone, .copy, .none] ∧
    (exFields.map spreadField).map (fun f => (f.clone, f.copy, f.accessorMode)) =
      [(none, none, some .clone), (none, none, some .clone), (none, none, some .copy), (none, none, none)] :=
  ⟨C128_field exFields_complete (by decide +kernel) {}, by decide +kernel, by decide +kernel, by decide +kernel⟩

def exStruct : StructArgs := { modeSync := some true, clone := some true, accessor := some {}, lazy := some {}, rc := some {} }

example : whole (spreadStruct exStruct) exFields {} = whole exStruct exFields {} ∧ Accepted true exStruct exFields ∧
    (FCtx.mk (prepare exStruct exFields) { ident := "d" }).isClone = true :=
  ⟨C128_struct ⟨.inr (.inl ⟨rfl, rfl⟩), fun _ => by simp [exStruct]⟩ (by decide +kernel) {}, by decide +kernel, by decide +kernel⟩

/-- **C128.** `copy(off)` is not such a default: in a plain struct it makes accessors return clones, `get` alone references (C21). -/
theorem C128_off : ∃ f : FieldArgs, f.clone = none ∧ f.copy = some false ∧ f.accessor = some {} ∧ Accepted true {} [f] ∧
    (FCtx.mk (prepare {} [f]) f).accessorMode = .clone ∧
    (FCtx.mk (prepare {} [{ f with copy := none }]) { f with copy := none }).accessorMode = .none :=
  ⟨{ ident := "a", copy := some false, accessor := some {} }, rfl, rfl, rfl, by decide +kernel, by decide +kernel, by decide +kernel⟩

end Verif.Props.CloneArg
