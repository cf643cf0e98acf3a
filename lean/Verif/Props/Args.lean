import Verif.Spec.Prec
import Verif.Spec.ArgRead
import Verif.Model.Emit
import Verif.Model.Exclusive
import Verif.Proof.Exclusive
/-
Resolution of arguments: C20, C21, C22, C26.

The specification side (`Decides`, `says`, `declaredMode`, …) reads the raw argument records only; it does not call the
resolution functions of the model.
-/
namespace Verif.Props.Args
open Verif.Model.Args Verif.Model.Emit Verif.Model.Exclusive Verif.Spec.Prec Verif.Spec.ArgRead

/-! ## Specification vocabulary -/

/-- What one level says about a helper: nothing, on, or off. -/
def says (h : Option Helper) : Option Bool := h.map (fun h => !h.off)

/-- The helper argument of the struct, by kind. A struct-level `builder(opt_in)` leaves the choice to the fields. -/
def structArg (s : StructArgs) : Kind → Option Helper
  | .accessor => s.accessor.map Accessor.toHelper
  | .accessorMut => s.accessorMut
  | .builder => s.builder.map (fun b => { b.toHelper with off := b.off || b.optIn == some true })
  | .clearer => s.clearer
  | .lazy => s.lazy
  | .predicate => s.predicate
  | .reader => s.reader
  | .setter => s.setter.map Setter.toHelper
  | .writer => s.writer

/-- One of the helpers that imply an accessor is asked for. -/
def Implied (x : FCtx) (k : Kind) (b : Bool) : Prop :=
  Decides [says (fieldArg x.field k), says (structArg x.ctx.args k)] false b

/-- The model's decision for each kind. -/
def needs (x : FCtx) : Kind → Bool
  | .accessor => x.needsAccessor
  | .accessorMut => x.needsAccessorMut
  | .builder => x.needsBuilder
  | .clearer => x.needsClearer
  | .lazy => x.isLazy
  | .predicate => x.needsPredicate
  | .reader => x.needsReader
  | .setter => x.needsSetter
  | .writer => x.needsWriter

/-- `Decides` gives at most one answer. -/
theorem decides_unique {α : Type} {l : List (Option α)} {d r s : α} (h : Decides l d r) (h' : Decides l d s) : r = s := by
  induction h with
  | dflt d => cases h'; rfl
  | here a rest d => cases h'; rfl
  | next _ ih => cases h' with | next h' => exact ih h'

theorem decides2 {α : Type} (a b : Option α) (d : α) : Decides [a, b] d ((a.or b).getD d) := by
  cases a <;> cases b <;> repeat constructor

theorem decides3 {α : Type} (a b c : Option α) (d : α) : Decides [a, b, c] d (((a.or b).or c).getD d) := by
  cases a <;> cases b <;> cases c <;> repeat constructor

theorem decides4 {α : Type} (a b c e : Option α) (d : α) :
    Decides [a, b, c, e] d ((((a.or b).or c).or e).getD d) := by
  cases a <;> cases b <;> cases c <;> cases e <;> repeat constructor

/-! ## C20: field-level arguments override struct-level ones -/

/-- For every helper but the accessor: the field decides, then the struct, then the answer is no. (A skipped field is
never lazy.) -/
theorem C20_precedence (x : FCtx) (k : Kind) (hk : k ≠ .accessor) (hs : k = .lazy → x.field.skip = false) :
    Decides [says (fieldArg x.field k), says (structArg x.ctx.args k)] false (needs x k) := by
  cases k
  case accessor => exact absurd rfl hk
  case accessorMut => exact decides2 _ _ _
  case clearer => exact decides2 _ _ _
  case predicate => exact decides2 _ _ _
  case reader => exact decides2 _ _ _
  case writer => exact decides2 _ _ _
  case lazy =>
    have h := hs rfl
    simp only [needs, FCtx.isLazy, FieldArgs.isLazy, FieldArgs.isSkipped, h]
    exact decides2 _ _ _
  case setter =>
    simp only [needs, FCtx.needsSetter, FieldArgs.needsSetter, StructArgs.needsSetter, fieldArg, structArg, says,
      Option.map_map]
    exact decides2 _ _ _
  case builder =>
    obtain ⟨⟨s, fs, ex⟩, f⟩ := x
    simp only [needs, FCtx.needsBuilder, FieldArgs.needsBuilder, StructArgs.needsBuilder, fieldArg, structArg, says,
      Option.map_map, Ctx.isBuilderOptIn, Builder.isBuilderOptIn]
    cases hf : f.builder with
    | some b => exact .here _ _ _
    | none =>
      cases hb : s.builder with
      | none => exact .next (.next (.dflt _))
      | some b =>
        refine .next ?_
        have : ((fun h : Helper => !h.off) ∘ fun b : Builder =>
            { b.toHelper with off := b.off || b.optIn == some true }) b =
            (Helper.isTrue b.toHelper && !b.optIn.getD false) := by
          cases h1 : b.off <;> rcases h2 : b.optIn with _ | _ | _ <;> simp [Helper.isTrue, h1, h2]
        simp only [Option.map_some, Option.elim_some, this]
        exact .here _ _ _

/-- The accessor: the field decides, then the struct; if neither says anything there is an accessor exactly if the field
has a clearer, a predicate, is lazy, or is inner mutable. -/
theorem C20_accessor_precedence (x : FCtx) (hs : x.field.skip = false) (c p l i : Bool)
    (hc : Implied x .clearer c) (hp : Implied x .predicate p) (hl : Implied x .lazy l)
    (hi : Decides [x.field.innerMut, x.ctx.args.innerMut] false i) :
    Decides [says (fieldArg x.field .accessor), says (structArg x.ctx.args .accessor)] (c || p || l || i)
      x.needsAccessor := by
  have e1 := decides_unique hc (C20_precedence x .clearer (by decide) (by simp))
  have e2 := decides_unique hp (C20_precedence x .predicate (by decide) (by simp))
  have e3 := decides_unique hl (C20_precedence x .lazy (by decide) (fun _ => hs))
  have e4 := decides_unique hi (decides2 _ _ _)
  subst e1 e2 e3 e4
  have : ∀ (a b : Option Bool) d, Decides [a, b] d ((a.or b).getD d) := decides2
  simp only [FCtx.needsAccessor, FieldArgs.needsAccessor, StructArgs.needsAccessor, fieldArg, structArg, says,
    Option.map_map]
  exact this _ _ _

/-- How a helper is generated: conversion, copy, clone and visibility are asked in the order helper argument of the
field, field, helper argument of the struct, struct. -/
theorem C20_details_precedence (x : FCtx) :
    Decides [x.field.setter.bind (·.into), x.field.into, x.ctx.args.setter.bind (·.into), x.ctx.args.into] false
      x.isSetterInto ∧
    Decides [x.field.builder.bind (·.into), x.field.into, x.ctx.args.builder.bind (·.into), x.ctx.args.into] false
      x.isBuilderInto ∧
    Decides [x.field.builder.bind (·.required), x.ctx.args.builder.bind (·.required)] false x.isBuilderRequired ∧
    Decides [x.field.fallible.map (!·.off), x.ctx.args.fallible.map (!·.off)] false x.isFallible :=
  ⟨decides4 _ _ _ _ _, decides4 _ _ _ _ _, decides2 _ _ _, decides2 _ _ _⟩

/-- A skipped field is left alone: not lazy, not optional, not serialised, and no method is written for it, whatever
the field and the struct ask for. -/
theorem C20_skipped (x : FCtx) (hs : x.field.skip = true) :
    x.isLazy = false ∧ x.isOptional = false ∧ x.isSerde = false ∧ ∀ k, emits x k = false := by
  refine ⟨?_, ?_, ?_, fun k => ?_⟩
  · simp [FCtx.isLazy, FieldArgs.isLazy, FieldArgs.isSkipped, hs]
  · simp [FCtx.isOptional, FieldArgs.isSkipped, hs]
  · simp [FCtx.isSerde, FieldArgs.isSkipped, hs]
  · simp [emits, FieldArgs.isSkipped, hs]

/-- How a field is stored: `optional`, `lock` and `inner_mut` are asked of the field, then of the struct. If neither says
anything, a field that is not lazy is optional exactly if it has a clearer or a predicate, and locked exactly if it has a
reader or a writer or is optional; nothing is inner mutable unless asked for. -/
theorem C20_storage_precedence (x : FCtx) (hs : x.field.skip = false) (c p l r w o : Bool)
    (hc : Implied x .clearer c) (hp : Implied x .predicate p) (hl : Implied x .lazy l)
    (hr : Implied x .reader r) (hw : Implied x .writer w)
    (ho : Decides [x.field.optional, x.ctx.args.optional] (!l && (c || p)) o) :
    x.isOptional = o ∧
    Decides [x.field.lock, x.ctx.args.lock] (r || w || o) x.needsLock ∧
    Decides [x.field.innerMut, x.ctx.args.innerMut] false x.isInnerMut := by
  have e1 := decides_unique hc (C20_precedence x .clearer (by decide) (by simp))
  have e2 := decides_unique hp (C20_precedence x .predicate (by decide) (by simp))
  have e3 := decides_unique hl (C20_precedence x .lazy (by decide) (fun _ => hs))
  have e4 := decides_unique hr (C20_precedence x .reader (by decide) (by simp))
  have e5 := decides_unique hw (C20_precedence x .writer (by decide) (by simp))
  subst e1 e2 e3 e4 e5
  have e6 := decides_unique ho (decides2 _ _ _)
  have e7 : x.isOptional = o := by
    rw [e6]; simp [FCtx.isOptional, FieldArgs.isSkipped, hs, FieldArgs.isOptional, StructArgs.isOptional, needs]
  refine ⟨e7, ?_, decides2 _ _ _⟩
  rw [← e7]
  exact decides2 _ _ _

private theorem attrs_decides (x : FCtx) (k : Kind) :
    Decides [((fieldArg x.field k).bind (·.attrsFn)).map some, x.field.attrsFn.map some,
      ((structRaw x.ctx.args k).bind (·.attrsFn)).map some] none (attributesFn x k) := by
  have key : ∀ a b c : Option (List String),
      Decides [a.map some, b.map some, c.map some] none ((a.or b).or c) := by
    intro a b c; cases a <;> cases b <;> cases c <;> repeat constructor
  cases k <;> exact key _ _ _

private theorem plain_iff (x : FCtx) : genMode x = .plain ↔ x.isSync = false := by
  unfold genMode; cases x.isSync <;> cases x.isAsync <;> simp

/-- Attributes on generated methods: helper argument of the field, field, helper argument of the struct; the mutable
accessor of a sync or async field apart. -/
theorem C20_attributes_precedence (x : FCtx) (k : Kind) (hk : k = .accessorMut → genMode x = .plain) :
    Decides [((fieldArg x.field k).bind (·.attrsFn)).map some, x.field.attrsFn.map some,
      ((structRaw x.ctx.args k).bind (·.attrsFn)).map some] none (emittedAttrs x k) := by
  have : emittedAttrs x k = attributesFn x k := by
    cases k <;> try rfl
    have := (plain_iff x).mp (hk rfl)
    simp [emittedAttrs, this]
  rw [this]; exact attrs_decides x k

/-- The mutable accessor of a sync or async field takes the attributes of the accessor. -/
theorem C20_sync_get_mut_attributes (x : FCtx) (h : genMode x ≠ .plain) :
    Decides [((fieldArg x.field .accessor).bind (·.attrsFn)).map some, x.field.attrsFn.map some,
      ((structRaw x.ctx.args .accessor).bind (·.attrsFn)).map some] none (emittedAttrs x .accessorMut) := by
  have hs : x.isSync = true := by
    cases h' : x.isSync with
    | true => rfl
    | false => exact absurd ((plain_iff x).mpr h') h
  have : emittedAttrs x .accessorMut = attributesFn x .accessor := by simp [emittedAttrs, hs]
  rw [this]; exact attrs_decides x .accessor

/-- `#[fieldx(sync, get_mut(attributes_fn(cfg(test))))]`: accepted, the method is written without the attribute; with
`get(attributes_fn(..))` beside it, it gets that one. -/
theorem C20_get_mut_attributes_false :
    ∃ x : FCtx, acceptFieldFull x.field = true ∧ acceptStructFull x.ctx.args = true ∧ emits x .accessorMut = true ∧
      fieldArg x.field .accessorMut = some { attrsFn := some ["cfg(test)"] } ∧
      emittedAttrs x .accessorMut = some ["inline"] :=
  ⟨{ ctx := {}, field := { modeSync := some true, accessor := some { attrsFn := some ["inline"] },
                           accessorMut := some { attrsFn := some ["cfg(test)"] } } }, by decide⟩

example : emittedAttrs { ctx := {}, field := { modeSync := some true, accessorMut := some { attrsFn := some ["cfg(test)"] } } }
    .accessorMut = none := by decide
example : emittedAttrs { ctx := { args := { builder := some { attrsFn := some ["cfg(test)"] } } }, field := {} } .builder =
    some ["cfg(test)"] := by decide

/-- What is finally generated, exactly. A skipped field gets nothing; readers and writers exist only in the sync and
async generators; the plain generator writes a predicate only for a lazy or optional field; a builder method needs a
builder struct, and a field-level builder name forces it. -/
theorem C20_emits (x : FCtx) (k : Kind) :
    emits x k = true ↔ x.field.skip = false ∧ k ≠ .lazy ∧
      (match k with
        | .reader => genMode x ≠ .plain ∧ needs x k = true
        | .writer => genMode x ≠ .plain ∧ needs x k = true
        | .predicate => needs x k = true ∧ (genMode x = .plain → x.isLazy = true ∨ x.isOptional = true)
        | .builder => x.ctx.needsBuilderStruct = true ∧
            (needs x k = true ∨ ∃ b, x.field.builder = some b ∧ b.name.isSome)
        | _ => needs x k = true) := by
  have hm : genMode x = .plain ↔ x.isSync = false := by
    unfold genMode; cases x.isSync <;> cases x.isAsync <;> simp
  cases hsk : x.field.skip
  case true => simp [emits, FieldArgs.isSkipped, hsk]
  case false =>
    cases k <;> simp only [emits, FieldArgs.isSkipped, hsk, needs, FCtx.forcedBuilder, ne_eq, hm] <;> try simp
    case builder => cases x.field.builder <;> simp [or_comm]
    case predicate => cases x.isSync <;> simp

/-- Part of the full claim "the field's argument decides whether the helper exists": for the accessor, the mutable
accessor, the setter and the clearer it does. Missing: reader, writer, predicate and builder, for which it is false
(`C20_reader_false`, `C20_predicate_false`, `C20_builder_false`); `C20_emits` is their exact rule. -/
theorem C20_field_decides_partial (x : FCtx) (k : Kind) (hs : x.field.skip = false)
    (hk : k = .accessor ∨ k = .accessorMut ∨ k = .setter ∨ k = .clearer) (h : Helper)
    (hf : fieldArg x.field k = some h) : emits x k = !h.off := by
  rcases hk with rfl | rfl | rfl | rfl
  · have := (C20_emits x .accessor)
    simp only [fieldArg, Option.map_eq_some_iff] at hf
    obtain ⟨a, ha, rfl⟩ := hf
    simp [emits, FieldArgs.isSkipped, hs, FCtx.needsAccessor, FieldArgs.needsAccessor, ha, Helper.isTrue]
  · simp only [fieldArg] at hf
    simp [emits, FieldArgs.isSkipped, hs, FCtx.needsAccessorMut, FieldArgs.needsAccessorMut, hf, Helper.isTrue]
  · simp only [fieldArg, Option.map_eq_some_iff] at hf
    obtain ⟨a, ha, rfl⟩ := hf
    simp [emits, FieldArgs.isSkipped, hs, FCtx.needsSetter, FieldArgs.needsSetter, ha, Helper.isTrue]
  · simp only [fieldArg] at hf
    simp [emits, FieldArgs.isSkipped, hs, FCtx.needsClearer, FieldArgs.needsClearer, hf, Helper.isTrue]

/-- `#[fieldx(reader, lock(off))]`: accepted, asks for a reader, gets none (the field becomes plain). -/
theorem C20_reader_false :
    ∃ x : FCtx, acceptFieldFull x.field = true ∧ acceptStructFull x.ctx.args = true ∧ x.field.skip = false ∧
      fieldArg x.field .reader = some {} ∧ emits x .reader = false :=
  ⟨{ ctx := { args := { modeSync := some true } }, field := { reader := some {}, lock := some false } }, by decide⟩

/-- `#[fieldx(predicate, optional(off))]` on a plain field: accepted, asks for a predicate, gets none. -/
theorem C20_predicate_false :
    ∃ x : FCtx, acceptFieldFull x.field = true ∧ acceptStructFull x.ctx.args = true ∧ x.field.skip = false ∧
      fieldArg x.field .predicate = some {} ∧ emits x .predicate = false :=
  ⟨{ ctx := {}, field := { predicate := some {}, optional := some false } }, by decide⟩

/-- `#[fieldx(builder("name", off))]`: accepted, switched off, generated all the same. -/
theorem C20_builder_false :
    ∃ x : FCtx, acceptFieldFull x.field = true ∧ acceptStructFull x.ctx.args = true ∧ x.field.skip = false ∧
      (∃ h, fieldArg x.field .builder = some h ∧ h.off = true) ∧ emits x .builder = true :=
  ⟨{ ctx := { args := { builder := some {} } }, field := { builder := some { off := true, name := some "n" } } },
    by decide, by decide, by decide, ⟨_, rfl, rfl⟩, by decide⟩

/-- Non-trivial case: the struct switches clearers on, the field off; the setter only at struct level. -/
example :
    let x : FCtx := { ctx := { args := { clearer := some {}, setter := some {} } },
                      field := { clearer := some { off := true }, lazy := some {} } }
    needs x .clearer = false ∧ needs x .setter = true ∧ x.needsAccessor = true ∧ emits x .clearer = false ∧
      emits x .setter = true ∧ emits x .accessor = true := by decide

example : Implied { ctx := { args := { clearer := some {} } }, field := {} } .clearer true := .next (.here _ _ _)

/-! ## C21: copy and clone modes -/

/-- Never both, whatever the arguments. -/
theorem C21_never_both (x : FCtx) : ¬ (x.isCopy = true ∧ x.isClone = true) := by
  intro ⟨h1, h2⟩
  have key : ∀ (m : Option AccMode) (cp cl : Option Bool),
      ¬ ((((m.map (· == .copy)).or (if cl.getD false then some false else cp)) = some true) ∧
         (((m.map (· == .clone)).or (if cp.getD false then some false else cl)) = some true)) := by
    intro m cp cl
    rcases m with _ | _ | _ | _ | _ <;> rcases cp with _ | _ | _ <;> rcases cl with _ | _ | _ <;> decide
  have pos : ∀ (m : Option AccMode) (cp cl : Option Bool),
      ((m.map (· == .copy)).or (if cl.getD false then some false else cp)) = some true →
      ∃ b, ((m.map (· == .clone)).or (if cp.getD false then some false else cl)) = some b ∧ b = false := by
    intro m cp cl
    rcases m with _ | _ | _ | _ | _ <;> rcases cp with _ | _ | _ <;> rcases cl with _ | _ | _ <;> simp
  have pos' : ∀ (m : Option AccMode) (cp cl : Option Bool),
      ((m.map (· == .clone)).or (if cp.getD false then some false else cl)) = some true →
      ∃ b, ((m.map (· == .copy)).or (if cl.getD false then some false else cp)) = some b ∧ b = false := by
    intro m cp cl
    rcases m with _ | _ | _ | _ | _ <;> rcases cp with _ | _ | _ <;> rcases cl with _ | _ | _ <;> simp
  have e1 : x.isCopy = ((((x.field.accessorMode.map (· == .copy)).or
      (if x.field.clone.getD false then some false else x.field.copy)).or
      ((x.ctx.args.accessorMode.map (· == .copy)).or
      (if x.ctx.args.clone.getD false then some false else x.ctx.args.copy))).getD false) := by
    simp [FCtx.isCopy, FieldArgs.isAccessorCopy, FieldArgs.isCopy, StructArgs.isAccessorCopy, StructArgs.isCopy,
      Option.or_assoc]
  have e2 : x.isClone = ((((x.field.accessorMode.map (· == .clone)).or
      (if x.field.copy.getD false then some false else x.field.clone)).or
      ((x.ctx.args.accessorMode.map (· == .clone)).or
      (if x.ctx.args.copy.getD false then some false else x.ctx.args.clone))).getD false) := by
    simp [FCtx.isClone, FieldArgs.isAccessorClone, FieldArgs.isClone, StructArgs.isAccessorClone, StructArgs.isClone,
      Option.or_assoc]
  rw [e1] at h1; rw [e2] at h2
  clear e1 e2
  generalize x.field.accessorMode = m at h1 h2
  generalize x.field.copy = cp at h1 h2
  generalize x.field.clone = cl at h1 h2
  generalize x.ctx.args.accessorMode = m' at h1 h2
  generalize x.ctx.args.copy = cp' at h1 h2
  generalize x.ctx.args.clone = cl' at h1 h2
  cases ha : ((m.map (· == .copy)).or (if cl.getD false then some false else cp)) with
  | some b =>
    rw [ha] at h1
    simp only [Option.some_or, Option.getD_some] at h1
    subst h1
    obtain ⟨b, hb, rfl⟩ := pos m cp cl ha
    rw [hb] at h2; simp at h2
  | none =>
    cases hb : ((m.map (· == .clone)).or (if cp.getD false then some false else cl)) with
    | some b =>
      rw [hb] at h2
      simp only [Option.some_or, Option.getD_some] at h2
      subst h2
      obtain ⟨b, hb', rfl⟩ := pos' m cp cl hb
      rw [hb'] at ha; simp at ha
    | none =>
      rw [ha] at h1; rw [hb] at h2
      simp only [Option.none_or] at h1 h2
      have h1' : ((m'.map (· == .copy)).or (if cl'.getD false then some false else cp')) = some true := by
        generalize ((m'.map (· == .copy)).or (if cl'.getD false then some false else cp')) = y at h1
        rcases y with _ | _ | _ <;> simp_all
      have h2' : ((m'.map (· == .clone)).or (if cp'.getD false then some false else cl')) = some true := by
        generalize ((m'.map (· == .clone)).or (if cp'.getD false then some false else cl')) = y at h2
        rcases y with _ | _ | _ <;> simp_all
      exact key m' cp' cl' ⟨h1', h2'⟩

/-- One level's say on the accessor mode. -/
private theorem level (m : Option AccMode) (cp cl : Option Bool) :
    ((m.map (· == .copy)).or (if cl.getD false then some false else cp)) =
      (m.or ((if cl.getD false then some false else cp).bind
        (fun c => if c then some AccMode.copy else some AccMode.clone))).map (· == .copy) := by
  rcases m with _ | _ | _ | _ | _ <;> rcases cp with _ | _ | _ <;> rcases cl with _ | _ | _ <;> rfl

private theorem levelClone (m : Option AccMode) (cp cl : Option Bool) (h1 : cp ≠ some false) (h2 : cl ≠ some false)
    (h3 : ¬ (cp = some true ∧ cl = some true)) :
    ((m.map (· == .clone)).or (if cp.getD false then some false else cl)) =
      (m.or ((if cl.getD false then some false else cp).bind
        (fun c => if c then some AccMode.copy else some AccMode.clone))).map (· == .clone) := by
  rcases m with _ | _ | _ | _ | _ <;> rcases cp with _ | _ | _ <;> rcases cl with _ | _ | _ <;> simp_all

/-- Copy mode is resolved the same way by both generators, whatever the arguments. -/
theorem C21_copy_agrees (x : FCtx) : plainAccMode x = .copy ↔ syncAccMode x = .copy := by
  have hc : x.isCopy = (x.accessorMode == .copy) := by
    simp only [FCtx.isCopy, FCtx.accessorMode, FieldArgs.isAccessorCopy, FieldArgs.isCopy, StructArgs.isAccessorCopy,
      StructArgs.isCopy]
    rw [Option.or_assoc, level, level, ← Option.map_or, ← Option.or_assoc]
    generalize ((_ : Option AccMode).or _) = y
    cases y <;> simp
  simp only [plainAccMode, syncAccMode, hc]
  cases h : x.accessorMode <;> cases x.isClone <;> simp

/-- Part of the full claim: the generators agree for accepted arguments that do not write `copy(off)` or `clone(off)`
and do not ask for `as_ref` (which the sync generator does not have). Missing: those arguments, for which it is false
(`C21_copy_off_false`, `C21_clone_off_false`, `C21_as_ref_false`). -/
theorem C21_modes_agree_partial (x : FCtx)
    (hf : acceptField x.field = true) (hs : acceptStruct x.ctx.args = true)
    (h1 : x.field.copy ≠ some false) (h2 : x.field.clone ≠ some false)
    (h3 : x.ctx.args.copy ≠ some false) (h4 : x.ctx.args.clone ≠ some false)
    (h5 : plainAccMode x ≠ .asRef) : plainAccMode x = syncAccMode x := by
  have n1 := Proof.Exclusive.field_not_copy_clone _ hf
  have n2 := Proof.Exclusive.struct_not_copy_clone _ hs
  have hc : x.isCopy = (x.accessorMode == .copy) := by
    simp only [FCtx.isCopy, FCtx.accessorMode, FieldArgs.isAccessorCopy, FieldArgs.isCopy, StructArgs.isAccessorCopy,
      StructArgs.isCopy]
    rw [Option.or_assoc, level, level, ← Option.map_or, ← Option.or_assoc]
    generalize ((_ : Option AccMode).or _) = y
    cases y <;> simp
  have hl : x.isClone = (x.accessorMode == .clone) := by
    simp only [FCtx.isClone, FCtx.accessorMode, FieldArgs.isAccessorClone, FieldArgs.isClone, FieldArgs.isCopy,
      StructArgs.isAccessorClone, StructArgs.isClone, StructArgs.isCopy]
    rw [Option.or_assoc, levelClone _ _ _ h1 h2 n1, levelClone _ _ _ h3 h4 n2, ← Option.map_or, ← Option.or_assoc]
    generalize ((_ : Option AccMode).or _) = y
    cases y <;> simp
  simp only [plainAccMode, syncAccMode, hc, hl] at *
  cases h : x.accessorMode <;> simp_all

/-- What one accessor argument asks for, read off the record: at most one of its three keywords. -/
inductive AccAsks : Option Accessor → Option AccMode → Prop
  | absent : AccAsks none none
  | silent (a : Accessor) : a.copy = false → a.clone = false → a.asRef = false → AccAsks (some a) none
  | copy (a : Accessor) : a.copy = true → a.clone = false → a.asRef = false → AccAsks (some a) (some .copy)
  | clone (a : Accessor) : a.copy = false → a.clone = true → a.asRef = false → AccAsks (some a) (some .clone)
  | asRef (a : Accessor) : a.copy = false → a.clone = false → a.asRef = true → AccAsks (some a) (some .asRef)

/-- What the keywords `copy` and `clone` of one level ask for (neither of them switched off). -/
inductive FlagAsks : (copy clone : Option Bool) → Option AccMode → Prop
  | silent : FlagAsks none none none
  | copy : FlagAsks (some true) none (some .copy)
  | clone : FlagAsks none (some true) (some .clone)

private theorem accAsks_mode {a : Option Accessor} {m : Option AccMode} (h : AccAsks a m) : a.bind (·.mode) = m := by
  cases h <;> simp_all [Accessor.mode]

private theorem flagAsks_mode {cp cl : Option Bool} {m : Option AccMode} (h : FlagAsks cp cl m) :
    ((if cl.getD false then some false else cp).bind
      (fun c => if c then some AccMode.copy else some AccMode.clone)) = m := by
  cases h <;> rfl

/-- The plain generator writes the accessor in the mode asked for: accessor argument of the field, flag of the field,
accessor argument of the struct, flag of the struct, and a reference if nobody asks for anything. -/
theorem C21_plain_as_asked (x : FCtx) (m1 m2 m3 m4 : Option AccMode)
    (h1 : AccAsks x.field.accessor m1) (h2 : FlagAsks x.field.copy x.field.clone m2)
    (h3 : AccAsks x.ctx.args.accessor m3) (h4 : FlagAsks x.ctx.args.copy x.ctx.args.clone m4) :
    Decides [m1, m2, m3, m4] .none (plainAccMode x) := by
  have e1 := accAsks_mode h1
  have e2 := flagAsks_mode h2
  have e3 := accAsks_mode h3
  have e4 := flagAsks_mode h4
  simp only [plainAccMode, FCtx.accessorMode, FieldArgs.accessorMode, FieldArgs.isCopy, StructArgs.accessorMode,
    StructArgs.isCopy, e1, e2, e3, e4]
  exact decides4 _ _ _ _ _

/-- The sync generator does the same, except that it has no `as_ref` mode: there a reference is written. -/
theorem C21_sync_as_asked (x : FCtx) (m1 m2 m3 m4 : Option AccMode) (m : AccMode)
    (h1 : AccAsks x.field.accessor m1) (h2 : FlagAsks x.field.copy x.field.clone m2)
    (h3 : AccAsks x.ctx.args.accessor m3) (h4 : FlagAsks x.ctx.args.copy x.ctx.args.clone m4)
    (hm : Decides [m1, m2, m3, m4] .none m) :
    syncAccMode x = if m = .asRef then .none else m := by
  have e1 := accAsks_mode h1
  have e3 := accAsks_mode h3
  have k2 : ∀ cp cl m, FlagAsks cp cl m →
      (if cl.getD false then some false else cp) = m.map (· == .copy) ∧
      (if cp.getD false then some false else cl) = m.map (· == .clone) := by
    intro cp cl m h; cases h <;> decide
  have e2 := k2 _ _ _ h2
  have e4 := k2 _ _ _ h4
  have hc : x.isCopy = (m == .copy) := by
    rw [decides_unique hm (decides4 _ _ _ _ _)]
    simp only [FCtx.isCopy, FieldArgs.isAccessorCopy, FieldArgs.accessorMode, FieldArgs.isCopy,
      StructArgs.isAccessorCopy, StructArgs.accessorMode, StructArgs.isCopy, e1, e2.1, e3, e4.1, ← Option.map_or]
    generalize ((_ : Option AccMode).or _) = y
    cases y <;> simp
  have hl : x.isClone = (m == .clone) := by
    rw [decides_unique hm (decides4 _ _ _ _ _)]
    simp only [FCtx.isClone, FieldArgs.isAccessorClone, FieldArgs.accessorMode, FieldArgs.isClone,
      StructArgs.isAccessorClone, StructArgs.accessorMode, StructArgs.isClone, e1, e2.2, e3, e4.2, ← Option.map_or]
    generalize ((_ : Option AccMode).or _) = y
    cases y <;> simp
  rw [syncAccMode, hc, hl]
  cases m <;> decide

/-- Non-trivial case: the struct asks for clone by its accessor argument, the field for copy by its flag. -/
example :
    let x : FCtx := { ctx := { args := { accessor := some { clone := true } } }, field := { copy := some true } }
    AccAsks x.field.accessor none ∧ FlagAsks x.field.copy x.field.clone (some .copy) ∧
    AccAsks x.ctx.args.accessor (some .clone) ∧ FlagAsks x.ctx.args.copy x.ctx.args.clone none ∧
    Decides [none, some AccMode.copy, some .clone, none] .none .copy :=
  ⟨.absent, .copy, .clone _ rfl rfl rfl, .silent, .next (.here _ _ _)⟩

/-- Non-trivial cases: a skipped field in a lazy struct with setters; a struct-level `optional(off)`. -/
example :
    let x : FCtx := { ctx := { args := { lazy := some {}, setter := some {} } }, field := { skip := true, lazy := some {} } }
    x.field.skip = true ∧ emits x .setter = false ∧ x.ctx.args.needsSetter = some true := by decide

example : Decides [none, some false] (!false && (true || false)) false := .next (.here _ _ _)

/-- `#[fieldx(copy(off))]`: the plain generator clones, the sync one returns a reference. -/
theorem C21_copy_off_false :
    ∃ x : FCtx, acceptFieldFull x.field = true ∧ acceptStructFull x.ctx.args = true ∧ x.needsAccessor = true ∧
      plainAccMode x = .clone ∧ syncAccMode x = .none :=
  ⟨{ ctx := {}, field := { copy := some false, accessor := some {} } }, by decide⟩

/-- `#[fxstruct(get(clone))]` with `#[fieldx(clone(off))]`: the plain generator still clones. -/
theorem C21_clone_off_false :
    ∃ x : FCtx, acceptFieldFull x.field = true ∧ acceptStructFull x.ctx.args = true ∧ x.needsAccessor = true ∧
      plainAccMode x = .clone ∧ syncAccMode x = .none :=
  ⟨{ ctx := { args := { accessor := some { clone := true } } }, field := { clone := some false } }, by decide⟩

/-- `get(as_ref)` exists in the plain generator only. -/
theorem C21_as_ref_false :
    ∃ x : FCtx, acceptFieldFull x.field = true ∧ acceptStructFull x.ctx.args = true ∧ x.needsAccessor = true ∧
      plainAccMode x = .asRef ∧ syncAccMode x = .none :=
  ⟨{ ctx := {}, field := { accessor := some { asRef := true } } }, by decide⟩

/-- Non-trivial case: struct says clone, field says copy. -/
example :
    let x : FCtx := { ctx := { args := { accessor := some { clone := true } } }, field := { copy := some true } }
    acceptField x.field = true ∧ acceptStruct x.ctx.args = true ∧ x.field.copy ≠ some false ∧
      plainAccMode x ≠ .asRef ∧ plainAccMode x = .copy ∧ syncAccMode x = .copy := by decide

/-! ## C22: mode of a field -/

/-- The field says nothing that bears on its mode. -/
def NoMode (f : FieldArgs) : Prop :=
  f.mode = none ∧ f.modeSync = none ∧ f.modeAsync = none ∧ f.lock = none ∧ f.innerMut = none ∧
    (∀ h, f.reader = some h → h.off = true) ∧ (∀ h, f.writer = some h → h.off = true)

/-- The struct declares mode `m` with one argument: `sync`, `async` or `mode(m)`. -/
inductive Declares : StructArgs → SyncMode → Prop
  | sync (s : StructArgs) : s.modeSync = some true → s.modeAsync = none → s.mode = none → Declares s .sync
  | async (s : StructArgs) : s.modeSync = none → s.modeAsync = some true → s.mode = none → Declares s .async
  | mode (s : StructArgs) (m : SyncMode) : s.modeSync = none → s.modeAsync = none → s.mode = some m → Declares s m

/-- A field without a mode of its own follows the struct. -/
theorem C22_follows_struct (x : FCtx) (m : SyncMode) (hf : NoMode x.field) (hs : Declares x.ctx.args m) :
    genMode x = m := by
  obtain ⟨h1, h2, h3, h4, h5, h6, h7⟩ := hf
  have hr : (x.field.reader.elim false (·.isTrue)) = false := by
    cases h : x.field.reader with
    | none => rfl
    | some r => simp [Helper.isTrue, h6 r h]
  have hw : (x.field.writer.elim false (·.isTrue)) = false := by
    cases h : x.field.writer with
    | none => rfl
    | some r => simp [Helper.isTrue, h7 r h]
  have e : x.field.isSync = none := by
    simp [FieldArgs.isSync, FieldArgs.isAsync, FieldArgs.isPlain, FieldArgs.isInnerMut, h1, h2, h3, h4, h5, hr, hw]
  have e' : x.field.isAsync = none := by simp [FieldArgs.isAsync, h1, h3]
  cases hs with
  | sync a b c =>
    simp [genMode, FCtx.isSync, FCtx.isAsync, e, e', Ctx.isRatherSync, StructArgs.isSync, StructArgs.isAsync, a, b, c]
  | async a b c =>
    simp [genMode, FCtx.isSync, FCtx.isAsync, e, e', Ctx.isRatherSync, StructArgs.isSync, StructArgs.isAsync, a, b, c]
  | mode _ a b c =>
    cases m <;>
    simp [genMode, FCtx.isSync, FCtx.isAsync, e, e', Ctx.isRatherSync, StructArgs.isSync, StructArgs.isAsync, a, b, c]

/-- Part of the full claim "a field's own mode wins whatever the struct says": `async`, `mode(sync)`, `mode(plain)`
always; `inner_mut` if the field has no `lock`; `sync` if the struct is not async. Missing: `mode(async)` and `sync` in
an async struct, for which it is false. -/
theorem C22_own_mode_partial (x : FCtx) :
    (x.field.modeAsync = some true → x.field.modeSync = none → x.field.mode = none → genMode x = .async) ∧
    (x.field.mode = some .sync → x.field.modeSync = none → x.field.modeAsync = none → genMode x = .sync) ∧
    (x.field.mode = some .plain → x.field.modeSync = none → genMode x = .plain) ∧
    (x.field.innerMut = some true → x.field.modeSync = none → x.field.modeAsync = none → x.field.mode = none →
      x.field.lock = none → genMode x = .plain) ∧
    (x.field.modeSync = some true → x.field.modeAsync = none → x.field.mode = none →
      x.ctx.args.modeAsync ≠ some true → x.ctx.args.mode ≠ some .async → genMode x = .sync) := by
  refine ⟨?_, ?_, ?_, ?_, ?_⟩
  · intro a b c
    simp [genMode, FCtx.isSync, FCtx.isAsync, FieldArgs.isSync, FieldArgs.isAsync, a, b, c]
  · intro a b c
    simp [genMode, FCtx.isSync, FCtx.isAsync, FieldArgs.isSync, FieldArgs.isAsync, a, b, c]
  · intro a b
    simp [genMode, FCtx.isSync, FieldArgs.isSync, a, b]
  · intro a b c d e
    simp [genMode, FCtx.isSync, FieldArgs.isSync, FieldArgs.isAsync, FieldArgs.isPlain, FieldArgs.isInnerMut,
      a, b, c, d, e]
  · intro a b c d e
    simp only [genMode, FCtx.isSync, FCtx.isAsync, FieldArgs.isSync, FieldArgs.isAsync, StructArgs.isAsync, a, b, c]
    rcases h1 : x.ctx.args.modeAsync with _ | _ | _
    · rcases h2 : x.ctx.args.mode with _ | _ | _ | _ <;> first | rfl | exact absurd h2 e
    · rfl
    · exact absurd h1 d

/-- `#[fieldx(mode(async))]` is generated plain, whatever the struct says. -/
theorem C22_mode_async_is_plain (x : FCtx) (h : x.field.mode = some .async) (h' : x.field.modeSync = none) :
    genMode x = .plain := by
  simp [genMode, FCtx.isSync, FieldArgs.isSync, h, h']

/-- `#[fieldx(sync)]` in an `async` struct is generated async. -/
theorem C22_sync_in_async_struct (x : FCtx) (h : x.field.modeSync = some true) (h1 : x.field.modeAsync = none)
    (h2 : x.field.mode = none) (hs : Declares x.ctx.args .async) : genMode x = .async := by
  have : x.ctx.args.isAsync = some true := by
    cases hs with
    | async a b c => simp [StructArgs.isAsync, b]
    | mode _ a b c => simp [StructArgs.isAsync, b, c]
  simp [genMode, FCtx.isSync, FCtx.isAsync, FieldArgs.isSync, FieldArgs.isAsync, h, h1, h2, this]

/-- The claim "a field's own mode wins" is false for accepted arguments. -/
theorem C22_own_mode_false :
    (∃ x : FCtx, acceptFieldFull x.field = true ∧ acceptStructFull x.ctx.args = true ∧
      x.field.mode = some .async ∧ genMode x = .plain) ∧
    (∃ x : FCtx, acceptFieldFull x.field = true ∧ acceptStructFull x.ctx.args = true ∧
      x.field.modeSync = some true ∧ Declares x.ctx.args .async ∧ genMode x = .async) ∧
    (∃ x : FCtx, acceptFieldFull x.field = true ∧ acceptStructFull x.ctx.args = true ∧
      x.field.innerMut = some true ∧ genMode x = .sync) :=
  ⟨⟨{ ctx := { args := { mode := some .async } }, field := { mode := some .async } }, by decide⟩,
   ⟨{ ctx := { args := { modeAsync := some true } }, field := { modeSync := some true } },
     by decide, by decide, rfl, .async _ rfl rfl rfl, by decide⟩,
   ⟨{ ctx := {}, field := { innerMut := some true, lock := some true } }, by decide⟩⟩

/-- If the struct does not declare a mode, the whole struct counts as sync exactly if the *first* field that says
anything says sync. -/
theorem C22_undeclared_struct (c : Ctx) (h1 : c.args.modeSync = none) (h2 : c.args.mode = none)
    (h3 : c.args.modeAsync = none) (h4 : c.args.lock = none) (h5 : c.args.reader = none) (h6 : c.args.writer = none) :
    c.isRatherSync = true ↔
      ∃ pre f post, c.allFields = pre ++ f :: post ∧ (∀ g ∈ pre, g.isSync = none) ∧ f.isSync = some true := by
  have e : c.args.isSync = none := by
    simp [StructArgs.isSync, StructArgs.isAsync, h1, h2, h3, h4, h5, h6]
  simp only [Ctx.isRatherSync, e, Option.getD_none]
  generalize c.allFields = l
  induction l with
  | nil => simp
  | cons g r ih =>
    cases hg : g.isSync with
    | some b =>
      simp only [List.findSome?_cons, hg, Option.getD_some]
      constructor
      · rintro rfl; exact ⟨[], g, r, rfl, by simp, hg⟩
      · rintro ⟨pre, f, post, he, hp, hf⟩
        cases pre with
        | nil => simp only [List.nil_append, List.cons.injEq] at he; obtain ⟨rfl, -⟩ := he; simpa [hg] using hf
        | cons p ps =>
          simp only [List.cons_append, List.cons.injEq] at he
          obtain ⟨rfl, -⟩ := he
          have := hp g (by simp); rw [hg] at this; simp at this
    | none =>
      simp only [List.findSome?_cons, hg]
      refine Iff.trans ih ?_
      constructor
      · rintro ⟨pre, f, post, he, hp, hf⟩
        refine ⟨g :: pre, f, post, by simp [he], ?_, hf⟩
        intro y hy
        rcases List.mem_cons.mp hy with rfl | hy
        · exact hg
        · exact hp y hy
      · rintro ⟨pre, f, post, he, hp, hf⟩
        cases pre with
        | nil =>
          simp only [List.nil_append, List.cons.injEq] at he
          obtain ⟨rfl, -⟩ := he; rw [hg] at hf; simp at hf
        | cons p ps =>
          simp only [List.cons_append, List.cons.injEq] at he
          obtain ⟨rfl, he⟩ := he
          exact ⟨ps, f, post, he, fun y hy => hp y (by simp [hy]), hf⟩

/-- So the mode depends on the order of the fields: the source comment promises "see if any field is asking for sync"
(ctx/codegen.rs 441), which would not. -/
theorem C22_order_dependent :
    ∃ (a b : FieldArgs), acceptFieldFull a = true ∧ acceptFieldFull b = true ∧
      ({ fields := [a, b] } : Ctx).isRatherSync = true ∧ ({ fields := [b, a] } : Ctx).isRatherSync = false :=
  ⟨{ modeSync := some true }, { innerMut := some true }, by decide⟩

/-- Non-trivial cases. -/
example : NoMode { lazy := some {}, reader := some { off := true } } ∧
    Declares { mode := some .async, builder := some {} } .async := by
  refine ⟨⟨rfl, rfl, rfl, rfl, rfl, ?_, ?_⟩, .mode _ _ rfl rfl rfl⟩
  · intro h hh; cases hh; rfl
  · intro h hh; cases hh

example : genMode { ctx := { args := { modeSync := some true } }, field := { modeAsync := some true } } = .async ∧
    genMode { ctx := { args := { modeSync := some true } }, field := { mode := some .plain } } = .plain ∧
    genMode { ctx := { args := { mode := some .plain } }, field := { modeSync := some true } } = .sync := by decide

/-! ## C26: boolean shorthand of helpers -/

/-- The conversion inverts: a helper made from `true` is off. -/
theorem C26_bool_inverted (b : Bool) : (Helper.ofBool b).toBool = !b := rfl

/-- So the claim is false for both booleans. -/
theorem C26_roundtrip_false : ¬ ∃ b : Bool, (Helper.ofBool b).toBool = b := by
  rintro ⟨b, h⟩; cases b <;> simp [Helper.ofBool, Helper.toBool, Helper.isTrue] at h

/-- Consequence: a bare `#[fieldx]` on a field without `lazy` switches lazy, clearer and predicate *off*, whatever the
struct says: the helpers it implies are not generated. -/
theorem C26_bare_attribute_disables (c : Ctx) (f : FieldArgs) (h : f.lazy = none) :
    let x : FCtx := { ctx := c, field := f.markImplicitly }
    x.isLazy = false ∧ emits x .clearer = false ∧ emits x .predicate = false := by
  simp only [FieldArgs.markImplicitly, h]
  refine ⟨?_, ?_, ?_⟩
  · cases f.skip <;> simp [FCtx.isLazy, FieldArgs.isLazy, FieldArgs.isSkipped, Helper.ofBool, Helper.isTrue]
  · simp [emits, FCtx.needsClearer, FieldArgs.needsClearer, Helper.ofBool, Helper.isTrue]
  · simp only [emits, FCtx.needsPredicate, FieldArgs.needsPredicate, Helper.ofBool, Helper.isTrue]
    simp

/-- Part of the full claim: arguments given explicitly are left alone. Missing: implied helpers are enabled, which is
false (`C26_bare_attribute_disables`). -/
theorem C26_explicit_kept_partial (f : FieldArgs) (h : Helper) (hl : f.lazy = some h) : f.markImplicitly = f := by
  simp [FieldArgs.markImplicitly, hl]

example : ({ ident := "a" } : FieldArgs).markImplicitly.isLazy = some false ∧
    ({ ident := "a", lazy := some {} } : FieldArgs).markImplicitly.isLazy = some true := by decide

end Verif.Props.Args
