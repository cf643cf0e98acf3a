import Verif.Spec.Lower
import Verif.Proof.Lower
import Verif.Props.Exclusive
/-
C122: an argument of the struct is a default for its fields.
-/
namespace Verif.Props.Lower
open Verif.Model.Args Verif.Model.Init Verif.Model.Emit Verif.Model Verif.Model.Expand Verif.Model.Exclusive
open Verif.Spec.Lower Verif.Spec.Expansion Verif.Proof.Lower Verif.Props.Expand
open Verif.Model.Structs (prepare)

private theorem or_none {α : Type} (a b : Option α) : (a.or b).or none = a.or b := by cases a <;> cases b <;> rfl

private theorem map_or {α β : Type} (f : α → β) (a b : Option α) : (a.or b).map f = (a.map f).or (b.map f) := by
  cases a <;> rfl

/-- The whole struct from its fields. -/
private theorem same {s : StructArgs} {fs : List FieldArgs} {a : Arg}
    (hn : ((prepare s fs).allFields.map (·.ident)).Nodup) (ha : BothAccepted s fs a)
    (hrc : (without s a).rc = s.rc) (hse : (without s a).serde = s.serde)
    (hb : (Ctx.mk (without s a) (fs.map fun f => given s f a) (prepare s fs).extra).needsBuilderStruct =
      (prepare s fs).needsBuilderStruct)
    (hd : (Ctx.mk (without s a) (fs.map fun f => given s f a) (prepare s fs).extra).needsDefault = (prepare s fs).needsDefault)
    (hf : ∀ f ∈ fs, Alike ⟨prepare s fs, f⟩
      ⟨⟨without s a, fs.map fun f => given s f a, (prepare s fs).extra⟩, given s f a⟩)
    (he : ∀ f ∈ (prepare s fs).extra, Alike ⟨prepare s fs, f⟩
      ⟨⟨without s a, fs.map fun f => given s f a, (prepare s fs).extra⟩, f⟩) : SameBelow s fs a := by
  intro l
  have hc : prepare (without s a) (fs.map fun f => given s f a) =
      ⟨without s a, fs.map fun f => given s f a, (prepare s fs).extra⟩ := by
    unfold prepare StructArgs.isRefCounted Structs.myselfField
    rw [hrc]
  refine whole_eq l ?_ hn ⟨rfl, ha.1.1, ha.1.2⟩ ⟨rfl, ha.2.1, ?_⟩
  · rw [hc]
    refine ⟨hb, hd, hse, ?_⟩
    refine Both.append ?_ (Both.map hf)
    have := Both.map (R := fun f g => Alike ⟨prepare s fs, f⟩
      ⟨⟨without s a, fs.map fun f => given s f a, (prepare s fs).extra⟩, g⟩) (u := id) he
    rwa [List.map_id] at this
  · intro g hg
    obtain ⟨f, hf, rfl⟩ := List.mem_map.mp hg
    exact ha.2.2 f hf

/-! ### Answers of a field -/

section
variable {s : StructArgs} {fs gs ex : List FieldArgs} {f : FieldArgs}

macro "answers" "[" ts:Lean.Parser.Tactic.simpLemma,* "]" : tactic =>
  `(tactic| (constructor <;> first
    | rfl
    | assumption
    | exact fun _ => rfl
    | (simp only [FCtx.isLazy, FCtx.isInnerMut, FCtx.needsAccessorMut, FCtx.needsSetter, FCtx.needsWriter, FCtx.needsClearer,
        FCtx.needsPredicate, FCtx.needsReader, FCtx.needsAccessor, FCtx.isOptional, FCtx.needsLock, FCtx.isFallible, FCtx.isCopy,
        FCtx.isClone, FCtx.isBuilderInto, FCtx.isSetterInto, FCtx.accessorMode, FieldArgs.isLazy, FieldArgs.needsAccessor,
        FieldArgs.needsAccessorMut, FieldArgs.needsSetter, FieldArgs.needsReader, FieldArgs.needsWriter, FieldArgs.needsClearer,
        FieldArgs.needsPredicate, FieldArgs.isFallible, FieldArgs.isOptional, FieldArgs.isInto, FieldArgs.isSetterInto,
        FieldArgs.accessorMode, FieldArgs.isAccessorCopy, FieldArgs.isAccessorClone, FieldArgs.isCopy, FieldArgs.isClone,
        StructArgs.isLazy, StructArgs.needsAccessor, StructArgs.needsAccessorMut, StructArgs.needsSetter, StructArgs.needsReader,
        StructArgs.needsWriter, StructArgs.needsClearer, StructArgs.needsPredicate, StructArgs.isFallible, StructArgs.isOptional,
        StructArgs.isInto, StructArgs.isSetterInto, StructArgs.accessorMode, StructArgs.isAccessorCopy,
        StructArgs.isAccessorClone, StructArgs.isCopy, StructArgs.isClone, hasErrorType, given, without, $ts,*] <;>
      first | rfl | done | (simp [Accessor.mode]; done) | (simp_all [Accessor.mode]; done))
    | (intro k; cases k <;> first
      | rfl
      | (simp [FCtx.publicMode, FieldArgs.publicMode, StructArgs.publicMode, attributesFn, FieldArgs.getHelper, StructArgs.getHelper, Helper.publicMode, Args.publicMode, given,
          without, $ts,*] <;> rfl))))

theorem optional_field
    (hs : (FCtx.mk ⟨without s .optional, gs, ex⟩ (given s f .optional)).isSync = (FCtx.mk ⟨s, fs, ex⟩ f).isSync) :
    Alike ⟨⟨s, fs, ex⟩, f⟩ ⟨⟨without s .optional, gs, ex⟩, given s f .optional⟩ := by
  cases h1 : s.optional <;> cases h2 : f.optional <;> answers [h1, h2]

theorem clearer_field (hb : Bare s .clearer)
    (hs : (FCtx.mk ⟨without s .clearer, gs, ex⟩ (given s f .clearer)).isSync = (FCtx.mk ⟨s, fs, ex⟩ f).isSync) :
    Alike ⟨⟨s, fs, ex⟩, f⟩ ⟨⟨without s .clearer, gs, ex⟩, given s f .clearer⟩ := by
  cases h1 : s.clearer with
  | none => cases h2 : f.clearer <;> answers [h1, h2]
  | some h => rw [hb h h1] at h1; cases h2 : f.clearer <;> answers [h1, h2]

theorem predicate_field (hb : Bare s .predicate)
    (hs : (FCtx.mk ⟨without s .predicate, gs, ex⟩ (given s f .predicate)).isSync = (FCtx.mk ⟨s, fs, ex⟩ f).isSync) :
    Alike ⟨⟨s, fs, ex⟩, f⟩ ⟨⟨without s .predicate, gs, ex⟩, given s f .predicate⟩ := by
  cases h1 : s.predicate with
  | none => cases h2 : f.predicate <;> answers [h1, h2]
  | some h => rw [hb h h1] at h1; cases h2 : f.predicate <;> answers [h1, h2]

theorem get_field (hb : Bare s .get)
    (hs : (FCtx.mk ⟨without s .get, gs, ex⟩ (given s f .get)).isSync = (FCtx.mk ⟨s, fs, ex⟩ f).isSync) :
    Alike ⟨⟨s, fs, ex⟩, f⟩ ⟨⟨without s .get, gs, ex⟩, given s f .get⟩ := by
  cases h1 : s.accessor with
  | none => cases h2 : f.accessor <;> answers [h1, h2]
  | some h => rw [hb h h1] at h1; cases h2 : f.accessor <;> answers [h1, h2]

theorem getMut_field (hb : Bare s .getMut)
    (hs : (FCtx.mk ⟨without s .getMut, gs, ex⟩ (given s f .getMut)).isSync = (FCtx.mk ⟨s, fs, ex⟩ f).isSync) :
    Alike ⟨⟨s, fs, ex⟩, f⟩ ⟨⟨without s .getMut, gs, ex⟩, given s f .getMut⟩ := by
  cases h1 : s.accessorMut with
  | none => cases h2 : f.accessorMut <;> answers [h1, h2]
  | some h => rw [hb h h1] at h1; cases h2 : f.accessorMut <;> answers [h1, h2]

theorem set_field (hb : Bare s .set)
    (hs : (FCtx.mk ⟨without s .set, gs, ex⟩ (given s f .set)).isSync = (FCtx.mk ⟨s, fs, ex⟩ f).isSync) :
    Alike ⟨⟨s, fs, ex⟩, f⟩ ⟨⟨without s .set, gs, ex⟩, given s f .set⟩ := by
  cases h1 : s.setter with
  | none => cases h2 : f.setter <;> answers [h1, h2]
  | some h => rw [hb h h1] at h1; cases h2 : f.setter <;> answers [h1, h2]

theorem fallible_field (hb : Bare s .fallible)
    (hs : (FCtx.mk ⟨without s .fallible, gs, ex⟩ (given s f .fallible)).isSync = (FCtx.mk ⟨s, fs, ex⟩ f).isSync) :
    Alike ⟨⟨s, fs, ex⟩, f⟩ ⟨⟨without s .fallible, gs, ex⟩, given s f .fallible⟩ := by
  cases h1 : s.fallible with
  | none => cases h2 : f.fallible <;> answers [h1, h2]
  | some h => rw [hb h h1] at h1; cases h2 : f.fallible <;> answers [h1, h2]

theorem lazy_field (hb : Bare s .lazy)
    (hs : (FCtx.mk ⟨without s .lazy, gs, ex⟩ (given s f .lazy)).isSync = (FCtx.mk ⟨s, fs, ex⟩ f).isSync) :
    Alike ⟨⟨s, fs, ex⟩, f⟩ ⟨⟨without s .lazy, gs, ex⟩, given s f .lazy⟩ := by
  cases h1 : s.lazy with
  | none => cases h0 : f.skip <;> cases h2 : f.lazy <;> answers [h0, h1, h2, FieldArgs.isSkipped]
  | some h => rw [hb h h1] at h1; cases h0 : f.skip <;> cases h2 : f.lazy <;> answers [h0, h1, h2, FieldArgs.isSkipped]

theorem into_field (h3 : s.isSetterInto = none) (h4 : s.isBuilderInto = none)
    (hs : (FCtx.mk ⟨without s .into, gs, ex⟩ (given s f .into)).isSync = (FCtx.mk ⟨s, fs, ex⟩ f).isSync) :
    Alike ⟨⟨s, fs, ex⟩, f⟩ ⟨⟨without s .into, gs, ex⟩, given s f .into⟩ := by
  simp only [StructArgs.isSetterInto, StructArgs.isBuilderInto] at h3 h4
  cases h1 : s.into <;> cases h2 : f.into <;>
    answers [h1, h2, h3, h4, StructArgs.isBuilderInto, FieldArgs.isBuilderInto]

theorem clone_field (h3 : s.accessorMode = none) (h4 : s.copy = none) (h5 : f.copy = none) (h6 : f.clone ≠ some false)
    (hs : (FCtx.mk ⟨without s .clone, gs, ex⟩ (given s f .clone)).isSync = (FCtx.mk ⟨s, fs, ex⟩ f).isSync) :
    Alike ⟨⟨s, fs, ex⟩, f⟩ ⟨⟨without s .clone, gs, ex⟩, given s f .clone⟩ := by
  simp only [StructArgs.accessorMode] at h3
  cases h1 : s.clone with
  | none => cases h2 : f.clone <;> answers [h1, h2, h3, h4, h5]
  | some b =>
    cases h2 : f.clone with
    | none => cases b <;> answers [h1, h2, h3, h4, h5]
    | some b' =>
      obtain rfl : b' = true := by cases b' <;> simp_all
      cases h7 : f.accessorMode <;> simp only [FieldArgs.accessorMode] at h7 <;> cases b <;> answers [h1, h2, h3, h4, h5, h7]

theorem copy_field (h3 : s.accessorMode = none) (h4 : s.clone = none) (h5 : f.clone = none)
    (hs : (FCtx.mk ⟨without s .copy, gs, ex⟩ (given s f .copy)).isSync = (FCtx.mk ⟨s, fs, ex⟩ f).isSync) :
    Alike ⟨⟨s, fs, ex⟩, f⟩ ⟨⟨without s .copy, gs, ex⟩, given s f .copy⟩ := by
  simp only [StructArgs.accessorMode] at h3
  cases h1 : s.copy with
  | none => cases h2 : f.copy <;> answers [h1, h2, h3, h4, h5]
  | some b =>
    cases h2 : f.copy with
    | none => cases b <;> answers [h1, h2, h3, h4, h5]
    | some b' =>
      cases h7 : f.accessorMode <;> simp only [FieldArgs.accessorMode] at h7 <;> cases b <;> cases b' <;>
        answers [h1, h2, h3, h4, h5, h7]

theorem reader_field (hb : Bare s .reader)
    (hs : (FCtx.mk ⟨without s .reader, gs, ex⟩ (given s f .reader)).isSync = (FCtx.mk ⟨s, fs, ex⟩ f).isSync) :
    Alike ⟨⟨s, fs, ex⟩, f⟩ ⟨⟨without s .reader, gs, ex⟩, given s f .reader⟩ := by
  cases h1 : s.reader with
  | none => cases h2 : f.reader <;> answers [h1, h2]
  | some h => rw [hb h h1] at h1; cases h2 : f.reader <;> answers [h1, h2]

theorem writer_field (hb : Bare s .writer)
    (hs : (FCtx.mk ⟨without s .writer, gs, ex⟩ (given s f .writer)).isSync = (FCtx.mk ⟨s, fs, ex⟩ f).isSync) :
    Alike ⟨⟨s, fs, ex⟩, f⟩ ⟨⟨without s .writer, gs, ex⟩, given s f .writer⟩ := by
  cases h1 : s.writer with
  | none => cases h2 : f.writer <;> answers [h1, h2]
  | some h => rw [hb h h1] at h1; cases h2 : f.writer <;> answers [h1, h2]

theorem lock_field
    (hs : (FCtx.mk ⟨without s .lock, gs, ex⟩ (given s f .lock)).isSync = (FCtx.mk ⟨s, fs, ex⟩ f).isSync) :
    Alike ⟨⟨s, fs, ex⟩, f⟩ ⟨⟨without s .lock, gs, ex⟩, given s f .lock⟩ := by
  cases h1 : s.lock <;> cases h2 : f.lock <;> answers [h1, h2, FieldArgs.needsLock, StructArgs.needsLock]

theorem innerMut_field
    (hs : (FCtx.mk ⟨without s .innerMut, gs, ex⟩ (given s f .innerMut)).isSync = (FCtx.mk ⟨s, fs, ex⟩ f).isSync) :
    Alike ⟨⟨s, fs, ex⟩, f⟩ ⟨⟨without s .innerMut, gs, ex⟩, given s f .innerMut⟩ := by
  cases h1 : s.innerMut <;> cases h2 : f.innerMut <;> answers [h1, h2, FieldArgs.isInnerMut, StructArgs.isInnerMut]

end

/-! ### Answers of a struct -/

/-- The arguments which say nothing about the mode. -/
def quiet : Arg → Bool
  | .reader | .writer | .lock | .innerMut => false
  | _ => true

section
variable {s : StructArgs} {fs ex : List FieldArgs} {a : Arg}

private theorem rather (hq : quiet a = true) :
    (Ctx.mk (without s a) (fs.map fun f => given s f a) ex).isRatherSync = (Ctx.mk s fs ex).isRatherSync := by
  unfold Ctx.isRatherSync Ctx.allFields
  have h1 : (without s a).isSync = s.isSync := by cases a <;> first | rfl | cases hq
  have h2 : ((fun f : FieldArgs => f.isSync) ∘ fun f => given s f a) = fun f : FieldArgs => f.isSync := by
    funext f; cases a <;> first | rfl | cases hq
  simp only [List.findSome?_append, List.findSome?_map, h1, h2]

private theorem sync_field (hq : quiet a = true) (f : FieldArgs) :
    (FCtx.mk ⟨without s a, fs.map fun f => given s f a, ex⟩ (given s f a)).isSync = (FCtx.mk ⟨s, fs, ex⟩ f).isSync := by
  unfold FCtx.isSync
  rw [rather hq]
  cases a <;> first | rfl | cases hq

private theorem builds : (Ctx.mk (without s a) (fs.map fun f => given s f a) ex).needsBuilderStruct =
    (Ctx.mk s fs ex).needsBuilderStruct := by
  unfold Ctx.needsBuilderStruct
  have h2 : ((fun f : FieldArgs => f.needsBuilder == some true) ∘ fun f => given s f a) =
      fun f : FieldArgs => f.needsBuilder == some true := by
    funext f; cases a <;> rfl
  simp only [List.any_map, h2]
  cases a <;> rfl

private theorem defaults (hr : (Ctx.mk (without s a) (fs.map fun f => given s f a) ex).isRatherSync = (Ctx.mk s fs ex).isRatherSync)
    (hl : a ≠ .lazy) : (Ctx.mk (without s a) (fs.map fun f => given s f a) ex).needsDefault = (Ctx.mk s fs ex).needsDefault := by
  unfold Ctx.needsDefault
  rw [hr]
  have h2 : ((fun f : FieldArgs => f.hasDefaultValue || ((Ctx.mk s fs ex).isRatherSync && f.isLazy.getD false)) ∘
      fun f => given s f a) = fun f : FieldArgs => f.hasDefaultValue || ((Ctx.mk s fs ex).isRatherSync && f.isLazy.getD false) := by
    funext f; cases a <;> first | rfl | exact absurd rfl hl
  simp only [List.any_map, h2]
  cases a <;> rfl

private theorem default_known (h : s.default ≠ none ∨ s.noNew ≠ some true) :
    (Ctx.mk (without s a) (fs.map fun f => given s f a) ex).needsDefault = (Ctx.mk s fs ex).needsDefault := by
  have h1 : (without s a).needsDefault = s.default := by cases a <;> rfl
  have h2 : (without s a).needsNew = s.needsNew := by cases a <;> rfl
  unfold Ctx.needsDefault
  rw [h1, h2]
  unfold StructArgs.needsDefault StructArgs.needsNew StructArgs.needsDefault
  cases hd : s.default with
  | some b => rfl
  | none =>
    rcases h with h | h
    · exact absurd hd h
    · cases hn : s.noNew with
      | none => rfl
      | some b => cases b <;> simp_all

end

private theorem kept (s : StructArgs) (a : Arg) : (without s a).rc = s.rc ∧ (without s a).serde = s.serde := by
  cases a <;> exact ⟨rfl, rfl⟩

private theorem lower {s : StructArgs} {fs : List FieldArgs} {a : Arg} (hq : quiet a = true)
    (hn : ((prepare s fs).allFields.map (·.ident)).Nodup) (ha : BothAccepted s fs a)
    (hd : a ≠ .lazy ∨ s.default ≠ none ∨ s.noNew ≠ some true)
    (hf : ∀ f ∈ fs, (FCtx.mk ⟨without s a, fs.map fun f => given s f a, (prepare s fs).extra⟩ (given s f a)).isSync =
        (FCtx.mk (prepare s fs) f).isSync →
      Alike ⟨prepare s fs, f⟩ ⟨⟨without s a, fs.map fun f => given s f a, (prepare s fs).extra⟩, given s f a⟩)
    (he : s.isRefCounted = false ∨
      ∀ n, Alike ⟨prepare s fs, Structs.hidden n⟩
        ⟨⟨without s a, fs.map fun f => given s f a, (prepare s fs).extra⟩, Structs.hidden n⟩) : SameBelow s fs a := by
  refine same hn ha (kept s a).1 (kept s a).2 builds ?_ (fun f h => hf f h (sync_field hq f)) ?_
  · rcases hd with hd | hd
    · exact defaults (rather hq) hd
    · exact default_known hd
  · intro f h
    unfold prepare at h
    rcases he with he | he
    · simp [he] at h
    · dsimp only at h
      split at h
      · obtain ⟨n, -, rfl⟩ := List.mem_map.mp h
        exact he n
      · cases h

/-- The hidden field of a reference counted struct, for arguments it does not look at. -/
private theorem hidden_field {s : StructArgs} {fs ex : List FieldArgs} {a : Arg} (hb : Bare s a)
    (h : a = .getMut ∨ a = .set ∨ a = .optional) (n : String) :
    Alike ⟨⟨s, fs, ex⟩, Structs.hidden n⟩ ⟨⟨without s a, fs.map fun f => given s f a, ex⟩, Structs.hidden n⟩ := by
  have hs : (FCtx.mk ⟨without s a, fs.map fun f => given s f a, ex⟩ (Structs.hidden n)).isSync =
      (FCtx.mk ⟨s, fs, ex⟩ (Structs.hidden n)).isSync := by
    unfold FCtx.isSync
    rw [rather (by rcases h with rfl | rfl | rfl <;> rfl)]
  rcases h with rfl | rfl | rfl
  · cases h1 : s.accessorMut with
    | none => answers [h1]
    | some h => rw [hb h h1] at h1; answers [h1, Structs.hidden]
  · cases h1 : s.setter with
    | none => answers [h1]
    | some h => rw [hb h h1] at h1; answers [h1, Structs.hidden]
  · cases h1 : s.optional <;> answers [h1, Structs.hidden, FieldArgs.isSkipped]

/-! ### The rule -/

/-- **C122** (partial). These arguments of the struct, given by the keyword alone or switched off, may be moved to the fields
which have none of their own: the expansion, its errors, and all that is written for each field stay as they are. In reference
counted structs this is so for three of them.

Missing: the documentation calls all of them defaults for the fields, which they are not in this sense (`C122_fails`). For
the others see `C122_lazy`, `C122_into`, `C122_clone`, `C122_copy`, `C122_locks`, `C122_inner_mut`. -/
theorem C122_partial (rc : Bool) (a : Arg) (h : a ∈ fine rc) : Lowerable rc a := by
  intro s fs hrc hn hb ha
  have hq : quiet a = true := by revert h; cases rc <;> cases a <;> decide
  have hl : a ≠ .lazy := by rintro rfl; revert h; cases rc <;> decide
  refine lower hq hn ha (.inl hl) (fun f _ hs => ?_) ?_
  · cases a with
    | fallible => exact fallible_field hb hs
    | get => exact get_field hb hs
    | getMut => exact getMut_field hb hs
    | set => exact set_field hb hs
    | clearer => exact clearer_field hb hs
    | predicate => exact predicate_field hb hs
    | optional => exact optional_field hs
    | lazy | reader | writer | into | clone | copy | lock | innerMut => exact absurd h (by cases rc <;> decide)
  · cases hr : s.isRefCounted with
    | false => exact .inl rfl
    | true =>
      obtain rfl := hrc hr
      refine .inr fun n => hidden_field hb ?_ n
      simpa [fine] using h

private instance : DecidableEq (Gen Ty × (Bool × Bool) × List (Kind × Gen Method.Body)) := inferInstance

/-- What of the expansion tells two structs apart here. -/
def seen (s : StructArgs) (fs : List FieldArgs) :
    Expansion × List (Gen Ty × (Bool × Bool) × List (Kind × Gen Method.Body)) :=
  (fxstruct true s fs {}, (prepare s fs).allFields.map fun f =>
    ((sheet ⟨prepare s fs, f⟩).code.decl, (sheet ⟨prepare s fs, f⟩).into, (sheet ⟨prepare s fs, f⟩).code.methods))

theorem seen_eq {s t : StructArgs} {fs gs : List FieldArgs} (h : whole t gs {} = whole s fs {}) : seen t gs = seen s fs := by
  unfold whole at h
  have e1 := congrArg Prod.fst h
  have e2 := congrArg (fun w => w.2.map fun z : Sheet => (z.code.decl, z.into, z.code.methods)) h
  simp only [List.map_map] at e2
  exact Prod.ext e1 e2

/-- For each argument which cannot be moved: a struct. -/
def witness (rc : Bool) : Arg → StructArgs × List FieldArgs
  | .lazy => ({ modeSync := some true, noNew := some true, lazy := some {} }, [{ ident := "a" }])
  | .reader => ({ reader := some {} }, [{ ident := "a", lazy := some {}, reader := some { off := true } }])
  | .writer => ({ writer := some {} }, [{ ident := "a", lazy := some {}, writer := some { off := true } }])
  | .into => ({ into := some true, setter := some { into := some false } }, [{ ident := "a" }])
  | .clone => ({ clone := some true, accessor := some { copy := true } }, [{ ident := "a" }])
  | .copy => ({ copy := some true, accessor := some { clone := true } }, [{ ident := "a" }])
  | .lock => ({ lock := some true }, [{ ident := "a", innerMut := some true }])
  | .innerMut => ({ innerMut := some true }, [{ ident := "a", reader := some {} }])
  | .fallible => if rc then ({ rc := some {}, modeSync := some true, fallible := some {} }, []) else ({}, [])
  | .get => if rc then ({ rc := some {}, copy := some true, accessor := some {} }, []) else ({}, [])
  | .clearer => if rc then ({ rc := some {}, copy := some true, clearer := some {} }, []) else ({}, [])
  | .predicate => if rc then ({ rc := some {}, copy := some true, predicate := some {} }, []) else ({}, [])
  | _ => ({}, [])

/-- **C122.** Exactly these arguments may be moved to the fields everywhere. -/
theorem C122_iff (rc : Bool) (a : Arg) : Lowerable rc a ↔ a ∈ fine rc := by
  refine ⟨fun h => ?_, C122_partial rc a⟩
  cases hm : decide (a ∈ fine rc) with
  | true => exact of_decide_eq_true hm
  | false =>
    exfalso
    have hbare : Bare (witness rc a).1 a := by
      revert hm; cases rc <;> cases a <;> simp [Bare, witness, fine] <;> try rfl
    have hrc : (witness rc a).1.isRefCounted = true → rc = true := by
      revert hm; cases rc <;> cases a <;> decide
    have hn : ((prepare (witness rc a).1 (witness rc a).2).allFields.map (·.ident)).Nodup := by
      revert hm; cases rc <;> cases a <;> decide
    have hacc : BothAccepted (witness rc a).1 (witness rc a).2 a := by
      unfold BothAccepted
      revert hm; cases rc <;> cases a <;> decide
    have hne : seen (without (witness rc a).1 a) ((witness rc a).2.map fun f => given (witness rc a).1 f a) ≠
        seen (witness rc a).1 (witness rc a).2 := by
      revert hm; cases rc <;> cases a <;> decide +kernel
    exact hne (seen_eq (h _ _ hrc hn hbare hacc {}))

/-- **C122**, the documented rule for all arguments: false of the code, with or without `rc`. -/
theorem C122_fails (rc : Bool) : ¬∀ a, Lowerable rc a := fun h => by
  have := (C122_iff rc .lock).mp (h .lock)
  revert this; cases rc <;> decide

/-- `lazy` may be moved if the struct says whether it has `Default`, or has `new`. Otherwise only `lazy` of a field asks for
`Default` (ctx/codegen.rs 393-418). -/
theorem C122_lazy (s : StructArgs) (fs : List FieldArgs) (hrc : s.isRefCounted = false)
    (hn : ((prepare s fs).allFields.map (·.ident)).Nodup) (hb : Bare s .lazy) (ha : BothAccepted s fs .lazy)
    (hd : s.default ≠ none ∨ s.noNew ≠ some true) : SameBelow s fs .lazy :=
  lower rfl hn ha (.inr hd) (fun f _ hs => lazy_field hb hs) (.inl hrc)

/-- `into` may be moved if neither `set` nor `builder` of the struct says `into` too: they come before it at the struct, but
after it if it is at the field. -/
theorem C122_into (s : StructArgs) (fs : List FieldArgs) (hrc : s.isRefCounted = false)
    (hn : ((prepare s fs).allFields.map (·.ident)).Nodup) (ha : BothAccepted s fs .into)
    (hs : s.isSetterInto = none) (hb : s.isBuilderInto = none) : SameBelow s fs .into :=
  lower rfl hn ha (.inl (by decide)) (fun f _ h => into_field hs hb h) (.inl hrc)

/-- `clone` may be moved if nothing else says how accessors return the value: no mode in `get` and no `copy` of the struct, no
`copy` and no `clone(off)` at a field. -/
theorem C122_clone (s : StructArgs) (fs : List FieldArgs) (hrc : s.isRefCounted = false)
    (hn : ((prepare s fs).allFields.map (·.ident)).Nodup) (ha : BothAccepted s fs .clone)
    (hm : s.accessorMode = none) (hc : s.copy = none) (hf : ∀ f ∈ fs, f.copy = none ∧ f.clone ≠ some false) :
    SameBelow s fs .clone :=
  lower rfl hn ha (.inl (by decide)) (fun f h hs => clone_field hm hc (hf f h).1 (hf f h).2 hs) (.inl hrc)

/-- The same for `copy`. -/
theorem C122_copy (s : StructArgs) (fs : List FieldArgs) (hrc : s.isRefCounted = false)
    (hn : ((prepare s fs).allFields.map (·.ident)).Nodup) (ha : BothAccepted s fs .copy)
    (hm : s.accessorMode = none) (hc : s.clone = none) (hf : ∀ f ∈ fs, f.clone = none) : SameBelow s fs .copy :=
  lower rfl hn ha (.inl (by decide)) (fun f h hs => copy_field hm hc (hf f h) hs) (.inl hrc)

private theorem sync_stays {s : StructArgs} {fs ex : List FieldArgs} {a : Arg} (hs : s.modeSync = some true) :
    (Ctx.mk (without s a) (fs.map fun f => given s f a) ex).isRatherSync = (Ctx.mk s fs ex).isRatherSync := by
  have h : (without s a).isSync = some true := by cases a <;> simp [without, StructArgs.isSync, hs]
  have h' : s.isSync = some true := by simp [StructArgs.isSync, hs]
  unfold Ctx.isRatherSync
  show ((without s a).isSync.getD _) = (s.isSync.getD _)
  rw [h, h']
  rfl

/-- `reader` and `writer` may be moved if the struct says `sync`; so may `lock`, if it is not switched off and no field speaks
of `inner_mut`. -/
theorem C122_locks (s : StructArgs) (fs : List FieldArgs) (a : Arg) (hrc : s.isRefCounted = false)
    (hn : ((prepare s fs).allFields.map (·.ident)).Nodup) (hb : Bare s a) (ha : BothAccepted s fs a) (hs : s.modeSync = some true)
    (h : a = .reader ∨ a = .writer ∨ (a = .lock ∧ s.lock ≠ some false ∧ ∀ f ∈ fs, f.innerMut = none)) : SameBelow s fs a := by
  have hr := sync_stays (fs := fs) (ex := (prepare s fs).extra) (a := a) hs
  have hr' : (prepare s fs).isRatherSync = true := by
    simp [Ctx.isRatherSync, prepare, StructArgs.isSync, hs]
  refine same hn ha (kept s a).1 (kept s a).2 builds (defaults hr ?_) ?_ ?_
  · rcases h with rfl | rfl | ⟨rfl, -⟩ <;> decide
  · intro f hf
    have hy : (FCtx.mk ⟨without s a, fs.map fun f => given s f a, (prepare s fs).extra⟩ (given s f a)).isSync =
        (FCtx.mk (prepare s fs) f).isSync := by
      unfold FCtx.isSync
      dsimp only
      rw [hr, show (Ctx.mk s fs (prepare s fs).extra).isRatherSync = true from hr', hr']
      rcases h with rfl | rfl | ⟨rfl, h1, h2⟩
      · unfold FieldArgs.isSync FieldArgs.isAsync FieldArgs.isPlain FieldArgs.isInnerMut given
        cases f.modeSync <;> cases f.mode <;> cases f.modeAsync <;> cases f.lock <;> cases f.innerMut <;>
          simp <;> split <;> split <;> rfl
      · unfold FieldArgs.isSync FieldArgs.isAsync FieldArgs.isPlain FieldArgs.isInnerMut given
        cases f.modeSync <;> cases f.mode <;> cases f.modeAsync <;> cases f.lock <;> cases f.innerMut <;>
          simp <;> split <;> split <;> rfl
      · have h3 := h2 f hf
        unfold FieldArgs.isSync FieldArgs.isAsync FieldArgs.isPlain FieldArgs.isInnerMut given
        cases hl : s.lock with
        | none => cases f.lock <;> rfl
        | some b =>
          obtain rfl : b = true := by cases b <;> simp_all
          cases f.modeSync <;> cases f.mode <;> cases f.modeAsync <;> cases f.lock <;> simp [h3] <;> split <;> rfl
    rcases h with rfl | rfl | ⟨rfl, -⟩
    · exact reader_field hb hy
    · exact writer_field hb hy
    · exact lock_field hy
  · intro f hf
    unfold prepare at hf
    simp [hrc] at hf

/-- `inner_mut` may be moved if it is not switched off, and neither struct nor field says anything of the mode. -/
theorem C122_inner_mut (s : StructArgs) (fs : List FieldArgs) (hrc : s.isRefCounted = false)
    (hn : ((prepare s fs).allFields.map (·.ident)).Nodup) (ha : BothAccepted s fs .innerMut)
    (hs : s.isSync.getD false = false) (hi : s.innerMut ≠ some false) (hf : ∀ f ∈ fs, f.isSync = none) :
    SameBelow s fs .innerMut := by
  have hex : (prepare s fs).extra = [] := by simp [prepare, hrc]
  have hg : ∀ f ∈ fs, (given s f .innerMut).isSync.getD false = false := by
    intro f h
    have h' := hf f h
    cases hv : s.innerMut with
    | none =>
      have : given s f .innerMut = f := by simp [given, hv]
      rw [this, h']; rfl
    | some b =>
      obtain rfl : b = true := by cases b <;> simp_all
      revert h'
      unfold FieldArgs.isSync FieldArgs.isAsync FieldArgs.isPlain FieldArgs.isInnerMut given
      rw [hv]
      cases f.modeSync <;> cases f.mode <;> cases f.modeAsync <;> cases f.lock <;> cases f.innerMut <;> simp
  have none_of : ∀ gs : List FieldArgs, (∀ f ∈ gs, f.isSync.getD false = false) →
      (gs.findSome? (·.isSync)).getD false = false := by
    intro gs
    induction gs with
    | nil => intro _; rfl
    | cons g gs ih =>
      intro h
      have h1 := h g (by simp)
      have h2 := ih fun f hf => h f (by simp [hf])
      cases hy : g.isSync with
      | none => rw [List.findSome?_cons, hy]; exact h2
      | some b => rw [List.findSome?_cons, hy]; rw [hy] at h1; exact h1
  have mode : ∀ (t : StructArgs) (gs : List FieldArgs), t.isSync.getD false = false →
      (∀ f ∈ gs, f.isSync.getD false = false) → (Ctx.mk t gs []).isRatherSync = false := by
    intro t gs h1 h2
    unfold Ctx.isRatherSync Ctx.allFields
    dsimp only
    rw [List.nil_append, none_of gs h2]
    exact h1
  have hr' : (Ctx.mk s fs []).isRatherSync = false := mode s fs hs fun f h => by rw [hf f h]; rfl
  have hr : (Ctx.mk (without s .innerMut) (fs.map fun f => given s f .innerMut) []).isRatherSync = false := by
    refine mode _ _ hs fun g h => ?_
    obtain ⟨f, h', rfl⟩ := List.mem_map.mp h
    exact hg f h'
  have hr2 : (Ctx.mk (without s .innerMut) (fs.map fun f => given s f .innerMut) (prepare s fs).extra).isRatherSync =
      (Ctx.mk s fs (prepare s fs).extra).isRatherSync := by rw [hex, hr, hr']
  refine same hn ha rfl rfl builds (defaults hr2 (by decide)) (fun f h => innerMut_field ?_) ?_
  · show (given s f .innerMut).isSync.getD
        (Ctx.mk (without s .innerMut) (fs.map fun f => given s f .innerMut) (prepare s fs).extra).isRatherSync =
      f.isSync.getD (Ctx.mk s fs (prepare s fs).extra).isRatherSync
    rw [hr2, hex, hr', hf f h]
    exact hg f h
  · intro f h
    rw [hex] at h
    cases h

/-! ### Cases -/

/-- A struct with `get`, `set` and `optional`, and fields which switch some off. -/
def exStruct : StructArgs := { modeSync := some true, accessor := some {}, setter := some {}, optional := some true, serde := some {} }

def exFields : List FieldArgs :=
  [{ ident := "a" }, { ident := "b", accessor := some { off := true } }, { ident := "c", lazy := some {}, optional := some false },
   { ident := "d", skip := true }]

example : SameBelow exStruct exFields .get ∧ without exStruct .get ≠ exStruct ∧
    exFields.map (fun f => (given exStruct f .get).accessor) = [some {}, some { off := true }, some {}, some {}] :=
  ⟨C122_partial false .get (by decide) exStruct exFields (by decide) (by decide)
    (by intro h hh; cases hh; rfl) (by unfold BothAccepted; decide), by decide, by decide⟩

/-- In a reference counted struct `set` may be moved, `get` not: the hidden field is asked to be `Copy` in one of the two. -/
example : Lowerable true .set ∧ ¬Lowerable true .get ∧ Lowerable false .get :=
  ⟨(C122_iff _ _).mpr (by decide), fun h => absurd ((C122_iff _ _).mp h) (by decide), (C122_iff _ _).mpr (by decide)⟩

example : SameBelow { lazy := some {}, accessor := some { clone := true } } [{ ident := "a" }, { ident := "b", lazy := some { off := true } }] .lazy :=
  C122_lazy _ _ (by decide) (by decide) (by intro h hh; cases hh; rfl) (by unfold BothAccepted; decide) (.inr (by decide))

/-- With `no_new` the struct gets `Default` only if `lazy` is at the field. -/
example : fxstruct true { modeSync := some true, noNew := some true, lazy := some {} } [{ ident := "a" }] {} =
      .code [.dflt "a", .method "a" .accessor, .decl "a"] [] ∧
    fxstruct true { modeSync := some true, noNew := some true } [{ ident := "a", lazy := some {} }] {} =
      .code [.dflt "a", .method "a" .accessor, .decl "a", .newFn, .defaultImpl] [] := by
  decide +kernel

example : SameBelow { into := some true, setter := some {}, builder := some {} } [{ ident := "a" }, { ident := "b", into := some false }] .into :=
  C122_into _ _ (by decide) (by decide) (by unfold BothAccepted; decide) (by decide) (by decide)

example : SameBelow { clone := some true, accessor := some {} } [{ ident := "a" }, { ident := "b", lazy := some {} }] .clone :=
  C122_clone _ _ (by decide) (by decide) (by unfold BothAccepted; decide) (by decide) (by decide) (by decide)

/-- `clone(off)` at a field does not take back `clone` of a plain struct. -/
example : (FCtx.mk { args := { clone := some true } } { ident := "a", clone := some false }).accessorMode = .clone ∧
    (FCtx.mk { args := {} } { ident := "a", clone := some false }).accessorMode = .none := by decide

example : SameBelow { copy := some true, accessor := some {} } [{ ident := "a" }, { ident := "b", copy := some false }] .copy :=
  C122_copy _ _ (by decide) (by decide) (by unfold BothAccepted; decide) (by decide) (by decide) (by decide)

example : SameBelow { modeSync := some true, reader := some {} } [{ ident := "a" }, { ident := "b", reader := some { off := true } }] .reader ∧
    SameBelow { modeSync := some true, lock := some true } [{ ident := "a" }, { ident := "b", lock := some false }] .lock :=
  ⟨C122_locks _ _ _ (by decide) (by decide) (by intro h hh; cases hh; rfl) (by unfold BothAccepted; decide) rfl (.inl rfl),
   C122_locks _ _ _ (by decide) (by decide) trivial (by unfold BothAccepted; decide) rfl (.inr (.inr ⟨rfl, by decide, by decide⟩))⟩

example : SameBelow { innerMut := some true, accessor := some {} } [{ ident := "a" }, { ident := "b", setter := some {} }] .innerMut :=
  C122_inner_mut _ _ (by decide) (by decide) (by unfold BothAccepted; decide) (by decide) (by decide) (by decide)

end Verif.Props.Lower
