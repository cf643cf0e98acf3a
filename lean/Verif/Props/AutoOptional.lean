import Verif.Spec.AutoOptional
import Verif.Proof.Lower
/-
C126: clearers and predicates make fields optional.
-/
namespace Verif.Props.AutoOptional
open Verif.Model.Args Verif.Model.Init Verif.Model.Emit Verif.Model Verif.Model.Expand Verif.Model.Exclusive
open Verif.Spec.Lower Verif.Spec.AutoOptional Verif.Spec.Expansion Verif.Proof.Lower Verif.Props.Expand
open Verif.Model.Structs (prepare)

variable {s : StructArgs} {fs : List FieldArgs}

private theorem asked_eq (a b : Option Helper) : ((a.map (·.isTrue)).or (b.map (·.isTrue))).getD false = asked a b := by
  cases a <;> cases b <;> rfl

private theorem auto_eq (c : Ctx) (f : FieldArgs) : automatic c.args f =
    (!f.isSkipped && (!(FCtx.mk c f).isLazy && ((FCtx.mk c f).needsClearer || (FCtx.mk c f).needsPredicate))) := by
  have h1 : (FCtx.mk c f).needsClearer = asked f.clearer c.args.clearer := asked_eq _ _
  have h2 : (FCtx.mk c f).needsPredicate = asked f.predicate c.args.predicate := asked_eq _ _
  rw [h1, h2]
  unfold automatic
  cases hk : f.skip
  · have h3 : (FCtx.mk c f).isLazy = asked f.lazy c.args.lazy := by
      have : f.isLazy = f.lazy.map (·.isTrue) := by simp [FieldArgs.isLazy, FieldArgs.isSkipped, hk]
      unfold FCtx.isLazy
      dsimp only
      rw [this]
      exact asked_eq _ _
    rw [h3]
    simp [FieldArgs.isSkipped, hk]
  · simp [FieldArgs.isSkipped, hk]

/-- **C126.** A field for which a clearer or predicate is asked is optional unless it is lazy, if neither it nor the struct says anything
of that. -/
theorem C126_automatic (c : Ctx) (f : FieldArgs) (h1 : f.optional = none) (h2 : c.args.optional = none) :
    (FCtx.mk c f).isOptional = automatic c.args f := by
  rw [auto_eq]
  simp [FCtx.isOptional, FieldArgs.isOptional, StructArgs.isOptional, h1, h2]

private theorem optional_eq (ex : List FieldArgs) (f : FieldArgs) :
    (FCtx.mk ⟨s, fs.map (marked s), ex⟩ (marked s f)).isOptional = (FCtx.mk ⟨s, fs, ex⟩ f).isOptional := by
  cases hm : (automatic s f && f.optional.isNone && s.optional.isNone)
  · have : marked s f = f := by
      unfold marked
      rw [hm]
      rfl
    rw [this]
    rfl
  · simp only [Bool.and_eq_true, Option.isNone_iff_eq_none] at hm
    obtain ⟨⟨h0, h1⟩, h2⟩ := hm
    rw [C126_automatic ⟨s, fs, ex⟩ f h1 h2, h0]
    have hk : f.skip = false := by
      unfold automatic at h0
      cases h : f.skip
      · rfl
      · simp [h] at h0
    simp [FCtx.isOptional, marked, FieldArgs.isOptional, FieldArgs.isSkipped, hk, h0, h1, h2]

private theorem rather (ex : List FieldArgs) :
    (Ctx.mk s (fs.map (marked s)) ex).isRatherSync = (Ctx.mk s fs ex).isRatherSync := by
  unfold Ctx.isRatherSync Ctx.allFields
  have h2 : ((fun f : FieldArgs => f.isSync) ∘ marked s) = fun f : FieldArgs => f.isSync := rfl
  simp only [List.findSome?_append, List.findSome?_map, h2]

private theorem field (ex : List FieldArgs) (f : FieldArgs) :
    Alike ⟨⟨s, fs, ex⟩, f⟩ ⟨⟨s, fs.map (marked s), ex⟩, marked s f⟩ := by
  have ho := optional_eq (s := s) (fs := fs) ex f
  have hs : (FCtx.mk ⟨s, fs.map (marked s), ex⟩ (marked s f)).isSync = (FCtx.mk ⟨s, fs, ex⟩ f).isSync := by
    unfold FCtx.isSync
    rw [rather]
    rfl
  have hl : (FCtx.mk ⟨s, fs.map (marked s), ex⟩ (marked s f)).needsLock = (FCtx.mk ⟨s, fs, ex⟩ f).needsLock := by
    unfold FCtx.needsLock
    rw [ho]
    rfl
  constructor <;> first
    | rfl
    | exact hs
    | exact ho
    | exact hl
    | exact fun _ => rfl
    | exact fun _ _ => rfl
    | (intro k; cases k <;> rfl)

private theorem alike : AlikeStruct (prepare s fs) (prepare s (fs.map (marked s))) := by
  have e1 : prepare s fs = ⟨s, fs, (prepare s fs).extra⟩ := rfl
  have e2 : prepare s (fs.map (marked s)) = ⟨s, fs.map (marked s), (prepare s fs).extra⟩ := rfl
  rw [e1, e2]
  refine ⟨?_, ?_, rfl, ?_⟩
  · unfold Ctx.needsBuilderStruct
    have h2 : ((fun f : FieldArgs => f.needsBuilder == some true) ∘ marked s) = fun f : FieldArgs => f.needsBuilder == some true := rfl
    simp only [List.any_map, h2]
  · unfold Ctx.needsDefault
    rw [rather]
    have h2 : ∀ b : Bool, ((fun f : FieldArgs => f.hasDefaultValue || (b && f.isLazy.getD false)) ∘ marked s) =
        fun f : FieldArgs => f.hasDefaultValue || (b && f.isLazy.getD false) := fun _ => rfl
    simp only [List.any_map, h2]
  · refine Both.append ?_ ?_
    · have hx : (prepare s fs).extra.map (marked s) = (prepare s fs).extra := by
        unfold prepare
        dsimp only
        split
        · rw [List.map_map]
          rfl
        · rfl
      have := Both.map (R := fun f g => Alike ⟨⟨s, fs, (prepare s fs).extra⟩, f⟩
        ⟨⟨s, fs.map (marked s), (prepare s fs).extra⟩, g⟩) (as := (prepare s fs).extra) (u := marked s) (fun f _ => field _ f)
      rwa [hx] at this
    · exact Both.map (R := fun f g => Alike ⟨⟨s, fs, (prepare s fs).extra⟩, f⟩
        ⟨⟨s, fs.map (marked s), (prepare s fs).extra⟩, g⟩) (as := fs) (u := marked s) (fun f _ => field _ f)

/-- No error: none of this group, and none of the rest. -/
private theorem one (g : String) (subs : List (List Param)) (r : List Group) :
    (errors ((g, subs) :: r)).isEmpty = (!decide ((scanGroup subs ⟨[], 0⟩).subgroupsSet > 1) && (errors r).isEmpty) := by
  rw [errors]
  by_cases h : (scanGroup subs ⟨[], 0⟩).subgroupsSet > 1
  · rw [if_pos h, decide_eq_true h]
    rfl
  · rw [if_neg h, decide_eq_false h]
    rfl

/-- An accepted field is accepted with `optional` too, unless it is fallible. -/
private theorem accepted (f : FieldArgs) (h : acceptFieldFull f = true) :
    acceptFieldFull (marked s f) = true ↔
      ¬ (automatic s f = true ∧ f.optional = none ∧ s.optional = none ∧ f.fallible.elim false (·.isTrue) = true) := by
  cases hm : (automatic s f && f.optional.isNone && s.optional.isNone)
  · have e : marked s f = f := by
      unfold marked
      rw [hm]
      rfl
    rw [e]
    refine ⟨fun _ k => ?_, fun _ => h⟩
    simp [k.1, k.2.1, k.2.2.1] at hm
  · simp only [Bool.and_eq_true, Option.isNone_iff_eq_none] at hm
    obtain ⟨⟨h0, h1⟩, h2⟩ := hm
    have hl : f.lazy.elim false (·.isTrue) = false := by
      unfold automatic asked at h0
      cases hz : f.lazy with
      | none => rfl
      | some z =>
        cases ho : z.off
        · simp [hz, ho] at h0
        · simp [Helper.isTrue, ho]
    have e : marked s f = { f with optional := some true } := by
      unfold marked
      rw [h0, h1, h2]
      rfl
    have hf : acceptField f = true ∧ ∃ b, acceptFieldFull f = (acceptField f && b) ∧
        acceptFieldFull (marked s f) = (acceptField (marked s f) && b) := by
      have k : ∀ g : FieldArgs, acceptFieldFull g = (acceptField g && (g.lazy.all acceptHelper && g.accessor.all acceptAccessor &&
          g.accessorMut.all acceptHelper && g.setter.all (fun s => acceptHelper s.toHelper) && g.reader.all acceptHelper &&
          g.writer.all acceptHelper && g.clearer.all acceptHelper && g.predicate.all acceptHelper && g.builder.all acceptFieldBuilder &&
          g.serde.all acceptSerde)) := fun g => by
        unfold acceptFieldFull
        simp only [Bool.and_assoc]
      refine ⟨?_, _, k f, ?_⟩
      · rw [k f, Bool.and_eq_true] at h
        exact h.1
      · rw [k]
        rfl
    obtain ⟨ha, b, e1, e2⟩ := hf
    have hb : b = true := by
      rw [e1, ha, Bool.true_and] at h
      exact h
    rw [e2, hb, Bool.and_true, e]
    simp only [h0, h1, h2, true_and]
    revert ha
    unfold acceptField fieldGroups
    simp only [one, h1, hl]
    generalize f.fallible.elim false (·.isTrue) = fa
    generalize f.lock.getD false = lo
    generalize f.innerMut.getD false = im
    simp only [Bool.and_eq_true]
    intro ha
    constructor
    · rintro ⟨-, -, -, h, -⟩ rfl
      revert h
      cases lo <;> cases im <;> decide
    · intro hfa
      have hfa : fa = false := by cases fa <;> simp_all
      subst hfa
      refine ⟨ha.1, ha.2.1, ?_, ?_, ha.2.2.2.2⟩
      · cases im <;> decide
      · cases lo <;> cases im <;> decide

/-- **C126.** Where a field is optional by itself, `optional` may be written or left out: all code is the same, for all fields
of an accepted struct, exactly if none of these fields is fallible, with which `optional` is refused. -/
theorem C126_iff (hn : ((prepare s fs).allFields.map (·.ident)).Nodup) (ha : Accepted true s fs) (l : Lits) :
    whole s (fs.map (marked s)) l = whole s fs l ↔
      ∀ f ∈ fs, automatic s f = true → f.optional = none → s.optional = none → f.fallible.elim false (·.isTrue) = false := by
  constructor
  · intro h f hf h0 h1 h2
    cases hk : f.fallible.elim false (·.isTrue) with
    | false => rfl
    | true =>
      have hr : ¬ Accepted true s (fs.map (marked s)) := fun k =>
        (accepted f (ha.2.2 f hf)).1 (k.2.2 _ (List.mem_map_of_mem hf)) ⟨h0, h1, h2, hk⟩
      have hn' : DistinctNames (prepare s (fs.map (marked s))) := by
        unfold DistinctNames
        rw [(alike (s := s) (fs := fs)).fields.each (F := fun f => f.ident) (fun f g a => a.ident)]
        exact hn
      have e := congrArg Prod.fst h
      unfold whole at e
      dsimp only at e
      rcases outcome (parsed := true) (l := l) hn' with ⟨-, k⟩ | ⟨k, -⟩ | ⟨k, -⟩
      · rw [k] at e
        rcases outcome (parsed := true) (l := l) hn with ⟨k', -⟩ | ⟨-, -, k'⟩ | ⟨-, -, k'⟩
        · exact absurd ha k'
        · rw [k'] at e
          cases e
        · rw [k'] at e
          cases e
      · exact absurd k hr
      · exact absurd k hr
  · intro h
    refine whole_eq l alike hn ha ⟨rfl, ha.2.1, fun g hg => ?_⟩
    obtain ⟨f, hf, rfl⟩ := List.mem_map.mp hg
    refine (accepted f (ha.2.2 f hf)).2 fun k => ?_
    rw [h f hf k.1 k.2.1 k.2.2.1] at k
    exact Bool.noConfusion k.2.2.2

/-! ### Cases -/

def exStruct : StructArgs := { modeSync := some true, clearer := some {}, accessor := some {} }
def exFields : List FieldArgs :=
  [{ ident := "a" }, { ident := "b", lazy := some {} }, { ident := "c", clearer := some { off := true }, predicate := some {} },
    { ident := "d", clearer := some { off := true } }]

/-- `a` and `c` are optional by themselves, the lazy `b` and `d` without clearer are not. -/
example : whole exStruct (exFields.map (marked exStruct)) {} = whole exStruct exFields {} ∧
    exFields.map (automatic exStruct) = [true, false, true, false] ∧
    (exFields.map (marked exStruct)).map (·.optional) = [some true, none, some true, none] ∧
    exFields.map (fun f => declType ⟨prepare exStruct exFields, f⟩) =
      [.ok (.lock false (.opt .t)), .ok (.proxy false false), .ok (.lock false (.opt .t)), .ok .t] :=
  ⟨(C126_iff (by decide +kernel) (by decide +kernel) {}).2 (by decide +kernel), by decide +kernel, by decide +kernel, by decide +kernel⟩

example : (FCtx.mk (prepare exStruct exFields) { ident := "a" }).isOptional = true :=
  C126_automatic _ _ rfl rfl

/-- **C126.** `optional(off)`, of the struct or the field, comes before it: then there is a clearer or predicate and the field is not
optional. -/
theorem C126_off (c : Ctx) (f : FieldArgs) (h : (f.optional.or c.args.optional) = some false) : (FCtx.mk c f).isOptional = false := by
  have : ((FCtx.mk c f).field.isOptional.or (FCtx.mk c f).ctx.args.isOptional) = some false := h
  unfold FCtx.isOptional
  rw [this]
  simp

/-- So a predicate of a field which always has a value. -/
example : fxstruct true { noNew := some true } [{ ident := "a", predicate := some {}, optional := some false }] {} ≠ .refused ∧
    (FCtx.mk (prepare {} []) { ident := "a", predicate := some {}, optional := some false }).isOptional = false :=
  ⟨by decide +kernel, C126_off _ _ rfl⟩

/-- A fallible field with a clearer, which is not lazy: accepted as it is, refused with `optional`. -/
example : Accepted true {} [{ ident := "a", clearer := some {}, fallible := some {} }] ∧
    ¬ Accepted true {} ([{ ident := "a", clearer := some {}, fallible := some {} }].map (marked {})) := by decide +kernel

end Verif.Props.AutoOptional
