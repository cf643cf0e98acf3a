import Verif.Spec.ModeArg
import Verif.Proof.Lower
/-
C124: `mode(sync)`, `mode(async)` and `mode(plain)` of a struct.
-/
namespace Verif.Props.ModeArg
open Verif.Model.Args Verif.Model.Init Verif.Model.Emit Verif.Model Verif.Model.Expand Verif.Model.Exclusive
open Verif.Spec.Lower Verif.Spec.ModeArg Verif.Spec.Expansion Verif.Proof.Lower Verif.Props.Expand
open Verif.Model.Structs (prepare)

variable {s : StructArgs} {fs : List FieldArgs}

/-- The answers of the two forms. -/
private theorem field {s t : StructArgs} (m : SyncMode) (ht : t = byMode s m) (ex : List FieldArgs)
    (hs : (Ctx.mk t fs ex).isRatherSync = (Ctx.mk (byKeyword s m) fs ex).isRatherSync)
    (ha : t.isAsync.getD false = (byKeyword s m).isAsync.getD false) (f : FieldArgs) :
    Alike ⟨⟨byKeyword s m, fs, ex⟩, f⟩ ⟨⟨t, fs, ex⟩, f⟩ := by
  have h1 : (FCtx.mk ⟨t, fs, ex⟩ f).isSync = (FCtx.mk ⟨byKeyword s m, fs, ex⟩ f).isSync := by
    unfold FCtx.isSync
    rw [hs]
  have h2 : (FCtx.mk ⟨t, fs, ex⟩ f).isAsync = (FCtx.mk ⟨byKeyword s m, fs, ex⟩ f).isAsync := by
    unfold FCtx.isAsync
    cases f.isAsync with
    | some b => rfl
    | none => simpa using ha
  subst ht
  cases m
  all_goals
    constructor <;> first
      | rfl
      | exact h1
      | exact h2
      | exact fun _ => rfl
      | exact fun _ _ => rfl
      | (intro k; cases k <;> rfl)

private theorem all_alike (m : SyncMode)
    (hs : (Ctx.mk (byMode s m) fs (prepare s fs).extra).isRatherSync = (Ctx.mk (byKeyword s m) fs (prepare s fs).extra).isRatherSync)
    (ha : (byMode s m).isAsync.getD false = (byKeyword s m).isAsync.getD false) :
    AlikeStruct (prepare (byKeyword s m) fs) (prepare (byMode s m) fs) := by
  have e1 : prepare (byKeyword s m) fs = ⟨byKeyword s m, fs, (prepare s fs).extra⟩ := by cases m <;> rfl
  have e2 : prepare (byMode s m) fs = ⟨byMode s m, fs, (prepare s fs).extra⟩ := rfl
  rw [e1, e2]
  refine ⟨by cases m <;> rfl, ?_, by cases m <;> rfl, ?_⟩
  · unfold Ctx.needsDefault
    rw [hs]
    cases m <;> rfl
  · have := Both.map (R := fun f g => Alike ⟨⟨byKeyword s m, fs, (prepare s fs).extra⟩, f⟩ ⟨⟨byMode s m, fs, (prepare s fs).extra⟩, g⟩)
      (as := (Ctx.mk (byKeyword s m) fs (prepare s fs).extra).allFields) (u := id) (fun f _ => field m rfl _ hs ha f)
    rw [List.map_id] at this
    exact this

/-- No error: none of this group, and none of the rest. -/
private theorem one (g : String) (subs : List (List Param)) (r : List Group) :
    (errors ((g, subs) :: r)).isEmpty = (!decide ((scanGroup subs ⟨[], 0⟩).subgroupsSet > 1) && (errors r).isEmpty) := by
  rw [errors]
  by_cases h : (scanGroup subs ⟨[], 0⟩).subgroupsSet > 1
  · rw [if_pos h, decide_eq_true h]
    rfl
  · rw [if_neg h, decide_eq_false h]
    rfl

/-- Alike, and accepted alike. -/
private theorem written {s t : StructArgs} (l : Lits) (h : AlikeStruct (prepare s fs) (prepare t fs))
    (hn : DistinctNames (prepare s fs)) (ha : acceptStructFull t = acceptStructFull s) : whole t fs l = whole s fs l := by
  by_cases hc : Accepted true s fs
  · exact whole_eq l h hn hc ⟨hc.1, ha.trans hc.2.1, hc.2.2⟩
  · have hn' : DistinctNames (prepare t fs) := by
      unfold DistinctNames
      rw [h.fields.each (F := fun f => f.ident) (fun f g a => a.ident)]
      exact hn
    have hc' : ¬ Accepted true t fs := fun k => hc ⟨k.1, ha.symm.trans k.2.1, k.2.2⟩
    have e1 : fxstruct true s fs l = .refused := by
      rcases outcome (parsed := true) (l := l) hn with ⟨-, k⟩ | ⟨k, -⟩ | ⟨k, -⟩
      · exact k
      · exact absurd k hc
      · exact absurd k hc
    have e2 : fxstruct true t fs l = .refused := by
      rcases outcome (parsed := true) (l := l) hn' with ⟨-, k⟩ | ⟨k, -⟩ | ⟨k, -⟩
      · exact k
      · exact absurd k hc'
      · exact absurd k hc'
    unfold whole
    rw [e1, e2, h.fields.each (F := fun f => Spec.Lower.sheet ⟨prepare s fs, f⟩) (fun f g a => a.sheet)]

/-- **C124.** `mode(sync)` and `mode(async)` of a struct are the same as `sync` and `r#async`: the same structs are refused, and all
code is the same. -/
theorem C124_keyword (h : Silent s) {m : SyncMode} (hm : m ≠ .plain) (hn : ((prepare s fs).allFields.map (·.ident)).Nodup) (l : Lits) :
    whole (byMode s m) fs l = whole (byKeyword s m) fs l := by
  obtain ⟨h1, h2, h3⟩ := h
  have hy : (byMode s m).isSync = (byKeyword s m).isSync := by
    cases m <;> simp [byMode, byKeyword, StructArgs.isSync, StructArgs.isAsync, h1, h2, h3] at hm ⊢
  refine written l (all_alike m ?_ ?_) (by cases m <;> exact hn) ?_
  · unfold Ctx.isRatherSync
    dsimp only
    rw [hy]
    rfl
  · cases m <;> simp [byMode, byKeyword, StructArgs.isAsync, h1, h2, h3] at hm ⊢
  · have : acceptStruct (byMode s m) = acceptStruct (byKeyword s m) := by
      unfold acceptStruct structGroups byMode
      cases m with
      | plain => exact absurd rfl hm
      | sync | async =>
        simp only [byKeyword, h1, h2, h3, one]
        cases s.innerMut with
        | none => rfl
        | some b => cases b <;> rfl
    unfold acceptStructFull
    rw [this]
    cases m <;> rfl

/-- **C124.** `mode(plain)` may be left out exactly where it says nothing new. If the struct has no `inner_mut`, and would not be taken
for sync otherwise, all code is the same. -/
theorem C124_plain (h : Silent s) (hi : s.innerMut ≠ some true) (hr : (prepare s fs).isRatherSync = false)
    (hn : ((prepare s fs).allFields.map (·.ident)).Nodup) (l : Lits) : whole (byMode s .plain) fs l = whole s fs l := by
  obtain ⟨h1, h2, h3⟩ := h
  refine written l (all_alike .plain ?_ ?_) hn ?_
  · show _ = (prepare s fs).isRatherSync
    rw [hr]
    simp [Ctx.isRatherSync, byMode, StructArgs.isSync, h1]
  · simp [byMode, byKeyword, StructArgs.isAsync, h2, h3]
  · have : acceptStruct (byMode s .plain) = acceptStruct s := by
      unfold acceptStruct structGroups byMode
      simp only [h1, h2, h3, one]
      cases hv : s.innerMut with
      | none => rfl
      | some b =>
        cases b with
        | true => exact absurd hv hi
        | false => rfl
    unfold acceptStructFull
    rw [this]
    rfl

/-- **C124.** With `mode(plain)` a field is plain unless it says otherwise itself, whatever other fields and `lock`, `reader` and
`writer` of the struct are. -/
theorem C124_plain_fields (h : Silent s) {f : FieldArgs} (hf : f.isSync = none) :
    genMode ⟨prepare (byMode s .plain) fs, f⟩ = .plain := by
  have : (FCtx.mk (prepare (byMode s .plain) fs) f).isSync = false := by
    simp [FCtx.isSync, hf, Ctx.isRatherSync, prepare, byMode, StructArgs.isSync, h.1]
  simp [genMode, this]

/-! ### Cases -/

def exStruct : StructArgs := { lazy := some {}, accessor := some {}, clearer := some {} }
def exFields : List FieldArgs := [{ ident := "a" }, { ident := "b", modeSync := some false }, { ident := "c", lazy := some { off := true } }]

/-- Sync and async, each in both forms: the field `a` is held in the cell of the mode, `b` is plain. -/
example : whole (byMode exStruct .sync) exFields {} = whole (byKeyword exStruct .sync) exFields {} ∧
    whole (byMode exStruct .async) exFields {} = whole (byKeyword exStruct .async) exFields {} ∧
    genMode ⟨prepare (byMode exStruct .sync) exFields, { ident := "a" }⟩ = .sync ∧
    genMode ⟨prepare (byMode exStruct .async) exFields, { ident := "a" }⟩ = .async ∧
    genMode ⟨prepare (byMode exStruct .async) exFields, { ident := "b", modeSync := some false }⟩ = .plain :=
  ⟨C124_keyword ⟨rfl, rfl, rfl⟩ (by decide) (by decide +kernel) {}, C124_keyword ⟨rfl, rfl, rfl⟩ (by decide) (by decide +kernel) {},
    by decide +kernel, by decide +kernel, by decide +kernel⟩

/-- Both forms are refused with `inner_mut`, and accepted without. -/
example : (∀ m : SyncMode, m ≠ .plain → ¬ Accepted true (byMode { exStruct with innerMut := some true } m) exFields ∧
      ¬ Accepted true (byKeyword { exStruct with innerMut := some true } m) exFields) ∧
    Accepted true (byMode exStruct .sync) exFields ∧ Accepted true (byMode exStruct .async) exFields := by
  refine ⟨fun m hm => ?_, by decide +kernel, by decide +kernel⟩
  cases m <;> first | exact absurd rfl hm | exact ⟨by decide +kernel, by decide +kernel⟩

/-- Nothing is sync here, and `mode(plain)` changes nothing. -/
example : whole (byMode exStruct .plain) exFields {} = whole exStruct exFields {} :=
  C124_plain ⟨rfl, rfl, rfl⟩ (by decide) (by decide +kernel) (by decide +kernel) {}

/-- **C124.** Both conditions of `C124_plain` are needed. A struct with a sync field is taken for sync without `mode(plain)`, and its
other fields with it; and `mode(plain)` is refused beside `inner_mut`, which is for plain fields. -/
theorem C124_plain_differs :
    (∃ s fs, Silent s ∧ Accepted true s fs ∧ Accepted true (byMode s .plain) fs ∧ s.innerMut ≠ some true ∧
      (whole (byMode s .plain) fs {}).2 ≠ (whole s fs {}).2) ∧
    (∃ s fs, Silent s ∧ Accepted true s fs ∧ (prepare s fs).isRatherSync = false ∧ ¬ Accepted true (byMode s .plain) fs) :=
  ⟨⟨{ lazy := some {} }, [{ ident := "a", modeSync := some true }, { ident := "b" }], ⟨rfl, rfl, rfl⟩, by decide +kernel, by decide +kernel,
      by decide, fun h => by
        have := congrArg (fun l => l.map fun z : Sheet => z.code.decl) h
        revert this
        simp only [whole, List.map_map]
        decide +kernel⟩,
    ⟨{ innerMut := some true }, [{ ident := "a" }], ⟨rfl, rfl, rfl⟩, by decide +kernel, by decide +kernel, by decide +kernel⟩⟩

/-- `lock` of the struct and a sync field beside, and `b` is plain. -/
example : genMode ⟨prepare (byMode { lock := some true } .plain) [{ ident := "a", modeSync := some true }, { ident := "b" }],
    { ident := "b" }⟩ = .plain := C124_plain_fields ⟨rfl, rfl, rfl⟩ rfl

/-- **C124.** It is so of a struct only. At a field of an async struct `mode(sync)` makes a sync field and `sync` an async one; at a
field of a plain struct `mode(async)` makes a plain field and `r#async` an async one. -/
theorem C124_field_false :
    (∃ s f, Accepted true s [f] ∧ Accepted true s [{ f with mode := some .sync }] ∧ Accepted true s [{ f with modeSync := some true }] ∧
      genMode ⟨prepare s [{ f with mode := some .sync }], { f with mode := some .sync }⟩ = .sync ∧
      genMode ⟨prepare s [{ f with modeSync := some true }], { f with modeSync := some true }⟩ = .async) ∧
    (∃ s f, Accepted true s [f] ∧ Accepted true s [{ f with mode := some .async }] ∧ Accepted true s [{ f with modeAsync := some true }] ∧
      genMode ⟨prepare s [{ f with mode := some .async }], { f with mode := some .async }⟩ = .plain ∧
      genMode ⟨prepare s [{ f with modeAsync := some true }], { f with modeAsync := some true }⟩ = .async) :=
  ⟨⟨{ modeAsync := some true }, { ident := "a", lazy := some {} }, by decide +kernel⟩,
    ⟨{}, { ident := "a", lazy := some {} }, by decide +kernel⟩⟩

end Verif.Props.ModeArg
