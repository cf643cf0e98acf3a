import Verif.Spec.LockOnly
import Verif.Proof.LockOnly
import Verif.Props.Lower
/-
C123: `lock` of a struct is `reader` and `writer` without their methods.
-/
namespace Verif.Props.LockOnly
open Verif.Model.Args Verif.Model.Init Verif.Model.Emit Verif.Model Verif.Model.Expand Verif.Model.Exclusive
open Verif.Spec.Lower Verif.Spec.LockOnly Verif.Spec.Expansion Verif.Proof.Lower Verif.Proof.LockOnly Verif.Props.Expand Verif.Props.Lower
open Verif.Model.Structs (prepare)

variable {s : StructArgs} {fs : List FieldArgs}

private theorem struct_sync (h : Guarded s) : (lockOnly s).isSync = s.isSync := by
  obtain ⟨h1, h2, h3, h4⟩ := h
  unfold StructArgs.isSync StructArgs.isAsync lockOnly
  rw [h1]
  rcases h2 with h2 | h2 <;> rcases h3 with h3 | h3
  · rcases h4 with h4 | h4
    · exact absurd h2 h4
    · exact absurd h3 h4
  all_goals rw [h2, h3]; cases s.modeSync <;> cases s.mode <;> cases s.modeAsync <;> rfl

private theorem rather (h : Guarded s) (ex : List FieldArgs) :
    (Ctx.mk (lockOnly s) fs ex).isRatherSync = (Ctx.mk s fs ex).isRatherSync := by
  unfold Ctx.isRatherSync Ctx.allFields
  dsimp only
  rw [struct_sync h]

private theorem field (h : Guarded s) (ex : List FieldArgs) {f : FieldArgs} (hf : Follows f) :
    AlikeIf False ⟨⟨s, fs, ex⟩, f⟩ ⟨⟨lockOnly s, fs, ex⟩, f⟩ := by
  have hs : (FCtx.mk ⟨lockOnly s, fs, ex⟩ f).isSync = (FCtx.mk ⟨s, fs, ex⟩ f).isSync := by
    unfold FCtx.isSync
    rw [rather h]
  have hl : (FCtx.mk ⟨lockOnly s, fs, ex⟩ f).needsLock = (FCtx.mk ⟨s, fs, ex⟩ f).needsLock := by
    obtain ⟨h1, h2, h3, h4⟩ := h
    unfold FCtx.needsLock FieldArgs.needsLock StructArgs.needsLock
    cases hk : f.lock with
    | some b => rfl
    | none =>
      have : (FCtx.mk ⟨s, fs, ex⟩ f).needsReader = true ∨ (FCtx.mk ⟨s, fs, ex⟩ f).needsWriter = true := by
        unfold FCtx.needsReader FCtx.needsWriter FieldArgs.needsReader FieldArgs.needsWriter StructArgs.needsReader
          StructArgs.needsWriter
        rcases h4 with h4 | h4
        · left
          rcases h2 with h2 | h2
          · exact absurd h2 h4
          · cases hr : f.reader with
            | none => simp [h2, Helper.isTrue]
            | some r => simp [Helper.isTrue, hf.1 r hr]
        · right
          rcases h3 with h3 | h3
          · exact absurd h3 h4
          · cases hr : f.writer with
            | none => simp [h3, Helper.isTrue]
            | some r => simp [Helper.isTrue, hf.2 r hr]
      show true = _
      dsimp only
      rw [h1]
      rcases this with this | this <;> simp [this]
  obtain ⟨h1, h2, h3, -⟩ := h
  rcases h2 with h2 | h2 <;> rcases h3 with h3 | h3
  all_goals
    constructor <;> first
      | rfl
      | assumption
      | exact fun h => h.elim
      | exact fun _ => rfl
      | (intro k; cases k <;> first
          | rfl
          | (simp [FCtx.publicMode, FieldArgs.publicMode, StructArgs.publicMode, attributesFn, FieldArgs.getHelper,
              StructArgs.getHelper, Helper.publicMode, Args.publicMode, lockOnly, h2, h3] <;> rfl))

private theorem hidden_follows {f : FieldArgs} (h : f ∈ (prepare s fs).extra) : Follows f := by
  unfold prepare at h
  dsimp only at h
  split at h
  · obtain ⟨n, -, rfl⟩ := List.mem_map.mp h
    constructor <;> (intro h hh; cases hh)
  · cases h

private theorem prepare_eq : prepare (lockOnly s) fs = ⟨lockOnly s, fs, (prepare s fs).extra⟩ := rfl

private theorem alike (h : Guarded s) (hf : ∀ f ∈ fs, Follows f) :
    AlikeStructIf False (prepare s fs) (prepare (lockOnly s) fs) := by
  rw [prepare_eq]
  refine ⟨rfl, ?_, rfl, ?_⟩
  · unfold Ctx.needsDefault
    rw [rather h]
    rfl
  · have := Both.map (R := fun f g => AlikeIf False ⟨prepare s fs, f⟩ ⟨⟨lockOnly s, fs, (prepare s fs).extra⟩, g⟩)
      (as := (prepare s fs).allFields) (u := id) (fun f hm => field h _ (by
        rcases List.mem_append.mp hm with hm | hm
        · exact hidden_follows hm
        · exact hf f hm))
    rwa [List.map_id] at this

private theorem accepted (h : Guarded s) : Accepted true s fs ↔ Accepted true (lockOnly s) fs := by
  unfold Accepted
  have : acceptStructFull (lockOnly s) = acceptStructFull s := by
    unfold acceptStructFull
    have h1 : acceptStruct (lockOnly s) = acceptStruct s := rfl
    have h2 : s.reader.all acceptHelper = true := by rcases h.reader with h | h <;> rw [h] <;> rfl
    have h3 : s.writer.all acceptHelper = true := by rcases h.writer with h | h <;> rw [h] <;> rfl
    rw [h1, h2, h3]
    rfl
  rw [this]

/-- **C123.** If no field switches `reader` or `writer` off, then `lock` in place of these arguments of the struct leaves all that
is written for each field as it is, and the expansion and its errors too, but for the methods `reader` and `writer`. -/
theorem C123_rest (h : Guarded s) (hf : ∀ f ∈ fs, Follows f) (hn : ((prepare s fs).allFields.map (·.ident)).Nodup) (l : Lits) :
    rest (fxstruct true (lockOnly s) fs l) = rest (fxstruct true s fs l) ∧
      (whole (lockOnly s) fs l).2 = (whole s fs l).2 :=
  rest_eq l (alike h hf) hn (accepted h)

section
variable {l : Lits} {out : List Piece} {f : FieldArgs}

private theorem wants (o : Option Helper) (h : ∀ r, o = some r → r.off = false) (d : Option Bool) :
    ((o.map (·.isTrue)).or d).getD false = (o.isSome || d.getD false) := by
  cases o with
  | none => cases d <;> rfl
  | some r => simp [Helper.isTrue, h r rfl]

/-- **C123.** With `lock` only fields which ask themselves get a method, with `reader` all fields under a lock. -/
theorem C123_methods (h : Guarded s) (hf : ∀ f ∈ fs, Follows f) (hn : ((prepare s fs).allFields.map (·.ident)).Nodup)
    (hm : f ∈ fs) :
    (fxstruct true (lockOnly s) fs l = .code out [] →
      (((f.ident, .reader) ∈ methods out ↔ (f.skip = false ∧ (FCtx.mk (prepare s fs) f).isSync = true) ∧ f.reader ≠ none) ∧
       ((f.ident, .writer) ∈ methods out ↔ (f.skip = false ∧ (FCtx.mk (prepare s fs) f).isSync = true) ∧ f.writer ≠ none))) ∧
    (fxstruct true s fs l = .code out [] →
      (((f.ident, .reader) ∈ methods out ↔
          (f.skip = false ∧ (FCtx.mk (prepare s fs) f).isSync = true) ∧ (f.reader ≠ none ∨ s.reader ≠ none)) ∧
       ((f.ident, .writer) ∈ methods out ↔
          (f.skip = false ∧ (FCtx.mk (prepare s fs) f).isSync = true) ∧ (f.writer ≠ none ∨ s.writer ≠ none)))) := by
  have hin : f ∈ (prepare s fs).allFields := List.mem_append.mpr (.inr hm)
  have hs : (FCtx.mk (prepare (lockOnly s) fs) f).isSync = (FCtx.mk (prepare s fs) f).isSync :=
    (field h (prepare s fs).extra (hf f hm)).sync
  have hr := wants f.reader (hf f hm).1
  have hw := wants f.writer (hf f hm).2
  have h1 : s.reader.map (·.isTrue) = s.reader.map fun _ => true := by rcases h.reader with h | h <;> rw [h] <;> rfl
  have h2 : s.writer.map (·.isTrue) = s.writer.map fun _ => true := by rcases h.writer with h | h <;> rw [h] <;> rfl
  constructor
  · intro hc
    rw [C84_methods_iff (s := lockOnly s) hn hc f hin, C84_methods_iff (s := lockOnly s) hn hc f hin]
    unfold emits FieldArgs.isSkipped FCtx.needsReader FCtx.needsWriter FieldArgs.needsReader FieldArgs.needsWriter
      StructArgs.needsReader StructArgs.needsWriter
    rw [hs, hr, hw]
    cases f.skip <;> cases (FCtx.mk (prepare s fs) f).isSync <;> cases f.reader <;> cases f.writer <;>
      simp [prepare, lockOnly]
  · intro hc
    rw [C84_methods_iff hn hc f hin, C84_methods_iff hn hc f hin]
    unfold emits FieldArgs.isSkipped FCtx.needsReader FCtx.needsWriter FieldArgs.needsReader FieldArgs.needsWriter
      StructArgs.needsReader StructArgs.needsWriter
    rw [hr, hw, show (prepare s fs).args = s from rfl, h1, h2]
    cases f.skip <;> cases (FCtx.mk (prepare s fs) f).isSync <;> cases f.reader <;> cases f.writer <;> cases s.reader <;>
      cases s.writer <;> simp

/-- **C123.** `writer` of a struct does nothing beside `reader(off)`, unless the struct or the field says more of the mode: the
first of the two decides that the struct is plain (util/args.rs 116). -/
theorem C123_writer_lost (hn : ((prepare s fs).allFields.map (·.ident)).Nodup) (h1 : s.modeSync = none) (h2 : s.mode = none)
    (h3 : s.modeAsync = none) (h4 : s.lock = none) {r : Helper} (h5 : s.reader = some r) (h6 : r.off = true)
    (hc : fxstruct true s fs l = .code out []) (hm : f ∈ fs) (hs : f.isSync = none) : (f.ident, .writer) ∉ methods out := by
  rw [C84_methods_iff hn hc f (List.mem_append.mpr (.inr hm))]
  have : (FCtx.mk (prepare s fs) f).isSync = false := by
    unfold FCtx.isSync Ctx.isRatherSync
    simp [hs, prepare, StructArgs.isSync, StructArgs.isAsync, h1, h2, h3, h4, h5, Helper.isTrue, h6]
  simp [emits, this]

end

/-! ### Cases -/

def exStruct : StructArgs := { reader := some {}, writer := some {}, rc := some {}, accessor := some {} }
def exFields : List FieldArgs := [{ ident := "a" }, { ident := "b", lazy := some {}, writer := some {} }, { ident := "c", skip := true }]

theorem exStruct_guarded : Guarded exStruct := ⟨rfl, .inr rfl, .inr rfl, .inl (by decide)⟩
theorem exFields_follow : ∀ f ∈ exFields, Follows f := by
  intro f hf
  simp only [exFields, List.mem_cons, List.not_mem_nil, or_false] at hf
  rcases hf with rfl | rfl | rfl <;> constructor <;> intro h hh <;> cases hh <;> rfl

/-- Four methods with `reader` and `writer`, one with `lock`, and a lock around `a` both times. -/
example : rest (fxstruct true (lockOnly exStruct) exFields {}) = rest (fxstruct true exStruct exFields {}) ∧
    (∃ out, fxstruct true exStruct exFields {} = .code out [] ∧ (out.filter guardMethod).length = 4) ∧
    (∃ out, fxstruct true (lockOnly exStruct) exFields {} = .code out [] ∧ out.filter guardMethod = [.method "b" .writer]) ∧
    declType ⟨prepare (lockOnly exStruct) exFields, { ident := "a" }⟩ = .ok (.lock false .t) :=
  ⟨(C123_rest exStruct_guarded exFields_follow (by decide +kernel) {}).1, ⟨_, rfl, by decide +kernel⟩, ⟨_, rfl, by decide +kernel⟩,
    by decide +kernel⟩

/-- The condition on the fields is needed: `reader(off)` of a field takes the lock away with the method, and with `lock` it does
not. -/
theorem C123_off_differs : ∃ (s : StructArgs) (fs : List FieldArgs), Guarded s ∧ Accepted true s fs ∧
    (whole (lockOnly s) fs {}).2 ≠ (whole s fs {}).2 :=
  ⟨{ reader := some {} }, [{ ident := "a", reader := some { off := true } }], ⟨rfl, .inr rfl, .inl rfl, .inl (by decide)⟩, by decide +kernel,
    fun h => by
      have := congrArg (fun l => l.map fun z : Sheet => z.code.decl) h
      revert this
      simp only [whole, List.map_map]
      decide +kernel⟩

/-- `#[fxstruct(reader(off), writer)]`: no method. The same arguments at the field: a writer. -/
example : fxstruct true { reader := some { off := true }, writer := some {}, noNew := some true } [{ ident := "a" }] {} =
      .code [.dflt "a", .decl "a"] [] ∧
    fxstruct true { noNew := some true } [{ ident := "a", reader := some { off := true }, writer := some {} }] {} =
      .code [.dflt "a", .method "a" .writer, .decl "a"] [] := by decide +kernel

end Verif.Props.LockOnly
