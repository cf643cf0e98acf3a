import Verif.Spec.LockOnly
import Verif.Proof.Lower
/-
Structs which answer alike but for `reader` and `writer`. Helpers for C123.
-/
namespace Verif.Proof.LockOnly
open Verif.Model.Args Verif.Model.Init Verif.Model.Emit Verif.Model Verif.Model.Expand
open Verif.Spec.Expansion Verif.Spec.LockOnly Verif.Proof.Expand Verif.Proof.Lower Verif.Props.Expand

/-- Without the two methods. -/
abbrev keep (l : List Piece) : List Piece := l.filter fun p => !guardMethod p

variable {c d : Ctx} (h : AlikeStructIf False c d) (l : Lits)

theorem keep_append (a b : List Piece) : keep (a ++ b) = keep a ++ keep b := List.filter_append ..

theorem keep_left {a b : List Piece} (h : keep a = keep b) (t : List Piece) : keep (a ++ t) = keep (b ++ t) := by
  rw [keep_append, keep_append, h]

theorem keep_cons {a b : List Piece} (p : Piece) (h : keep a = keep b) : keep (p :: a) = keep (p :: b) := by
  rw [show p :: a = [p] ++ a from rfl, show p :: b = [p] ++ b from rfl, keep_append, keep_append, h]

theorem keep_flatMap {α : Type} (f : α → List Piece) (as : List α) : keep (as.flatMap f) = as.flatMap fun a => keep (f a) := by
  induction as with
  | nil => rfl
  | cons a as ih => rw [List.flatMap_cons, keep_append, ih, List.flatMap_cons]

theorem keep_defaults (out : List Piece) : defaultsOf (keep out) = defaultsOf out := by
  unfold defaultsOf keep
  rw [List.filterMap_filter]
  congr 1
  funext p
  cases p with
  | method f k => cases k <;> rfl
  | _ => rfl

include h

theorem emits_eq {f g : FieldArgs} (a : AlikeIf False ⟨c, f⟩ ⟨d, g⟩) {k : Kind} (h1 : k ≠ .reader) (h2 : k ≠ .writer) :
    emits ⟨d, g⟩ k = emits ⟨c, f⟩ k := by
  unfold emits
  rw [a.skipped]
  cases hk : (FCtx.mk c f).field.skip
  · cases k <;> first
      | exact absurd rfl h1
      | exact absurd rfl h2
      | simp only [a.accessor, a.accessorMut hk, a.sync, a.setter hk, a.clearer hk, a.predicate hk, a.lazy, a.optional, a.forced,
          a.builder, h.builder]
  · rw [show (FCtx.mk c f).field.isSkipped = true from hk]; rfl

theorem methods_keep {f g : FieldArgs} (a : AlikeIf False ⟨c, f⟩ ⟨d, g⟩) : keep (methodPieces d g) = keep (methodPieces c f) := by
  have hi : g.ident = f.ident := a.ident
  have e : ∀ (c : Ctx) (f : FieldArgs), keep (methodPieces c f) =
      ([Kind.accessor, .accessorMut, .setter, .clearer, .predicate].filter (emits ⟨c, f⟩)).map (.method f.ident) := by
    intro c f
    unfold keep methodPieces methodKinds
    simp only [List.filter_cons, List.filter_nil]
    cases emits ⟨c, f⟩ .accessor <;> cases emits ⟨c, f⟩ .accessorMut <;> cases emits ⟨c, f⟩ .reader <;>
      cases emits ⟨c, f⟩ .writer <;> cases emits ⟨c, f⟩ .setter <;> cases emits ⟨c, f⟩ .clearer <;>
      cases emits ⟨c, f⟩ .predicate <;> rfl
  rw [e, e, hi]
  congr 1
  apply List.filter_congr
  intro k hk
  exact emits_eq h a (by rintro rfl; revert hk; decide) (by rintro rfl; revert hk; decide)

theorem prepared_keep {f g : FieldArgs} (a : AlikeIf False ⟨c, f⟩ ⟨d, g⟩) : keep (prepared d g) = keep (prepared c f) := by
  have hs : g.isSkipped = f.isSkipped := a.skip
  have hi : g.ident = f.ident := a.ident
  have hm : keep (allMethods d g) = keep (allMethods c f) := by
    unfold allMethods builderPieces Builder.hasSetter
    rw [hs, hi, a.sync, a.lazy, a.use, h.builder, a.forced, a.builder]
    split
    · rfl
    · exact keep_left (methods_keep h a) _
  unfold prepared
  rw [a.accessor, a.copy, hi, a.dFails, a.mFail, a.isFaulty, keep_append, keep_append]
  congr 1
  split
  · rfl
  · split
    · rfl
    · exact keep_cons _ (keep_left hm _)

theorem before_keep : keep (before d l) = keep (before c l) := by
  unfold before Serde.shadowFields
  rw [h.fields.over (P := fun f => (FCtx.mk c f).isSerde) (fun f g a => a.isSerde) (F := shadowPieces c l)
      (fun f g a => h.shadow_eq l a),
    h.default, h.builder, (h.whole_eq l).2, h.from_eq.1, h.into_eq]
  refine keep_left (keep_left ?_ _) _
  rw [keep_flatMap, keep_flatMap, h.fields.all (F := fun f => keep (prepared c f)) (fun f g a => prepared_keep h a)]

theorem final_keep : keep (finalOut d l) = keep (finalOut c l) ∧ finalErrs d l = finalErrs c l ∧ panics d = panics c := by
  refine ⟨?_, ?_, ?_⟩
  · unfold finalOut
    rw [← keep_defaults (before d l), before_keep h l, keep_defaults, h.default, h.builder,
      h.fields.over (P := slotReached c) (fun f g a => h.reached a) (F := buildPieces c)
      (fun f g a => by
        have hi : g.ident = f.ident := a.ident
        unfold buildPieces Builder.hasChecker
        rw [a.isFaulty, hi, a.required, a.builder, a.lazy, a.optional, a.hasDefault])]
    exact keep_left (before_keep h l) _
  · unfold finalErrs
    rw [h.errsBefore_eq, h.builder, h.fields.over (P := slotReached c) (fun f g a => h.reached a)
      (F := fun f => blame (faulty ⟨c, f⟩) f) (fun f g a => by rw [a.isFaulty]; exact h.blame_eq a _)]
  · unfold panics
    exact h.fields.some (fun f g a => h.reached a) (fun f g a => by rw [a.isFaulty, a.isBare])

omit h

/-- Such structs are written alike but for the two methods. -/
theorem rest_eq {s t : StructArgs} {fs gs : List FieldArgs} (h : AlikeStructIf False (Structs.prepare s fs) (Structs.prepare t gs))
    (hn : DistinctNames (Structs.prepare s fs)) (ha : Accepted true s fs ↔ Accepted true t gs) :
    rest (fxstruct true t gs l) = rest (fxstruct true s fs l) ∧
      (Structs.prepare t gs).allFields.map (fun f => Spec.Lower.sheet ⟨Structs.prepare t gs, f⟩) =
        (Structs.prepare s fs).allFields.map fun f => Spec.Lower.sheet ⟨Structs.prepare s fs, f⟩ := by
  have hn' : DistinctNames (Structs.prepare t gs) := by
    unfold DistinctNames
    rw [h.fields.each (F := fun f => f.ident) (fun f g a => a.ident)]
    exact hn
  obtain ⟨e1, e2, e3⟩ := final_keep h l
  refine ⟨?_, h.fields.each (F := fun f => Spec.Lower.sheet ⟨Structs.prepare s fs, f⟩) (fun f g a => a.sheet)⟩
  rcases outcome (parsed := true) (l := l) hn with ⟨k, h'⟩ | ⟨k, hp, h'⟩ | ⟨k, hp, h'⟩ <;>
    rcases outcome (parsed := true) (l := l) hn' with ⟨j, k'⟩ | ⟨j, kp, k'⟩ | ⟨j, kp, k'⟩
  · rw [h', k']
  · exact absurd (ha.mpr j) k
  · exact absurd (ha.mpr j) k
  · exact absurd (ha.mp k) j
  · rw [h', k']
  · exact absurd ((panics_iff _).mp (e3.trans ((panics_iff _).mpr hp))) kp
  · exact absurd (ha.mp k) j
  · exact absurd ((panics_iff _).mp (e3.symm.trans ((panics_iff _).mpr kp))) hp
  · rw [h', k']
    simp only [rest]
    rw [e2, show (finalOut _ l).filter _ = keep (finalOut _ l) from rfl, e1]

end Verif.Proof.LockOnly
