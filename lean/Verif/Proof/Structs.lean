import Verif.Spec.Structs
import Verif.Props.Builder
/-
Lemmas on the generated structs and struct expressions.
-/
namespace Verif.Proof.Structs
open Verif.Model.Args Verif.Model.Structs Verif.Model.Init Verif.Spec.Structs
open Verif.Proof.Builder
open Verif.Props.Builder (ident_inj)

variable {s : StructArgs} {fs : List FieldArgs}

theorem own_names (c : Ctx) : (fieldsOf c .own).map (·.1) = c.allFields.map (·.ident) := by
  simp [fieldsOf, ownField]

theorem extra_eq (s : StructArgs) (fs : List FieldArgs) : (prepare s fs).extra =
    if s.isRefCounted then (myselfField s).toList.map hidden else [] := rfl

theorem mem_extra {f : FieldArgs} (h : f ∈ (prepare s fs).extra) :
    s.isRefCounted = true ∧ ∃ n, myselfField s = some n ∧ f = hidden n := by
  rw [extra_eq] at h
  split at h
  · rename_i hr
    obtain ⟨n, hn, rfl⟩ := List.mem_map.1 h
    exact ⟨hr, n, by simpa using hn, rfl⟩
  · cases h

theorem rc_myself (h : s.isRefCounted = true) : ∃ n, myselfField s = some n := by
  unfold StructArgs.isRefCounted at h
  cases hr : s.rc with
  | none => simp [hr] at h
  | some r => exact ⟨"__weak_" ++ r.name.getD "myself", by simp [myselfField, hr]⟩

theorem builderFields_eq (s : StructArgs) (fs : List FieldArgs) :
    Model.Builder.builderFields (prepare s fs) = fs.filter (fun f => !f.skip) := by
  unfold Model.Builder.builderFields Ctx.allFields
  rw [List.filter_append]
  have : (prepare s fs).extra.filter (fun f => !f.isSkipped) = [] := by
    rw [List.filter_eq_nil_iff]
    intro f hf
    obtain ⟨_, n, _, rfl⟩ := mem_extra hf
    simp [hidden, FieldArgs.isSkipped]
  rw [this, List.nil_append]
  rfl

theorem hidden_serde (n : String) : (FCtx.mk (prepare s fs) (hidden n)).isSerde = false := by
  simp [FCtx.isSerde, hidden, FieldArgs.isSkipped]

theorem filter_nodup {l : List FieldArgs} (p : FieldArgs → Bool) (h : (l.map (·.ident)).Nodup) :
    ((l.filter p).map (·.ident)).Nodup := List.Sublist.nodup (List.Sublist.map _ List.filter_sublist) h

theorem fields_nodup (hd : ((prepare s fs).allFields.map (·.ident)).Nodup) : (fs.map (·.ident)).Nodup := by
  unfold Ctx.allFields at hd
  rw [List.map_append, List.nodup_append] at hd
  exact hd.2.1

/-- The names in `Builder::new()` and `build()` with the self reference in front. -/
theorem myself_nodup (hd : ((prepare s fs).allFields.map (·.ident)).Nodup) (hr : s.isRefCounted = true) :
    ((myselfField s).toList ++ (fs.filter (fun f => !f.skip)).map (·.ident)).Nodup := by
  obtain ⟨n, hn⟩ := rc_myself hr
  have he : (prepare s fs).allFields = hidden n :: fs := by
    unfold Ctx.allFields
    rw [extra_eq, if_pos hr, hn]
    rfl
  rw [he, List.map_cons, List.nodup_cons] at hd
  rw [hn]
  refine List.nodup_cons.2 ⟨?_, filter_nodup _ hd.2⟩
  intro h
  obtain ⟨f, hf, hi⟩ := List.mem_map.1 h
  exact hd.1 (List.mem_map.2 ⟨f, (List.mem_filter.1 hf).1, hi⟩)

theorem all_append {α : Type} {P : α → Prop} {a b : List α} :
    (∀ x ∈ a ++ b, P x) ↔ (∀ x ∈ a, P x) ∧ ∀ x ∈ b, P x := List.forall_mem_append

theorem all_if {α : Type} {P : α → Prop} {b : Bool} {x : α} :
    (∀ y ∈ (if b = true then [x] else []), P y) ↔ (b = true → P x) := by
  cases b <;> simp

/-- The condition on an expression. -/
abbrev Ok (c : Ctx) (e : Expr) : Prop := Complete ((fieldsOf c e.of).map (·.1)) (hasDefault c e.of) e

theorem default_ok (c : Ctx) (hd : (c.allFields.map (·.ident)).Nodup) : ∀ e ∈ defaultExpr c, Ok c e := by
  unfold defaultExpr
  rw [all_if]
  intro _
  refine ⟨hd, ?_, ?_, by simp⟩
  · intro n hn
    rw [own_names]
    exact hn
  · intro _ n hn
    rw [own_names] at hn
    exact hn

theorem allFields_ne : (prepare s fs).allFields ≠ [] ↔ fs ≠ [] ∨ s.isRefCounted = true := by
  unfold Ctx.allFields
  rw [extra_eq]
  by_cases hr : s.isRefCounted = true
  · obtain ⟨n, hn⟩ := rc_myself hr
    simp [hr, hn]
  · simp only [if_neg hr]
    simp only [hr]
    simp [prepare]

theorem new_ok : (∀ e ∈ newExpr (prepare s fs), Ok (prepare s fs) e) ↔
    ((prepare s fs).needsDefault = true → fs ≠ [] ∨ s.isRefCounted = true) := by
  unfold newExpr
  rw [all_if]
  refine imp_congr_right fun hn => ?_
  rw [← allFields_ne]
  constructor
  · intro h
    have := h.fromRest rfl
    simp only [hasDefault, Model.Default.hasDefaultImpl, Bool.and_eq_true, Bool.not_eq_true'] at this
    intro hc
    rw [hc] at this
    simp at this
  · intro h
    refine ⟨?_, ?_, by simp, ?_⟩
    · cases hm : myselfField (prepare s fs).args <;> split <;> simp
    · intro n hx
      rw [own_names]
      dsimp only at hx
      split at hx
      · rename_i hr
        have hm : hidden n ∈ (prepare s fs).extra := by
          rw [extra_eq, if_pos (show s.isRefCounted = true from hr)]
          exact List.mem_map_of_mem hx
        unfold Ctx.allFields
        exact List.mem_map.2 ⟨_, List.mem_append_left _ hm, rfl⟩
      · cases hx
    · intro _
      simp only [hasDefault, Model.Default.hasDefaultImpl, hn, Bool.true_and, Bool.not_eq_true']
      cases hl : (prepare s fs).allFields with
      | nil => exact absurd hl h
      | cons => rfl

theorem builderNew_ok (hd : ((prepare s fs).allFields.map (·.ident)).Nodup) :
    (∀ e ∈ builderNewExpr (prepare s fs), Ok (prepare s fs) e) ↔
      ((prepare s fs).needsBuilderStruct = true → ∀ h, s.rc = some h → h.isTrue = true) := by
  unfold builderNewExpr
  rw [all_if]
  refine imp_congr_right fun _ => ?_
  have hdecl : (fieldsOf (prepare s fs) .builder).map (·.1) =
      (if s.isRefCounted then (myselfField s).toList else []) ++ (fs.filter (fun f => !f.skip)).map (·.ident) := by
    unfold fieldsOf
    rw [builderFields_eq, List.map_append, List.map_map]
    have : (prepare s fs).args = s := rfl
    rw [this]
    split <;> simp [Function.comp_def]
  constructor
  · intro h r hr
    by_cases ht : r.isTrue = true
    · exact ht
    exfalso
    have hn : s.isRefCounted = false := by simp [StructArgs.isRefCounted, hr, ht]
    have hth := h.there
    have hon := h.once
    rw [hdecl, hn] at hth
    dsimp only at hth hon
    rw [builderFields_eq] at hth hon
    have hm : myselfField (prepare s fs).args = some ("__weak_" ++ r.name.getD "myself") := by
      simp [myselfField, prepare, hr]
    rw [hm] at hth hon
    have hin := hth _ (List.mem_append_left _ (List.mem_singleton.2 rfl))
    rw [if_neg (by simp), List.nil_append] at hin
    exact (List.nodup_cons.1 hon).1 hin
  · intro h
    have hE : (myselfField s).toList ++ (fs.filter (fun f => !f.skip)).map (·.ident) =
        (fieldsOf (prepare s fs) .builder).map (·.1) := by
      rw [hdecl]
      cases hr : s.rc with
      | none => simp [StructArgs.isRefCounted, myselfField, hr]
      | some r => simp [StructArgs.isRefCounted, hr, h r hr]
    refine ⟨?_, ?_, ?_, by simp⟩
    · dsimp only
      rw [builderFields_eq]
      by_cases hr : s.isRefCounted = true
      · exact myself_nodup hd hr
      · have : myselfField s = none := by
          cases hc : s.rc with
          | none => simp [myselfField, hc]
          | some r => exact absurd (by simp [StructArgs.isRefCounted, hc, h r hc]) hr
        have e : (prepare s fs).args = s := rfl
        rw [e, this]
        exact filter_nodup _ (fields_nodup hd)
    · intro n hn
      dsimp only at hn
      rw [builderFields_eq] at hn
      exact hE ▸ hn
    · intro _ n hn
      dsimp only
      rw [builderFields_eq]
      exact hE.symm ▸ hn

theorem build_ok (hd : ((prepare s fs).allFields.map (·.ident)).Nodup) :
    (∀ e ∈ buildExpr (prepare s fs), Ok (prepare s fs) e) ↔
      ((prepare s fs).needsBuilderStruct = true → ∀ f ∈ fs, f.skip = false) := by
  unfold buildExpr
  rw [all_if]
  refine imp_congr_right fun _ => ?_
  have hcon : (if (prepare s fs).args.isRefCounted then (myselfField (prepare s fs).args).toList else []) ++
      (Model.Builder.builderFields (prepare s fs)).map (·.ident) = Model.Builder.constructed (prepare s fs) := by
    unfold Model.Builder.constructed
    congr 1
    have e : (prepare s fs).args = s := rfl
    rw [e, extra_eq]
    by_cases hr : s.isRefCounted = true
    · simp [hr, hidden, Function.comp_def]
    · simp [hr]
  have hiff := Verif.Props.Builder.C53_complete_iff (prepare s fs) hd (by
    intro f hf
    obtain ⟨hr, n, _, rfl⟩ := mem_extra hf
    exact ⟨hr, rfl⟩)
  rw [show (prepare s fs).fields = fs from rfl] at hiff
  rw [← hiff]
  constructor
  · intro h f hf
    have := h.all rfl f.ident (by rw [own_names]; exact List.mem_map_of_mem hf)
    dsimp only at this
    rwa [hcon] at this
  · intro h
    refine ⟨?_, ?_, ?_, by simp⟩
    · dsimp only
      rw [builderFields_eq]
      have e : (prepare s fs).args = s := rfl
      rw [e]
      by_cases hr : s.isRefCounted = true
      · rw [if_pos hr]
        exact myself_nodup hd hr
      · rw [if_neg hr, List.nil_append]
        exact filter_nodup _ (fields_nodup hd)
    · intro n hn
      dsimp only at hn
      rw [hcon] at hn
      rw [own_names]
      unfold Model.Builder.constructed at hn
      rcases List.mem_append.1 hn with hn | hn
      · split at hn
        · obtain ⟨f, hf, rfl⟩ := List.mem_map.1 hn
          exact List.mem_map.2 ⟨f, List.mem_append_left _ hf, rfl⟩
        · cases hn
      · obtain ⟨f, hf, rfl⟩ := List.mem_map.1 hn
        exact List.mem_map.2 ⟨f, (List.mem_filter.1 hf).1, rfl⟩
    · intro _ n hn
      rw [own_names] at hn
      obtain ⟨f, hf, rfl⟩ := List.mem_map.1 hn
      dsimp only
      rw [hcon]
      exact h f hf

theorem shadow_names (c : Ctx) : (fieldsOf c .shadow).map (·.1) = (Model.Serde.shadowFields c).map (·.ident) := by
  simp [fieldsOf, Function.comp_def]

theorem shadowDefault_ok (c : Ctx) (hd : (c.allFields.map (·.ident)).Nodup) : ∀ e ∈ shadowDefaultExpr c, Ok c e := by
  unfold shadowDefaultExpr
  rw [all_if]
  intro _
  refine ⟨filter_nodup _ hd, ?_, ?_, by simp⟩
  · intro n hn
    rw [shadow_names]
    exact hn
  · intro _ n hn
    rw [shadow_names] at hn
    exact hn

theorem mem_all {f : FieldArgs} : f ∈ (prepare s fs).allFields ↔ f ∈ (prepare s fs).extra ∨ f ∈ fs := by
  unfold Ctx.allFields
  exact List.mem_append

theorem from_ok (hd : ((prepare s fs).allFields.map (·.ident)).Nodup)
    (hn : (prepare s fs).needsDefault = true → fs ≠ [] ∨ s.isRefCounted = true) :
    (∀ e ∈ fromExpr (prepare s fs), Ok (prepare s fs) e) ↔
      ((s.isSerde = true ∧ s.needsDeserialize = true) → (prepare s fs).needsDefault = true ∨
        (s.isRefCounted = false ∧ ∀ f ∈ fs, (FCtx.mk (prepare s fs) f).isSerde = true ∧
          (FCtx.mk (prepare s fs) f).needsDeserialize = true)) := by
  unfold fromExpr
  rw [all_if, Bool.and_eq_true, show (prepare s fs).args = s from rfl]
  refine imp_congr_right fun _ => ?_
  constructor
  · intro h
    by_cases hdf : (prepare s fs).needsDefault = true
    · exact Or.inl hdf
    refine Or.inr ?_
    have hall : ∀ f ∈ (prepare s fs).allFields, Model.Serde.deserialised ⟨prepare s fs, f⟩ = true := by
      intro f hf
      have := h.all (by simpa using hdf) f.ident (by rw [own_names]; exact List.mem_map_of_mem hf)
      dsimp only at this
      obtain ⟨g, hg, hi⟩ := List.mem_map.1 this
      obtain ⟨hg, hp⟩ := List.mem_filter.1 hg
      have := ident_inj _ g f hd hg hf hi
      subst this
      exact hp
    constructor
    · cases hr : s.isRefCounted
      · rfl
      · obtain ⟨n, hm⟩ := rc_myself hr
        have := hall (hidden n) (mem_all.2 (Or.inl (by rw [extra_eq, if_pos hr, hm]; exact List.mem_singleton.2 rfl)))
        unfold Model.Serde.deserialised at this
        rw [hidden_serde] at this
        cases this
    · intro f hf
      have := hall f (mem_all.2 (Or.inr hf))
      unfold Model.Serde.deserialised at this
      simpa using this
  · intro h
    refine ⟨filter_nodup _ hd, ?_, ?_, ?_⟩
    · intro n hx
      rw [own_names]
      obtain ⟨f, hf, rfl⟩ := List.mem_map.1 hx
      exact List.mem_map_of_mem (List.mem_filter.1 hf).1
    · intro hr n hx
      dsimp only at hr ⊢
      rw [own_names] at hx
      obtain ⟨f, hf, rfl⟩ := List.mem_map.1 hx
      rcases h with h | ⟨h1, h2⟩
      · rw [h] at hr
        cases hr
      · refine List.mem_map_of_mem (List.mem_filter.2 ⟨hf, ?_⟩)
        rcases mem_all.1 hf with hf | hf
        · rw [(mem_extra hf).1] at h1
          cases h1
        · unfold Model.Serde.deserialised
          rw [(h2 f hf).1, (h2 f hf).2]
          rfl
    · intro hr
      dsimp only at hr
      have := allFields_ne.2 (hn hr)
      simp only [hasDefault, Model.Default.hasDefaultImpl, hr, Bool.true_and, Bool.not_eq_true']
      cases hl : (prepare s fs).allFields with
      | nil => exact absurd hl this
      | cons => rfl

theorem into_ok (hd : ((prepare s fs).allFields.map (·.ident)).Nodup) :
    (∀ e ∈ intoExpr (prepare s fs), Ok (prepare s fs) e) ↔
      ((s.isSerde = true ∧ s.needsSerialize = true) → ∀ f ∈ fs, (FCtx.mk (prepare s fs) f).isSerde = true →
        (FCtx.mk (prepare s fs) f).needsSerialize = true) := by
  unfold intoExpr
  rw [all_if, Bool.and_eq_true, show (prepare s fs).args = s from rfl]
  refine imp_congr_right fun _ => ?_
  constructor
  · intro h f hf hs
    have hfa : f ∈ (prepare s fs).allFields := mem_all.2 (Or.inr hf)
    have := h.all rfl f.ident (by
      rw [shadow_names]
      exact List.mem_map_of_mem (List.mem_filter.2 ⟨hfa, hs⟩))
    dsimp only at this
    obtain ⟨g, hg, hi⟩ := List.mem_map.1 this
    obtain ⟨hg, hp⟩ := List.mem_filter.1 hg
    have := ident_inj _ g f hd hg hfa hi
    subst this
    simpa [hs] using hp
  · intro h
    refine ⟨filter_nodup _ hd, ?_, ?_, by simp⟩
    · intro n hx
      rw [shadow_names]
      obtain ⟨f, hf, rfl⟩ := List.mem_map.1 hx
      obtain ⟨hf, hp⟩ := List.mem_filter.1 hf
      rw [Bool.and_eq_true] at hp
      exact List.mem_map_of_mem (List.mem_filter.2 ⟨hf, hp.1⟩)
    · intro _ n hx
      rw [shadow_names] at hx
      obtain ⟨f, hf, rfl⟩ := List.mem_map.1 hx
      obtain ⟨hf, hp⟩ := List.mem_filter.1 hf
      refine List.mem_map_of_mem (List.mem_filter.2 ⟨hf, ?_⟩)
      rcases mem_all.1 hf with hf | hf
      · obtain ⟨_, n, _, rfl⟩ := mem_extra hf
        rw [hidden_serde] at hp
        cases hp
      · rw [hp, h f hf hp]
        rfl

end Verif.Proof.Structs
