import Verif.Spec.Conditional
import Verif.Props.Expand
/-! Which parts an expansion without errors has. -/
namespace Verif.Proof.Conditional
open Verif.Model.Args Verif.Model.Expand Verif.Model.Attrs Verif.Model.Conditional Verif.Spec.Conditional
open Verif.Proof.Expand Verif.Props.Expand Verif.Spec.Expansion
open Verif.Model.Emit (emits)
open Verif.Model.Init (useAsync)

section clean
variable (c : Ctx) (l : Lits) (hy : ∀ f ∈ c.allFields, faulty ⟨c, f⟩ = false) (hw : faultyWhole c l = false)

set_option hygiene false in
local macro "view" : tactic => `(tactic| (
  rw [final_clean _ _ _ hy hw,
    flatMap_congr' _ fun f hf => view_clean _ _ f (hy f hf)]
  simp only [view_shadow, Option.toList_none, Option.toList_some, ite_self, List.append_nil, List.nil_append,
      filterMap_none', flatMap_nil, flatMap_one]))

include hy hw

theorem slots_none (hb : c.needsBuilderStruct = false) : slots (finalOut c l) = [] := by
  unfold slots; view; simp [hb, flatMap_nil]

theorem setters_none (hb : c.needsBuilderStruct = false) : setters (finalOut c l) = [] := by
  unfold setters; view; simp [hb, flatMap_nil]

theorem built_none (hb : c.needsBuilderStruct = false) : built (finalOut c l) = [] := by
  unfold built; view; simp [hb]

theorem checked_none (hb : c.needsBuilderStruct = false) : checked (finalOut c l) = [] := by
  unfold checked; view; simp [hb]

theorem shadowDefaulted_none (hd : c.needsDefault = false) : shadowDefaulted (finalOut c l) = [] := by
  unfold shadowDefaulted; view; simp [hd, flatMap_nil]

theorem fromShadowed_none (hd : (c.args.isSerde && c.args.needsDeserialize) = false) :
    fromShadowed (finalOut c l) = [] := by
  unfold fromShadowed; view; simp [hd]

theorem intoShadowed_none (hd : (c.args.isSerde && c.args.needsSerialize) = false) :
    intoShadowed (finalOut c l) = [] := by
  unfold intoShadowed; view; simp [hd]

theorem lazyInited_none (hd : (c.args.isSerde && c.args.needsSerialize) = false) :
    lazyInited (finalOut c l) = [] := by
  unfold lazyInited; view; simp [hd]

end clean

/-- The parts there are, from the arguments. -/
def Has (c : Ctx) (l : Lits) : Part → Prop
  | .piece (.decl n) => ∃ f ∈ c.allFields, f.ident = n
  | .piece (.dflt n) => c.needsDefault = true ∧ ∃ f ∈ c.allFields, f.ident = n
  | .piece (.copy n) => ∃ f ∈ c.allFields, f.ident = n ∧ ((FCtx.mk c f).needsAccessor && (FCtx.mk c f).isCopy) = true
  | .piece (.method n k) => ∃ f ∈ c.allFields, f.ident = n ∧ (k ≠ .builder ∧ k ≠ .lazy) ∧ emits ⟨c, f⟩ k = true
  | .piece (.wrapper n) => ∃ f ∈ c.allFields, f.ident = n ∧ AsyncLazy c f
  | .piece (.setter n) => c.needsBuilderStruct = true ∧
      ∃ f ∈ c.allFields, f.ident = n ∧ f.skip = false ∧ Verif.Model.Builder.hasSetter ⟨c, f⟩ = true
  | .piece (.slot n) => c.needsBuilderStruct = true ∧ ∃ f ∈ c.allFields, f.ident = n ∧ f.skip = false
  | .piece (.build n) => c.needsBuilderStruct = true ∧ ∃ f ∈ c.allFields, f.ident = n ∧ f.skip = false
  | .piece (.checker n) => c.needsBuilderStruct = true ∧
      ∃ f ∈ c.allFields, f.ident = n ∧ f.skip = false ∧ Verif.Model.Builder.hasChecker ⟨c, f⟩ = true
  | .piece (.shadow n) => c.args.isSerde = true ∧ ∃ f ∈ c.allFields, f.ident = n ∧ (FCtx.mk c f).isSerde = true
  | .piece (.shadowDflt n) => c.args.isSerde = true ∧ c.needsDefault = true ∧
      ∃ f ∈ c.allFields, f.ident = n ∧ (FCtx.mk c f).isSerde = true
  | .piece (.serdeFn n) => ∃ f ∈ c.allFields, f.ident = n ∧ FieldFn c l f
  | .piece (.fromShadow n) => ∃ f ∈ c.allFields, f.ident = n ∧ Reads c f
  | .piece (.intoShadow n) => ∃ f ∈ c.allFields, f.ident = n ∧ Writes c f
  | .piece (.lazyInit n) => ∃ f ∈ c.allFields, f.ident = n ∧ Writes c f ∧ (FCtx.mk c f).isLazy = true
  | .piece .wholeFn => WholeFn c
  | .piece .shadowStruct => c.args.isSerde = true
  | .piece .fromImpl => c.args.isSerde = true ∧ c.args.needsDeserialize = true
  | .piece .intoImpl => c.args.isSerde = true ∧ c.args.needsSerialize = true
  | .piece .newFn => c.needsDefault = true
  | .piece .builderFn => c.needsBuilderStruct = true
  | .piece .defaultImpl => c.needsDefault = true ∧ c.allFields ≠ []
  | .piece .builderStruct => c.needsBuilderStruct = true
  | .structAttr => c.args.isSerde = true ∧ (c.args.needsSerialize = true ∨ c.args.needsDeserialize = true)
  | .builderNew => c.needsBuilderStruct = true
  | .buildFn => c.needsBuilderStruct = true
  | .shadowDefault => c.args.isSerde = true ∧ c.needsDefault = true

theorem mem_view {α : Type} (mk : α → Piece) (sel : Piece → Option α) (h : ∀ p a, sel p = some a ↔ p = mk a)
    (out : List Piece) (a : α) : mk a ∈ out ↔ a ∈ out.filterMap sel := by
  rw [List.mem_filterMap]
  constructor
  · intro hm; exact ⟨_, hm, (h _ _).mpr rfl⟩
  · rintro ⟨p, hm, hp⟩; rwa [← (h _ _).mp hp]

theorem mem_decl (out : List Piece) (n : String) : Piece.decl n ∈ out ↔ n ∈ declared out :=
  mem_view .decl _ (by intro p a; cases p <;> simp) out n
theorem mem_dflt (out : List Piece) (n : String) : Piece.dflt n ∈ out ↔ n ∈ defaulted out :=
  mem_view .dflt _ (by intro p a; cases p <;> simp) out n
theorem mem_copy (out : List Piece) (n : String) : Piece.copy n ∈ out ↔ n ∈ Verif.Spec.Expansion.copyChecked out :=
  mem_view .copy _ (by intro p a; cases p <;> simp) out n
theorem mem_wrapper (out : List Piece) (n : String) : Piece.wrapper n ∈ out ↔ n ∈ wrapped out :=
  mem_view .wrapper _ (by intro p a; cases p <;> simp) out n
theorem mem_setter (out : List Piece) (n : String) : Piece.setter n ∈ out ↔ n ∈ setters out :=
  mem_view .setter _ (by intro p a; cases p <;> simp) out n
theorem mem_slot (out : List Piece) (n : String) : Piece.slot n ∈ out ↔ n ∈ slots out :=
  mem_view .slot _ (by intro p a; cases p <;> simp) out n
theorem mem_build (out : List Piece) (n : String) : Piece.build n ∈ out ↔ n ∈ built out :=
  mem_view .build _ (by intro p a; cases p <;> simp) out n
theorem mem_checker (out : List Piece) (n : String) : Piece.checker n ∈ out ↔ n ∈ checked out :=
  mem_view .checker _ (by intro p a; cases p <;> simp) out n
theorem mem_shadow (out : List Piece) (n : String) : Piece.shadow n ∈ out ↔ n ∈ shadowed out :=
  mem_view .shadow _ (by intro p a; cases p <;> simp) out n
theorem mem_serdeFn (out : List Piece) (n : String) : Piece.serdeFn n ∈ out ↔ n ∈ serdeFns out :=
  mem_view .serdeFn _ (by intro p a; cases p <;> simp) out n
theorem mem_shadowDflt (out : List Piece) (n : String) : Piece.shadowDflt n ∈ out ↔ n ∈ shadowDefaulted out :=
  mem_view .shadowDflt _ (by intro p a; cases p <;> simp) out n
theorem mem_fromShadow (out : List Piece) (n : String) : Piece.fromShadow n ∈ out ↔ n ∈ fromShadowed out :=
  mem_view .fromShadow _ (by intro p a; cases p <;> simp) out n
theorem mem_lazyInit (out : List Piece) (n : String) : Piece.lazyInit n ∈ out ↔ n ∈ lazyInited out :=
  mem_view .lazyInit _ (by intro p a; cases p <;> simp) out n
theorem mem_intoShadow (out : List Piece) (n : String) : Piece.intoShadow n ∈ out ↔ n ∈ intoShadowed out :=
  mem_view .intoShadow _ (by intro p a; cases p <;> simp) out n
theorem mem_method (out : List Piece) (n : String) (k : Kind) : Piece.method n k ∈ out ↔ (n, k) ∈ methods out :=
  mem_view (fun q : String × Kind => Piece.method q.1 q.2) _ (by intro p a; cases p <;> simp [Prod.ext_iff]) out (n, k)

theorem mem_names (as : List FieldArgs) (p : FieldArgs → Bool) (n : String) :
    n ∈ (as.filter p).map (·.ident) ↔ ∃ f ∈ as, f.ident = n ∧ p f = true := by
  simp only [List.mem_map, List.mem_filter]
  constructor
  · rintro ⟨f, ⟨hf, hp⟩, rfl⟩; exact ⟨f, hf, rfl, hp⟩
  · rintro ⟨f, hf, rfl, hp⟩; exact ⟨f, ⟨hf, hp⟩, rfl⟩

theorem piece_mem (c : Ctx) (out : List Piece) (p : Piece) :
    Part.piece p ∈ parts c out ↔ p ∈ out ∧ written out p = true := by
  unfold parts
  simp only [List.mem_append, List.mem_map, List.mem_filter]
  constructor
  · rintro (((⟨q, hq, he⟩ | h) | h) | h)
    · injection he with he; subst he; exact hq
    all_goals (exfalso; revert h; split <;> simp)
  · intro h; exact .inl (.inl (.inl ⟨p, h, rfl⟩))

theorem contains_mem (out : List Piece) (p : Piece) : p ∈ out ↔ out.contains p = true := by
  rw [List.contains_iff_mem]

theorem parts_iff {c : Ctx} {l : Lits} (hy : ∀ f ∈ c.allFields, faulty ⟨c, f⟩ = false) (hw : faultyWhole c l = false)
    (p : Part) : p ∈ parts c (finalOut c l) ↔ Has c l p := by
  have nil_iff : ∀ {P : Prop} {n : String}, ¬ P → (n ∈ ([] : List String) ↔ P) := by
    intro P n h; simp [h]
  cases p with
  | structAttr =>
    unfold parts
    rw [shadowStruct_clean c l hy hw]
    simp only [List.mem_append, List.mem_map, reduceCtorEq, and_false, exists_false, false_or, Has]
    cases c.args.isSerde <;> cases c.args.needsSerialize <;> cases c.args.needsDeserialize <;>
      cases c.needsDefault <;> cases (finalOut c l).contains .builderStruct <;> simp
  | builderNew =>
    unfold parts
    rw [builderStruct_clean c l hy hw]
    simp only [List.mem_append, List.mem_map, reduceCtorEq, and_false, exists_false, false_or, Has]
    generalize (finalOut c l).contains .shadowStruct = a
    cases a <;> cases c.needsBuilderStruct <;> cases c.args.needsSerialize <;> cases c.args.needsDeserialize <;>
      cases c.needsDefault <;> simp
  | buildFn =>
    unfold parts
    rw [builderStruct_clean c l hy hw]
    simp only [List.mem_append, List.mem_map, reduceCtorEq, and_false, exists_false, false_or, Has]
    generalize (finalOut c l).contains .shadowStruct = a
    cases a <;> cases c.needsBuilderStruct <;> cases c.args.needsSerialize <;> cases c.args.needsDeserialize <;>
      cases c.needsDefault <;> simp
  | shadowDefault =>
    unfold parts
    rw [shadowStruct_clean c l hy hw]
    simp only [List.mem_append, List.mem_map, reduceCtorEq, and_false, exists_false, false_or, Has]
    cases c.args.isSerde <;> cases c.args.needsSerialize <;> cases c.args.needsDeserialize <;>
      cases c.needsDefault <;> cases (finalOut c l).contains .builderStruct <;> simp
  | piece p =>
    rw [piece_mem]
    cases p with
    | decl n =>
      rw [mem_decl,
        declared_clean c l hy hw]
      simp [Has, written]
    | dflt n =>
      rw [mem_dflt,
        defaulted_clean c l hy hw]
      simp only [Has, written, defaultImpl_clean c l hy hw, Verif.Model.Default.hasDefaultImpl, List.mem_map]
      constructor
      · rintro ⟨h, hd⟩; simp only [Bool.and_eq_true] at hd; exact ⟨hd.1, h⟩
      · rintro ⟨hd, f, hf, he⟩
        refine ⟨⟨f, hf, he⟩, ?_⟩
        cases hc : c.allFields with
        | nil => rw [hc] at hf; cases hf
        | cons => simp [hd]
    | copy n =>
      rw [mem_copy,
        copy_clean c l hy hw, Verif.Model.Structs.copyChecked, mem_names]
      simp [Has, written]
    | method n k =>
      rw [mem_method, methods_clean c l hy hw]
      simp only [Has, written, and_true, List.mem_flatMap, List.mem_filter, List.mem_map, Prod.mk.injEq, Bool.not_eq_true']
      constructor
      · rintro ⟨f, ⟨hf, _⟩, k', ⟨hk, he⟩, rfl, rfl⟩
        exact ⟨f, hf, rfl, by revert hk; cases k' <;> simp [methodKinds], he⟩
      · rintro ⟨f, hf, rfl, hk, he⟩
        refine ⟨f, ⟨hf, ?_⟩, k, ⟨by revert hk; cases k <;> simp [methodKinds], he⟩, rfl, rfl⟩
        cases hs : f.isSkipped with
        | false => rfl
        | true => simp [emits, hs] at he
    | wrapper n =>
      rw [mem_wrapper,
        wrapped_clean c l hy hw, mem_names]
      simp only [Has, written, and_true, AsyncLazy, Bool.and_eq_true, Bool.not_eq_true', useAsync, FieldArgs.isSkipped]
      constructor
      · rintro ⟨f, hf, he, h1, ⟨h2, h3⟩, h4⟩; exact ⟨f, hf, he, h1, h2, h4, h3⟩
      · rintro ⟨f, hf, he, h1, h2, h4, h3⟩; exact ⟨f, hf, he, h1, ⟨h2, h3⟩, h4⟩
    | setter n =>
      rw [mem_setter]
      cases hb : c.needsBuilderStruct with
      | false => rw [setters_none c l hy hw hb]; simp [Has, hb]
      | true =>
        rw [setters_clean c l hy hw hb, Verif.Model.Builder.builderFields, List.filter_filter, mem_names]
        simp [Has, hb, written, FieldArgs.isSkipped, and_comm]
    | slot n =>
      rw [mem_slot]
      cases hb : c.needsBuilderStruct with
      | false => rw [slots_none c l hy hw hb]; simp [Has, hb]
      | true =>
        rw [slots_clean c l hy hw hb, Verif.Model.Builder.builderFields, mem_names]
        simp [Has, hb, written, FieldArgs.isSkipped]
    | build n =>
      rw [mem_build]
      cases hb : c.needsBuilderStruct with
      | false => rw [built_none c l hy hw hb]; simp [Has, hb]
      | true =>
        rw [built_clean c l hy hw hb, Verif.Model.Builder.builderFields, mem_names]
        simp [Has, hb, written, FieldArgs.isSkipped]
    | checker n =>
      rw [mem_checker]
      cases hb : c.needsBuilderStruct with
      | false => rw [checked_none c l hy hw hb]; simp [Has, hb]
      | true =>
        rw [checked_clean c l hy hw hb, Verif.Model.Builder.builderFields, List.filter_filter, mem_names]
        simp [Has, hb, written, FieldArgs.isSkipped, and_comm]
    | shadow n =>
      rw [mem_shadow,
        shadowed_clean c l hy hw, Verif.Model.Serde.shadowFields, mem_names]
      simp only [Has, written, shadowStruct_clean c l hy hw, and_comm]
    | shadowDflt n =>
      rw [mem_shadowDflt]
      cases hd : c.needsDefault with
      | false => rw [shadowDefaulted_none c l hy hw hd]; simp [Has, hd]
      | true =>
        rw [shadowDefaulted_clean c l hy hw hd, Verif.Model.Serde.shadowFields, mem_names]
        simp only [Has, written, shadowStruct_clean c l hy hw, hd, true_and, and_comm]
    | serdeFn n =>
      rw [mem_serdeFn,
        serdeFns_clean c l hy hw, Verif.Model.Serde.shadowFields, List.filter_filter, mem_names]
      simp only [Has, written, and_true, FieldFn]
      constructor
      · rintro ⟨f, hf, he, h⟩
        refine ⟨f, hf, he, ?_⟩
        cases hs : f.serde with
        | none => simp [hs] at h
        | some sh =>
          simp only [hs, Option.elim_some, Bool.and_eq_true, Bool.not_eq_true'] at h
          exact ⟨h.1.1, h.2, h.1.2.2, sh, rfl, h.1.2.1.1, h.1.2.1.2⟩
      · rintro ⟨f, hf, he, h1, h2, h3, sh, h4, h5, h6⟩
        exact ⟨f, hf, he, by simp [h1, h2, h3, h4, h5, h6]⟩
    | fromShadow n =>
      rw [mem_fromShadow]
      cases hd : (c.args.isSerde && c.args.needsDeserialize) with
      | false =>
        rw [fromShadowed_none c l hy hw hd]
        simp only [Has, Reads, List.not_mem_nil, false_and, false_iff, not_exists, not_and]
        intro f _ _ h1 h2; simp [h1, h2] at hd
      | true =>
        rw [fromShadowed_clean c l hy hw hd, deFields, mem_names]
        rw [Bool.and_eq_true] at hd
        simp [Has, Reads, written, hd, Verif.Model.Serde.deserialised]
    | intoShadow n =>
      rw [mem_intoShadow]
      cases hd : (c.args.isSerde && c.args.needsSerialize) with
      | false =>
        rw [intoShadowed_none c l hy hw hd]
        simp only [Has, Writes, List.not_mem_nil, false_and, false_iff, not_exists, not_and]
        intro f _ _ h1 h2; simp [h1, h2] at hd
      | true =>
        rw [intoShadowed_clean c l hy hw hd, Verif.Model.Serde.serFields, mem_names]
        rw [Bool.and_eq_true] at hd
        simp [Has, Writes, written, hd]
    | lazyInit n =>
      rw [mem_lazyInit]
      cases hd : (c.args.isSerde && c.args.needsSerialize) with
      | false =>
        rw [lazyInited_none c l hy hw hd]
        simp only [Has, Writes, List.not_mem_nil, false_and, false_iff, not_exists, not_and]
        rintro f _ _ ⟨h1, h2, _⟩; simp [h1, h2] at hd
      | true =>
        rw [lazyInited_clean c l hy hw hd, Verif.Model.Serde.serFields, List.filter_filter, mem_names]
        rw [Bool.and_eq_true] at hd
        simp only [Has, Writes, written, hd, and_true, true_and, Bool.and_eq_true]
        simp only [and_comm]
    | wholeFn =>
      rw [contains_mem, wholeFn_clean c l hy hw]
      simp only [Has, WholeFn, written, and_true]
      cases c.args.serde <;> simp
    | shadowStruct => rw [contains_mem, shadowStruct_clean c l hy hw]; simp [Has, written]
    | fromImpl => rw [contains_mem, fromImpl_clean c l hy hw]; simp [Has, written]
    | intoImpl => rw [contains_mem, intoImpl_clean c l hy hw]; simp [Has, written]
    | newFn => rw [contains_mem, newFn_clean c l hy hw]; simp [Has, written]
    | builderFn => rw [contains_mem, builderFn_clean c l hy hw]; simp [Has, written]
    | defaultImpl =>
      rw [contains_mem, defaultImpl_clean c l hy hw, Verif.Model.Default.hasDefaultImpl]
      simp [Has, written]
    | builderStruct => rw [contains_mem, builderStruct_clean c l hy hw]; simp [Has, written]

end Verif.Proof.Conditional
