import Verif.Model.Words
import Verif.Props.Expand
/-
C117: what names in generated code lead to.

Claim: whatever the module of the struct defines and imports, each name in generated code leads to the item it is there for. That
is false: `C117_fails_ok`, `C117_fails_serde`. The exact rule is `C117_iff`, by the words a struct depends on, `C117_words`; all is
well if the module defines none of nine words and imports the derives of serde, `C117_partial`.
-/
namespace Verif.Props.Words
open Verif.Model Verif.Model.Args Verif.Model.Init Verif.Model.Expand Verif.Model.Words Verif.Spec.Expansion Verif.Spec.Resolve
open Verif.Proof.Expand Verif.Props.Expand
open Verif.Model.Structs (prepare)

/-- The words the code of a struct depends on, by its arguments. -/
inductive Asks (c : Ctx) : Word → Prop
  /-- every struct implements `FXStruct` -/
  | struct : Asks c ⟨.type, "FXStruct"⟩
  | default : c.needsDefault = true → c.allFields ≠ [] → Asks c ⟨.type, "Default"⟩
  | build : c.needsBuilderStruct = true → Asks c ⟨.value, "Ok"⟩
  /-- an empty slot of the builder -/
  | slot {f : FieldArgs} : f ∈ c.allFields → f.skip = false → c.needsBuilderStruct = true → Asks c ⟨.value, "None"⟩
  | sized {f : FieldArgs} : f ∈ c.allFields → (FCtx.mk c f).needsAccessor = true → (FCtx.mk c f).isCopy = true →
      Asks c ⟨.type, "Sized"⟩
  | copy {f : FieldArgs} : f ∈ c.allFields → (FCtx.mk c f).needsAccessor = true → (FCtx.mk c f).isCopy = true →
      Asks c ⟨.type, "Copy"⟩
  /-- an async lazy field -/
  | send {f : FieldArgs} : f ∈ c.allFields → f.skip = false → (FCtx.mk c f).isSync = true → (FCtx.mk c f).isLazy = true →
      (FCtx.mk c f).isAsync = true → Asks c ⟨.type, "Send"⟩
  | predicate {f : FieldArgs} : f ∈ c.allFields → f.skip = false → (FCtx.mk c f).needsPredicate = true →
      ((FCtx.mk c f).isSync = true ∨ (FCtx.mk c f).isLazy = true ∨ (FCtx.mk c f).isOptional = true) → Asks c ⟨.type, "bool"⟩
  /-- the setter of an optional `inner_mut` field -/
  | setter {f : FieldArgs} : f ∈ c.allFields → f.skip = false → (FCtx.mk c f).needsSetter = true →
      (FCtx.mk c f).isSync = false → (FCtx.mk c f).isLazy = false → (FCtx.mk c f).isInnerMut = true →
      (FCtx.mk c f).isOptional = true → Asks c ⟨.value, "Some"⟩
  /-- the accessor of a fallible field, if it hands out a value or is plain -/
  | accessor {f : FieldArgs} : f ∈ c.allFields → f.skip = false → (FCtx.mk c f).isLazy = true → (FCtx.mk c f).isFallible = true →
      (FCtx.mk c f).needsAccessor = true →
      ((FCtx.mk c f).isSync = false ∨ (FCtx.mk c f).isClone = true ∨ (FCtx.mk c f).isCopy = true) → Asks c ⟨.value, "Ok"⟩
  | accessorMut {f : FieldArgs} : f ∈ c.allFields → f.skip = false → (FCtx.mk c f).isLazy = true →
      (FCtx.mk c f).isFallible = true → (FCtx.mk c f).needsAccessorMut = true → (FCtx.mk c f).isSync = false →
      Asks c ⟨.value, "Ok"⟩
  | serialize : c.args.isSerde = true → c.args.needsSerialize = true → Asks c ⟨.mac, "Serialize"⟩
  | deserialize : c.args.isSerde = true → c.args.needsDeserialize = true → Asks c ⟨.mac, "Deserialize"⟩

/-! ### Words of methods -/

/-- The words of the body of a method. -/
def MethodAsks (x : FCtx) (k : Kind) (w : Word) : Prop :=
  (w = ⟨.type, "bool"⟩ ∧ k = .predicate) ∨
  (w = ⟨.value, "Some"⟩ ∧ k = .setter ∧ x.isSync = false ∧ x.isLazy = false ∧ x.isInnerMut = true ∧ x.isOptional = true) ∨
  (w = ⟨.value, "Ok"⟩ ∧ x.isLazy = true ∧ x.isFallible = true ∧
    ((k = .accessor ∧ (x.isSync = false ∨ x.isClone = true ∨ x.isCopy = true)) ∨ (k = .accessorMut ∧ x.isSync = false)))

theorem bind_ok {α β : Type} {a : Gen α} {f : α → Gen β} {b : β} (h : (a >>= f) = .ok b) : ∃ r, a = .ok r ∧ f r = .ok b := by
  cases a with
  | ok r => exact ⟨r, rfl, h⟩
  | error => cases h
  | panic => cases h

theorem fallibleRet_ne {x : FCtx} {a r : Method.CTy} (ha : a ≠ .bool) (h : Method.fallibleRet x a = .ok r) : r ≠ .bool := by
  unfold Method.fallibleRet at h
  split at h
  · split at h <;> cases h
    simp
  · cases h; exact ha

theorem flat_shortcut (x : FCtx) : (Method.shortcut x).flatMap opWords = [] := by unfold Method.shortcut; split <;> rfl
theorem flat_await (x : FCtx) : (Method.awaitCall x).flatMap opWords = [] := by unfold Method.awaitCall; split <;> rfl
theorem flat_cmethod (x : FCtx) : (Method.syncCMethod x).flatMap opWords = [] := by
  unfold Method.syncCMethod; split <;> split <;> rfl
theorem flat_meth (x : FCtx) : (Method.plainMeth x).flatMap opWords = [] := by unfold Method.plainMeth; split <;> rfl
theorem flat_init (x : FCtx) : opWords (Method.plainLazyInit x) = [] := by unfold Method.plainLazyInit; split <;> rfl
theorem flat_ok (x : FCtx) : (Method.okReturn x).flatMap opWords = if x.isFallible then [⟨.value, "Ok"⟩] else [] := by
  unfold Method.okReturn; split <;> rfl

theorem reader_words {x : FCtx} {b : Method.Body} (h : Method.syncReader x = .ok b) : bodyWords b = [] := by
  unfold Method.syncReader at h
  split at h
  · obtain ⟨r, hr, h⟩ := bind_ok h
    cases h
    have := fallibleRet_ne (by simp) hr
    simp [bodyWords, this, flat_await, opWords]
  · split at h <;> cases h
    · simp only [bodyWords]
      cases x.isFallible <;> simp [flat_await, opWords]
    · simp [bodyWords, flat_await, opWords]

theorem body_words {x : FCtx} {k : Kind} {b : Method.Body} (h : Method.body x k = .ok b) (w : Word) :
    w ∈ bodyWords b ↔ MethodAsks x k w := by
  unfold MethodAsks
  cases k with
  | accessor =>
    simp only [Method.body] at h
    split at h
    · rename_i hs
      unfold Method.syncAccessor at h
      split at h
      · rename_i hc
        simp only [Bool.or_eq_true] at hc
        split at h
        · rename_i hl
          obtain ⟨r, hr, h⟩ := bind_ok h
          cases h
          have := fallibleRet_ne (by simp) hr
          cases hf : x.isFallible <;> simp [bodyWords, this, flat_await, flat_shortcut, flat_cmethod, flat_ok, opWords, hf, hl, hs, hc]
        · rename_i hl
          split at h
          · cases h; simp [bodyWords, flat_shortcut, flat_cmethod, opWords, hl]
          · split at h <;> cases h
            · simp [bodyWords, flat_cmethod, hl]
            · simp only [bodyWords]; cases x.isCopy <;> simp [opWords, hl]
      · rename_i hc
        simp only [Bool.or_eq_true, not_or, Bool.not_eq_true] at hc
        split at h
        · simp [reader_words h, hs, hc]
        · rename_i hl
          simp only [Bool.or_eq_true, not_or, Bool.not_eq_true] at hl
          obtain ⟨r, hr, h⟩ := bind_ok h
          cases h
          simp only [bodyWords]; cases x.isFallible <;> simp [opWords, hl]
    · rename_i hs
      simp only [Bool.not_eq_true] at hs
      unfold Method.plainAccessor at h
      split at h
      · rename_i hl
        obtain ⟨r, hr, h⟩ := bind_ok h
        cases h
        have := fallibleRet_ne (by split <;> simp) hr
        simp only [bodyWords, List.flatMap_append, List.flatMap_cons, List.flatMap_nil, Option.getD_none, flat_init, flat_meth,
          flat_shortcut, flat_ok]
        cases hf : x.isFallible <;> cases x.accessorMode == .copy <;> simp [this, opWords, hl, hs]
      · rename_i hl
        simp only [Bool.not_eq_true] at hl
        simp only [hl, Bool.false_eq_true, false_and, and_false, reduceCtorEq, or_self, iff_false]
        split at h
        · simp only at h
          split at h <;> cases h
          · simp only [bodyWords, List.flatMap_append, flat_meth]
            cases x.accessorMode <;> cases x.isOptional <;> simp [opWords]
          · simp only [bodyWords, List.flatMap_append, flat_meth]
            cases x.accessorMode <;> simp [opWords]
        · split at h <;> cases h <;> simp only [bodyWords] <;> cases x.isOptional <;> simp [opWords]
  | accessorMut =>
    simp only [Method.body] at h
    split at h
    · rename_i hs
      unfold Method.syncAccessorMut at h
      split at h
      · obtain ⟨r, hr, h⟩ := bind_ok h
        cases h
        have := fallibleRet_ne (by simp) hr
        simp [bodyWords, this, flat_await, opWords, hs]
      · split at h <;> cases h <;> simp [bodyWords, opWords, hs]
    · rename_i hs
      simp only [Bool.not_eq_true] at hs
      unfold Method.plainAccessorMut at h
      split at h
      · rename_i hl
        obtain ⟨r, hr, h⟩ := bind_ok h
        cases h
        have := fallibleRet_ne (by simp) hr
        simp only [bodyWords, List.flatMap_append, List.flatMap_cons, List.flatMap_nil, Option.getD_some, flat_init,
          flat_shortcut, flat_ok]
        cases hf : x.isFallible <;> simp [this, opWords, hl, hs]
      · rename_i hl
        split at h <;> cases h <;> simp [bodyWords, opWords, hl]
  | reader =>
    simp only [Method.body] at h
    split at h
    · simp [reader_words h]
    · cases h
  | writer =>
    simp only [Method.body] at h
    split at h
    · unfold Method.syncWriter at h
      split at h
      · obtain ⟨r, hr, h⟩ := bind_ok h
        cases h
        simp [bodyWords, opWords, flat_await]
      · cases h; simp [bodyWords, opWords, flat_await]
    · cases h
  | setter =>
    simp only [Method.body] at h
    split at h
    · rename_i hs
      unfold Method.syncSetter at h
      split at h
      · cases h; simp [bodyWords, opWords, flat_await, hs]
      · split at h
        · split at h <;> cases h <;> simp [bodyWords, opWords, flat_await, hs]
        · split at h <;> cases h <;> simp [bodyWords, opWords, flat_await, hs]
    · rename_i hs
      simp only [Bool.not_eq_true] at hs
      unfold Method.plainSetter at h
      split at h
      · rename_i hl
        cases h; simp [bodyWords, opWords, hl]
      · rename_i hl
        simp only [Bool.not_eq_true] at hl
        split at h
        · rename_i hi
          cases h
          cases ho : x.isOptional <;> simp [bodyWords, opWords, hl, hi, hs, ho]
        · rename_i hi
          split at h <;> cases h <;> simp [bodyWords, opWords, hi]
  | clearer =>
    simp only [Method.body] at h
    split at h
    · unfold Method.syncClearer at h
      split at h <;> cases h <;> simp [bodyWords, opWords, flat_await]
    · unfold Method.plainClearer at h
      split at h <;> cases h <;> simp [bodyWords, opWords]
  | predicate =>
    simp only [Method.body] at h
    split at h
    · unfold Method.syncPredicate at h
      split at h
      · cases h; simp [bodyWords, opWords]
      · split at h <;> cases h
        · simp only [bodyWords]
          cases x.isFallible <;> simp [opWords, flat_await]
        · simp [bodyWords, opWords]
    · unfold Method.plainPredicate at h
      split at h
      · cases h; simp [bodyWords, opWords]
      · split at h <;> cases h <;> simp [bodyWords, opWords]
  | builder => cases h
  | lazy => cases h

/-- The methods with words are written without error, if the field is not at fault. -/
theorem body_there {x : FCtx} {k : Kind} {w : Word} (hy : faulty x = false) (hw : MethodAsks x k w)
    (hk : x.field.isSkipped = false) (he : Emit.emits x k = true) : ∃ b, Method.body x k = .ok b := by
  rcases hw with ⟨_, rfl⟩ | ⟨_, rfl, hs, hl, hi, _⟩ | ⟨_, hl, hf, ⟨rfl, hc⟩ | ⟨rfl, hs⟩⟩
  · simp only [Method.body]
    split
    · unfold Method.syncPredicate; split
      · exact ⟨_, rfl⟩
      · split <;> exact ⟨_, rfl⟩
    · unfold Method.plainPredicate; split
      · exact ⟨_, rfl⟩
      · split <;> exact ⟨_, rfl⟩
  · simp [Method.body, hs, Method.plainSetter, hl, hi]
  · have ha : x.needsAccessor = true := by rwa [emits_accessor _ hk] at he
    have hr : hasErrorType x = true := by
      revert hy; unfold faulty; simp [hf, hl, ha]
    have hq : ∀ a, Method.fallibleRet x a = .ok (.res a) := fun a => by simp [Method.fallibleRet, hf, hr]
    simp only [Method.body]
    split
    · rename_i hs
      have hc : (x.isClone || x.isCopy) = true := by
        rcases hc with hc | hc | hc
        · rw [hs] at hc; cases hc
        · simp [hc]
        · simp [hc]
      unfold Method.syncAccessor
      rw [if_pos hc, if_pos hl, hq]
      exact ⟨_, rfl⟩
    · unfold Method.plainAccessor
      rw [if_pos hl]
      simp only [hq]
      exact ⟨_, rfl⟩
  · have ha : x.needsAccessorMut = true := by rwa [emits_accessorMut _ hk] at he
    have hr : hasErrorType x = true := by
      revert hy; unfold faulty; simp [hf, hl, ha]
    have hq : ∀ a, Method.fallibleRet x a = .ok (.res a) := fun a => by simp [Method.fallibleRet, hf, hr]
    simp only [Method.body, hs, Bool.false_eq_true, if_false]
    unfold Method.plainAccessorMut
    rw [if_pos hl, hq]
    exact ⟨_, rfl⟩

/-! ### Words of the expansion -/

theorem mem_view {β : Type} (sel : Piece → Option β) (mk : β → Piece) (h : ∀ p b, sel p = some b ↔ p = mk b) (out : List Piece) (b : β) :
    mk b ∈ out ↔ b ∈ out.filterMap sel := by
  rw [List.mem_filterMap]
  constructor
  · exact fun hm => ⟨_, hm, (h _ _).mpr rfl⟩
  · rintro ⟨p, hp, hb⟩
    rwa [← (h _ _).mp hb]

section
variable {parsed : Bool} {s : StructArgs} {fs : List FieldArgs} {l : Lits} {out : List Piece}

/-- **C117.** The words in an expansion without errors are those its arguments ask for. -/
theorem C117_words (hn : DistinctNames (prepare s fs)) (h : fxstruct parsed s fs l = .code out []) (w : Word) :
    w ∈ words (prepare s fs) out ↔ Asks (prepare s fs) w := by
  obtain ⟨hy, hw⟩ := clean_flags hn h
  obtain ⟨i1, _, _, i4, i5, _, _, _, _, _, _⟩ := C84_items hn h
  have ho := (of_code hn h).1
  have hse : s = (prepare s fs).args := rfl
  rw [hse] at i5
  clear hse h
  generalize prepare s fs = c at *
  have hm : ∀ n k, Piece.method n k ∈ out ↔ ∃ f ∈ c.allFields, f.skip = false ∧ k ∈ methodKinds ∧
      Emit.emits ⟨c, f⟩ k = true ∧ f.ident = n := by
    intro n k
    rw [mem_view (b := (n, k)) (fun | .method f k => some (f, k) | _ => none) (fun p => .method p.1 p.2)
      (by rintro (_ | _) ⟨_, _⟩ <;> simp)]
    change (n, k) ∈ methods out ↔ _
    rw [ho, methods_clean c l hy hw]
    simp only [List.mem_flatMap, List.mem_filter, List.mem_map, Prod.mk.injEq, Bool.not_eq_true']
    constructor
    · rintro ⟨f, ⟨hf, hk⟩, k', ⟨hk', he⟩, hi, rfl⟩
      exact ⟨f, hf, hk, hk', he, hi⟩
    · rintro ⟨f, hf, hk, hk', he, hi⟩
      exact ⟨f, ⟨hf, hk⟩, k, ⟨hk', he⟩, hi, rfl⟩
  have hv : ∀ n, Piece.wrapper n ∈ out ↔ ∃ f ∈ c.allFields, (f.skip = false ∧ (FCtx.mk c f).isSync = true ∧
      (FCtx.mk c f).isLazy = true ∧ (FCtx.mk c f).isAsync = true) ∧ f.ident = n := by
    intro n
    rw [mem_view (b := n) (fun | .wrapper f => some f | _ => none) .wrapper (by rintro (_ | _) _ <;> simp)]
    change n ∈ wrapped out ↔ _
    rw [ho, wrapped_clean c l hy hw]
    simp only [List.mem_filter, List.mem_map, Bool.and_eq_true, Bool.not_eq_true', and_assoc]
    rfl
  have hc : ∀ n, Piece.copy n ∈ out ↔ ∃ f ∈ c.allFields, ((FCtx.mk c f).needsAccessor = true ∧ (FCtx.mk c f).isCopy = true) ∧
      f.ident = n := by
    intro n
    rw [mem_view (b := n) (fun | .copy f => some f | _ => none) .copy (by rintro (_ | _) _ <;> simp)]
    change n ∈ Spec.Expansion.copyChecked out ↔ _
    rw [ho, copy_clean c l hy hw, Structs.copyChecked]
    simp only [List.mem_filter, List.mem_map, Bool.and_eq_true, and_assoc]
  have hb : c.needsBuilderStruct = true → ∀ n, Piece.slot n ∈ out ↔ ∃ f ∈ c.allFields, f.skip = false ∧ f.ident = n := by
    intro hb n
    rw [mem_view (b := n) (fun | .slot f => some f | _ => none) .slot (by rintro (_ | _) _ <;> simp)]
    change n ∈ slots out ↔ _
    rw [ho, slots_clean c l hy hw hb, Builder.builderFields]
    simp only [List.mem_filter, List.mem_map, Bool.not_eq_true', and_assoc]
    rfl
  have hb' : ∀ n, Piece.slot n ∈ out → c.needsBuilderStruct = true := by
    intro n hn
    rw [mem_view (b := n) (fun | .slot f => some f | _ => none) .slot (by rintro (_ | _) _ <;> simp)] at hn
    rw [ho, final_clean _ _ _ hy hw, flatMap_congr' _ fun f hf => view_clean _ _ f (hy f hf)] at hn
    cases hb : c.needsBuilderStruct with
    | true => rfl
    | false => simp [hb, view_shadow] at hn
  have hask : ∀ f ∈ c.allFields, f.skip = false → ∀ k, Emit.emits ⟨c, f⟩ k = true → MethodAsks ⟨c, f⟩ k w → Asks c w := by
    rintro f hf hk k he (⟨rfl, rfl⟩ | ⟨rfl, rfl, h1, h2, h3, h4⟩ | ⟨rfl, h1, h2, ⟨rfl, h3⟩ | ⟨rfl, h3⟩⟩)
    · have hk' : f.isSkipped = false := hk
      simp only [Emit.emits, hk', Bool.false_eq_true, if_false] at he
      refine .predicate hf hk ?_ ?_
      · split at he
        · exact he
        · simp only [Bool.and_eq_true] at he; exact he.1
      · split at he
        · rename_i hs; exact .inl hs
        · simp only [Bool.and_eq_true, Bool.or_eq_true] at he; exact .inr he.2
    · have hk' : f.isSkipped = false := hk
      exact .setter hf hk (by simpa [Emit.emits, hk'] using he) h1 h2 h3 h4
    · exact .accessor hf hk h1 h2 (by rwa [emits_accessor ⟨c, f⟩ hk] at he) h3
    · exact .accessorMut hf hk h1 h2 (by rwa [emits_accessorMut ⟨c, f⟩ hk] at he) h3
  have hwrite : ∀ f ∈ c.allFields, f.skip = false → ∀ k ∈ methodKinds, Emit.emits ⟨c, f⟩ k = true → MethodAsks ⟨c, f⟩ k w →
      ∃ p ∈ out, w ∈ pieceWords c p := by
    intro f hf hk k hk' he ha
    obtain ⟨b, hb⟩ := body_there (hy f hf) ha hk he
    refine ⟨.method f.ident k, (hm _ _).mpr ⟨f, hf, hk, hk', he, rfl⟩, ?_⟩
    simp only [pieceWords, List.mem_flatMap, List.mem_filter, beq_iff_eq]
    refine ⟨f, ⟨hf, rfl⟩, ?_⟩
    rw [hb]
    exact (body_words hb w).mpr ha
  simp only [words, List.mem_cons, List.mem_flatMap]
  constructor
  · rintro (rfl | ⟨p, hp, hq⟩)
    · exact .struct
    · cases p with
      | method n k =>
        obtain ⟨f, hf, hk, hk', he, rfl⟩ := (hm _ _).mp hp
        simp only [pieceWords, List.mem_flatMap, List.mem_filter, beq_iff_eq] at hq
        obtain ⟨g, ⟨hg, hi⟩, hq⟩ := hq
        rw [ident_inj hn hg hf hi] at hq
        split at hq
        · rename_i b hb
          exact hask f hf hk k he ((body_words hb w).mp hq)
        · cases hq
      | wrapper n =>
        obtain ⟨f, hf, ⟨h1, h2, h3, h4⟩, rfl⟩ := (hv _).mp hp
        simp only [pieceWords, List.mem_singleton] at hq
        subst hq
        exact .send hf h1 h2 h3 h4
      | copy n =>
        obtain ⟨f, hf, ⟨h1, h2⟩, rfl⟩ := (hc _).mp hp
        simp only [pieceWords, List.mem_cons, List.not_mem_nil, or_false] at hq
        rcases hq with rfl | rfl
        · exact .sized hf h1 h2
        · exact .copy hf h1 h2
      | slot n =>
        have hbb := hb' n hp
        obtain ⟨f, hf, h1, rfl⟩ := (hb hbb _).mp hp
        simp only [pieceWords, List.mem_singleton] at hq
        subst hq
        exact .slot hf h1 hbb
      | defaultImpl =>
        simp only [pieceWords, List.mem_singleton] at hq
        subst hq
        exact .default (i1.mp hp).1 (i1.mp hp).2
      | builderStruct =>
        simp only [pieceWords, List.mem_singleton] at hq
        subst hq
        exact .build (i4.mp hp)
      | shadowStruct =>
        simp only [pieceWords, deriveWords, List.mem_append] at hq
        rcases hq with hq | hq
        · split at hq
          · rename_i hs
            rw [List.mem_singleton.mp hq]
            exact .serialize (i5.mp hp) hs
          · cases hq
        · split at hq
          · rename_i hs
            rw [List.mem_singleton.mp hq]
            exact .deserialize (i5.mp hp) hs
          · cases hq
      | _ => cases hq
  · intro ha
    cases ha with
    | struct => exact .inl rfl
    | default h1 h2 => exact .inr ⟨_, i1.mpr ⟨h1, h2⟩, by simp [pieceWords]⟩
    | build h1 => exact .inr ⟨_, i4.mpr h1, by simp [pieceWords]⟩
    | slot hf h1 h2 => exact .inr ⟨_, (hb h2 _).mpr ⟨_, hf, h1, rfl⟩, by simp [pieceWords]⟩
    | sized hf h1 h2 => exact .inr ⟨_, (hc _).mpr ⟨_, hf, ⟨h1, h2⟩, rfl⟩, by simp [pieceWords]⟩
    | copy hf h1 h2 => exact .inr ⟨_, (hc _).mpr ⟨_, hf, ⟨h1, h2⟩, rfl⟩, by simp [pieceWords]⟩
    | send hf h1 h2 h3 h4 => exact .inr ⟨_, (hv _).mpr ⟨_, hf, ⟨h1, h2, h3, h4⟩, rfl⟩, by simp [pieceWords]⟩
    | @predicate f hf h1 h2 h3 =>
      have hk' : f.isSkipped = false := h1
      refine .inr (hwrite f hf h1 .predicate (by decide) ?_ (.inl ⟨rfl, rfl⟩))
      simp only [Emit.emits, hk', Bool.false_eq_true, if_false, h2, Bool.true_and]
      split
      · rfl
      · rename_i hs
        simpa [hs] using h3
    | @setter f hf h1 h2 h3 h4 h5 h6 =>
      have hk' : f.isSkipped = false := h1
      exact .inr (hwrite f hf h1 .setter (by decide) (by simpa [Emit.emits, hk'] using h2) (.inr (.inl ⟨rfl, rfl, h3, h4, h5, h6⟩)))
    | @accessor f hf h1 h2 h3 h4 h5 =>
      exact .inr (hwrite f hf h1 .accessor (by decide) (by rwa [emits_accessor ⟨c, f⟩ h1]) (.inr (.inr ⟨rfl, h2, h3, .inl ⟨rfl, h5⟩⟩)))
    | @accessorMut f hf h1 h2 h3 h4 h5 =>
      exact .inr (hwrite f hf h1 .accessorMut (by decide) (by rwa [emits_accessorMut ⟨c, f⟩ h1])
        (.inr (.inr ⟨rfl, h2, h3, .inr ⟨rfl, h5⟩⟩)))
    | serialize h1 h2 => exact .inr ⟨_, i5.mpr h1, by simp [pieceWords, deriveWords, h2]⟩
    | deserialize h1 h2 => exact .inr ⟨_, i5.mpr h1, by simp [pieceWords, deriveWords, h2]⟩

/-- Each word in the code leads to the item it is there for. -/
def Right (c : Ctx) (out : List Piece) (m : Scope) : Prop := ∀ w ∈ words c out, lookup glob m w = meant w

/-- The two words which fieldx neither imports nor finds in the prelude. -/
def OfSerde (w : Word) : Prop := w = ⟨.mac, "Serialize"⟩ ∨ w = ⟨.mac, "Deserialize"⟩

instance (w : Word) : Decidable (OfSerde w) := inferInstanceAs (Decidable (_ ∨ _))

theorem lookup_iff {c : Ctx} {w : Word} (m : Scope) (ha : Asks c w) :
    lookup glob m w = meant w ↔ m w = meant w ∨ (m w = none ∧ ¬ OfSerde w) := by
  have hsome : ∃ t, meant w = some t := by cases ha <;> exact ⟨_, by simp [meant, prelude]; rfl⟩
  have hrest : (glob w).or (prelude w) = if OfSerde w then none else meant w := by
    cases ha <;> simp [glob, prelude, meant, OfSerde]
  obtain ⟨t, ht⟩ := hsome
  unfold lookup
  cases hm : m w with
  | some u => simp
  | none =>
    rw [Option.none_or, hrest]
    by_cases hs : OfSerde w <;> simp [hs, ht]

/-- **C117.** The names in an expansion without errors lead where they should exactly if the module of the struct leaves alone, or
defines to the same effect, the words the struct asks for, and imports the derives of serde if these are asked for. -/
theorem C117_iff (hn : DistinctNames (prepare s fs)) (h : fxstruct parsed s fs l = .code out []) (m : Scope) :
    Right (prepare s fs) out m ↔
      ∀ w, Asks (prepare s fs) w → m w = meant w ∨ (m w = none ∧ ¬ OfSerde w) := by
  unfold Right
  constructor
  · exact fun hr w ha => (lookup_iff m ha).mp (hr w ((C117_words hn h w).mpr ha))
  · exact fun hr w hw => (lookup_iff m ((C117_words hn h w).mp hw)).mpr (hr w ((C117_words hn h w).mp hw))

/-- **C117, partial.** A module which defines none of the nine words below, and which imports the derives of serde, is fine for
every struct. Missing from the full claim: modules which do define one. -/
theorem C117_partial (hn : DistinctNames (prepare s fs)) (h : fxstruct parsed s fs l = .code out []) {m : Scope}
    (hv : ∀ n ∈ ["Ok", "Some", "None"], m ⟨.value, n⟩ = none)
    (ht : ∀ n ∈ ["Default", "Copy", "Sized", "Send", "bool", "FXStruct"], m ⟨.type, n⟩ = none)
    (hs : s.isSerde = true → m ⟨.mac, "Serialize"⟩ = some "::serde::Serialize" ∧
      m ⟨.mac, "Deserialize"⟩ = some "::serde::Deserialize") : Right (prepare s fs) out m := by
  rw [C117_iff hn h]
  intro w ha
  cases ha
  case serialize h1 _ => exact .inl (hs h1).1
  case deserialize h1 _ => exact .inl (hs h1).2
  all_goals exact .inr ⟨by first | exact hv _ (by simp) | exact ht _ (by simp), by simp [OfSerde]⟩

/-- **C117.** A struct with a builder does not stand another `Ok` in its module. -/
theorem C117_builder_ok (hn : DistinctNames (prepare s fs)) (h : fxstruct parsed s fs l = .code out [])
    (hb : (prepare s fs).needsBuilderStruct = true) {m : Scope} {t : String} (hm : m ⟨.value, "Ok"⟩ = some t)
    (ht : t ≠ "::std::result::Result::Ok") : ¬ Right (prepare s fs) out m := by
  rw [C117_iff hn h]
  intro hr
  rcases hr _ (.build hb) with h1 | ⟨h1, _⟩
  · rw [hm] at h1
    exact ht (by simpa [meant, prelude] using h1)
  · rw [hm] at h1; cases h1

/-- **C117.** A struct with serde does not stand a module without the derive of the direction it has. -/
theorem C117_serde_missing (hn : DistinctNames (prepare s fs)) (h : fxstruct parsed s fs l = .code out []) (hs : s.isSerde = true)
    {m : Scope} (hm : (s.needsSerialize = true ∧ m ⟨.mac, "Serialize"⟩ = none) ∨
      (s.needsDeserialize = true ∧ m ⟨.mac, "Deserialize"⟩ = none)) : ¬ Right (prepare s fs) out m := by
  rw [C117_iff hn h]
  intro hr
  rcases hm with ⟨h1, h2⟩ | ⟨h1, h2⟩
  · rcases hr _ (.serialize hs h1) with h3 | ⟨_, h3⟩
    · rw [h2] at h3; simp [meant] at h3
    · exact h3 (.inl rfl)
  · rcases hr _ (.deserialize hs h1) with h3 | ⟨_, h3⟩
    · rw [h2] at h3; simp [meant] at h3
    · exact h3 (.inr rfl)

end

/-! ### Witnesses -/

/-- `#[fxstruct(builder)] struct S { #[fieldx(get(copy), predicate)] a: T, b: T }`. -/
def exFields : List FieldArgs :=
  [{ ident := "a", accessor := some { copy := true }, predicate := some {} }, { ident := "b" }]

/-- `use anyhow::Ok;`. -/
def anyhow : Scope := fun w => if w = ⟨.value, "Ok"⟩ then some "::anyhow::Ok" else none

/-- **C117 is false of the code**: `use anyhow::Ok` next to a struct with a builder. -/
theorem C117_fails_ok : ∃ out, fxstruct true { builder := some {} } exFields {} = .code out [] ∧
    ¬ Right (prepare { builder := some {} } exFields) out anyhow :=
  ⟨finalOut (prepare { builder := some {} } exFields) {}, by decide +kernel,
    C117_builder_ok (parsed := true) (l := {}) (by decide +kernel) (by decide +kernel) (by decide +kernel) (t := "::anyhow::Ok")
      rfl (by decide)⟩

/-- **C117 is false of the code**: a serde struct in a module which imports nothing. -/
theorem C117_fails_serde : ∃ out, fxstruct true { serde := some {} } exFields {} = .code out [] ∧
    ¬ Right (prepare { serde := some {} } exFields) out fun _ => none :=
  ⟨finalOut (prepare { serde := some {} } exFields) {}, by decide +kernel,
    C117_serde_missing (parsed := true) (l := {}) (by decide +kernel) (by decide +kernel) (by decide +kernel)
      (.inl ⟨by decide +kernel, rfl⟩)⟩

/-- The same struct without a builder does not mind; nor does one with a builder mind the `Ok` of the standard library. -/
example : Right (prepare {} exFields) (finalOut (prepare {} exFields) {}) anyhow :=
  (by decide +kernel : ∀ w ∈ words (prepare {} exFields) (finalOut (prepare {} exFields) {}), lookup glob anyhow w = meant w)

example : Right (prepare { builder := some {} } exFields) (finalOut (prepare { builder := some {} } exFields) {})
    fun w => if w = ⟨.value, "Ok"⟩ then some "::std::result::Result::Ok" else none :=
  (by decide +kernel : ∀ w ∈ words (prepare { builder := some {} } exFields) (finalOut (prepare { builder := some {} } exFields) {}),
    lookup glob (fun w => if w = ⟨.value, "Ok"⟩ then some "::std::result::Result::Ok" else none) w = meant w)

/-- The words of the struct. -/
example : (words (prepare { builder := some {} } exFields) (finalOut (prepare { builder := some {} } exFields) {})).map (·.name) =
    ["FXStruct", "Sized", "Copy", "bool", "None", "None", "Default", "Ok"] := by decide +kernel

example : Right (prepare { builder := some {} } exFields) (finalOut (prepare { builder := some {} } exFields) {}) fun _ => none :=
  C117_partial (parsed := true) (l := {}) (by decide +kernel) (by decide +kernel) (fun _ _ => rfl) (fun _ _ => rfl)
    (by decide +kernel)

end Verif.Props.Words
