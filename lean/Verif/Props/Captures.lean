import Verif.Model.Captures
import Verif.Props.Sound
/-
C118: the names in default expressions.

Claim: a name in the default expression of a field means what it means in the module of the struct, wherever the macro puts the
expression. That is false: `C118_fails`. The exact rule is `C118_iff`, from which `C118_partial` for all but three names.
-/
namespace Verif.Props.Captures
open Verif.Model Verif.Model.Args Verif.Model.Init Verif.Model.Expand Verif.Model.Captures Verif.Spec.Expansion
open Verif.Proof.Expand Verif.Props.Expand
open Verif.Model.Structs (prepare)

theorem bind_ok {α β : Type} {a : Gen α} {f : α → Gen β} {b : β} (h : (a >>= f) = .ok b) : ∃ r, a = .ok r ∧ f r = .ok b := by
  cases a with
  | ok r => exact ⟨r, rfl, h⟩
  | error => cases h
  | panic => cases h

/-! ### Initialisers -/

def reprScopes (Γ : List String) : VRepr → List (List String)
  | .none => []
  | .exact e | .versatile e => scopes Γ e

theorem syncWrap_scopes {x : FCtx} {r : VRepr} {e : IE} (Γ : List String) : syncWrap x r = .ok e → scopes Γ e = reprScopes Γ r := by
  have h0 : scopes Γ (match r with
      | .none => .none
      | .exact e => e
      | .versatile e => if x.isOptional || x.isLazy then .some e else e) = reprScopes Γ r := by
    cases r with
    | none => rfl
    | exact a => rfl
    | versatile a =>
      simp only
      split <;> rfl
  intro h
  unfold syncWrap at h
  simp only at h
  by_cases hl : x.isLazy = true
  · rw [if_pos hl] at h
    obtain ⟨_, _, h⟩ := bind_ok h
    obtain ⟨_, _, h⟩ := bind_ok h
    cases h; exact h0
  · rw [if_neg hl] at h
    by_cases hr : (!x.isOptional && r == .none) = true
    · rw [if_pos hr] at h; cases h
    · rw [if_neg hr] at h
      cases h
      split <;> exact h0

theorem plainWrap_scopes {x : FCtx} {r : VRepr} {e : IE} (Γ : List String) (h : plainWrap x r = .ok e) :
    scopes Γ e = reprScopes Γ r := by
  unfold plainWrap at h
  cases r with
  | none =>
    simp only at h
    split at h
    · cases h; rfl
    · split at h
      · cases h; split <;> rfl
      · cases h
  | exact a => cases h; rfl
  | versatile a =>
    simp only at h
    split at h
    · cases h; rfl
    · cases h
      split
      · simp only [scopes]; split <;> rfl
      · split <;> rfl

theorem wrap_scopes {x : FCtx} {r : VRepr} {e : IE} (Γ : List String) (h : valueWrap x r = .ok e) :
    scopes Γ e = reprScopes Γ r := by
  unfold valueWrap at h
  split at h
  · exact syncWrap_scopes Γ h
  · exact plainWrap_scopes Γ h

/-- The scopes of a place with the default of a field: one, if there is an expression. -/
def once (x : FCtx) (Γ : List String) : List (List String) := if x.defaultValue.isSome then [Γ] else []

theorem repr_scopes (x : FCtx) (Γ : List String) : reprScopes Γ (defaultRepr x) = once x Γ := by
  unfold defaultRepr once
  split
  · rfl
  · split <;> rfl

theorem repr_fixed_scopes (x : FCtx) (Γ : List String) : reprScopes Γ ((defaultRepr x).map fixup) = once x Γ := by
  unfold defaultRepr once
  split
  · rfl
  · split <;> rfl

theorem default_scopes {x : FCtx} {e : IE} (Γ : List String) (h : defaultWrap x = .ok e) : scopes Γ e = once x Γ := by
  unfold defaultWrap at h
  split at h
  · rw [syncWrap_scopes Γ h, repr_scopes]
  · rw [plainWrap_scopes Γ h, repr_fixed_scopes]

theorem noDefault {x : FCtx} (Γ : List String) (h : x.field.hasDefaultValue = false) : once x Γ = [] := by
  simp [once, FCtx.defaultValue, h]

theorem valueForSet_scopes {x : FCtx} {e : IE} (Γ : List String) (h : builderValueForSet x = .ok e) :
    scopes Γ e = once x Γ := by
  unfold builderValueForSet at h
  split at h
  · obtain ⟨a, ha, h⟩ := bind_ok h
    obtain ⟨m, hm, h⟩ := bind_ok h
    cases h
    simp [scopes, default_scopes Γ ha, wrap_scopes _ hm, reprScopes]
  · rename_i hd
    rw [noDefault Γ (by simpa using hd)]
    split at h
    · obtain ⟨a, ha, h⟩ := bind_ok h
      obtain ⟨m, hm, h⟩ := bind_ok h
      cases h
      simp [scopes, wrap_scopes Γ ha, wrap_scopes _ hm, reprScopes]
    · simp [wrap_scopes Γ h, reprScopes, scopes]

theorem build_scopes {x : FCtx} {e : IE} (Γ : List String) (h : builderInit x = .ok e) : scopes Γ e = once x Γ := by
  unfold builderInit at h
  split at h
  · unfold syncBuilderInit at h
    obtain ⟨_, _, h⟩ := bind_ok h
    obtain ⟨od, hn, h⟩ : ∃ od : IE → IE, scopes Γ (od .slotTake) = once x Γ ∧
        (if !x.forcedBuilder && !x.needsBuilder then syncWrap x (defaultRepr x)
          else if x.isLazy then do
            builderWrapper x
            return .proxyNew (useAsync x) x.isFallible (od .slotTake)
          else if x.needsLock then builderValueForSet x
          else if x.isOptional then return od .slotTake
          else builderValueForSet x) = Gen.ok e := by
      simp only at h
      by_cases hd : x.field.hasDefaultValue = true
      · rw [if_pos hd] at h
        obtain ⟨d, hd, h⟩ := bind_ok h
        obtain ⟨od, hod, h⟩ := bind_ok h
        cases hod
        refine ⟨fun e => .orElseSome e (fixup d), ?_, h⟩
        rw [← repr_scopes]
        revert hd
        unfold defaultRepr
        split
        · intro hd; cases hd; rfl
        · split <;> intro hd <;> cases hd; rfl
      · rw [if_neg hd] at h
        obtain ⟨od, hod, h⟩ := bind_ok h
        cases hod
        exact ⟨_, by rw [noDefault Γ (by simpa using hd)]; rfl, h⟩
    split at h
    · rw [syncWrap_scopes Γ h, repr_scopes]
    · split at h
      · obtain ⟨_, _, h⟩ := bind_ok h
        cases h
        exact hn
      · split at h
        · exact valueForSet_scopes Γ h
        · split at h
          · cases h; exact hn
          · exact valueForSet_scopes Γ h
  · unfold plainBuilderInit at h
    obtain ⟨d, hd, h⟩ := bind_ok h
    split at h
    · cases h; exact default_scopes Γ hd
    · split at h
      · cases h
        simp [scopes, default_scopes Γ hd]
      · split at h
        · cases h
          simp only [scopes, default_scopes Γ hd]
          split <;> rfl
        · exact valueForSet_scopes Γ h

theorem from_scopes {x : FCtx} {e : IE} (Γ : List String) (h : fromShadow x = .ok e) :
    scopes Γ e = if x.isSync = false ∧ serdeOptional x = true then once x Γ else [] := by
  unfold fromShadow at h
  split at h
  · rename_i hs
    simp [syncWrap_scopes Γ h, reprScopes, scopes, hs]
  · rename_i hs
    split at h
    · rename_i ho
      obtain ⟨a, ha, h⟩ := bind_ok h
      obtain ⟨m, hm, h⟩ := bind_ok h
      cases h
      simp [scopes, default_scopes Γ ha, plainWrap_scopes _ hm, reprScopes, hs, ho]
    · rename_i ho
      split at h
      · simp [plainWrap_scopes Γ h, reprScopes, scopes, ho]
      · cases h; simp [scopes, ho]

theorem shadow_scopes (x : FCtx) (Γ : List String) : scopes Γ (shadowDefault x) = once x Γ := by
  unfold shadowDefault defaultRepr once shadowValue
  cases x.defaultValue.isSome <;> cases x.isLazy <;> cases x.isOptional <;> cases serdeOptional x <;> rfl

theorem serdeFn_scopes (x : FCtx) (Γ : List String) : scopes Γ (serdeDefaultFn x) = [Γ] := by
  unfold serdeDefaultFn shadowValue
  split <;> rfl

/-! ### The expansion -/

theorem mem_view {β : Type} (sel : Piece → Option β) (mk : β → Piece) (h : ∀ p b, sel p = some b ↔ p = mk b) (out : List Piece) (b : β) :
    mk b ∈ out ↔ b ∈ out.filterMap sel := by
  rw [List.mem_filterMap]
  constructor
  · exact fun hm => ⟨_, hm, (h _ _).mpr rfl⟩
  · rintro ⟨p, hp, hb⟩
    rwa [← (h _ _).mp hb]

theorem build_mem {c : Ctx} {l : Lits} (hn : DistinctNames c) (hy : ∀ f ∈ c.allFields, faulty ⟨c, f⟩ = false)
    (hw : faultyWhole c l = false) {f : FieldArgs} (hf : f ∈ c.allFields) :
    Piece.build f.ident ∈ finalOut c l ↔ c.needsBuilderStruct = true ∧ f.skip = false := by
  rw [mem_view (b := f.ident) (fun | .build f => some f | _ => none) .build (by rintro (_ | _) _ <;> simp)]
  cases hb : c.needsBuilderStruct with
  | true =>
    change f.ident ∈ built _ ↔ _
    rw [built_clean c l hy hw hb, Builder.builderFields]
    simp only [List.mem_map, List.mem_filter, Bool.not_eq_true', true_and]
    constructor
    · rintro ⟨g, ⟨hg, hk⟩, hi⟩
      rw [ident_inj hn hg hf hi] at hk
      exact hk
    · exact fun hk => ⟨f, ⟨hf, hk⟩, rfl⟩
  | false =>
    rw [final_clean _ _ _ hy hw, flatMap_congr' _ fun f hf => view_clean _ _ f (hy f hf)]
    simp [hb, view_shadow]

theorem from_mem {c : Ctx} {l : Lits} (hn : DistinctNames c) (hy : ∀ f ∈ c.allFields, faulty ⟨c, f⟩ = false)
    (hw : faultyWhole c l = false) {f : FieldArgs} (hf : f ∈ c.allFields) :
    Piece.fromShadow f.ident ∈ finalOut c l ↔ (c.args.isSerde = true ∧ c.args.needsDeserialize = true) ∧
      (FCtx.mk c f).isSerde = true ∧ (FCtx.mk c f).needsDeserialize = true := by
  rw [mem_view (b := f.ident) (fun | .fromShadow f => some f | _ => none) .fromShadow (by rintro (_ | _) _ <;> simp)]
  rw [← Bool.and_eq_true]
  cases hd : c.args.isSerde && c.args.needsDeserialize with
  | true =>
    change f.ident ∈ fromShadowed _ ↔ _
    rw [fromShadowed_clean c l hy hw hd, deFields]
    simp only [List.mem_map, List.mem_filter, Serde.deserialised, Bool.and_eq_true, true_and]
    constructor
    · rintro ⟨g, ⟨hg, hk⟩, hi⟩
      rw [ident_inj hn hg hf hi] at hk
      exact hk
    · exact fun hk => ⟨f, ⟨hf, hk⟩, rfl⟩
  | false =>
    rw [final_clean _ _ _ hy hw, flatMap_congr' _ fun f hf => view_clean _ _ f (hy f hf)]
    simp [hd, view_shadow]

/-- A name in an expression of the user for the field means a variable of the macro, somewhere in the expansion. -/
def Captured (c : Ctx) (f : FieldArgs) (out : List Piece) (n : String) : Prop := ∃ Δ ∈ around c f out, n ∈ Δ

section
variable {parsed : Bool} {s : StructArgs} {fs : List FieldArgs} {l : Lits} {out : List Piece}

/-- **C118.** The names which do not mean what they mean outside: `self`, and `me` if the struct is reference counted, in the
default of a field which is in the builder; `__shadow` in the default of a plain optional or lazy field which is deserialised. -/
theorem C118_iff (hn : DistinctNames (prepare s fs)) (h : fxstruct parsed s fs l = .code out []) {f : FieldArgs}
    (hf : f ∈ (prepare s fs).allFields) (n : String) :
    Captured (prepare s fs) f out n ↔ (FCtx.mk (prepare s fs) f).defaultValue.isSome = true ∧
      (((n = "self" ∨ (n = "me" ∧ s.isRefCounted = true)) ∧ (prepare s fs).needsBuilderStruct = true ∧ f.skip = false) ∨
       (n = "__shadow" ∧ (s.isSerde = true ∧ s.needsDeserialize = true) ∧
        (FCtx.mk (prepare s fs) f).isSerde = true ∧ (FCtx.mk (prepare s fs) f).needsDeserialize = true ∧
        (FCtx.mk (prepare s fs) f).isSync = false ∧
        ((FCtx.mk (prepare s fs) f).isOptional = true ∨ (FCtx.mk (prepare s fs) f).isLazy = true))) := by
  obtain ⟨hy, hw⟩ := clean_flags hn h
  have ho := (of_code hn h).1
  have hbe := fun hb hk => Verif.Props.Sound.no_panic hn h hb f hf hk
  obtain ⟨ef, hef⟩ := Verif.Props.Sound.from_ok hn h f hf
  have hse : s = (prepare s fs).args := rfl
  rw [hse]
  have hse' : prepare (prepare s fs).args fs = prepare s fs := rfl
  rw [hse']
  clear hse hse' h
  subst ho
  generalize prepare s fs = c at *
  have hb := build_mem hn hy hw hf
  have hs := from_mem hn hy hw hf
  unfold Captured around
  simp only [List.mem_flatMap, List.mem_filter, beq_iff_eq]
  constructor
  · rintro ⟨Δ, ⟨p, ⟨hp, hi⟩, hd⟩, hm⟩
    cases p <;> simp only [fieldOf, Option.some.injEq, reduceCtorEq] at hi <;> subst hi <;> simp only [initIn, locals] at hd
    case dflt =>
      split at hd
      · rename_i e he
        rw [default_scopes [] he] at hd
        unfold once at hd
        split at hd
        · rw [List.mem_singleton.mp hd] at hm; cases hm
        · cases hd
      · cases hd
    case build =>
      split at hd
      · rename_i e he
        rw [build_scopes _ he] at hd
        unfold once at hd
        split at hd
        · rename_i hv
          rw [List.mem_singleton.mp hd] at hm
          refine ⟨hv, .inl ⟨?_, hb.mp hp⟩⟩
          rcases List.mem_cons.mp hm with hm | hm
          · exact .inl hm
          · split at hm
            · rename_i hr; exact .inr ⟨List.mem_singleton.mp hm, hr⟩
            · cases hm
        · cases hd
      · cases hd
    case fromShadow =>
      split at hd
      · rename_i e he
        rw [from_scopes _ he] at hd
        split at hd
        · rename_i hx
          unfold once at hd
          split at hd
          · rename_i hv
            rw [List.mem_singleton.mp hd] at hm
            obtain ⟨h1, h2, h3⟩ := hs.mp hp
            exact ⟨hv, .inr ⟨List.mem_singleton.mp hm, h1, h2, h3, hx.1, by simpa [serdeOptional] using hx.2⟩⟩
          · cases hd
        · cases hd
      · cases hd
    case shadowDflt =>
      rw [shadow_scopes] at hd
      unfold once at hd
      split at hd
      · rw [List.mem_singleton.mp hd] at hm; cases hm
      · cases hd
    case serdeFn =>
      rw [serdeFn_scopes] at hd
      rw [List.mem_singleton.mp hd] at hm; cases hm
  · rintro ⟨hv, ⟨hm, hbs, hk⟩ | ⟨rfl, h1, h2, h3, h4, h5⟩⟩
    · obtain ⟨e, he⟩ := hbe hbs hk
      refine ⟨locals c (.build f.ident), ⟨.build f.ident, ⟨hb.mpr ⟨hbs, hk⟩, rfl⟩, ?_⟩, ?_⟩
      · simp only [initIn, he, build_scopes _ he, once, hv, if_true, List.mem_singleton]
      · rcases hm with rfl | ⟨rfl, hr⟩
        · exact List.mem_cons_self
        · simp [locals, hr]
    · refine ⟨locals c (.fromShadow f.ident), ⟨.fromShadow f.ident, ⟨hs.mpr ⟨h1, h2, h3⟩, rfl⟩, ?_⟩, by simp [locals]⟩
      simp only [initIn, hef, from_scopes _ hef, h4, once, hv, if_true, true_and]
      rw [if_pos (by simpa [serdeOptional] using h5)]
      exact List.mem_singleton.mpr rfl

/-- **C118, partial.** All names but three mean in a default expression what they mean outside, wherever the macro puts it. Missing
from the full claim: `self`, `me` and `__shadow`. -/
theorem C118_partial (hn : DistinctNames (prepare s fs)) (h : fxstruct parsed s fs l = .code out []) {f : FieldArgs}
    (hf : f ∈ (prepare s fs).allFields) {n : String} (h1 : n ≠ "self") (h2 : n ≠ "me") (h3 : n ≠ "__shadow") :
    ¬ Captured (prepare s fs) f out n := by
  rw [C118_iff hn h hf]
  rintro ⟨_, ⟨h4 | ⟨h4, _⟩, _⟩ | ⟨h4, _⟩⟩
  · exact h1 h4
  · exact h2 h4
  · exact h3 h4

/-- **C118.** `me` is safe without `rc`. -/
theorem C118_no_rc (hn : DistinctNames (prepare s fs)) (h : fxstruct parsed s fs l = .code out []) {f : FieldArgs}
    (hf : f ∈ (prepare s fs).allFields) (hr : s.isRefCounted = false) : ¬ Captured (prepare s fs) f out "me" := by
  rw [C118_iff hn h hf]
  rintro ⟨_, ⟨h4 | ⟨_, h4⟩, _⟩ | ⟨h4, _⟩⟩
  · revert h4; decide
  · rw [hr] at h4; cases h4
  · revert h4; decide

end

/-! ### Witnesses -/

/-- `#[fxstruct(rc, builder)] struct S { #[fieldx(default(me()))] a: T, b: T }`. -/
def exStruct : StructArgs := { builder := some {}, rc := some {} }
def exField : FieldArgs := { ident := "a", default := some { value := some "me()" } }
def exFields : List FieldArgs := [exField, { ident := "b" }]

/-- **C118 is false of the code**: the default calls the function `me` of the module, but in `build` that is the parameter of the
closure given to `new_cyclic`. -/
theorem C118_fails : ∃ out, fxstruct true exStruct exFields {} = .code out [] ∧
    Captured (prepare exStruct exFields) exField out "me" :=
  ⟨finalOut (prepare exStruct exFields) {}, by decide +kernel,
    (C118_iff (parsed := true) (l := {}) (by decide +kernel) (by decide +kernel) (by decide +kernel) _).mpr
      ⟨by decide +kernel, .inl ⟨.inr ⟨rfl, by decide +kernel⟩, by decide +kernel, by decide +kernel⟩⟩⟩

/-- All the places of the expression: `build` and `Default`. -/
example : around (prepare exStruct exFields) exField (finalOut (prepare exStruct exFields) {}) = [[], ["self", "me"]] := by
  decide +kernel

/-- Any other function may be called. -/
example : ¬ Captured (prepare exStruct exFields) exField (finalOut (prepare exStruct exFields) {}) "initial" :=
  C118_partial (parsed := true) (l := {}) (by decide +kernel) (by decide +kernel) (by decide +kernel) (by decide) (by decide) (by decide)

/-- Without `rc` also `me`. -/
example : ¬ Captured (prepare { builder := some {} } exFields) exField (finalOut (prepare { builder := some {} } exFields) {}) "me" :=
  C118_no_rc (parsed := true) (l := {}) (by decide +kernel) (by decide +kernel) (by decide +kernel) rfl

/-- With serde the default of a lazy field is also in the conversion from the shadow, and in the default of the shadow. -/
example : around (prepare { serde := some {} } [{ exField with lazy := some {} }]) { exField with lazy := some {} }
    (finalOut (prepare { serde := some {} } [{ exField with lazy := some {} }]) {}) = [[], [], ["__shadow"]] := by decide +kernel

end Verif.Props.Captures
