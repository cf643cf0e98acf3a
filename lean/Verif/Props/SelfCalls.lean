import Verif.Model.SelfCalls
import Verif.Props.Expand
import Verif.Props.Names
/-
C119: `Self::default()` in generated code.

Claim: it is the `default` of `Default`. That is false: `C119_fails`, a field called `default` with an accessor. The exact rule is
`C119_iff`; if the user gives no names, `C119_names` says when the struct has a function `default`.
-/
namespace Verif.Props.SelfCalls
open Verif.Model Verif.Model.Args Verif.Model.Expand Verif.Model.Names Verif.Model.SelfCalls Verif.Spec.Expansion Verif.Spec.Assoc
open Verif.Spec.ArgRead Verif.Proof.Expand Verif.Proof.Names Verif.Props.Expand Verif.Props.Names
open Verif.Model.Structs (prepare)

/-- Each call of `Self::default()` in the code is one of `Default`. -/
def Right (c : Ctx) (user : List String) (out : List Piece) : Prop :=
  ∀ p ∈ out, callsDefault c p = true → selfDefault c user = some (.trait "::std::default::Default")

/-- The chars of a generated name are `default` only for the accessor of a field of that name. -/
theorem chars_default (b : List Char) (t : Slot) (ht : t ≠ .helper .builder) :
    chars b t = "default".toList ↔ t = .helper .accessor ∧ b = "default".toList := by
  have hd : "default".toList = ['d', 'e', 'f', 'a', 'u', 'l', 't'] := by decide +kernel
  rw [hd]
  cases t with
  | wrap => simp [chars]
  | helper k =>
    cases k <;> simp [chars] at ht ⊢
    intro h
    have := congrArg List.reverse h
    simp at this

/-- **C119.** If the user gives no names, the struct has a generated function `default` exactly if a field of that name has an
accessor. -/
theorem C119_names {c : Ctx} (hn : NoNames c) :
    "default" ∈ structMethods c ↔
      ∃ f ∈ c.allFields, base f = "default" ∧ f.skip = false ∧ (FCtx.mk c f).needsAccessor = true := by
  have hname : ∀ f ∈ c.allFields, ∀ t, (slotName ⟨c, f⟩ t).toList = chars (base f).toList t :=
    fun f hf t => slotName_chars ⟨c, f⟩ t (hn.field f hf) hn.struct
  have hfix : "default" ∉ fixedMethods c := by
    unfold fixedMethods
    simp only [hn.rc, Option.getD_none, List.mem_append, not_or]
    refine ⟨⟨⟨?_, ?_⟩, ?_⟩, ?_⟩
    · split <;> decide +kernel
    · split
      · split <;> decide
      · simp
    · split <;> decide
    · split <;> decide
  have hem : ∀ f : FieldArgs, Emit.emits ⟨c, f⟩ .accessor = true ↔ f.skip = false ∧ (FCtx.mk c f).needsAccessor = true := by
    intro f
    simp only [Emit.emits, FieldArgs.isSkipped]
    by_cases hk : f.skip = true <;> simp [hk]
  unfold structMethods
  simp only [List.mem_append, hfix, or_false, List.mem_flatMap, List.mem_map]
  constructor
  · rintro ⟨f, hf, t, ht, he⟩
    have hb : t ≠ .helper .builder := by
      rintro rfl
      unfold Names.slots at ht
      simp only [List.mem_append, List.mem_map, List.mem_filter, Slot.helper.injEq, exists_eq_right] at ht
      rcases ht with (ht | ht) | ht
      · revert ht; simp
      · split at ht <;> simp at ht
      · split at ht <;> simp at ht
    have hc := hname f hf t
    rw [he] at hc
    obtain ⟨rfl, hbase⟩ := (chars_default _ _ hb).mp hc.symm
    refine ⟨f, hf, String.toList_inj.mp hbase, (hem f).mp ?_⟩
    unfold Names.slots at ht
    simp only [List.mem_append, List.mem_map, List.mem_filter, Slot.helper.injEq, exists_eq_right] at ht
    rcases ht with (ht | ht) | ht
    · exact ht.2
    · split at ht <;> simp at ht
    · split at ht <;> simp at ht
  · rintro ⟨f, hf, hb, hk⟩
    refine ⟨f, hf, .helper .accessor, ?_, ?_⟩
    · unfold Names.slots
      simp only [List.mem_append, List.mem_map, List.mem_filter, Slot.helper.injEq, exists_eq_right]
      exact .inl (.inl ⟨by simp, (hem f).mpr hk⟩)
    · apply String.toList_inj.mp
      rw [hname f hf, hb]
      rfl

section
variable {parsed : Bool} {s : StructArgs} {fs : List FieldArgs} {l : Lits} {out : List Piece}

/-- **C119.** All calls of `Self::default()` are right exactly if there are none, or neither the user nor the macro gives the struct
a function of that name. -/
theorem C119_iff (hn : DistinctNames (prepare s fs)) (h : fxstruct parsed s fs l = .code out []) (user : List String) :
    Right (prepare s fs) user out ↔
      ((prepare s fs).needsDefault = true → "default" ∉ user ∧ "default" ∉ structMethods (prepare s fs)) := by
  obtain ⟨_, i2, _, _, _, i6, _⟩ := C84_items hn h
  have ha : selfDefault (prepare s fs) user = some (.trait "::std::default::Default") ↔
      "default" ∉ user ∧ "default" ∉ structMethods (prepare s fs) := by
    unfold selfDefault assoc
    rw [← not_or, ← List.mem_append]
    by_cases hm : "default" ∈ user ++ structMethods (prepare s fs)
    · simp [hm]
    · simp [hm]
  unfold Right
  rw [ha]
  constructor
  · intro hr hd
    exact hr .newFn (i2.mpr hd) rfl
  · intro hr p hp hc
    apply hr
    cases p <;> simp only [callsDefault, Bool.false_eq_true] at hc
    · exact hc
    · exact i2.mp hp

/-- **C119, partial.** All calls are right if the user gives no names to helpers, has no function `default`, and no field of that
name with an accessor. Missing from the full claim: structs with one. -/
theorem C119_partial (hn : DistinctNames (prepare s fs)) (h : fxstruct parsed s fs l = .code out []) {user : List String}
    (hnn : NoNames (prepare s fs)) (hu : "default" ∉ user)
    (hf : ∀ f ∈ (prepare s fs).allFields, base f = "default" → f.skip = false → (FCtx.mk (prepare s fs) f).needsAccessor = false) :
    Right (prepare s fs) user out := by
  rw [C119_iff hn h]
  refine fun _ => ⟨hu, ?_⟩
  rw [C119_names hnn]
  rintro ⟨f, hm, hb, hk, ha⟩
  rw [hf f hm hb hk] at ha
  cases ha

/-- **C119.** A struct with a field `default`, an accessor for it, and `Default` does not compile. -/
theorem C119_field (hn : DistinctNames (prepare s fs)) (h : fxstruct parsed s fs l = .code out []) {user : List String}
    (hnn : NoNames (prepare s fs)) (hd : (prepare s fs).needsDefault = true) {f : FieldArgs}
    (hf : f ∈ (prepare s fs).allFields) (hb : base f = "default") (hk : f.skip = false)
    (ha : (FCtx.mk (prepare s fs) f).needsAccessor = true) : ¬ Right (prepare s fs) user out := by
  rw [C119_iff hn h]
  exact fun hr => (hr hd).2 ((C119_names hnn).mpr ⟨f, hf, hb, hk, ha⟩)

end

/-! ### Witnesses -/

/-- `#[fxstruct(get)] struct S { default: T, .. }`, or another name. -/
def exStruct : StructArgs := { accessor := some {} }

def exFields (n : String) : List FieldArgs := [{ ident := n }, { ident := "size", lazy := some {} }]

theorem exNames (n : String) : NoNames (prepare exStruct (exFields n)) := by
  have hk : ∀ f ∈ (prepare exStruct (exFields n)).allFields, f = { ident := n } ∨ f = { ident := "size", lazy := some {} } := by
    intro f hf
    have hf : f ∈ exFields n := hf
    simpa [exFields] using hf
  refine ⟨fun f hf k => ?_, fun k => by cases k <;> rfl, rfl⟩
  rcases hk f hf with rfl | rfl <;> cases k <;> rfl

/-- **C119 is false of the code**: `#[fxstruct(get)] struct S { default: T, .. }`. -/
theorem C119_fails : ∃ out, fxstruct true exStruct (exFields "default") {} = .code out [] ∧
    ¬ Right (prepare exStruct (exFields "default")) [] out :=
  ⟨finalOut (prepare exStruct (exFields "default")) {}, by decide +kernel,
    C119_field (parsed := true) (l := {}) (f := { ident := "default" }) (by decide +kernel) (by decide +kernel) (exNames _)
      (by decide +kernel) (by decide +kernel) rfl rfl (by decide +kernel)⟩

/-- With another name all is well, though the user has functions of their own. -/
example : Right (prepare exStruct (exFields "preset")) ["build_size", "reset"] (finalOut (prepare exStruct (exFields "preset")) {}) :=
  C119_partial (parsed := true) (l := {}) (by decide +kernel) (by decide +kernel) (exNames _) (by decide) (by decide +kernel)

/-- Nothing calls `Self::default()` without `Default`. -/
example : Right (prepare { exStruct with default := some false } (exFields "default")) []
    (finalOut (prepare { exStruct with default := some false } (exFields "default")) {}) :=
  (C119_iff (parsed := true) (l := {}) (by decide +kernel) (by decide +kernel) _).mpr (by decide +kernel)

/-- A name given to an accessor has the same effect. -/
example : "default" ∈ structMethods (prepare {} [{ ident := "a", accessor := some { name := some "default" } }]) := by decide +kernel

end Verif.Props.SelfCalls
