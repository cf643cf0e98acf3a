import Verif.Model.DefaultText
/-
C120: default values as written.

Claim: the value of `default(..)` on a field, and of `serde(default(..))` on a field or a struct, is that of the expression as
written. That is false for string literals: `C120_fails`, a field of type `&'static str`; and the same text means different things
in `default` and in `serde(default)`: `C120_same_fails`. The exact rules are `C120_field_iff`, `C120_serde` and `C120_whole`.
-/
namespace Verif.Props.DefaultText
open Verif.Model Verif.Model.Parse Verif.Model.DefaultText Verif.Spec.DefaultMeaning

/-- A string literal. -/
def IsStr (a : Arg) : Prop := ∃ s, a = .lit (.str s)

/-- The argument `default(a)`. -/
def given (n : String) (a : Arg) : Arg := .list n [a]

theorem fromMeta_given (o : Bool) (n : String) (a : Arg) : fromMeta o (given n a) = some ⟨false, some a⟩ := rfl

/-- **C120.** What is read here is what the model of reading says, but for the text. -/
theorem C120_read (a : Arg) :
    (fromMeta true a).map (fun d => ({ off := d.off, value := d.value.map text } : Args.Default)) = fxDefault a := by
  cases a with
  | word n => rfl
  | nv n v => rfl
  | lit l => rfl
  | list n items =>
    match items with
    | [] => rfl
    | [a] => rfl
    | [a, b] =>
      simp only [fromMeta, fromList, List.length_cons, List.length_nil, Nat.zero_add, if_pos]
      cases a with
      | word k =>
        by_cases hk : k = "off"
        · subst hk; rfl
        · have : (match ([.word k, b] : List Arg) with
              | .word "off" :: rest => some ({ off := true, value := rest.head? } : DefaultArg)
              | _ => none) = none := by
            split
            · rename_i h; simp at h; exact absurd h.1 hk
            · rfl
          refine (congrArg _ this).trans ?_
          unfold fxDefault
          split
          all_goals first | rfl | (rename_i h; simp at h; try exact absurd h.2.1 hk)
      | nv _ _ => rfl
      | lit _ => rfl
      | list _ _ => rfl
    | a :: b :: c :: r =>
      have : fromMeta true (.list n (a :: b :: c :: r)) = none := by
        simp [fromMeta, fromList]
      rw [this]
      unfold fxDefault
      split
      all_goals first | rfl | (rename_i h; simp at h)

/-- **C120.** A default is switched off exactly if a value follows the word `off`. -/
theorem C120_off_iff (o : Bool) (a : Arg) (d : DefaultArg) (h : fromMeta o a = some d) :
    d.isTrue = false ↔ ∃ n v, a = .list n [.word "off", v] := by
  cases a with
  | word n =>
    simp only [fromMeta, fromWord] at h
    split at h <;> simp at h
    subst h
    simp [DefaultArg.isTrue]
  | nv n v => simp [fromMeta] at h
  | lit l => simp [fromMeta] at h
  | list n items =>
    match items with
    | [] =>
      simp only [fromMeta, fromList, List.length_nil] at h
      cases o <;> simp at h
      subst h
      simp [DefaultArg.isTrue]
    | [b] =>
      simp [fromMeta, fromList] at h
      subst h
      simp [DefaultArg.isTrue]
    | [b, v] =>
      simp only [fromMeta, fromList, List.length_cons, List.length_nil, Nat.zero_add, if_pos] at h
      split at h
      · rename_i rest heq
        simp at heq h
        subst h
        simp [DefaultArg.isTrue, heq.1]
      · simp at h
    | a :: b :: c :: r => simp [fromMeta, fromList] at h

/-- **C120.** The word `off` alone does not switch a default off: it is the value. -/
theorem C120_off_alone (o : Bool) (n : String) :
    (fromMeta o (given n (.word "off"))).map (fun d => (d.isTrue, onValue (some d))) = some (true, some (.word "off")) := rfl

section
variable (w : World)

/-- **C120.** The default of a field has the value `v` and type `τ` exactly if it is a string literal, the type is `String` and the
value is that text; or it is no string literal, and the expression as written has this value and type. -/
theorem C120_field_iff (n : String) (a : Arg) (τ : Ty) (v : Val) :
    ((fieldCode (fromMeta true (given n a))).bind (·.value w τ) = some v) ↔
      (∃ s, a = .lit (.str s) ∧ τ = .string ∧ v = .text s) ∨ (¬ IsStr a ∧ den w a = some (τ, v)) := by
  rw [fromMeta_given]
  by_cases hs : IsStr a
  · obtain ⟨s, rfl⟩ := hs
    simp only [fieldCode, onValue, DefaultArg.isTrue, Option.bind_some, Bool.not_false, if_true, Option.map_some, Code.value,
      Code.den, den, typed]
    constructor
    · intro h
      split at h <;> simp at h
      rename_i ht
      exact .inl ⟨s, rfl, ht.symm, h.symm⟩
    · rintro (⟨s', he, rfl, rfl⟩ | ⟨hn, -⟩)
      · simp at he; simp [he]
      · exact absurd ⟨s, rfl⟩ hn
  · have hc : fieldCode (some ⟨false, some a⟩) = some (.item a) := by
      simp only [fieldCode, onValue, DefaultArg.isTrue, Option.bind_some, Bool.not_false, if_true, Option.map_some]
      split
      · exact absurd ⟨_, rfl⟩ hs
      · rfl
    rw [hc]
    simp only [Option.bind_some, Code.value, Code.den]
    constructor
    · intro h
      refine .inr ⟨hs, ?_⟩
      unfold typed at h
      split at h
      · rename_i σ v' hd
        split at h <;> simp at h
        rename_i ht
        rw [hd, ht, h]
      · simp at h
    · rintro (⟨s', he, -, -⟩ | ⟨-, hd⟩)
      · exact absurd ⟨s', he⟩ hs
      · simp [hd, typed]

/-- **C120, partial.** The value of a default is that of the expression as written, if it is no string literal. Missing from the
full claim: string literals. -/
theorem C120_partial (n : String) (a : Arg) (hs : ¬ IsStr a) (τ : Ty) :
    (fieldCode (fromMeta true (given n a))).bind (·.value w τ) = typed τ (den w a) := by
  apply Option.ext
  intro v
  rw [C120_field_iff]
  constructor
  · rintro (⟨s, he, -, -⟩ | ⟨-, hd⟩)
    · exact absurd ⟨s, he⟩ hs
    · simp [hd, typed]
  · intro h
    refine .inr ⟨hs, ?_⟩
    unfold typed at h
    split at h
    · rename_i σ v' hd
      split at h <;> simp at h
      rename_i ht
      rw [hd, ht, h]
    · simp at h

/-- **C120.** The serde default of a field: never an error of the macro. A string literal names a function; anything else is the
expression as written. -/
theorem C120_serde (n : String) (a : Arg) :
    ∃ x, serdeField (fromMeta true (given n a)) = .ok (some x) ∧ ∀ τ,
      x.value w τ = match a with
        | .lit (.str s) => typed τ (named w s)
        | _ => typed τ (den w a) := by
  rw [fromMeta_given]
  by_cases hs : IsStr a
  · obtain ⟨s, rfl⟩ := hs
    exact ⟨.path s, rfl, fun _ => rfl⟩
  · refine ⟨.fn (.item a), ?_, fun τ => ?_⟩
    · have : DefaultArg.isStr ⟨false, some a⟩ = false := by
        simp only [DefaultArg.isStr]
        split
        · rename_i h; simp at h; exact absurd ⟨_, h⟩ hs
        · rfl
      simp [serdeField, this, DefaultArg.isTrue, DefaultArg.hasValue, onValue]
    · split
      · exact absurd ⟨_, rfl⟩ hs
      · rfl

/-- **C120.** A function is made for the serde default of a field exactly if it is on and has a value which is no string: what the
model of the expansion asks of literals (`Expand.serdeAttribute`). -/
theorem C120_fn (d : DefaultArg) :
    (∃ c, serdeField (some d) = .ok (some (.fn c))) ↔ d.isTrue = true ∧ ∃ a, d.value = some a ∧ ¬ IsStr a := by
  obtain ⟨off, value⟩ := d
  cases off with
  | true => simp [serdeField, DefaultArg.isTrue]
  | false =>
    cases value with
    | none => simp [serdeField, DefaultArg.isTrue, DefaultArg.hasValue]
    | some a =>
      by_cases hs : IsStr a
      · obtain ⟨s, rfl⟩ := hs
        constructor
        · rintro ⟨c, hc⟩
          cases hc
        · rintro ⟨-, b, hb, hn⟩
          simp at hb
          exact absurd ⟨s, hb.symm⟩ hn
      · have : DefaultArg.isStr ⟨false, some a⟩ = false := by
          simp only [DefaultArg.isStr]
          split
          · rename_i h; simp at h; exact absurd ⟨_, h⟩ hs
          · rfl
        constructor
        · exact fun _ => ⟨rfl, a, rfl, hs⟩
        · exact fun _ => ⟨.item a, by simp [serdeField, this, DefaultArg.isTrue, DefaultArg.hasValue, onValue]⟩

/-- **C120.** The serde default of a struct: the macro rejects strings which are no paths, and assignments, and nothing else. -/
theorem C120_whole_rejects (n : String) (a : Arg) :
    serdeWhole w.isPath (fromMeta true (given n a)) = .error () ↔
      (∃ s, a = .lit (.str s) ∧ w.isPath s = false) ∨ (∃ k v, a = .nv k v) := by
  rw [fromMeta_given]
  cases a with
  | lit l =>
    cases l with
    | str s =>
      cases hp : w.isPath s <;>
        simp [serdeWhole, DefaultArg.isTrue, DefaultArg.hasValue, DefaultArg.isStr, DefaultArg.toStr, hp, bind, Except.bind, pure,
          Except.pure]
    | bool b => simp [serdeWhole, DefaultArg.isTrue, DefaultArg.hasValue, DefaultArg.isStr]
    | other t => simp [serdeWhole, DefaultArg.isTrue, DefaultArg.hasValue, DefaultArg.isStr]
  | word k => simp [serdeWhole, DefaultArg.isTrue, DefaultArg.hasValue, DefaultArg.isStr]
  | nv k v => simp [serdeWhole, DefaultArg.isTrue, DefaultArg.hasValue, DefaultArg.isStr]
  | list k as => simp [serdeWhole, DefaultArg.isTrue, DefaultArg.hasValue, DefaultArg.isStr]

/-- **C120.** Otherwise its value is that of the function named by the string, or of the expression as written, converted into the
shadow. -/
theorem C120_whole (n : String) (a : Arg) (x : SerdeArg) (h : serdeWhole w.isPath (fromMeta true (given n a)) = .ok (some x)) (τ : Ty) :
    x.value w τ = match a with
      | .lit (.str s) => converted w τ (named w s)
      | _ => converted w τ (den w a) := by
  rw [fromMeta_given] at h
  cases a with
  | lit l =>
    cases l with
    | str s =>
      cases hp : w.isPath s <;>
        simp [serdeWhole, DefaultArg.isTrue, DefaultArg.hasValue, DefaultArg.isStr, DefaultArg.toStr, hp, bind, Except.bind, pure,
          Except.pure] at h
      subst h; rfl
    | bool b => simp [serdeWhole, DefaultArg.isTrue, DefaultArg.hasValue, DefaultArg.isStr] at h; subst h; rfl
    | other t => simp [serdeWhole, DefaultArg.isTrue, DefaultArg.hasValue, DefaultArg.isStr] at h; subst h; rfl
  | word k => simp [serdeWhole, DefaultArg.isTrue, DefaultArg.hasValue, DefaultArg.isStr] at h; subst h; rfl
  | nv k v => simp [serdeWhole, DefaultArg.isTrue, DefaultArg.hasValue, DefaultArg.isStr] at h
  | list k as => simp [serdeWhole, DefaultArg.isTrue, DefaultArg.hasValue, DefaultArg.isStr] at h; subst h; rfl

/-- **C120.** What has the type of the shadow already is taken as it is. -/
theorem C120_whole_own (hr : Reflexive w) (n : String) (a : Arg) (hs : ¬ IsStr a) (τ : Ty) (v : Val) (hd : den w a = some (τ, v)) :
    ∃ x, serdeWhole w.isPath (fromMeta true (given n a)) = .ok (some x) ∧ x.value w τ = some v := by
  have hne : ∀ k u, a ≠ .nv k u := by rintro k u rfl; simp [den] at hd
  cases hx : serdeWhole w.isPath (fromMeta true (given n a)) with
  | error e =>
    cases e
    rcases (C120_whole_rejects w n a).mp hx with ⟨s, he, -⟩ | ⟨k, u, he⟩
    · exact absurd ⟨s, he⟩ hs
    · exact absurd he (hne k u)
  | ok x =>
    cases x with
    | none =>
      exfalso
      rw [fromMeta_given] at hx
      cases a with
      | lit l =>
        cases l with
        | str s => exact hs ⟨s, rfl⟩
        | bool b => simp [serdeWhole, DefaultArg.isTrue, DefaultArg.hasValue, DefaultArg.isStr] at hx
        | other t => simp [serdeWhole, DefaultArg.isTrue, DefaultArg.hasValue, DefaultArg.isStr] at hx
      | word k => simp [serdeWhole, DefaultArg.isTrue, DefaultArg.hasValue, DefaultArg.isStr] at hx
      | nv k v => exact hne k v rfl
      | list k as => simp [serdeWhole, DefaultArg.isTrue, DefaultArg.hasValue, DefaultArg.isStr] at hx
    | some x =>
      refine ⟨x, rfl, ?_⟩
      rw [C120_whole w n a x hx τ]
      split
      · exact absurd ⟨_, rfl⟩ hs
      · simp [hd, converted, hr τ]

/-- **C120.** Without a value `serde` takes `Default` of the type, and the field has no default of its own. -/
theorem C120_bare (a : Arg) (ha : (∃ n, a = .word n) ∨ ∃ n, a = .list n []) (τ : Ty) :
    fieldCode (fromMeta true a) = none ∧
    serdeField (fromMeta true a) = .ok (some .word) ∧ serdeWhole w.isPath (fromMeta true a) = .ok (some .word) ∧
    SerdeArg.value w τ .word = w.dflt τ := by
  rcases ha with ⟨n, rfl⟩ | ⟨n, rfl⟩ <;> exact ⟨rfl, rfl, rfl, rfl⟩

/-- **C120.** A default that is switched off has no effect anywhere. -/
theorem C120_off (n : String) (a : Arg) :
    fieldCode (fromMeta true (.list n [.word "off", a])) = none ∧
    serdeField (fromMeta true (.list n [.word "off", a])) = .ok none ∧
    serdeWhole w.isPath (fromMeta true (.list n [.word "off", a])) = .ok none := ⟨rfl, rfl, rfl⟩

/-- **C120.** The same item means the same in `default` and in `serde(default)` of a field exactly if it is no string literal, or
the function it names has this string for its value. -/
theorem C120_same_iff (n k : String) (a : Arg) :
    (∀ τ x, serdeField (fromMeta true (given k a)) = .ok (some x) →
      (fieldCode (fromMeta true (given n a))).bind (·.value w τ) = x.value w τ) ↔
      ∀ s, a = .lit (.str s) → named w s = some (.string, .text s) := by
  obtain ⟨x, hx, hv⟩ := C120_serde w k a
  constructor
  · rintro h s rfl
    have h1 := h .string x hx
    rw [hv] at h1
    have h2 : (fieldCode (fromMeta true (given n (.lit (.str s))))).bind (·.value w .string) = some (.text s) :=
      (C120_field_iff w n _ _ _).mpr (.inl ⟨s, rfl, rfl, rfl⟩)
    rw [h2] at h1
    simp only [typed] at h1
    split at h1
    · rename_i σ v hn
      split at h1 <;> simp at h1
      rename_i ht
      rw [hn, ht, h1]
    · simp at h1
  · intro h τ y hy
    rw [hx] at hy
    simp at hy
    subst hy
    rw [hv]
    by_cases hs : IsStr a
    · obtain ⟨s, rfl⟩ := hs
      show _ = typed τ (named w s)
      rw [h s rfl]
      rfl
    · rw [C120_partial w n a hs]
      split
      · exact absurd ⟨_, rfl⟩ hs
      · rfl

end

/-! ### Witnesses -/

/-- A crate with a function `preset`, a constant `MAX` and numbers. -/
def exWorld : World where
  isPath s := s == "preset"
  lit t := some (.named "u32", .named t)
  const p := if p = "MAX" then some (.named "u32", .named "4294967295") else none
  call p args := if p = "preset" ∧ args.length = 0 then some (.string, .text "made by preset") else none
  into σ τ := if σ = τ then some id else none
  dflt _ := none

/-- **C120 is false of the code**: a field of type `&'static str` with `default("a")`, though the expression has that type. -/
theorem C120_fails : ∃ a v, den exWorld a = some (.str, v) ∧
    (fieldCode (fromMeta true (given "default" a))).bind (·.value exWorld .str) = none :=
  ⟨.lit (.str "a"), .text "a", rfl, by decide +kernel⟩

/-- **C120 is false of the code**: `default("preset")` is that text, and `serde(default("preset"))` is what the function returns. -/
theorem C120_same_fails : ∃ a x, serdeField (fromMeta true (given "default" a)) = .ok (some x) ∧
    (fieldCode (fromMeta true (given "default" a))).bind (·.value exWorld .string) = some (.text "preset") ∧
    x.value exWorld .string = some (.text "made by preset") :=
  ⟨.lit (.str "preset"), .path "preset", rfl, by decide +kernel, by decide +kernel⟩

/-- `default(MAX)` and `default(12)`. -/
example : (fieldCode (fromMeta true (given "default" (.word "MAX")))).bind (·.value exWorld (.named "u32")) =
    some (.named "4294967295") :=
  (C120_field_iff exWorld _ _ _ _).mpr (.inr ⟨(by rintro ⟨s, h⟩; cases h), rfl⟩)

example : (fieldCode (fromMeta true (given "default" (.lit (.other "12"))))).bind (·.value exWorld (.named "u32")) =
    some (.named "12") := by
  rw [C120_partial exWorld _ _ (by rintro ⟨s, h⟩; cases h)]
  rfl

/-- `serde(default("no path"))` of a struct, and `serde(default(a = 1))`. -/
example : serdeWhole exWorld.isPath (fromMeta true (given "default" (.lit (.str "no path")))) = .error () :=
  (C120_whole_rejects exWorld _ _).mpr (.inl ⟨_, rfl, by decide +kernel⟩)

example : serdeWhole exWorld.isPath (fromMeta true (given "default" (.nv "a" (.lit (.other "1"))))) = .error () :=
  (C120_whole_rejects exWorld _ _).mpr (.inr ⟨_, _, rfl⟩)

/-- `serde(default(preset()))` of a struct. -/
example : ∃ x, serdeWhole exWorld.isPath (fromMeta true (given "default" (.list "preset" []))) = .ok (some x) ∧
    x.value exWorld .string = some (.text "made by preset") :=
  C120_whole_own exWorld (by intro τ; simp [exWorld]) _ _ (by rintro ⟨s, h⟩; cases h) _ _ (by simp [den, exWorld])

/-- `default(off, 3)` and `default(off)`. -/
example : ∃ d, fromMeta true (.list "default" [.word "off", .lit (.other "3")]) = some d ∧ d.isTrue = false :=
  ⟨_, rfl, (C120_off_iff true (.list "default" [.word "off", .lit (.other "3")]) _ rfl).mpr ⟨_, _, rfl⟩⟩

example : ∃ d, fromMeta true (given "default" (.word "off")) = some d ∧ d.isTrue = true :=
  ⟨_, rfl, by
    have h := C120_off_iff true (given "default" (.word "off")) _ rfl
    simpa [given] using h⟩

end Verif.Props.DefaultText
