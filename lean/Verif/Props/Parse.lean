import Verif.Proof.ParseOrder
import Verif.Proof.ParseGrammar
import Verif.Proof.ParseRound
import Verif.Proof.ParseReading
import Verif.Proof.ParseDocumented
/-!
# From attribute syntax to argument records: C63 to C67
-/
namespace Verif.Props.Parse
open Verif.Model Verif.Model.Args Verif.Model.Exclusive Verif.Model.Parse
open Verif.Spec.Grammar Verif.Spec.Spelling Verif.Spec.Reading Verif.Spec.Documented

/-- The items of all the `#[fieldx(..)]` of a field, one after the other. -/
def items (attrs : List (Option (List Arg))) : List Arg := attrs.flatMap (·.getD [])

/-- One of the attributes is the bare `#[fieldx]`. -/
def bare (attrs : List (Option (List Arg))) : Bool := attrs.any (·.isNone)

/-! ## C63: order and splitting of arguments mean nothing -/

/-- The settings of a field depend on its items only up to order, at any depth but among positional sub-arguments, and
not on the way they are spread over several attributes. -/
theorem C63_field_order (ident : String) (as bs : List (Option (List Arg))) (h : Reorder (items as) (items bs))
    (hb : bare as = bare bs) : field ident as = field ident bs := by
  unfold bare at hb
  unfold items at h
  simp only [field, hb, Verif.Proof.ParseOrder.fieldSlots_indep ident h]

/-- The same for a struct. -/
theorem C63_struct_order (as bs : List Arg) (h : Reorder as bs) : Parse.struct as = Parse.struct bs :=
  Verif.Proof.ParseOrder.struct_indep h

/-- Splitting one attribute into two changes nothing. -/
theorem C63_field_split (ident : String) (as bs : List Arg) (rest : List (Option (List Arg))) :
    field ident (some (as ++ bs) :: rest) = field ident (some as :: some bs :: rest) := by
  refine C63_field_order ident _ _ ?_ rfl
  have : items (some (as ++ bs) :: rest) = items (some as :: some bs :: rest) := by simp [items]
  rw [this]
  exact .refl _

/-- A case: two attributes, one of them with nested arguments, against one with everything the other way round. -/
example :
    let as := [some [Arg.list "get" [.lit (.str "g"), .word "copy"]], some [.word "optional"]]
    let bs := [some [Arg.word "optional", .list "get" [.word "copy", .lit (.str "g")]]]
    Reorder (items as) (items bs) ∧ bare as = bare bs ∧
      field "x" as = some { ident := "x", optional := some true, accessor := some { name := some "g", copy := true } } := by
  refine ⟨?_, rfl, by decide +kernel⟩
  exact .trans (.swap _ _ _) (.cons _ (.inside _ (by decide) (.swap _ _ _)))

example : Reorder [.word "rc", .word "sync"] [.word "sync", .word "rc"] ∧
    Parse.struct [.word "rc", .word "sync"] = some { rc := some {}, modeSync := some true } :=
  ⟨.swap _ _ _, by decide +kernel⟩

/-- Order among positional sub-arguments does mean something: the restriction in `Reorder` is needed. -/
theorem C63_positional_needed :
    Parse.struct [.list "builder" [.list "error" [.word "A", .word "B"]]] ≠
      Parse.struct [.list "builder" [.list "error" [.word "B", .word "A"]]] := by decide +kernel

/-! ## C64: accepted exactly if the grammar says so -/

/-- The attributes of a field are accepted exactly if their items, together, have the form `aField`. -/
theorem C64_field_grammar (ident : String) (attrs : List (Option (List Arg))) :
    (field ident attrs).isSome ↔ Fits aField (.list "fieldx" (items attrs)) :=
  Verif.Proof.ParseGrammar.field_ok ident attrs

/-- The arguments of a struct are accepted exactly if they have the form `aStruct`. -/
theorem C64_struct_grammar (args : List Arg) :
    (Parse.struct args).isSome ↔ Fits aStruct (.list "fxstruct" args) :=
  Verif.Proof.ParseGrammar.struct_ok args

/-- Both sides occur. -/
example : (field "x" [some [.list "lazy" [.word "off"], .word "optional"]]).isSome = true ∧
    (field "x" [some [.word "lazy", .word "optional"]]).isSome = false ∧
    (field "x" [some [.word "lazy"], some [.word "lazy"]]).isSome = false ∧
    (Parse.struct [.word "sync", .list "get" [.lit (.str "g_"), .list "public" [.word "crate"]]]).isSome = true ∧
    (Parse.struct [.word "skip"]).isSome = false := by decide +kernel

/-! ## C65: every record of settings can be written, and no others come out -/

/-- Settings of a field, written and read again, are the same, if the checks let them pass; otherwise they are refused. -/
theorem C65_field_roundtrip (f : FieldArgs) (h : FieldOk f) :
    field f.ident [some (wField f)] = if acceptFieldFull f then some f else none :=
  Verif.Proof.ParseRound.field_round h

/-- The settings that attributes of a field can have. -/
theorem C65_field_range (ident : String) (f : FieldArgs) :
    (∃ attrs, field ident attrs = some f) ↔ f.ident = ident ∧ FieldOk f ∧ acceptFieldFull f = true := by
  constructor
  · rintro ⟨attrs, h⟩
    exact Verif.Proof.ParseRound.field_range h
  · rintro ⟨rfl, ho, ha⟩
    refine ⟨[some (wField f)], ?_⟩
    rw [C65_field_roundtrip f ho, if_pos ha]

/-- The same for a struct. -/
theorem C65_struct_roundtrip (s : StructArgs) (h : StructOk s) :
    Parse.struct (wStruct s) = if acceptStructFull s then some s else none :=
  Verif.Proof.ParseRound.struct_round h

/-- The settings that the attribute of a struct can have. -/
theorem C65_struct_range (s : StructArgs) :
    (∃ args, Parse.struct args = some s) ↔ StructOk s ∧ acceptStructFull s = true := by
  constructor
  · rintro ⟨args, h⟩
    exact Verif.Proof.ParseRound.wStruct_range h
  · rintro ⟨ho, ha⟩
    refine ⟨wStruct s, ?_⟩
    rw [C65_struct_roundtrip s ho, if_pos ha]

/-- A field with settings of many kinds. -/
def exField : FieldArgs :=
  { ident := "x", lazy := some { off := true, name := some "b" }, optional := some true, pub := some (.inMod "m"),
    accessor := some { clone := true, priv := some false, attrsFn := some ["inline"] }, baseName := some "y",
    setter := some { into := some false }, builder := some { required := some true, attributes := some [] },
    default := some { off := true, value := some "1" }, serde := some { shadowName := some "z", forwardAttrs := some ["a"] },
    fallible := some { off := true, error := some "E" } }

example : FieldOk exField ∧ acceptFieldFull exField = true ∧ field "x" [some (wField exField)] = some exField := by
  refine ⟨?_, by decide +kernel, by decide +kernel⟩
  refine ⟨?_, ?_, ?_, ?_, ?_, ?_, ?_, ?_, ?_, ?_, ?_, ?_, ?_⟩ <;>
    first | (intro h; cases h; done) | (rintro x ⟨⟩ - ⟨⟩)

/-- A struct with settings of many kinds. -/
def exStruct : StructArgs :=
  { mode := some .async,
    builder := some { name := some "with_", postBuild := some (some "check"), error := some ("E", some "V"),
                      optIn := some false },
    rc := some { name := some "me" }, attributes := some ["a", "b"], noNew := some true,
    serde := some { off := true, default := some {} }, pub := some .crate, setter := some { priv := some true } }

example : StructOk exStruct ∧ acceptStructFull exStruct = true ∧ Parse.struct (wStruct exStruct) = some exStruct := by
  refine ⟨?_, by decide +kernel, by decide +kernel⟩
  refine ⟨?_, ?_, ?_, ?_, ?_, ?_, ?_, ?_, ?_, ?_, ?_, ?_, ?_⟩ <;>
    first | (intro h; cases h; done) | (rintro x ⟨⟩ ⟨⟩)

/-! ## C66: what is written is what is read -/

/-- The attributes of a field are read as `g` exactly if they are in the grammar, and `g` is what they say, up to the
mark that a bare `#[fieldx]` leaves. (The mark is off: C26.) -/
theorem C66_field_says (ident : String) (attrs : List (Option (List Arg))) (g : FieldArgs) :
    field ident attrs = some g ↔ Fits aField (.list "fieldx" (items attrs)) ∧
      ∃ f, f.ident = ident ∧ FieldSays (items attrs) f ∧ Marked (bare attrs) { off := true } f g := by
  have hm : ∀ f : FieldArgs, Marked (bare attrs) { off := true } f g ↔
      g = if attrs.any (·.isNone) then f.markImplicitly else f := by
    intro f
    unfold Marked bare FieldArgs.markImplicitly
    cases hb : attrs.any (·.isNone)
    · simp
    · cases hl : f.lazy with
      | none => simp [Helper.ofBool]
      | some h => simp
  simp only [hm]
  rw [← C64_field_grammar ident]
  constructor
  · intro h
    refine ⟨by rw [h]; rfl, ?_⟩
    obtain ⟨f, hf, hc⟩ := Option.bind_eq_some_iff.mp h
    obtain ⟨hg, -⟩ := (Verif.Proof.ParseIff.check_some _ _ _).mp hc
    obtain ⟨h1, h2⟩ := (Verif.Proof.ParseReading.fieldSlots_says hf f).mpr rfl
    exact ⟨f, h1, h2, hg.symm⟩
  · rintro ⟨hs, f, h1, h2, rfl⟩
    obtain ⟨r, hr⟩ := Option.isSome_iff_exists.mp hs
    obtain ⟨f', hf, hc⟩ := Option.bind_eq_some_iff.mp hr
    have := (Verif.Proof.ParseReading.fieldSlots_says hf f).mp ⟨h1, h2⟩
    subst this
    obtain ⟨hg, -⟩ := (Verif.Proof.ParseIff.check_some _ _ _).mp hc
    rw [hr, hg]

/-- The same for a struct. -/
theorem C66_struct_says (args : List Arg) (s : StructArgs) :
    Parse.struct args = some s ↔ Fits aStruct (.list "fxstruct" args) ∧ StructSays args s := by
  rw [← C64_struct_grammar]
  constructor
  · intro h
    exact ⟨by rw [h]; rfl, (Verif.Proof.ParseReading.struct_says h s).mpr rfl⟩
  · rintro ⟨hs, h⟩
    obtain ⟨r, hr⟩ := Option.isSome_iff_exists.mp hs
    rw [hr, (Verif.Proof.ParseReading.struct_says hr s).mp h]

/-- A literal wins over `name(..)`; a bare attribute beside the others leaves its mark; `name(off, "x")` is no name. -/
example : field "x" [some [.list "get" [.list "name" [.lit (.str "a")], .lit (.str "b")]], none] =
      some { ident := "x", accessor := some { name := some "b" }, lazy := some { off := true },
             clearer := some { off := true }, predicate := some { off := true } } ∧
    field "x" [some [.list "rename" [.word "off", .lit (.str "y")], .list "default" [.word "off"]]] =
      some { ident := "x", default := some { value := some "off" } } ∧
    Parse.struct [.list "attributes" [.word "a", .nv "b" (.path "c")], .nv "public" (.lit (.str "crate"))] =
      some { attributes := some ["a", "b", "c"], pub := some .crate } := by decide +kernel

/-! ## C67: the documented syntax is accepted -/

/-- What is documented for a field is accepted. Missing: `public(some::module)`, `opt_in` in `builder`, and attributes
`name = value`, which are refused (`C67_path_refused`, `C67_optIn_refused`, `C67_nv_refused`). -/
theorem C67_field_documented_partial (ident : String) (attrs : List (Option (List Arg)))
    (h : Fits (docField .rest) (.list "fieldx" (items attrs))) : (field ident attrs).isSome :=
  (C64_field_grammar ident attrs).mpr (Verif.Proof.ParseDocumented.field_sub _ h)

/-- What is documented for a struct is accepted. Missing: `public(some::module)`, `builder(init(..))`, and attributes
`name = value`, which are refused (`C67_path_refused`, `C67_init_refused`, `C67_nv_refused`). -/
theorem C67_struct_documented_partial (args : List Arg) (h : Fits (docStruct .rest) (.list "fxstruct" args)) :
    (Parse.struct args).isSome :=
  (C64_struct_grammar args).mpr (Verif.Proof.ParseDocumented.struct_sub _ h)

theorem fits_list (b l : Bool) (o : List (List String)) (e : List (List (List String))) (fs : List (String × Form))
    (n : String) (args : List Arg) : Fits (.group b l o e fs) (.list n args) ↔
    (∀ a ∈ args, (l = true ∧ ∃ s, a = .lit (.str s)) ∨ FitsIn fs a) ∧ (args.filterMap (·.name)).Nodup ∧
    (args.filterMap (·.lit?)).length ≤ 1 ∧ (∀ g ∈ o, g.Pairwise fun m n => ¬ (Has m args ∧ Has n args)) ∧
    (∀ g ∈ e, g.Pairwise fun x y => ¬ ((∃ m ∈ x, On m args) ∧ ∃ n ∈ y, On n args)) := by
  rw [Fits]

theorem fits_word (b l : Bool) (o : List (List String)) (e : List (List (List String))) (fs : List (String × Form))
    (n : String) : Fits (.group b l o e fs) (.word n) ↔ b = true := by
  rw [Fits]

theorem fits_leaf (ok : Arg → Prop) (a : Arg) : Fits (.leaf ok) a ↔ ok a := by
  rw [Fits]

theorem name_word (n : String) : (Arg.word n).name = some n := rfl
theorem name_nv (n : String) (v : NV) : (Arg.nv n v).name = some n := rfl
theorem name_list (n : String) (as : List Arg) : (Arg.list n as).name = some n := rfl
theorem name_lit (l : Lit) : (Arg.lit l).name = none := rfl

/-- Work out whether a concrete item has a concrete form. -/
macro "fit" "[" ts:Lean.Parser.Tactic.simpLemma,* "]" : tactic => `(tactic| (
  repeat (first
    | simp only [fits_list, List.mem_cons, List.not_mem_nil, or_false, forall_eq_or_imp, forall_eq]
    | simp only [FitsIn, List.cons_append, List.nil_append, name_word, name_nv, name_list, name_lit, Option.some.injEq,
        String.reduceEq, false_and, false_or, true_and, or_false, reduceCtorEq, Bool.false_eq_true, fits_word, $ts,*])
  simp [fits_leaf, Has, On, Arg.lit?, name_word, name_nv, name_list, name_lit]))

/-- A case with nested arguments. -/
example : Fits (docField .rest) (.list "fieldx" (items [some [.list "get" [.lit (.str "g"), .word "private"]],
    some [.word "lazy"]])) := by
  show Fits (docField .rest) (.list "fieldx" [.list "get" [.lit (.str "g"), .word "private"], .word "lazy"])
  fit [docField, docHelper, docGet, docSubs, docFlag]
  simp [List.filterMap, name_word, name_lit]

example : Fits (docStruct .rest) (.list "fxstruct" [.word "sync", .list "fallible" [.word "off", .list "error" [.word "E"]]]) := by
  fit [docStruct, docFallible, docPath, docKeyword, docFlag]

/-- `public(path)` is documented and refused for every path. -/
theorem C67_path_refused (p : String) (h₁ : p ≠ "crate") (h₂ : p ≠ "super") :
    Fits (docStruct .all) (.list "fxstruct" [.list "public" [.word p]]) ∧
      Parse.struct [.list "public" [.word p]] = none := by
  constructor
  · fit [docStruct, docPublic, Doc.all]
    exact ⟨_, .inr (.inr rfl)⟩
  · rw [← Option.not_isSome_iff_eq_none, C64_struct_grammar]
    fit [aStruct, aPublic]
    exact fun _ => ⟨fun _ => h₁, fun _ => h₂⟩

/-- `builder(init(name))` is documented and refused for every name. -/
theorem C67_init_refused (p : String) :
    Fits (docStruct .all) (.list "fxstruct" [.list "builder" [.list "init" [.word p]]]) ∧
      Parse.struct [.list "builder" [.list "init" [.word p]]] = none := by
  constructor
  · fit [docStruct, docStructBuilder, docSubs, docPath, Doc.all, if_true]
  · rw [← Option.not_isSome_iff_eq_none, C64_struct_grammar]
    fit [aStruct, aStructBuilder, helperFields]

/-- `builder(opt_in)` of a field is documented as ignored, and refused. -/
theorem C67_optIn_refused (ident : String) :
    Fits (docField .all) (.list "fieldx" [.list "builder" [.word "opt_in"]]) ∧
      field ident [some [.list "builder" [.word "opt_in"]]] = none := by
  constructor
  · fit [docField, docFieldBuilder, docSubs, docKeyword, Doc.all, if_true]
  · rw [← Option.not_isSome_iff_eq_none, C64_field_grammar]
    show ¬ Fits aField (.list "fieldx" [.list "builder" [.word "opt_in"]])
    fit [aField, aFieldBuilder, helperFields]

/-- `attributes(name = "value")` is documented and refused for every name and value. -/
theorem C67_nv_refused (n v : String) :
    Fits (docStruct .all) (.list "fxstruct" [.list "attributes" [.nv n (.lit (.str v))]]) ∧
      Parse.struct [.list "attributes" [.nv n (.lit (.str v))]] = none := by
  constructor
  · fit [docStruct, docAttributes, Doc.all]
  · rw [← Option.not_isSome_iff_eq_none, C64_struct_grammar]
    fit [aStruct, anAttributes]

/-- So the documentation as a whole is not accepted. -/
theorem C67_full_false : ¬ ∀ args, Fits (docStruct .all) (.list "fxstruct" args) → (Parse.struct args).isSome := by
  intro h
  have := C67_path_refused "some::module" (by decide) (by decide)
  have hs := h _ this.1
  rw [this.2] at hs
  cases hs

end Verif.Props.Parse
