import Verif.Spec.Prec
import Verif.Spec.Lexical
import Verif.Proof.Idents
import Verif.Props.Expand
/-
The identifiers the macro makes: C93.

Said of tokens: `Token` is what the lexer of Rust lets through, keywords included; `Usable` is what can name something. `none`
is a panic of the macro. `L` says which characters beyond ASCII are letters.
-/
namespace Verif.Props.Idents
open Verif.Spec.Lexical Verif.Spec.Prec Verif.Spec.ArgRead Verif.Model.Args Verif.Model.Emit Verif.Model.Expand Verif.Model.Structs
  Verif.Model.Idents Verif.Proof.Idents

variable {L : Letters}

/-- The affixes documented. -/
def affixes : Kind → String × String
  | .accessor => ("", "")
  | .accessorMut => ("", "_mut")
  | .builder => ("", "")
  | .clearer => ("clear_", "")
  | .lazy => ("build_", "")
  | .predicate => ("has_", "")
  | .reader => ("read_", "")
  | .setter => ("set_", "")
  | .writer => ("write_", "")

/-- The field is written as the token `j` in the source. -/
def Written (f : FieldArgs) (j : Ident) : Prop := f.ident.toList = j.spelling

/-- The words names are made around: an explicit one, which has to be a word, or that of the field without `r#`. -/
inductive Around (L : Letters) (f : FieldArgs) : String → Prop
  | given {n : String} : f.baseName = some n → Word L n.toList → Around L f n
  | own {j : Ident} : f.baseName = none → Token L j → Written f j → Around L f j.text

/-- **C93.** `format_ident!` makes the token spelled by its string; without such a token it panics. -/
theorem C93_token_iff (s : String) (i : Ident) : mkIdent L s = some i ↔ Token L i ∧ i.spelling = s.toList := mkIdent_iff s i

example : mkIdent ⟨fun _ => false, fun _ => false⟩ "r#type" = some ⟨true, "type"⟩ := by decide +kernel
example : mkIdent ⟨fun _ => false, fun _ => false⟩ "type" = some ⟨false, "type"⟩ := by decide +kernel
example : mkIdent ⟨fun _ => false, fun _ => false⟩ "my-name" = none := by decide +kernel
example : mkIdent ⟨fun _ => false, fun _ => false⟩ "r#self" = none := by decide +kernel

theorem ofDisplay_written {f : FieldArgs} {j : Ident} (hj : Token L j) (h : Written f j) : ofDisplay f.ident = j := by
  obtain ⟨raw, text⟩ := j
  unfold Written Ident.spelling at h
  unfold ofDisplay
  cases raw with
  | true =>
    simp only [if_true] at h
    rw [h]
    simp
  | false =>
    simp only [Bool.false_eq_true, if_false] at h
    split
    · rename_i w hw
      exact absurd hj.1 (not_word_hash (by simp [← h, hw]))
    · rw [String.toList_inj.mp h]

theorem prefix_decides (s : StructArgs) (k : Kind) :
    Decides [(structRaw s k).bind (·.name)] (affixes k).1 (Verif.Model.Names.namePrefix s k) := by
  unfold Verif.Model.Names.namePrefix
  rw [getHelper_struct]
  cases (structRaw s k).bind (·.name) with
  | some p => exact .here _ _ _
  | none => cases k <;> exact .next (.dflt _)

theorem suffix_eq (k : Kind) : Verif.Model.Names.nameSuffix k = (affixes k).2 := by cases k <;> rfl

theorem decides_eq {α : Type} {o : Option α} {d p : α} (h : Decides [o] d p) : p = o.getD d := by
  cases h with
  | here => rfl
  | next h => cases h; rfl

/-- **C93.** The name of a helper. A non-empty name on the field is the spelling of a token, `r#` included. Otherwise prefix,
word and suffix are the spelling of a token; the word of a field written with `r#` comes without it. In every other case the
macro panics. -/
theorem C93_helper_rule (x : FCtx) (k : Kind) {j : Ident} (hj : Token L j) (hw : Written x.field j) (i : Ident) :
    (∀ h n, fieldArg x.field k = some h → h.name = some n → n ≠ "" →
      (helperIdent L x k = some i ↔ Token L i ∧ i.spelling = n.toList)) ∧
    ((∀ h, fieldArg x.field k = some h → h.name = none ∨ h.name = some "") →
      ∀ p, Decides [(structRaw x.ctx.args k).bind (·.name)] (affixes k).1 p →
        (helperIdent L x k = some i ↔
          Token L i ∧ ∃ b, Around L x.field b ∧ i.spelling = (p ++ b ++ (affixes k).2).toList)) := by
  constructor
  · intro h n h1 h2 h3
    unfold helperIdent
    rw [getHelper_field, h1]
    simp only [Option.bind_some, h2]
    rw [if_pos (by simpa using h3)]
    exact mkIdent_iff _ _
  · intro hn p hp
    have hp : p = Verif.Model.Names.namePrefix x.ctx.args k :=
      (decides_eq hp).trans (decides_eq (prefix_decides x.ctx.args k)).symm
    have e : helperIdent L x k = affixed L x k := by
      unfold helperIdent
      rw [getHelper_field]
      cases h : fieldArg x.field k with
      | none => rfl
      | some hh => rcases hn hh h with h' | h' <;> simp [h']
    rw [e, hp]
    unfold affixed
    rw [suffix_eq]
    cases hb : x.field.baseName with
    | none =>
      simp only [baseIdent, hb, Option.bind_some, ofDisplay_written hj hw, mkIdent_iff, fragment]
      refine and_congr_right fun _ => ⟨fun h => ⟨_, .own hb hj hw, h⟩, ?_⟩
      rintro ⟨b, ha, h⟩
      cases ha with
      | given hg => rw [hb] at hg; cases hg
      | own _ hj' hw' =>
        rw [← ofDisplay_written hj hw, ofDisplay_written hj' hw']
        exact h
    | some n =>
      simp only [baseIdent, hb, Option.bind_eq_some_iff, newIdent_iff, mkIdent_iff]
      constructor
      · rintro ⟨_, ⟨h1, rfl⟩, h2, h3⟩
        exact ⟨h2, n, .given hb h1, h3⟩
      · rintro ⟨h2, b, ha, h3⟩
        cases ha with
        | given hg hh =>
          rw [hb] at hg
          cases hg
          exact ⟨_, ⟨hh, rfl⟩, h2, h3⟩
        | own hg => rw [hb] at hg; cases hg

/-- A struct whose only given names are those of its fields and itself. -/
structure Unnamed (s : StructArgs) (f : FieldArgs) : Prop where
  struct : ∀ k h, structRaw s k = some h → h.name = none
  field : ∀ k h, fieldArg f k = some h → h.name = none
  base : f.baseName = none

theorem affix_word (k : Kind) {b : String} (hb : Word L b.toList) :
    Word L ((affixes k).1 ++ b ++ (affixes k).2).toList := by
  rw [String.toList_append, String.toList_append]
  refine word_append ?_ (ascii_all (by cases k <;> decide +kernel))
  by_cases he : (affixes k).1 = ""
  · rw [he]
    simpa using hb
  · refine word_append (ascii_word ?_) (goes_of_word hb)
    revert he
    cases k <;> decide +kernel

theorem helper_unnamed {x : FCtx} (k : Kind) (hu : Unnamed x.ctx.args x.field) {j : Ident} (hj : Token L j)
    (hw : Written x.field j) : helperIdent L x k = some ⟨false, (affixes k).1 ++ j.text ++ (affixes k).2⟩ := by
  have hd : Decides [(structRaw x.ctx.args k).bind (·.name)] (affixes k).1 (affixes k).1 := by
    have : (structRaw x.ctx.args k).bind (·.name) = none := by
      cases h : structRaw x.ctx.args k with
      | none => rfl
      | some h' => exact hu.struct k h' h
    rw [this]
    exact .next (.dflt _)
  rw [((C93_helper_rule x k hj hw _).2 (fun h hh => .inl (hu.field k h hh)) _ hd)]
  exact ⟨⟨affix_word k hj.1, fun h => by cases h⟩, j.text, .own hu.base hj hw, rfl⟩

theorem not_lone {j : Ident} (hj : Usable L j) : j.text ≠ "_" := by
  cases h : j.raw with
  | false => exact (hj.2 h).2
  | true =>
    intro he
    exact hj.1.2 h (by rw [he]; decide)

theorem usable_affixed (k : Kind) {j : Ident} (hj : Usable L j) :
    Usable L ⟨false, (affixes k).1 ++ j.text ++ (affixes k).2⟩ ↔
      ¬ (j.text ∈ keywords ∧ (k = .accessor ∨ k = .builder)) := by
  have hw := affix_word k hj.1.1
  by_cases hk : k = .accessor ∨ k = .builder
  · have e : (affixes k).1 ++ j.text ++ (affixes k).2 = j.text := by
      rcases hk with rfl | rfl <;> simp [affixes]
    rw [e]
    constructor
    · exact fun h hh => (h.2 rfl).1 hh.1
    · exact fun h => ⟨⟨hj.1.1, fun h => by cases h⟩, fun _ => ⟨fun hh => h ⟨hh, hk⟩, not_lone (j := j) hj⟩⟩
  · refine ⟨fun _ h => hk h.2, fun _ => usable_of_underscore hw ?_ ?_⟩
    · rw [String.toList_append, String.toList_append]
      revert hk
      cases k <;> simp [affixes] <;> decide
    · rw [String.toList_append, String.toList_append]
      intro h
      have h := congrArg List.length h
      rw [List.length_append, List.length_append] at h
      revert h hk
      cases k <;> simp [affixes] <;> omega

/-- **C93.** If no names are given, every helper gets a name made around the word of its field, and that name can be used
unless the word is a keyword (so the field is written with `r#`) and the helper has no affix: accessors and methods of the
builder. -/
theorem C93_helper_iff {x : FCtx} (k : Kind) (hu : Unnamed x.ctx.args x.field) {j : Ident} (hj : Usable L j)
    (hw : Written x.field j) :
    ∃ i, helperIdent L x k = some i ∧ i.raw = false ∧ i.text = (affixes k).1 ++ j.text ++ (affixes k).2 ∧
      (Usable L i ↔ ¬ (j.text ∈ keywords ∧ (k = .accessor ∨ k = .builder))) :=
  ⟨_, helper_unnamed k hu hj.1 hw, rfl, rfl, usable_affixed k hj⟩

/-- **C93.** The name of the function made of a field's serde default: the macro panics exactly if the struct or the field is
written with `r#`. -/
theorem C93_serde_fn_iff {name j : Ident} (hn : Usable L name) {f : FieldArgs} (hj : Usable L j) (hw : Written f j) (n : Nat) :
    (serdeFnIdent L name f n = none ↔ name.raw = true ∨ j.raw = true) ∧
    ∀ i, serdeFnIdent L name f n = some i → Usable L i := by
  have e : ofDisplay f.ident = j := ofDisplay_written hj.1 hw
  have hs : ∀ s : String, s = "__" ++ display name ++ "_" ++ display (ofDisplay f.ident) ++ "_default" ++ "_" ++ n.repr →
      s.toList = "__".toList ++ (name.spelling ++ ("_".toList ++ (j.spelling ++ ("_default_".toList ++ n.repr.toList)))) := by
    rintro s rfl
    rw [e]
    simp [display, String.toList_append, List.append_assoc]
  have raw_hash : ∀ i : Ident, i.raw = true → '#' ∈ i.spelling := by
    intro i h
    simp [Ident.spelling, h]
  have plain : ∀ i : Ident, Usable L i → i.raw = false → ∀ d ∈ i.spelling, L.goes d = true := by
    intro i hi h
    unfold Ident.spelling
    rw [h]
    exact goes_of_word hi.1.1
  unfold serdeFnIdent
  generalize hg : "__" ++ display name ++ "_" ++ display (ofDisplay f.ident) ++ "_default" ++ "_" ++ n.repr = s
  have hs := hs s hg.symm
  by_cases hr : name.raw = true ∨ j.raw = true
  · have hh : '#' ∈ s.toList := by
      rw [hs]
      simp only [List.mem_append]
      rcases hr with hr | hr
      · exact .inr (.inl (raw_hash _ hr))
      · exact .inr (.inr (.inr (.inl (raw_hash _ hr))))
    have hnone : mkIdent L s = none := by
      cases h : mkIdent L s with
      | none => rfl
      | some i =>
        obtain ⟨⟨h1, h2⟩, h3⟩ := (mkIdent_iff _ _).mp h
        exfalso
        cases hi : i.raw with
        | false =>
          rw [Ident.spelling, hi] at h3
          rw [← h3] at hh
          exact not_word_hash hh h1
        | true =>
          rw [Ident.spelling, hi, hs] at h3
          simp at h3
    rw [hnone]
    exact ⟨by simp [hr], fun i h => by cases h⟩
  · have hr : name.raw = false ∧ j.raw = false := by simpa using hr
    have hw : Word L s.toList := by
      rw [hs]
      refine word_append (ascii_word (by decide +kernel)) fun d hd => ?_
      rcases List.mem_append.mp hd with hd | hd
      · exact plain _ hn hr.1 d hd
      rcases List.mem_append.mp hd with hd | hd
      · exact ascii_all (by decide +kernel) d hd
      rcases List.mem_append.mp hd with hd | hd
      · exact plain _ hj hr.2 d hd
      rcases List.mem_append.mp hd with hd | hd
      · exact ascii_all (by decide +kernel) d hd
      · exact digits_go d hd
    rw [mkIdent_word hw]
    refine ⟨by simp [hr], fun i h => ?_⟩
    cases h
    refine usable_of_underscore hw (by rw [hs]; simp) ?_
    rw [hs]
    simp

theorem no_B : ∀ k ∈ keywords, 'B' ∉ k.toList := by decide +kernel

/-- **C93.** The name of the builder struct can always be used. -/
theorem C93_builder_struct {name : Ident} (hn : Usable L name) :
    ∃ i, builderIdent L name = some i ∧ Usable L i ∧ i.spelling = name.text.toList ++ "Builder".toList := by
  have hw : Word L (fragment name ++ "Builder").toList := by
    rw [String.toList_append]
    exact word_append hn.1.1 (ascii_all (by decide +kernel))
  refine ⟨_, mkIdent_word hw, ⟨⟨hw, fun h => by cases h⟩, fun _ => ⟨fun hk => ?_, fun he => ?_⟩⟩, ?_⟩
  · exact no_B _ hk (by rw [String.toList_append]; simp)
  · have := congrArg String.toList he
    rw [String.toList_append] at this
    have := congrArg List.length this
    simp at this
  · simp [Ident.spelling, String.toList_append, fragment]

/-- The string spells something usable. -/
def Names (L : Letters) (n : String) : Prop := ∃ i, Usable L i ∧ i.spelling = n.toList

theorem usable_iff (n : String) : (∃ i, mkIdent L n = some i ∧ Usable L i) ↔ Names L n := by
  constructor
  · rintro ⟨i, h, hi⟩
    exact ⟨i, hi, ((mkIdent_iff _ _).mp h).2⟩
  · rintro ⟨i, hi, h⟩
    exact ⟨i, (mkIdent_iff _ _).mpr ⟨hi.1, h⟩, hi⟩

theorem underscored {s : String} {a b : List Char} (hs : s.toList = a ++ '_' :: b) (hw : Word L s.toList)
    (hl : a ≠ [] ∨ b ≠ []) : ∃ i, mkIdent L s = some i ∧ Usable L i := by
  refine ⟨_, mkIdent_word hw, usable_of_underscore hw (by simp [hs]) fun h => ?_⟩
  rw [hs] at h
  rcases hl with hl | hl
  · cases a with
    | nil => exact hl rfl
    | cons c t => simp at h
  · cases b with
    | nil => exact hl rfl
    | cons c t =>
      have := congrArg List.length h
      simp at this
      omega

/-- **C93.** A reference-counted struct: all three names made of that of the self reference can be used exactly if it is
the spelling of something usable itself, `r#` or not. -/
theorem C93_rc_iff {s : StructArgs} {h : Helper} (hs : s.rc = some h) (hr : s.isRefCounted = true) :
    (∀ o ∈ rcIdents L s, ∃ i, o = some i ∧ Usable L i) ↔ Names L (h.name.getD "myself") := by
  have e : myselfName s = h.name.getD "myself" := by simp [myselfName, hs]
  unfold rcIdents
  rw [if_pos hr, e]
  generalize h.name.getD "myself" = n
  rw [← usable_iff]
  constructor
  · intro hh
    obtain ⟨i, h1, h2⟩ := hh _ (List.mem_cons_self ..)
    exact ⟨i, h1, h2⟩
  · rintro ⟨i, h1, h2⟩ o ho
    have h3 := ((mkIdent_iff _ _).mp h1).2
    simp only [List.mem_cons, List.not_mem_nil, or_false] at ho
    rcases ho with rfl | rfl | rfl
    · exact ⟨i, h1, h2⟩
    · obtain ⟨raw, t⟩ := i
      have hw : Word L (t ++ "_downgrade").toList := by
        rw [String.toList_append]
        exact word_append h2.1.1 (ascii_all (by decide +kernel))
      have hu : '_' ∈ (t ++ "_downgrade").toList := by rw [String.toList_append]; simp
      have hl : (t ++ "_downgrade").toList ≠ ['_'] := fun h => by
        have := congrArg List.length h
        rw [String.toList_append] at this
        simp at this
      have hp := usable_of_underscore hw hu hl
      have ht : Token L ⟨raw, t ++ "_downgrade"⟩ := by
        refine ⟨hw, fun _ hm => ?_⟩
        have : '_' ∉ (t ++ "_downgrade").toList ∨ (t ++ "_downgrade").toList = ['_'] := by
          revert hm
          generalize t ++ "_downgrade" = u
          intro hm
          simp only [neverRaw, List.mem_cons, List.not_mem_nil, or_false] at hm
          rcases hm with rfl | rfl | rfl | rfl | rfl <;> decide +kernel
        rcases this with h | h
        · exact h hu
        · exact hl h
      refine ⟨⟨raw, t ++ "_downgrade"⟩, (mkIdent_iff _ _).mpr ⟨ht, ?_⟩, ht, fun _ => hp.2 rfl⟩
      rw [String.toList_append, ← h3]
      unfold Ident.spelling
      cases raw <;> simp [String.toList_append]
    · rw [h1, Option.bind_some]
      refine underscored (a := []) (b := "_weak_".toList ++ i.text.toList) ?_ ?_ (.inr (by simp)) 
      · simp [String.toList_append, fragment]
      · rw [String.toList_append]
        exact word_append (ascii_word (by decide +kernel)) (goes_of_word h2.1.1)

/-- **C93.** The name of the shadow struct: a given one as it is spelled; the default one can always be used. -/
theorem C93_shadow_iff {s : StructArgs} {name : Ident} (hn : Usable L name) :
    (∃ i, shadowIdent L name s = some i ∧ Usable L i) ↔
      ∀ sh n, s.serde = some sh → sh.shadowName = some n → Names L n := by
  unfold shadowIdent
  cases hs : s.serde.bind (·.shadowName) with
  | some n =>
    rw [usable_iff]
    obtain ⟨sh, h1, h2⟩ := Option.bind_eq_some_iff.mp hs
    constructor
    · intro h sh' n' h1' h2'
      rw [h1] at h1'
      cases h1'
      rw [h2] at h2'
      cases h2'
      exact h
    · exact fun h => h _ _ h1 h2
  | none =>
    refine ⟨fun _ sh n h1 h2 => ?_, fun _ => ?_⟩
    · rw [h1, Option.bind_some, h2] at hs
      cases hs
    · refine underscored (a := []) (b := '_' :: (name.text.toList ++ "Shadow".toList)) ?_ ?_ (.inr (by simp))
      · simp [String.toList_append, fragment]
      · rw [String.toList_append, String.toList_append]
        exact word_append (word_append (ascii_word (by decide +kernel)) (goes_of_word hn.1.1))
          (ascii_all (by decide +kernel))

/-- **C93.** The function made of the serde default of the struct never adds a reason to fail: it has a usable name whenever
the shadow struct has one. -/
theorem C93_whole_fn {s : StructArgs} {name i : Ident} (hi : shadowIdent L name s = some i) (hu : Usable L i) (n : Nat) :
    ∃ k, wholeFnIdent L name s n = some k ∧ Usable L k ∧
      k.spelling = i.spelling ++ "_default_".toList ++ n.repr.toList := by
  unfold wholeFnIdent
  rw [hi, Option.bind_some]
  obtain ⟨raw, t⟩ := i
  have hw : Word L (t ++ "_default_" ++ n.repr).toList := by
    rw [String.toList_append, String.toList_append]
    exact word_append (word_append hu.1.1 (ascii_all (by decide +kernel))) digits_go
  have hs : (t ++ "_default_" ++ n.repr).toList = t.toList ++ '_' :: ("default_".toList ++ n.repr.toList) := by
    simp [String.toList_append]
  have hu' : '_' ∈ (t ++ "_default_" ++ n.repr).toList := by rw [hs]; simp
  have hl : (t ++ "_default_" ++ n.repr).toList ≠ ['_'] := fun h => by
    rw [hs] at h
    have := congrArg List.length h
    simp at this
    omega
  have hp := usable_of_underscore hw hu' hl
  have ht : Token L ⟨raw, t ++ "_default_" ++ n.repr⟩ := by
    refine ⟨hw, fun _ hm => ?_⟩
    have : '_' ∉ (t ++ "_default_" ++ n.repr).toList ∨ (t ++ "_default_" ++ n.repr).toList = ['_'] := by
      revert hm
      generalize t ++ "_default_" ++ n.repr = u
      intro hm
      simp only [neverRaw, List.mem_cons, List.not_mem_nil, or_false] at hm
      rcases hm with rfl | rfl | rfl | rfl | rfl <;> decide +kernel
    rcases this with h | h
    · exact h hu'
    · exact hl h
  have he : (Ident.mk raw (t ++ "_default_" ++ n.repr)).spelling =
      (Ident.mk raw t).spelling ++ "_default_".toList ++ n.repr.toList := by
    unfold Ident.spelling
    cases raw <;> simp [String.toList_append]
  refine ⟨⟨raw, t ++ "_default_" ++ n.repr⟩, (mkIdent_iff _ _).mpr ⟨ht, ?_⟩, ⟨ht, fun _ => hp.2 rfl⟩, he⟩
  rw [he]
  simp [display, String.toList_append]

/-- Nothing in the attributes of the struct gives a name. -/
structure NoNames (s : StructArgs) (fs : List FieldArgs) : Prop where
  fields : ∀ f ∈ fs, Unnamed s f
  struct : ∀ k h, structRaw s k = some h → h.name = none
  shadow : ∀ sh, s.serde = some sh → sh.shadowName = none
  rc : ∀ h, s.rc = some h → h.name = none

/-- The fields are written as identifiers of Rust have to be. -/
def Source (L : Letters) (fs : List FieldArgs) : Prop := ∀ f ∈ fs, ∃ j, Usable L j ∧ Written f j

/-- The word of the field is a keyword; fields can only be called so with `r#`. -/
def KeywordField (L : Letters) (f : FieldArgs) : Prop := ∃ j, Token L j ∧ Written f j ∧ j.text ∈ keywords

/-- Written with `r#`. -/
def RawField (L : Letters) (f : FieldArgs) : Prop := ∃ j, Token L j ∧ Written f j ∧ j.raw = true

theorem written_unique {f : FieldArgs} {i j : Ident} (hi : Token L i) (hj : Token L j) (h1 : Written f i) (h2 : Written f j) :
    i = j := (ofDisplay_written hi h1).symm.trans (ofDisplay_written hj h2)

theorem all_fields (s : StructArgs) (fs : List FieldArgs) (hu : NoNames s fs) (hf : Source L fs) :
    ∀ f ∈ (prepare s fs).allFields, Unnamed s f ∧ ∃ j, Usable L j ∧ Written f j := by
  intro f hm
  have hm : f ∈ (if s.isRefCounted then (myselfField s).toList.map hidden else []) ∨ f ∈ fs := by
    simpa [prepare, Ctx.allFields] using hm
  rcases hm with hm | hm
  · split at hm
    · obtain ⟨n, h1, rfl⟩ := List.mem_map.mp hm
      obtain ⟨h, hr, rfl⟩ : ∃ h, s.rc = some h ∧ "__weak_" ++ h.name.getD "myself" = n := by
        simpa [myselfField] using h1
      rw [hu.rc h hr]
      refine ⟨⟨hu.struct, fun k h hk => ?_, rfl⟩, ⟨false, "__weak_myself"⟩, ?_, ?_⟩
      · cases k <;> simp [fieldArg, hidden] at hk <;> subst hk <;> rfl
      · exact usable_of_underscore (ascii_word (by decide +kernel)) (by decide +kernel) (by decide +kernel)
      · show ("__weak_" ++ "myself").toList = _
        decide +kernel
    · cases hm
  · exact ⟨hu.fields f hm, hf f hm⟩

theorem wrapper_usable {x : FCtx} (hu : Unnamed x.ctx.args x.field) {j : Ident} (hj : Usable L j) (hw : Written x.field j) :
    ∃ i, wrapperIdent L x = some i ∧ Usable L i := by
  unfold wrapperIdent
  rw [helper_unnamed .lazy hu hj.1 hw, Option.bind_some]
  refine underscored (a := []) (b := "_fx_async_wrap_for_build_".toList ++ j.text.toList) ?_ ?_ (.inr (by simp))
  · simp [String.toList_append, fragment, affixes]
  · rw [String.toList_append]
    exact word_append (ascii_word (by decide +kernel)) (goes_of_word (affix_word .lazy hj.1.1))

theorem lazy_usable {x : FCtx} (hu : Unnamed x.ctx.args x.field) {j : Ident} (hj : Usable L j) (hw : Written x.field j) :
    ∃ i, helperIdent L x .lazy = some i ∧ Usable L i := by
  obtain ⟨i, h1, _, _, h2⟩ := C93_helper_iff .lazy hu hj hw
  exact ⟨i, h1, h2.mpr (by simp)⟩

/-- The identifiers of one piece about a field. -/
theorem field_idents {name j : Ident} (hname : Usable L name) (n : Nat) {x : FCtx} (hu : Unnamed x.ctx.args x.field)
    (hj : Usable L j) (hw : Written x.field j) (p : Piece) :
    (∀ o ∈ fieldIdents L name n x p, ∃ i, o = some i ∧ Usable L i) ↔
      match p with
      | .method _ k => ¬ (j.text ∈ keywords ∧ (k = .accessor ∨ k = .builder))
      | .setter _ => j.text ∉ keywords
      | .serdeFn _ => name.raw = false ∧ j.raw = false
      | _ => True := by
  have hl := lazy_usable hu hj hw
  have hwr := wrapper_usable hu hj hw
  have hk : ∀ k, (∃ i, helperIdent L x k = some i ∧ Usable L i) ↔
      ¬ (j.text ∈ keywords ∧ (k = .accessor ∨ k = .builder)) := by
    intro k
    obtain ⟨i, h1, _, _, h2⟩ := C93_helper_iff k hu hj hw
    rw [← h2, h1]
    exact ⟨fun ⟨_, e, h⟩ => by cases e; exact h, fun h => ⟨_, rfl, h⟩⟩
  have hs : (∃ i, serdeFnIdent L name x.field n = some i ∧ Usable L i) ↔ name.raw = false ∧ j.raw = false := by
    obtain ⟨h1, h2⟩ := C93_serde_fn_iff hname hj hw n
    constructor
    · rintro ⟨i, hi, _⟩
      rw [hi] at h1
      simpa using h1
    · intro h
      cases hi : serdeFnIdent L name x.field n with
      | none =>
        rw [hi] at h1
        simp [h] at h1
      | some i => exact ⟨i, rfl, h2 i hi⟩
  cases p with
  | method f k =>
    unfold fieldIdents
    simp only [List.mem_cons, forall_eq_or_imp]
    rw [hk k]
    refine ⟨fun h => h.1, fun h => ⟨h, fun o ho => ?_⟩⟩
    split at ho
    · cases List.mem_singleton.mp ho
      exact hl
    · cases ho
  | setter f =>
    unfold fieldIdents
    simp only [List.mem_singleton, forall_eq]
    rw [hk .builder]
    simp
  | serdeFn f =>
    unfold fieldIdents
    simp only [List.mem_singleton, forall_eq]
    exact hs
  | wrapper f =>
    unfold fieldIdents
    simp only [List.mem_cons, forall_eq_or_imp, List.not_mem_nil, or_false, forall_eq, iff_true]
    exact ⟨hwr, hl⟩
  | shadow f =>
    unfold fieldIdents
    simp [hu.base]
  | lazyInit f =>
    unfold fieldIdents
    simp only [iff_true]
    intro o ho
    split at ho
    · cases ho
    · cases List.mem_singleton.mp ho
      exact hl
  | dflt f | build f | fromShadow f =>
    unfold fieldIdents
    simp only [iff_true]
    intro o ho
    split at ho
    · cases List.mem_singleton.mp ho
      split
      · exact hwr
      · exact hl
    · cases ho
  | _ => simp [fieldIdents]

/-- **C93.** No names given: the identifiers made for the pieces `out` can all be used, and the macro does not panic over any
of them, exactly if no accessor and no method of the builder is written for a field which is `r#` and a keyword, and functions
for serde defaults are written only if neither struct nor field is written with `r#`. -/
theorem C93_idents_iff {name : Ident} (hname : Usable L name) {s : StructArgs} {fs : List FieldArgs} (hu : NoNames s fs)
    (hf : Source L fs) (n : Piece → Nat) (out : List Piece) :
    (∀ o ∈ idents L name (prepare s fs) n out, ∃ i, o = some i ∧ Usable L i) ↔
      ∀ f ∈ (prepare s fs).allFields,
        (KeywordField L f → Piece.method f.ident .accessor ∉ out ∧ Piece.method f.ident .builder ∉ out ∧
          Piece.setter f.ident ∉ out) ∧
        (Piece.serdeFn f.ident ∈ out → name.raw = false ∧ ¬ RawField L f) := by
  have hall := all_fields s fs hu hf
  have kw : ∀ {f : FieldArgs} {j : Ident}, Usable L j → Written f j → (KeywordField L f ↔ j.text ∈ keywords) := by
    intro f j hj hw
    refine ⟨fun ⟨j', h1, h2, h3⟩ => ?_, fun h => ⟨j, hj.1, hw, h⟩⟩
    rwa [← written_unique h1 hj.1 h2 hw]
  have rw' : ∀ {f : FieldArgs} {j : Ident}, Usable L j → Written f j → (RawField L f ↔ j.raw = true) := by
    intro f j hj hw
    refine ⟨fun ⟨j', h1, h2, h3⟩ => ?_, fun h => ⟨j, hj.1, hw, h⟩⟩
    rwa [← written_unique h1 hj.1 h2 hw]
  have hrc : ∀ o ∈ rcIdents L (prepare s fs).args, ∃ i, o = some i ∧ Usable L i := by
    show ∀ o ∈ rcIdents L s, _
    by_cases hr : s.isRefCounted = true
    · cases h : s.rc with
      | none => simp [StructArgs.isRefCounted, h] at hr
      | some h' =>
        rw [C93_rc_iff h hr, hu.rc h' h]
        exact ⟨⟨false, "myself"⟩, ⟨⟨ascii_word (by decide +kernel), fun h => by cases h⟩, fun _ => by decide +kernel⟩, rfl⟩
    · simp [rcIdents, hr]
  have hsh : ∃ i, shadowIdent L name s = some i ∧ Usable L i :=
    (C93_shadow_iff hname).mpr fun sh n h1 h2 => by rw [hu.shadow sh h1] at h2; cases h2
  have hwh : ∀ k, ∃ i, wholeFnIdent L name s k = some i ∧ Usable L i := by
    intro k
    obtain ⟨i, h1, h2⟩ := hsh
    obtain ⟨j, h3, h4, _⟩ := C93_whole_fn h1 h2 k
    exact ⟨j, h3, h4⟩
  have hb : ∃ i, builderIdent L name = some i ∧ Usable L i := by
    obtain ⟨i, h1, h2, _⟩ := C93_builder_struct hname
    exact ⟨i, h1, h2⟩
  constructor
  · intro h
    have use : ∀ p ∈ out, ∀ f ∈ (prepare s fs).allFields, about p = some f.ident →
        ∀ o ∈ fieldIdents L name (n p) ⟨prepare s fs, f⟩ p, ∃ i, o = some i ∧ Usable L i := by
      intro p hp f hm ha o ho
      refine h o (List.mem_append_right _ (List.mem_flatMap.mpr ⟨p, hp, ?_⟩))
      unfold pieceIdents
      rw [ha]
      exact List.mem_flatMap.mpr ⟨f, List.mem_filter.mpr ⟨hm, by simp⟩, ho⟩
    refine fun f hm => ⟨fun hk => ⟨fun hp => ?_, fun hp => ?_, fun hp => ?_⟩, fun hp => ?_⟩
    · obtain ⟨hu', j, hj, hw⟩ := hall f hm
      exact (field_idents (x := ⟨prepare s fs, f⟩) hname (n _) hu' hj hw _).mp (use _ hp f hm rfl)
        ⟨(kw hj hw).mp hk, .inl rfl⟩
    · obtain ⟨hu', j, hj, hw⟩ := hall f hm
      exact (field_idents (x := ⟨prepare s fs, f⟩) hname (n _) hu' hj hw _).mp (use _ hp f hm rfl)
        ⟨(kw hj hw).mp hk, .inr rfl⟩
    · obtain ⟨hu', j, hj, hw⟩ := hall f hm
      exact (field_idents (x := ⟨prepare s fs, f⟩) hname (n _) hu' hj hw _).mp (use _ hp f hm rfl) ((kw hj hw).mp hk)
    · obtain ⟨hu', j, hj, hw⟩ := hall f hm
      have := (field_idents (x := ⟨prepare s fs, f⟩) hname (n _) hu' hj hw _).mp (use _ hp f hm rfl)
      exact ⟨this.1, by rw [rw' hj hw, this.2]; decide⟩
  · intro h o ho
    have h1 := fun f hm => (h f hm).1
    have h2 := fun f hm => (h f hm).2
    rcases List.mem_append.mp ho with ho | ho
    · exact hrc o ho
    obtain ⟨p, hp, ho⟩ := List.mem_flatMap.mp ho
    unfold pieceIdents at ho
    cases ha : about p with
    | some g =>
      rw [ha] at ho
      obtain ⟨f, hmf, hof⟩ := List.mem_flatMap.mp ho
      obtain ⟨hm, he⟩ := List.mem_filter.mp hmf
      have he : f.ident = g := by simpa using he
      subst he
      obtain ⟨hu', j, hj, hw⟩ := hall f hm
      refine (field_idents (x := ⟨prepare s fs, f⟩) hname (n p) hu' hj hw p).mpr ?_ o hof
      cases p with
      | method g k =>
        cases ha
        rintro ⟨hk, rfl | rfl⟩
        · exact (h1 f hm ((kw hj hw).mpr hk)).1 hp
        · exact (h1 f hm ((kw hj hw).mpr hk)).2.1 hp
      | setter g =>
        cases ha
        exact fun hk => (h1 f hm ((kw hj hw).mpr hk)).2.2 hp
      | serdeFn g =>
        cases ha
        have := h2 f hm hp
        rw [rw' hj hw] at this
        exact ⟨this.1, by simpa using this.2⟩
      | _ => trivial
    | none =>
      rw [ha] at ho
      cases p <;> simp only [about, reduceCtorEq] at ha <;>
        simp only [List.mem_singleton, List.not_mem_nil] at ho <;> subst ho <;> first | exact hsh | exact hb | exact hwh _

theorem no_setters (c : Ctx) (l : Lits) (hy : ∀ f ∈ c.allFields, Verif.Proof.Expand.faulty ⟨c, f⟩ = false)
    (hw : Verif.Proof.Expand.faultyWhole c l = false) (hb : c.needsBuilderStruct = false) :
    Verif.Spec.Expansion.setters (Verif.Proof.Expand.finalOut c l) = [] := by
  unfold Verif.Spec.Expansion.setters
  rw [Verif.Props.Expand.final_clean _ _ _ hy hw,
    Verif.Proof.Expand.flatMap_congr' _ fun f hf => Verif.Props.Expand.view_clean _ _ f (hy f hf)]
  simp only [Verif.Proof.Expand.view_shadow, Option.toList_none, ite_self, List.append_nil,
    Verif.Proof.Expand.filterMap_none', Verif.Proof.Expand.flatMap_nil, hb, Bool.false_eq_true, if_false]

/-- **C93.** The same by what was asked for, if the expansion reports no errors: a field which is `r#` and a keyword may have
neither accessor nor method of the builder, and nothing written with `r#` may have or hold a serde default which is no string. -/
theorem C93_clean_iff {name : Ident} (hname : Usable L name) {parsed : Bool} {s : StructArgs} {fs : List FieldArgs} {l : Lits}
    {out : List Piece} (hu : NoNames s fs) (hf : Source L fs) (hn : Verif.Spec.Expansion.DistinctNames (prepare s fs))
    (h : fxstruct parsed s fs l = .code out []) (n : Piece → Nat) :
    (∀ o ∈ idents L name (prepare s fs) n out, ∃ i, o = some i ∧ Usable L i) ↔
      ∀ f ∈ (prepare s fs).allFields,
        (KeywordField L f → f.skip = false →
          (FCtx.mk (prepare s fs) f).needsAccessor = false ∧
          ((prepare s fs).needsBuilderStruct = true → Verif.Model.Builder.hasSetter ⟨prepare s fs, f⟩ = false)) ∧
        ((name.raw = true ∨ RawField L f) → (FCtx.mk (prepare s fs) f).isSerde = true →
          ∀ sh, f.serde = some sh → sh.hasDefault = true → sh.defaultValue.isSome = true → l.isPath f.ident = true) := by
  rw [C93_idents_iff hname hu hf n out]
  have hm := Verif.Props.Expand.C84_methods_iff hn h
  have hset := Verif.Props.Expand.C84_builder hn h
  have hfn := (Verif.Props.Expand.C84_items hn h).2.2.2.2.2.2.2.2.2.2
  have hno : (prepare s fs).needsBuilderStruct = false → Verif.Spec.Expansion.setters out = [] := by
    obtain ⟨hy, hw⟩ := Verif.Props.Expand.clean_flags hn h
    rw [(Verif.Props.Expand.of_code hn h).1]
    exact no_setters _ l hy hw
  have m1 : ∀ g k, Piece.method g k ∈ out ↔ (g, k) ∈ Verif.Spec.Expansion.methods out := by
    intro g k
    simp only [Verif.Spec.Expansion.methods, List.mem_filterMap]
    refine ⟨fun h => ⟨_, h, rfl⟩, ?_⟩
    rintro ⟨p, hp, he⟩
    cases p <;> simp at he
    obtain ⟨rfl, rfl⟩ := he
    exact hp
  have m2 : ∀ g, Piece.setter g ∈ out ↔ g ∈ Verif.Spec.Expansion.setters out := by
    intro g
    simp only [Verif.Spec.Expansion.setters, List.mem_filterMap]
    refine ⟨fun h => ⟨_, h, rfl⟩, ?_⟩
    rintro ⟨p, hp, he⟩
    cases p <;> simp at he
    subst he
    exact hp
  have m3 : ∀ g, Piece.serdeFn g ∈ out ↔ g ∈ Verif.Spec.Expansion.serdeFns out := by
    intro g
    simp only [Verif.Spec.Expansion.serdeFns, List.mem_filterMap]
    refine ⟨fun h => ⟨_, h, rfl⟩, ?_⟩
    rintro ⟨p, hp, he⟩
    cases p <;> simp at he
    subst he
    exact hp
  have hser : ∀ x : FCtx, x.isSerde = true → x.ctx.args.isSerde = true := by
    intro x h
    simp only [FCtx.isSerde, Bool.and_eq_true] at h
    exact h.2.1
  refine forall_congr' fun f => forall_congr' fun hfm => and_congr ?_ ?_
  · rw [m1, m1, m2, hm f hfm, hm f hfm]
    have hacc : ∀ hs : f.skip = false, emits ⟨prepare s fs, f⟩ .accessor = (FCtx.mk (prepare s fs) f).needsAccessor :=
      fun hs => Verif.Proof.Expand.emits_accessor _ hs
    refine imp_congr_right fun _ => ?_
    constructor
    · rintro ⟨h1, _, h3⟩ hs
      rw [hacc hs] at h1
      refine ⟨?_, fun hb => ?_⟩
      · cases hh : (FCtx.mk (prepare s fs) f).needsAccessor with
        | false => rfl
        | true => exact absurd ⟨by decide, hh, hs⟩ h1
      · cases hh : Verif.Model.Builder.hasSetter ⟨prepare s fs, f⟩ with
        | false => rfl
        | true => exact absurd ((hset hb f hfm).1.mpr ⟨hs, hh⟩) h3
    · intro h
      refine ⟨?_, ?_, ?_⟩
      · rintro ⟨_, h2, hs⟩
        rw [hacc hs, (h hs).1] at h2
        cases h2
      · rintro ⟨⟨h1, _⟩, _⟩
        exact h1 rfl
      · intro hm
        cases hb : (prepare s fs).needsBuilderStruct with
        | false =>
          rw [hno hb] at hm
          cases hm
        | true =>
          obtain ⟨hs, h1⟩ := (hset hb f hfm).1.mp hm
          rw [(h hs).2 hb] at h1
          cases h1
  · rw [m3, hfn f hfm]
    constructor
    · intro h hr hs sh h1 h2 h3
      cases hp : l.isPath f.ident with
      | true => rfl
      | false =>
        obtain ⟨h4, h5⟩ := h ⟨hs, hser _ hs, hp, sh, h1, h2, h3⟩
        rcases hr with hr | hr
        · rw [hr] at h4
          cases h4
        · exact absurd hr h5
    · rintro h ⟨hs, _, hp, sh, h1, h2, h3⟩
      have hh : ¬ (name.raw = true ∨ RawField L f) := fun hr => by
        rw [h hr hs sh h1 h2 h3] at hp
        cases hp
      exact ⟨by cases hb : name.raw <;> simp_all, fun hr => hh (.inr hr)⟩

/-- **C93**, the part that holds: if no names are given and nothing in the source is written with `r#`, all identifiers made
can be used. Missing: identifiers with `r#`, for which `C93_idents_iff` is the rule, see `C93_false`. -/
theorem C93_partial {name : Ident} (hname : Usable L name) {s : StructArgs} {fs : List FieldArgs} (hu : NoNames s fs)
    (hf : ∀ f ∈ fs, ∃ j, Usable L j ∧ Written f j ∧ j.raw = false) (hr : name.raw = false) (n : Piece → Nat)
    (out : List Piece) : ∀ o ∈ idents L name (prepare s fs) n out, ∃ i, o = some i ∧ Usable L i := by
  have hsrc : Source L fs := fun f hm => by
    obtain ⟨j, h1, h2, _⟩ := hf f hm
    exact ⟨j, h1, h2⟩
  refine (C93_idents_iff hname hu hsrc n out).mpr fun f hm => ?_
  have hj : ∃ j, Usable L j ∧ Written f j ∧ j.raw = false := by
    have hm' : f ∈ (if s.isRefCounted then (myselfField s).toList.map hidden else []) ∨ f ∈ fs := by
      simpa [prepare, Ctx.allFields] using hm
    rcases hm' with hm' | hm'
    · obtain ⟨_, j, h1, h2⟩ := all_fields s fs hu hsrc f hm
      refine ⟨j, h1, h2, ?_⟩
      split at hm'
      · obtain ⟨k, h3, rfl⟩ := List.mem_map.mp hm'
        obtain ⟨h, hr, rfl⟩ : ∃ h, s.rc = some h ∧ "__weak_" ++ h.name.getD "myself" = k := by
          simpa [myselfField] using h3
        rw [hu.rc h hr] at h2
        cases hj : j.raw with
        | false => rfl
        | true =>
          simp [Written, Ident.spelling, hj, hidden] at h2
      · cases hm'
    · exact hf f hm'
  obtain ⟨j, h1, h2, h3⟩ := hj
  refine ⟨?_, fun _ => ⟨hr, ?_⟩⟩
  · rintro ⟨i, h4, h5, h6⟩
    rw [written_unique h4 h1.1 h5 h2] at h6
    exact absurd h6 (h1.2 h3).1
  · rintro ⟨i, h4, h5, h6⟩
    rw [written_unique h4 h1.1 h5 h2, h3] at h6
    cases h6

/-- `struct S { #[fieldx(get)] r#type: T }` -/
def exRaw : List FieldArgs := [{ ident := "r#type", accessor := some {} }]

/-- `#[fxstruct(serde)] struct S { #[fieldx(get(off), serde(default(1)))] r#type: u32 }` -/
def exRawSerde : List FieldArgs :=
  [{ ident := "r#type", accessor := some { off := true }, serde := some { default := some { value := some "1" } } }]

/-- The name of the struct in the examples. -/
def exName : Ident := ⟨false, "S"⟩

theorem exRaw_source : Source L exRaw := by
  intro f hf
  cases List.mem_singleton.mp hf
  refine ⟨⟨true, "type"⟩, ⟨⟨ascii_word (by decide +kernel), fun _ => by decide +kernel⟩, fun h => by cases h⟩, ?_⟩
  show "r#type".toList = _
  decide +kernel

theorem exRawSerde_source : Source L exRawSerde := by
  intro f hf
  cases List.mem_singleton.mp hf
  refine ⟨⟨true, "type"⟩, ⟨⟨ascii_word (by decide +kernel), fun _ => by decide +kernel⟩, fun h => by cases h⟩, ?_⟩
  show "r#type".toList = _
  decide +kernel

theorem exName_usable : Usable L exName :=
  ⟨⟨ascii_word (by decide +kernel), fun h => by cases h⟩, fun _ => by decide +kernel⟩

theorem exRaw_unnamed : NoNames {} exRaw where
  fields f hf := by
    cases List.mem_singleton.mp hf
    refine ⟨fun k h hk => ?_, fun k h hk => ?_, rfl⟩
    · cases k <;> cases hk
    · cases k <;> simp [fieldArg] at hk
      subst hk
      rfl
  struct k h hk := by cases k <;> cases hk
  shadow sh h := by cases h
  rc h hh := by cases hh

theorem exRawSerde_unnamed : NoNames { serde := some {} } exRawSerde where
  fields f hf := by
    cases List.mem_singleton.mp hf
    refine ⟨fun k h hk => ?_, fun k h hk => ?_, rfl⟩
    · cases k <;> cases hk
    · cases k <;> simp [fieldArg] at hk
      subst hk
      rfl
  struct k h hk := by cases k <;> cases hk
  shadow sh h := by cases h; rfl
  rc h hh := by cases hh

/-- **C93 is false of the code.** A field written `r#type` is accepted, nothing is reported, and the accessor is called
`type`, without `r#`, which no method can be. -/
theorem C93_false : ∃ out, fxstruct true {} exRaw {} = .code out [] ∧ Source L exRaw ∧ NoNames {} exRaw ∧
    some ⟨false, "type"⟩ ∈ idents L exName (prepare {} exRaw) (fun _ => 0) out ∧ ¬ Usable L ⟨false, "type"⟩ := by
  refine ⟨[.dflt "r#type", .method "r#type" .accessor, .decl "r#type", .newFn, .defaultImpl], by decide +kernel,
    exRaw_source, exRaw_unnamed, ?_, fun h => (h.2 rfl).1 (by decide +kernel)⟩
  refine List.mem_append_right _ (List.mem_flatMap.mpr ⟨.method "r#type" .accessor, by decide +kernel, ?_⟩)
  have hm : exRaw.head (by decide) ∈ (prepare {} exRaw).allFields := by decide +kernel
  refine List.mem_flatMap.mpr ⟨_, List.mem_filter.mpr ⟨hm, by decide +kernel⟩, ?_⟩
  refine List.mem_cons.mpr (.inl ?_)
  obtain ⟨j, h1, h2⟩ := exRaw_source (L := L) _ (List.mem_singleton.mpr rfl)
  have e : j = ⟨true, "type"⟩ := by
    rw [← ofDisplay_written h1.1 h2]
    decide +kernel
  subst e
  rw [helper_unnamed .accessor (exRaw_unnamed.fields _ (List.mem_singleton.mpr rfl)) h1.1 h2]
  decide +kernel

/-- **C93 is false of the code.** A serde default which is no string, on a field written `r#type`: nothing is wrong with it,
and the macro panics. -/
theorem C93_serde_false : ∃ out, fxstruct true { serde := some {} } exRawSerde {} = .code out [] ∧ Source L exRawSerde ∧
    NoNames { serde := some {} } exRawSerde ∧
    none ∈ idents L exName (prepare { serde := some {} } exRawSerde) (fun _ => 1) out := by
  obtain ⟨out, hout⟩ : ∃ out, fxstruct true { serde := some {} } exRawSerde {} = .code out [] := by
    refine ⟨?_, ?_⟩
    rotate_left
    · rfl
  refine ⟨out, hout, exRawSerde_source, exRawSerde_unnamed, ?_⟩
  have hp : Piece.serdeFn "r#type" ∈ out := by
    have : (match fxstruct true { serde := some {} } exRawSerde {} with
      | .code o _ => o.contains (Piece.serdeFn "r#type")
      | _ => false) = true := by decide +kernel
    rw [hout] at this
    simpa using this
  refine List.mem_append_right _ (List.mem_flatMap.mpr ⟨_, hp, ?_⟩)
  have hm : exRawSerde.head (by decide) ∈ (prepare { serde := some {} } exRawSerde).allFields := by decide +kernel
  refine List.mem_flatMap.mpr ⟨_, List.mem_filter.mpr ⟨hm, by decide +kernel⟩, ?_⟩
  refine List.mem_singleton.mpr (Eq.symm ?_)
  obtain ⟨j, h1, h2⟩ := exRawSerde_source (L := L) _ (List.mem_singleton.mpr rfl)
  have e : j = ⟨true, "type"⟩ := by
    rw [← ofDisplay_written h1.1 h2]
    decide +kernel
  exact (C93_serde_fn_iff exName_usable h1 h2 1).1.mpr (.inr (by rw [e]))

/-- **C93.** The names of `Verif.Model.Names`, which are said of strings, are those made here of tokens, if the `r#` of the
field is left away. -/
theorem C93_names (x : FCtx) (k : Kind) {j i : Ident} (hj : Token L j) (hw : Written x.field j)
    (h : helperIdent L x k = some i) :
    i.spelling = (Verif.Model.Names.helperName ⟨x.ctx, { x.field with ident := j.text }⟩ k).toList := by
  have hfa : ∀ k, FieldArgs.getHelper { x.field with ident := j.text } k = x.field.getHelper k := by
    intro k
    cases k <;> rfl
  have haff : affixed L x k = some i → i.spelling =
      (Verif.Model.Names.namePrefix x.ctx.args k ++ Verif.Model.Names.baseName { x.field with ident := j.text } ++
        Verif.Model.Names.nameSuffix k).toList := by
    intro h
    unfold affixed at h
    obtain ⟨b, hb, h⟩ := Option.bind_eq_some_iff.mp h
    have : fragment b = Verif.Model.Names.baseName { x.field with ident := j.text } := by
      unfold baseIdent at hb
      unfold Verif.Model.Names.baseName
      cases hbn : x.field.baseName with
      | none =>
        rw [hbn, ofDisplay_written hj hw] at hb
        cases hb
        simp [fragment]
      | some n =>
        rw [hbn] at hb
        obtain ⟨_, rfl⟩ := (newIdent_iff _ _).mp hb
        simp [fragment]
    rw [← this]
    exact ((mkIdent_iff _ _).mp h).2
  unfold helperIdent at h
  unfold Verif.Model.Names.helperName
  rw [hfa]
  cases hn : (x.field.getHelper k).bind (·.name) with
  | none =>
    rw [hn] at h
    exact haff h
  | some n =>
    rw [hn] at h
    simp only at h ⊢
    split at h
    · rename_i hne
      rw [if_pos hne]
      exact ((mkIdent_iff _ _).mp h).2
    · rename_i hne
      rw [if_neg hne]
      exact haff h

/-- **C93.** Which identifier goes with which piece of the expansion about the whole struct: builder and `builder()` share the
builder's name, the shadow struct and the two conversions the shadow's, the serde default function is named after the shadow,
and nothing is made for `new()` and `Default`. -/
theorem C93_pieces {name : Ident} (hn : Usable L name) (c : Ctx) (n : Nat) :
    (∃ i, pieceIdents L name c n .builderStruct = [some i] ∧ pieceIdents L name c n .builderFn = [some i] ∧
      i.spelling = name.text.toList ++ "Builder".toList) ∧
    (c.args.serde.bind (·.shadowName) = none → ∃ i, pieceIdents L name c n .shadowStruct = [some i] ∧
      pieceIdents L name c n .fromImpl = [some i] ∧ pieceIdents L name c n .intoImpl = [some i] ∧
      i.spelling = "__".toList ++ name.text.toList ++ "Shadow".toList ∧
      ∃ k, pieceIdents L name c n .wholeFn = [some k] ∧ k.spelling = i.spelling ++ "_default_".toList ++ n.repr.toList) ∧
    (∀ w i, c.args.serde.bind (·.shadowName) = some w → Token L i → i.spelling = w.toList →
      pieceIdents L name c n .shadowStruct = [some i] ∧ pieceIdents L name c n .fromImpl = [some i] ∧
      pieceIdents L name c n .intoImpl = [some i]) ∧
    pieceIdents L name c n .newFn = [] ∧ pieceIdents L name c n .defaultImpl = [] := by
  refine ⟨?_, fun hs => ?_, fun w i hs ht hw => ?_, rfl, rfl⟩
  · obtain ⟨i, h1, _, h3⟩ := C93_builder_struct hn
    refine ⟨i, ?_, ?_, h3⟩ <;> simp [pieceIdents, about, h1]
  · obtain ⟨i, h1, h2⟩ := (C93_shadow_iff (s := c.args) hn).mpr fun sh m h1 h2 => by
      rw [h1, Option.bind_some, h2] at hs
      cases hs
    obtain ⟨k, h3, _, h4⟩ := C93_whole_fn h1 h2 n
    refine ⟨i, ?_, ?_, ?_, ?_, k, ?_, h4⟩
    · simp [pieceIdents, about, h1]
    · simp [pieceIdents, about, h1]
    · simp [pieceIdents, about, h1]
    · unfold shadowIdent at h1
      rw [hs] at h1
      have := ((mkIdent_iff _ _).mp h1).2
      rw [this]
      simp [String.toList_append, fragment]
    · simp [pieceIdents, about, h3]
  · have : shadowIdent L name c.args = some i := by
      unfold shadowIdent
      rw [hs]
      exact (mkIdent_iff _ _).mpr ⟨ht, hw⟩
    simp [pieceIdents, about, this]

/-- Does the body call the builder method of the field itself? -/
def callsBuilder (b : Verif.Model.Method.Body) : Bool :=
  (b.pre.getD [] ++ b.main).any fun
    | .getOrInit _ | .getOrTryInit _ => true
    | _ => false

/-- **C93.** A method of a field which is not sync has its own name, and names the builder method exactly if its body
(`Verif.Model.Method`) calls it. -/
theorem C93_method_pieces (name : Ident) (n : Nat) (x : FCtx) (k : Kind) (hs : x.isSync = false)
    {b : Verif.Model.Method.Body} (hb : Verif.Model.Method.body x k = .ok b) :
    fieldIdents L name n x (.method x.field.ident k) =
      helperIdent L x k :: if callsBuilder b then [helperIdent L x .lazy] else [] := by
  simp only [fieldIdents, hs, Bool.not_false, Bool.true_and, List.cons.injEq, true_and]
  have : callsBuilder b = (x.isLazy && (k == .accessor || k == .accessorMut)) := by
    simp only [Verif.Model.Method.body, Verif.Model.Method.plainAccessor, Verif.Model.Method.plainAccessorMut,
      Verif.Model.Method.plainSetter, Verif.Model.Method.plainClearer, Verif.Model.Method.plainPredicate,
      Verif.Model.Method.plainLazyInit, Verif.Model.Method.shortcut, Verif.Model.Method.plainMeth,
      Verif.Model.Method.okReturn, Verif.Model.Method.fallibleRet, hs, Bool.false_eq_true, if_false] at hb
    revert hb
    generalize x.isLazy = lz; generalize x.isOptional = op; generalize x.isInnerMut = im
    generalize x.isFallible = fa; generalize x.isCopy = cp; generalize x.isClone = cl; generalize x.accessorMode = md
    generalize Verif.Model.Init.hasErrorType x = he; generalize Verif.Model.Method.rc x = rc
    cases k with
    | accessor =>
      cases lz
      · cases im
        · cases md <;> simp <;> intro hb <;> subst hb <;> rfl
        · cases md <;> cases op <;> cases cl <;> cases cp <;> simp <;> intro hb <;> subst hb <;> rfl
      · cases md <;> cases fa <;> cases he <;> simp [Bind.bind, Verif.Model.Init.Gen.bind, pure] <;> intros <;> subst_vars <;> rfl
    | accessorMut =>
      cases lz <;> cases im <;> cases fa <;> cases he <;> simp [Bind.bind, Verif.Model.Init.Gen.bind, pure] <;> intros <;> subst_vars <;> rfl
    | setter => cases lz <;> cases im <;> cases op <;> simp <;> intros <;> subst_vars <;> rfl
    | clearer => cases lz <;> cases im <;> simp <;> intros <;> subst_vars <;> rfl
    | predicate => cases lz <;> cases im <;> simp <;> intros <;> subst_vars <;> rfl
    | _ => simp
  rw [this]

/-! ### Cases -/

-- A given name may be raw, and may be no identifier at all.
example : helperIdent ascii ⟨{}, { ident := "a", clearer := some { name := some "r#move" } }⟩ .clearer =
    some ⟨true, "move"⟩ := by decide +kernel
example : helperIdent ascii ⟨{}, { ident := "a", clearer := some { name := some "no way" } }⟩ .clearer = none := by
  decide +kernel
-- `rename` has to be a word; a prefix may be wrong.
example : helperIdent ascii ⟨{}, { ident := "a", clearer := some {}, baseName := some "a-b" }⟩ .clearer = none := by
  decide +kernel
example : helperIdent ascii ⟨{ args := { clearer := some { name := some "1" } } }, { ident := "a", clearer := some {} }⟩ .clearer =
    none := by decide +kernel
example : helperIdent ascii ⟨{ args := { clearer := some { name := some "r#" } } }, { ident := "fn", clearer := some {} }⟩ .clearer =
    some ⟨true, "fn"⟩ := by decide +kernel
-- Affixes make keywords usable.
example : helperIdent ascii ⟨{}, { ident := "r#type", clearer := some {} }⟩ .clearer = some ⟨false, "clear_type"⟩ := by
  decide +kernel
-- Both sides of `C93_helper_rule` and `C93_names`.
example : Token ascii ⟨true, "type"⟩ ∧ Written { ident := "r#type" } ⟨true, "type"⟩ :=
  ⟨⟨ascii_word (by decide +kernel), fun _ => by decide +kernel⟩, by show "r#type".toList = _; decide +kernel⟩
-- A raw self reference.
example : rcIdents ascii { rc := some { name := some "r#box" } } =
    [some ⟨true, "box"⟩, some ⟨true, "box_downgrade"⟩, some ⟨false, "__weak_box"⟩] := by decide +kernel
example : rcIdents ascii { rc := some { name := some "" } } = [none, some ⟨false, "_downgrade"⟩, none] := by decide +kernel
-- Shadow structs.
example : shadowIdent ascii ⟨true, "type"⟩ { serde := some {} } = some ⟨false, "__typeShadow"⟩ := by decide +kernel
example : wholeFnIdent ascii ⟨true, "type"⟩ { serde := some { shadowName := some "r#dyn" } } 3 =
    some ⟨true, "dyn_default_3"⟩ := by decide +kernel
example : builderIdent ascii ⟨true, "type"⟩ = some ⟨false, "typeBuilder"⟩ := by decide +kernel

/-- `#[fxstruct(sync, builder, serde)] struct S { #[fieldx(lazy, get, clearer)] a: T,
#[fieldx(get(off), reader, builder(off))] r#match: U, #[fieldx(serde(default(1)))] b: u32 }` -/
def exMixed : StructArgs := { mode := some .sync, builder := some {}, serde := some {} }
def exMixedFields : List FieldArgs :=
  [{ ident := "a", lazy := some {}, accessor := some {}, clearer := some {} },
   { ident := "r#match", accessor := some { off := true }, reader := some {}, builder := some { off := true } },
   { ident := "b", serde := some { default := some { value := some "1" } } }]

theorem exMixed_source : Source ascii exMixedFields := by
  have word : ∀ w : String, validWord ascii w.toList = true → keywords.contains w = false → w ≠ "_" →
      Usable ascii ⟨false, w⟩ := by
    intro w h1 h2 h3
    exact ⟨⟨(validWord_iff _).mp h1, fun h => by cases h⟩, fun _ => ⟨by simpa using h2, h3⟩⟩
  intro f hf
  simp only [exMixedFields, List.mem_cons, List.not_mem_nil, or_false] at hf
  rcases hf with rfl | rfl | rfl
  · exact ⟨⟨false, "a"⟩, word _ (by decide +kernel) (by decide +kernel) (by decide +kernel), rfl⟩
  · refine ⟨⟨true, "match"⟩, ⟨⟨ascii_word (by decide +kernel), fun _ => by decide +kernel⟩, fun h => by cases h⟩, ?_⟩
    show "r#match".toList = _
    decide +kernel
  · exact ⟨⟨false, "b"⟩, word _ (by decide +kernel) (by decide +kernel) (by decide +kernel), rfl⟩

theorem exMixed_unnamed : NoNames exMixed exMixedFields where
  fields f hf := by
    simp only [exMixedFields, List.mem_cons, List.not_mem_nil, or_false] at hf
    refine ⟨fun k h hk => ?_, fun k h hk => ?_, ?_⟩
    · cases k <;> simp [structRaw, exMixed] at hk
      subst hk
      rfl
    · rcases hf with rfl | rfl | rfl <;> cases k <;> simp [fieldArg] at hk <;> subst hk <;> rfl
    · rcases hf with rfl | rfl | rfl <;> rfl
  struct k h hk := by
    cases k <;> simp [structRaw, exMixed] at hk
    subst hk
    rfl
  shadow sh h := by cases h; rfl
  rc h hh := by cases hh

/-- The hypotheses of `C93_idents_iff` and `C93_clean_iff` on a run with identifiers of all sorts, and both sides: one field
is a keyword, and all identifiers can be used. -/
example : ∃ out, fxstruct true exMixed exMixedFields {} = .code out [] ∧
    Verif.Spec.Expansion.DistinctNames (prepare exMixed exMixedFields) ∧ Source ascii exMixedFields ∧
    NoNames exMixed exMixedFields ∧
    (idents ascii exName (prepare exMixed exMixedFields) (fun _ => 7) out).length = 14 ∧
    (idents ascii exName (prepare exMixed exMixedFields) (fun _ => 7) out).all (fun o => o.elim false fun i =>
      validWord ascii i.text.toList && !keywords.contains i.text && !i.raw) = true :=
  ⟨match fxstruct true exMixed exMixedFields {} with | .code out _ => out | _ => [], by decide +kernel, by decide +kernel,
    exMixed_source, exMixed_unnamed, by decide +kernel, by decide +kernel⟩

/-- `C93_pieces` and `C93_method_pieces`: the names written for `struct S`, and a plain lazy field `a`. -/
example : pieceIdents ascii exName (prepare exMixed exMixedFields) 7 .builderStruct = [some ⟨false, "SBuilder"⟩] ∧
    pieceIdents ascii exName (prepare exMixed exMixedFields) 7 .intoImpl = [some ⟨false, "__SShadow"⟩] := by decide +kernel
example : Usable ascii exName ∧ exMixed.serde.bind (·.shadowName) = none := ⟨exName_usable, rfl⟩
example : let x : FCtx := ⟨{ args := {}, fields := [] }, { ident := "a", «lazy» := some {} }⟩
    x.isSync = false ∧ fieldIdents ascii exName 0 x (.method "a" .accessor) = [some ⟨false, "a"⟩, some ⟨false, "build_a"⟩] ∧
    ∃ b, Verif.Model.Method.body x .accessor = .ok b ∧ callsBuilder b = true :=
  ⟨by decide +kernel, by decide +kernel, _, rfl, by decide +kernel⟩

end Verif.Props.Idents
