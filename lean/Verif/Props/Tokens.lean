import Std.Data.String.ToNat
import Verif.Model.Tokens
/-
Token rewriting, attribute lists, attribute order, fresh identifiers: C40-C43.
-/
namespace Verif.Props.Tokens
open Verif.Model.Tokens

/-! ## C40 -/

/-- The tokens of a tree as they are printed, one after another. -/
inductive Leaf
  | ident (s : String)
  | punct (c : Char)
  | lit (s : String)
  | opening (d : Delim)
  | closing (d : Delim)
deriving DecidableEq, Repr

mutual
def print1 : Tok → List Leaf
  | .ident s => [.ident s]
  | .punct c => [.punct c]
  | .lit s => [.lit s]
  | .group d ts => [.opening d] ++ print ts ++ [.closing d]
/-- Printed form. -/
def print : List Tok → List Leaf
  | [] => []
  | t :: ts => print1 t ++ print ts
end

theorem print_append (a b : List Tok) : print (a ++ b) = print a ++ print b := by
  induction a with
  | nil => rfl
  | cons t ts ih => simp [print, ih]

/-- What is printed for one token after rewriting: the replacement for `Self`, anything else as it is. -/
def subst (struct : String) (generics : List Tok) (l : Leaf) : List Leaf :=
  if l = .ident "Self" then [.punct '<', .ident struct] ++ print generics ++ [.punct '>'] else [l]

mutual
theorem fixupTok_print (s : String) (g : List Tok) : ∀ t : Tok, print (fixupTok s g t) = (print1 t).flatMap (subst s g)
  | .ident n => by
    by_cases h : n = "Self"
    · subst h; simp [fixupTok, print1, subst, selfTokens, print, print_append]
    · simp [fixupTok, print1, subst, h, print]
  | .punct c => by simp [fixupTok, print1, subst, print]
  | .lit c => by simp [fixupTok, print1, subst, print]
  | .group d ts => by simp [fixupTok, print1, print, fixup_print s g ts, subst]
theorem fixup_print (s : String) (g : List Tok) : ∀ ts : List Tok, print (fixup s g ts) = (print ts).flatMap (subst s g)
  | [] => by simp [fixup, print]
  | t :: ts => by simp [fixup, print, print_append, fixupTok_print s g t, fixup_print s g ts]
end

/-- Rewriting replaces each `Self` of the printed expression and leaves every other token where it is. -/
theorem C40_prints (struct : String) (generics ts : List Tok) :
    print (fixup struct generics ts) = (print ts).flatMap (subst struct generics) := fixup_print struct generics ts

/-- Part of the full claim: no `Self` is left at any depth, provided the struct's generics do not mention `Self` (a
struct cannot be called `Self`). Missing: generics with bounds that mention `Self`, for which it is false
(`C40_self_in_bounds`). -/
theorem C40_no_self_left_partial (struct : String) (generics ts : List Tok) (hs : struct ≠ "Self")
    (hg : Leaf.ident "Self" ∉ print generics) : Leaf.ident "Self" ∉ print (fixup struct generics ts) := by
  rw [C40_prints]
  intro h
  obtain ⟨l, _, hl⟩ := List.mem_flatMap.mp h
  unfold subst at hl
  split at hl
  · simp only [List.mem_append, List.mem_cons, List.not_mem_nil, or_false] at hl
    rcases hl with ((h | h) | h) | h
    · cases h
    · exact hs (Leaf.ident.inj h).symm
    · exact hg h
    · cases h
  · rename_i hne
    simp at hl
    exact hne hl.symm

/-- Everything other than `Self` is kept, in order. -/
theorem C40_others_kept (struct : String) (generics ts : List Tok) :
    ((print ts).filter (· ≠ .ident "Self")).Sublist (print (fixup struct generics ts)) := by
  rw [C40_prints]
  induction print ts with
  | nil => simp
  | cons l r ih =>
    rw [List.flatMap_cons]
    by_cases h : l = .ident "Self"
    · subst h
      rw [List.filter_cons_of_neg (by simp)]
      exact ih.trans (List.sublist_append_right _ _)
    · rw [List.filter_cons_of_pos (by simp [h])]
      have : subst struct generics l = [l] := if_neg h
      rw [this]
      exact List.Sublist.cons_cons _ ih

mutual
theorem fixupTok_id (s : String) (g : List Tok) : ∀ t : Tok, Leaf.ident "Self" ∉ print1 t → fixupTok s g t = [t]
  | .ident n, h => by
    have : n ≠ "Self" := by rintro rfl; simp [print1] at h
    simp [fixupTok, this]
  | .punct c, _ => by simp [fixupTok]
  | .lit c, _ => by simp [fixupTok]
  | .group d ts, h => by
    have : fixup s g ts = ts := fixup_id s g ts (by simpa [print1] using h)
    simp [fixupTok, this]
theorem fixup_id (s : String) (g : List Tok) : ∀ ts : List Tok, Leaf.ident "Self" ∉ print ts → fixup s g ts = ts
  | [], _ => rfl
  | t :: ts, h => by
    simp only [print, List.mem_append, not_or] at h
    rw [fixup, fixupTok_id s g t h.1, fixup_id s g ts h.2]
    rfl
end

/-- An expression without `Self` is unchanged, as a tree. -/
theorem C40_unchanged (struct : String) (generics ts : List Tok) (h : Leaf.ident "Self" ∉ print ts) :
    fixup struct generics ts = ts := fixup_id struct generics ts h

/-- Rewriting twice is rewriting once. -/
theorem C40_idempotent (struct : String) (generics ts : List Tok) (hs : struct ≠ "Self")
    (hg : Leaf.ident "Self" ∉ print generics) :
    fixup struct generics (fixup struct generics ts) = fixup struct generics ts :=
  C40_unchanged _ _ _ (C40_no_self_left_partial struct generics ts hs hg)

/-- `struct S<T: Tr<Self>>` with default `Self::mk()`: `Self` is still there after rewriting. -/
theorem C40_self_in_bounds : ∃ (struct : String) (generics ts : List Tok), struct ≠ "Self" ∧
    Leaf.ident "Self" ∈ print (fixup struct generics ts) := by
  refine ⟨"S", [.punct '<', .ident "T", .punct ':', .ident "Tr", .punct '<', .ident "Self", .punct '>', .punct '>'],
    [.ident "Self", .punct ':', .punct ':', .ident "mk", .group .paren []], by decide, ?_⟩
  decide

/-- Test: `Some((Self::A, 1))`. -/
example : print (fixup "S" [] [.ident "Some", .group .paren [.group .paren
      [.ident "Self", .punct ':', .punct ':', .ident "A", .punct ',', .lit "1"]]]) =
    [.ident "Some", .opening .paren, .opening .paren, .punct '<', .ident "S", .punct '>', .punct ':', .punct ':',
      .ident "A", .punct ',', .lit "1", .closing .paren, .closing .paren] := by decide

/-! ## C41 -/

/-- The items separated by commas. -/
def commaList : List (List Tok) → List Tok
  | [] => []
  | [a] => a
  | a :: b :: r => a ++ [.punct ','] ++ commaList (b :: r)

/-- A non-empty item without punctuation at its top level. -/
def Item (a : List Tok) : Prop := a ≠ [] ∧ ∀ t ∈ a, ∀ c, t ≠ .punct c

/-- The splitting as plain recursion: puncts end an item. -/
def splitRec : List Tok → List Tok → List (List Tok)
  | cur, [] => [cur]
  | cur, t :: ts => if t.isPunct then cur :: splitRec [] ts else splitRec (cur ++ [t]) ts

theorem foldl_chunk (done : List (List Tok)) (cur ts : List Tok) :
    ts.foldl chunkStep (done ++ [cur]) = done ++ splitRec cur ts := by
  induction ts generalizing done cur with
  | nil => rfl
  | cons t ts ih =>
    rw [List.foldl_cons, splitRec]
    by_cases h : t.isPunct = true
    · rw [if_pos h]
      have : chunkStep (done ++ [cur]) t = (done ++ [cur]) ++ [[]] := by simp [chunkStep, h]
      rw [this, ih]; simp
    · rw [if_neg h]
      have : chunkStep (done ++ [cur]) t = done ++ [cur ++ [t]] := by simp [chunkStep, h]
      rw [this, ih]

theorem chunks_eq (ts : List Tok) :
    chunks ts = (let r := splitRec [] ts; if (r.getLastD []).isEmpty then r.dropLast else r) := by
  have := foldl_chunk [] [] ts
  simp only [List.nil_append] at this
  simp only [chunks, this]

theorem not_punct_item {a : List Tok} (h : ∀ t ∈ a, ∀ c, t ≠ .punct c) : ∀ t ∈ a, t.isPunct = false := by
  intro t ht
  cases t with
  | punct c => exact absurd rfl (h _ ht c)
  | _ => rfl

theorem splitRec_item (cur a ts : List Tok) (h : ∀ t ∈ a, t.isPunct = false) :
    splitRec cur (a ++ ts) = splitRec (cur ++ a) ts := by
  induction a generalizing cur with
  | nil => simp
  | cons t r ih =>
    rw [List.cons_append, splitRec, if_neg (by simp [h t (by simp)]), ih _ (fun u hu => h u (by simp [hu]))]
    simp

theorem splitRec_comma (items : List (List Tok)) (rest : List Tok) (hne : items ≠ [])
    (h : ∀ a ∈ items, Item a) : splitRec [] (commaList items ++ rest) =
      items.dropLast ++ splitRec (items.getLast hne) rest := by
  induction items with
  | nil => exact absurd rfl hne
  | cons a r ih =>
    have ha := not_punct_item (h a (by simp)).2
    cases r with
    | nil => simp [commaList, splitRec_item _ _ _ ha]
    | cons b r =>
      have := ih (by simp) (fun x hx => h x (by simp [hx]))
      simp only [commaList, List.append_assoc]
      rw [splitRec_item _ _ _ ha]
      simp only [List.nil_append, List.cons_append, splitRec, Tok.isPunct, if_true]
      rw [this]
      simp [List.getLast_cons]

/-- Part of the full claim: a list of items separated by commas, with or without a trailing comma, is split into exactly
these items. The items must not contain punctuation at their top level. Missing: items with punctuation, such as
`doc = "text"` or `rustfmt::skip`, which the documentation allows and for which it is false (`C41_punct_false`). -/
theorem C41_split_partial (items : List (List Tok)) (h : ∀ a ∈ items, Item a) :
    chunks (commaList items) = items ∧ (items ≠ [] → chunks (commaList items ++ [.punct ',']) = items) := by
  by_cases hne : items = []
  · subst hne
    exact ⟨rfl, fun h => absurd rfl h⟩
  · constructor
    · have := splitRec_comma items [] hne h
      rw [List.append_nil] at this
      rw [splitRec, List.dropLast_concat_getLast hne] at this
      rw [chunks_eq, this]
      have hl : items.getLastD [] = items.getLast hne := by 
        simp [List.getLastD_eq_getLast?, List.getLast?_eq_some_getLast hne]
      simp only []
      rw [hl]
      have : (items.getLast hne).isEmpty = false := by
        cases he : items.getLast hne with
        | nil => exact absurd he (h _ (List.getLast_mem hne)).1
        | cons => rfl
      simp [this]
    · intro _
      rw [chunks_eq, splitRec_comma items _ hne h]
      have : splitRec (items.getLast hne) [Tok.punct ','] = [items.getLast hne, []] := by simp [splitRec, Tok.isPunct]
      rw [this]
      have e : items.dropLast ++ [items.getLast hne, []] = items ++ [[]] := by
        conv => rhs; rw [← List.dropLast_concat_getLast hne]
        simp
      rw [e]; simp

/-- No token is lost or reordered but the punctuation, whatever the tokens. -/
theorem C41_tokens_kept (ts : List Tok) : (chunks ts).flatten = ts.filter (fun t => !t.isPunct) := by
  have key : ∀ cur ts, (splitRec cur ts).flatten = cur ++ ts.filter (fun t => !t.isPunct) := by
    intro cur ts
    induction ts generalizing cur with
    | nil => simp [splitRec]
    | cons t r ih =>
      rw [splitRec]
      by_cases h : t.isPunct = true
      · rw [if_pos h]; simp [ih, h]
      · rw [if_neg h]; simp [ih, h]
  rw [chunks_eq]
  have hne : ∀ cur ts, splitRec cur ts ≠ [] := by
    intro cur ts
    induction ts generalizing cur with
    | nil => simp [splitRec]
    | cons t r ih => rw [splitRec]; split <;> simp [ih]
  simp only
  have k := key [] ts
  rw [List.nil_append] at k
  split
  · rename_i he
    rw [← k]
    have h1 := hne [] ts
    have hl : (splitRec [] ts).getLastD [] = (splitRec [] ts).getLast h1 := by
      simp [List.getLastD_eq_getLast?, List.getLast?_eq_some_getLast h1]
    rw [hl, List.isEmpty_iff] at he
    conv => rhs; rw [← List.dropLast_concat_getLast h1]
    simp [he]
  · exact k

/-- A plain attribute: a name, alone or with one group. -/
inductive Plain : List Tok → Prop
  | name (n : String) : Plain [.ident n]
  | call (n : String) (d : Delim) (ts : List Tok) : Plain [.ident n, .group d ts]

/-- An attribute list is accepted exactly when every piece between top-level punctuation is a plain attribute; otherwise
the macro panics. -/
theorem C41_accepted_iff (ts : List Tok) :
    (attributesFromMeta ts = some (chunks ts) ↔ ∀ a ∈ chunks ts, Plain a) ∧
    (attributesFromMeta ts = none ↔ ∃ a ∈ chunks ts, ¬ Plain a) := by
  have hp : ∀ a, attrParses a = true ↔ Plain a := by
    intro a
    constructor
    · intro h
      unfold attrParses at h
      split at h
      · exact .name _
      · exact .call _ _ _
      · cases h
    · intro h; cases h <;> rfl
  unfold attributesFromMeta
  by_cases h : (chunks ts).all attrParses = true
  · rw [if_pos h]
    rw [List.all_eq_true] at h
    refine ⟨⟨fun _ a ha => (hp a).mp (h a ha), fun _ => rfl⟩, ⟨fun e => (by cases e), ?_⟩⟩
    rintro ⟨a, ha, hn⟩
    exact absurd ((hp a).mp (h a ha)) hn
  · rw [if_neg h]
    have : ∃ a ∈ chunks ts, ¬ Plain a := by
      simp only [List.all_eq_true] at h
      apply Classical.byContradiction
      intro hc
      apply h
      intro a ha
      apply Classical.byContradiction
      intro hn
      exact hc ⟨a, ha, fun hpa => hn ((hp a).mpr hpa)⟩
    refine ⟨⟨fun e => (by cases e), ?_⟩, ⟨fun _ => this, fun _ => rfl⟩⟩
    intro hall
    obtain ⟨a, ha, hn⟩ := this
    exact absurd (hall a ha) hn

/-- `attributes(doc = "text")` is one well-formed attribute. It is split in two, and the macro panics. The same happens
for `attributes(rustfmt::skip)`. -/
theorem C41_punct_false :
    (chunks [.ident "doc", .punct '=', .lit "text"] = [[.ident "doc"], [.lit "text"]] ∧
      attributesFromMeta [.ident "doc", .punct '=', .lit "text"] = none) ∧
    (chunks [.ident "rustfmt", .punct ':', .punct ':', .ident "skip"] = [[.ident "rustfmt"], [], [.ident "skip"]] ∧
      attributesFromMeta [.ident "rustfmt", .punct ':', .punct ':', .ident "skip"] = none) :=
  ⟨⟨rfl, rfl⟩, ⟨rfl, rfl⟩⟩

/-- Non-trivial case: `derive(Clone, Debug), inline,`. -/
example : Item [.ident "derive", .group .paren [.ident "Clone", .punct ',', .ident "Debug"]] ∧ Item [.ident "inline"] ∧
    attributesFromMeta [.ident "derive", .group .paren [.ident "Clone", .punct ',', .ident "Debug"], .punct ',',
      .ident "inline", .punct ','] =
      some [[.ident "derive", .group .paren [.ident "Clone", .punct ',', .ident "Debug"]], [.ident "inline"]] := by
  refine ⟨⟨by simp, by simp⟩, ⟨by simp, by simp⟩, rfl⟩

/-! ## C42 -/

private theorem le_total (a b : Attr) : (attrCmp a b != .gt || attrCmp b a != .gt) = true := by
  unfold attrCmp; cases a.isDerive <;> cases b.isDerive <;> rfl

private theorem le_trans (a b c : Attr) : (attrCmp a b != .gt) = true → (attrCmp b c != .gt) = true →
    (attrCmp a c != .gt) = true := by
  unfold attrCmp; cases a.isDerive <;> cases b.isDerive <;> cases c.isDerive <;> simp

/-- The attributes of the generated struct: the derives in their order, then the others in their order. -/
theorem C42_derives_first (extra input : List Attr) :
    allAttrs extra input =
      (extra ++ input).filter (·.isDerive) ++ (extra ++ input).filter (fun a => !a.isDerive) := by
  unfold allAttrs
  generalize extra ++ input = l
  -- the sorted list is a permutation, sorted, and contains both sub-lists in order
  have hs := List.pairwise_mergeSort (le := fun a b : Attr => attrCmp a b != .gt) le_trans le_total l
  have hp := List.mergeSort_perm l (fun a b : Attr => attrCmp a b != .gt)
  have h1 : (l.filter (·.isDerive)).Sublist (l.mergeSort (fun a b : Attr => attrCmp a b != .gt)) := by
    apply List.sublist_mergeSort le_trans le_total _ List.filter_sublist
    rw [List.pairwise_iff_forall_sublist]
    intro a b hab
    have ha := hab.subset (by simp : a ∈ [a, b])
    have hb := hab.subset (by simp : b ∈ [a, b])
    have ha := (List.mem_filter.mp ha).2
    have hb := (List.mem_filter.mp hb).2
    simp [attrCmp, ha, hb]
  have h2 : (l.filter (fun a => !a.isDerive)).Sublist (l.mergeSort (fun a b : Attr => attrCmp a b != .gt)) := by
    apply List.sublist_mergeSort le_trans le_total _ List.filter_sublist
    rw [List.pairwise_iff_forall_sublist]
    intro a b hab
    have ha := hab.subset (by simp : a ∈ [a, b])
    have hb := hab.subset (by simp : b ∈ [a, b])
    have ha := (List.mem_filter.mp ha).2
    have hb := (List.mem_filter.mp hb).2
    simp_all [attrCmp]
  generalize l.mergeSort (fun a b : Attr => attrCmp a b != .gt) = m at hs hp h1 h2
  -- a sorted list is its derives followed by its others
  have hm : m = m.filter (·.isDerive) ++ m.filter (fun a => !a.isDerive) := by
    clear h1 h2 hp
    induction m with
    | nil => rfl
    | cons a r ih =>
      rw [List.pairwise_cons] at hs
      have ih := ih hs.2
      cases ha : a.isDerive with
      | true => simp [ha, ← ih]
      | false =>
        have hr : ∀ b ∈ r, b.isDerive = false := by
          intro b hb
          have := hs.1 b hb
          cases hbd : b.isDerive
          · rfl
          · simp [attrCmp, ha, hbd] at this
        have e1 : r.filter (·.isDerive) = [] := by
          rw [List.filter_eq_nil_iff]; intro b hb; simp [hr b hb]
        have e2 : r.filter (fun a => !a.isDerive) = r := by
          rw [List.filter_eq_self]; intro b hb; simp [hr b hb]
        simp [ha, e1, e2]
  have f1 : m.filter (·.isDerive) = l.filter (·.isDerive) := by
    have hsub := h1.filter (·.isDerive)
    rw [List.filter_filter] at hsub
    simp only [Bool.and_self] at hsub
    exact (hsub.eq_of_length ((hp.filter _).length_eq.symm)).symm
  have f2 : m.filter (fun a => !a.isDerive) = l.filter (fun a => !a.isDerive) := by
    have hsub := h2.filter (fun a => !a.isDerive)
    rw [List.filter_filter] at hsub
    simp only [Bool.and_self] at hsub
    exact (hsub.eq_of_length ((hp.filter _).length_eq.symm)).symm
  rw [hm, f1, f2]

/-- In particular it is a permutation of the given attributes. -/
theorem C42_permutation (extra input : List Attr) : (allAttrs extra input).Perm (extra ++ input) :=
  List.mergeSort_perm _ _

/-- Non-trivial case: order matters. -/
example : allAttrs [⟨false, 1⟩] [⟨true, 2⟩, ⟨false, 3⟩, ⟨true, 4⟩] = [⟨true, 2⟩, ⟨true, 4⟩, ⟨false, 1⟩, ⟨false, 3⟩] := by
  rw [C42_derives_first]; decide

/-! ## C43 -/

/-- Digits carry no underscore, so the text after the last underscore is the counter. -/
private theorem ident_inj {p q : String} {m n : Nat} (h : p ++ "_" ++ m.repr = q ++ "_" ++ n.repr) : m = n := by
  have h := congrArg String.toList h
  simp only [String.toList_append, Nat.toList_repr] at h
  have e : "_".toList = ['_'] := by decide
  rw [e, List.append_assoc, List.append_assoc] at h
  have hm := @Nat.underscore_not_in_toDigits m
  have hn := @Nat.underscore_not_in_toDigits n
  generalize hdm : Nat.toDigits 10 m = dm at *
  generalize hdn : Nat.toDigits 10 n = dn at *
  have h' := congrArg List.reverse h
  simp only [List.reverse_append, List.append_assoc, List.reverse_cons,
    List.singleton_append] at h'
  have key : ∀ (a b c d : List Char), '_' ∉ a → '_' ∉ b → a ++ '_' :: c = b ++ '_' :: d → a = b := by
    intro a
    induction a with
    | nil =>
      intro b c d _ hb h
      cases b with
      | nil => rfl
      | cons x b =>
        simp only [List.nil_append, List.cons_append, List.cons.injEq] at h
        exact absurd (by simp [← h.1]) hb
    | cons x a ih =>
      intro b c d ha hb h
      cases b with
      | nil =>
        simp only [List.nil_append, List.cons_append, List.cons.injEq] at h
        exact absurd (by simp [h.1]) ha
      | cons y b =>
        simp only [List.cons_append, List.cons.injEq] at h
        rw [h.1, ih b c d (fun hh => ha (by simp [hh])) (fun hh => hb (by simp [hh])) h.2]
  have := key _ _ _ _ (by simpa using hm) (by simpa using hn) h'
  have := List.reverse_inj.mp this
  apply Nat.repr_inj.mp
  rw [← String.toList_inj, Nat.toList_repr, Nat.toList_repr, hdm, hdn, this]

private theorem mem_unique {s : String} {n : Nat} {ps : List String} (h : s ∈ uniqueIdents n ps) :
    ∃ p m, n < m ∧ s = p ++ "_" ++ m.repr := by
  induction ps generalizing n with
  | nil => simp [uniqueIdents] at h
  | cons p ps ih =>
    unfold uniqueIdents uniqueIdent at h
    by_cases hlt : n + 1 < 2 ^ 32
    · rw [if_pos hlt] at h
      simp only [List.mem_cons] at h
      rcases h with h | h
      · exact ⟨p, n + 1, by omega, h⟩
      · obtain ⟨q, m, h1, h2⟩ := ih h
        exact ⟨q, m, by omega, h2⟩
    · rw [if_neg hlt] at h; simp at h

/-- Whatever the prefixes asked for and wherever the counter starts, all identifiers handed out differ. (With overflow
checks the macro stops at 2³² requests.) -/
theorem C43_fresh (start : Nat) (prefixes : List String) : (uniqueIdents start prefixes).Nodup := by
  induction prefixes generalizing start with
  | nil => simp [uniqueIdents]
  | cons p ps ih =>
    unfold uniqueIdents uniqueIdent
    by_cases hlt : start + 1 < 2 ^ 32
    · rw [if_pos hlt]
      simp only [List.nodup_cons]
      refine ⟨?_, ih _⟩
      intro hm
      obtain ⟨q, m, h1, h2⟩ := mem_unique hm
      have := ident_inj h2
      omega
    · rw [if_neg hlt]; simp

/-- Below 2³² requests every request is answered. -/
theorem C43_all_answered (prefixes : List String) (h : prefixes.length < 2 ^ 32) :
    (uniqueIdents 0 prefixes).length = prefixes.length := by
  have key : ∀ (n : Nat) (ps : List String), n + ps.length < 2 ^ 32 → (uniqueIdents n ps).length = ps.length := by
    intro n ps
    induction ps generalizing n with
    | nil => intro _; rfl
    | cons p ps ih =>
      intro hl
      rw [List.length_cons] at hl
      unfold uniqueIdents uniqueIdent
      rw [if_pos (by omega)]
      simp only [List.length_cons]
      rw [ih _ (by omega)]
  exact key 0 prefixes (by omega)

private theorem wrap_getElem (n : Nat) (hn : n < 2 ^ 32) (ps : List String) (i : Nat) (hi : i < ps.length) :
    (uniqueIdentsWrap n ps)[i]? = some (ps[i] ++ "_" ++ ((n + i + 1) % 2 ^ 32).repr) := by
  induction ps generalizing n i with
  | nil => simp at hi
  | cons p ps ih =>
    unfold uniqueIdentsWrap
    cases i with
    | zero => simp [uniqueIdentWrap]
    | succ i =>
      rw [List.getElem?_cons_succ]
      have := ih (uniqueIdentWrap n p).2 (Nat.mod_lt _ (by decide)) i (by simpa using hi)
      rw [this]
      have e : ((uniqueIdentWrap n p).2 + i + 1) % 2 ^ 32 = (n + (i + 1) + 1) % 2 ^ 32 := by
        simp only [uniqueIdentWrap]; omega
      rw [e]
      simp

/-- Without overflow checks the counter wraps; all identifiers still differ for up to 2³² requests. Missing: more than
that, for which it is false (`C43_wrap_false`). -/
theorem C43_wrapping_partial (prefixes : List String) (h : prefixes.length ≤ 2 ^ 32) (i j : Nat)
    (hi : i < prefixes.length) (hj : j < prefixes.length) (hij : i ≠ j) :
    (uniqueIdentsWrap 0 prefixes)[i]? ≠ (uniqueIdentsWrap 0 prefixes)[j]? := by
  rw [wrap_getElem 0 (by decide) _ i hi, wrap_getElem 0 (by decide) _ j hj]
  intro he
  have := ident_inj (Option.some.inj he)
  omega

/-- 2³² + 1 requests with one prefix, counter wrapping: the first and the last identifier are the same. -/
theorem C43_wrap_false : ∃ prefixes : List String, ¬ (uniqueIdentsWrap 0 prefixes).Nodup := by
  refine ⟨List.replicate (2 ^ 32 + 1) "x", ?_⟩
  intro h
  have h0 := wrap_getElem 0 (by decide) (List.replicate (2 ^ 32 + 1) "x") 0 (by rw [List.length_replicate]; omega)
  have h1 := wrap_getElem 0 (by decide) (List.replicate (2 ^ 32 + 1) "x") (2 ^ 32) (by rw [List.length_replicate]; omega)
  rw [List.getElem_replicate] at h0 h1
  have e : (0 + 0 + 1) % 2 ^ 32 = (0 + 2 ^ 32 + 1) % 2 ^ 32 := by omega
  rw [e, ← h1] at h0
  have hl : 0 < (uniqueIdentsWrap 0 (List.replicate (2 ^ 32 + 1) "x")).length := by
    apply Nat.lt_of_not_le
    intro hc
    rw [List.getElem?_eq_none hc] at h0
    rw [← h0] at h1
    cases h1
  have := (List.getElem?_inj hl h).mp h0
  omega

example : uniqueIdents 0 ["a", "a_1", "a"] = ["a_1", "a_1_2", "a_3"] := by decide

end Verif.Props.Tokens
