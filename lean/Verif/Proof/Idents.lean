import Verif.Model.Idents
import Verif.Spec.ArgRead
/-! Lemmas about words and the making of identifiers. -/
namespace Verif.Proof.Idents
open Verif.Spec.Lexical Verif.Spec.ArgRead Verif.Model.Args Verif.Model.Emit Verif.Model.Names Verif.Model.Idents

variable {L : Letters}

theorem goes_of_begins {c : Char} (h : L.begins c = true) : L.goes c = true := by
  unfold Letters.begins at h
  unfold Letters.goes
  split
  · rename_i hc
    rw [if_pos hc] at h
    rcases Bool.or_eq_true _ _ ▸ h with h | h
    · simp [Char.isAlphanum, h]
    · simp [h]
  · rename_i hc
    rw [if_neg hc] at h
    simp [h]

theorem validWord_iff (w : List Char) : validWord L w = true ↔ Word L w := by
  cases w with
  | nil => simp [validWord, Word]
  | cons c t =>
    simp only [validWord, Word, List.all_eq_true, Bool.and_eq_true]
    exact ⟨fun h => ⟨c, t, rfl, h⟩, fun ⟨_, _, e, h⟩ => by cases e; exact h⟩

theorem goes_of_word {w : List Char} (h : Word L w) : ∀ d ∈ w, L.goes d = true := by
  obtain ⟨c, t, rfl, h1, h2⟩ := h
  intro d hd
  rcases List.mem_cons.mp hd with rfl | hd
  · exact goes_of_begins h1
  · exact h2 d hd

theorem word_append {a b : List Char} (ha : Word L a) (hb : ∀ d ∈ b, L.goes d = true) : Word L (a ++ b) := by
  obtain ⟨c, t, rfl, h1, h2⟩ := ha
  refine ⟨c, t ++ b, rfl, h1, fun d hd => ?_⟩
  rcases List.mem_append.mp hd with hd | hd
  · exact h2 d hd
  · exact hb d hd

theorem hash_goes : L.goes '#' = false := by
  unfold Letters.goes
  rw [if_pos (by decide)]
  decide

theorem not_word_hash {w : List Char} (h : '#' ∈ w) : ¬ Word L w := fun hw => by
  have := goes_of_word hw _ h
  rw [hash_goes] at this
  exact absurd this (by decide)

/-- `format_ident!` gives the token spelled by the string, and panics if there is none. -/
theorem mkIdent_iff (s : String) (i : Ident) : mkIdent L s = some i ↔ Token L i ∧ i.spelling = s.toList := by
  obtain ⟨raw, text⟩ := i
  unfold mkIdent Token Ident.spelling
  split
  · rename_i w hw
    unfold newRaw
    rw [hw]
    constructor
    · intro h
      split at h
      · rename_i hc
        simp only [Bool.and_eq_true, Bool.not_eq_true', List.contains_eq_mem, decide_eq_false_iff_not] at hc
        cases h
        exact ⟨⟨(validWord_iff _).mp hc.1, fun _ => hc.2⟩, by simp⟩
      · cases h
    · rintro ⟨⟨h1, h2⟩, h3⟩
      cases raw with
      | false =>
        simp only [Bool.false_eq_true, if_false] at h3
        exact absurd h1 (not_word_hash (by simp [h3]))
      | true =>
        simp only [if_true, List.cons.injEq, true_and] at h3
        have e : String.ofList w = text := by rw [← h3, String.ofList_toList]
        rw [e, if_pos]
        simp only [Bool.and_eq_true, Bool.not_eq_true', List.contains_eq_mem, decide_eq_false_iff_not]
        exact ⟨(validWord_iff _).mpr h1, h2 rfl⟩
  · rename_i hw
    unfold newIdent
    constructor
    · intro h
      split at h
      · rename_i hc
        cases h
        exact ⟨⟨(validWord_iff _).mp hc, fun h => by cases h⟩, by simp⟩
      · cases h
    · rintro ⟨⟨h1, h2⟩, h3⟩
      cases raw with
      | true =>
        simp only [if_true] at h3
        exact absurd h3.symm (hw _)
      | false =>
        simp only [Bool.false_eq_true, if_false] at h3
        have e : text = s := String.toList_inj.mp h3
        rw [← e, if_pos ((validWord_iff _).mpr h1)]

theorem mkIdent_word {s : String} (h : Word L s.toList) : mkIdent L s = some ⟨false, s⟩ :=
  (mkIdent_iff s _).mpr ⟨⟨h, fun h => by cases h⟩, rfl⟩

theorem newIdent_iff (s : String) (i : Ident) : newIdent L s = some i ↔ Word L s.toList ∧ i = ⟨false, s⟩ := by
  unfold newIdent
  rw [← validWord_iff]
  cases validWord L s.toList <;> simp [eq_comm]

theorem keyword_no_underscore : ∀ k ∈ keywords, '_' ∉ k.toList := by decide +kernel

/-- A word with `_` in it and something beside it is a usable name. -/
theorem usable_of_underscore {s : String} (h : Word L s.toList) (hu : '_' ∈ s.toList) (hl : s.toList ≠ ['_']) :
    Usable L ⟨false, s⟩ :=
  ⟨⟨h, fun h => by cases h⟩, fun _ => ⟨fun hk => keyword_no_underscore _ hk hu, fun he => hl (by
    have : s = "_" := he
    rw [this]; decide +kernel)⟩⟩

theorem digits_go {n : Nat} : ∀ d ∈ n.repr.toList, L.goes d = true := by
  intro d hd
  have : d.isDigit = true := Nat.isDigit_of_mem_toDigits (b := 10) (n := n) (by decide) (by decide) (by simpa using hd)
  unfold Letters.goes
  have hlt : d.toNat < 128 := by
    have h := (Char.isDigit_iff_toNat).mp this
    have h9 : '9'.toNat = 57 := by decide
    omega
  rw [if_pos hlt]
  simp [Char.isAlphanum, this]

/-- No letters beyond ASCII. -/
def ascii : Letters := ⟨fun _ => false, fun _ => false⟩

theorem ascii_begins {c : Char} (h : ascii.begins c = true) : L.begins c = true := by
  unfold Letters.begins at *
  split
  · rename_i hc
    rwa [if_pos hc] at h
  · rename_i hc
    rw [if_neg hc] at h
    cases h

theorem ascii_goes {c : Char} (h : ascii.goes c = true) : L.goes c = true := by
  unfold Letters.goes at *
  split
  · rename_i hc
    rwa [if_pos hc] at h
  · rename_i hc
    rw [if_neg hc] at h
    cases h

theorem ascii_word {w : List Char} (h : validWord ascii w = true) : Word L w := by
  obtain ⟨c, t, rfl, h1, h2⟩ := (validWord_iff w).mp h
  exact ⟨c, t, rfl, ascii_begins h1, fun d hd => ascii_goes (h2 d hd)⟩

theorem ascii_all {w : List Char} (h : w.all ascii.goes = true) : ∀ d ∈ w, L.goes d = true := fun d hd =>
  ascii_goes (List.all_eq_true.mp h d hd)

end Verif.Proof.Idents
