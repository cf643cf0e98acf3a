import Verif.Spec.Prec
import Verif.Model.Exclusive
/-! Lemmas about the scan over exclusive alternatives. -/
namespace Verif.Proof.Exclusive
open Verif.Model.Args Verif.Model.Exclusive Verif.Spec.Prec

/-- Names of the arguments that are set, in order. -/
def setNames (l : List Param) : List String := (l.filter (·.2)).map (·.1)

theorem scanSub_eq (l : List Param) (b : Bool) (ps : List String) :
    scanSub l b ps = (b || l.any (·.2), ps ++ setNames l) := by
  induction l generalizing b ps with
  | nil => simp [scanSub, setNames]
  | cons p r ih =>
    obtain ⟨n, v⟩ := p
    cases v <;> simp [scanSub, ih, setNames]

/-- Number of alternatives with a set argument. -/
def setAlts (l : List (List Param)) : Nat := (l.filter (fun a => a.any (·.2))).length

theorem scanGroup_eq (l : List (List Param)) (s : Scan) :
    scanGroup l s = { setParams := s.setParams ++ setNames l.flatten, subgroupsSet := s.subgroupsSet + setAlts l } := by
  induction l generalizing s with
  | nil => simp [scanGroup, setNames, setAlts]
  | cons a r ih =>
    simp only [scanGroup, scanSub_eq, ih, Bool.false_or]
    cases h : a.any (·.2) <;>
    simp [setNames, setAlts, h, List.append_assoc] <;> omega

theorem two_of_filter {α : Type} (p : α → Bool) (l : List α) :
    1 < (l.filter p).length ↔ ∃ i j : Nat, i ≠ j ∧ ∃ a b, l[i]? = some a ∧ l[j]? = some b ∧ p a = true ∧ p b = true := by
  induction l with
  | nil => simp
  | cons x r ih =>
    constructor
    · intro h
      cases hx : p x with
      | false =>
        rw [List.filter_cons_of_neg (by simp [hx])] at h
        obtain ⟨i, j, hij, a, b, h1, h2, h3, h4⟩ := ih.mp h
        exact ⟨i + 1, j + 1, by omega, a, b, by simpa using h1, by simpa using h2, h3, h4⟩
      | true =>
        rw [List.filter_cons_of_pos (by simp [hx])] at h
        have : 0 < (r.filter p).length := by simpa using h
        obtain ⟨y, hy⟩ := List.exists_mem_of_length_pos this
        obtain ⟨hy1, hy2⟩ := List.mem_filter.mp hy
        obtain ⟨j, hj⟩ := List.mem_iff_getElem?.mp hy1
        exact ⟨0, j + 1, by omega, x, y, by simp, by simpa using hj, hx, hy2⟩
    · rintro ⟨i, j, hij, a, b, h1, h2, h3, h4⟩
      have mem : ∀ (k : Nat) c, r[k]? = some c → p c = true → 0 < (r.filter p).length := by
        intro k c hk hc
        exact List.length_pos_of_mem (List.mem_filter.mpr ⟨List.mem_iff_getElem?.mpr ⟨k, hk⟩, hc⟩)
      cases i with
      | zero =>
        cases j with
        | zero => exact absurd rfl hij
        | succ j =>
          simp at h1 h2
          subst h1
          rw [List.filter_cons_of_pos h3]
          have := mem j b h2 h4
          rw [List.length_cons]; omega
      | succ i =>
        cases j with
        | zero =>
          simp at h1 h2
          subst h2
          rw [List.filter_cons_of_pos h4]
          have := mem i a h1 h3
          rw [List.length_cons]; omega
        | succ j =>
          simp at h1 h2
          have := ih.mpr ⟨i, j, by omega, a, b, h1, h2, h3, h4⟩
          have hle : (r.filter p).length ≤ ((x :: r).filter p).length := by
            rw [List.filter_cons]; split <;> simp
          omega

theorem any_set_iff (a : List Param) : a.any (·.2) = true ↔ ∃ n, (n, true) ∈ a := by
  rw [List.any_eq_true]
  constructor
  · rintro ⟨⟨n, v⟩, hm, hv⟩; simp at hv; subst hv; exact ⟨n, hm⟩
  · rintro ⟨n, hm⟩; exact ⟨_, hm, rfl⟩

theorem conflict_iff (alts : List (List Param)) : 1 < setAlts alts ↔ Conflict alts := by
  rw [setAlts, two_of_filter]
  simp only [Conflict, any_set_iff]

/-- The errors are exactly the groups in conflict, in order, each with the names of all set arguments. -/
theorem errors_eq (gs : List Group) :
    errors gs = (gs.filter (fun g => decide (1 < setAlts g.2))).map (fun g => (g.1, setNames g.2.flatten)) := by
  induction gs with
  | nil => rfl
  | cons g r ih =>
    obtain ⟨n, alts⟩ := g
    simp only [errors, scanGroup_eq, ih, Nat.zero_add, List.nil_append, gt_iff_lt]
    by_cases h : 1 < setAlts alts <;> simp [h]

theorem errors_nil_iff (gs : List Group) : errors gs = [] ↔ ∀ g ∈ gs, ¬ Conflict g.2 := by
  rw [errors_eq]
  simp only [List.map_eq_nil_iff, List.filter_eq_nil_iff, decide_eq_true_eq, conflict_iff]

theorem conflict_pair {alts : List (List Param)} {i j : Nat} {a b : List Param} {n m : String}
    (hij : i ≠ j) (hi : alts[i]? = some a) (hj : alts[j]? = some b) (ha : (n, true) ∈ a) (hb : (m, true) ∈ b) :
    Conflict alts := ⟨i, j, hij, a, b, hi, hj, ⟨n, ha⟩, ⟨m, hb⟩⟩

theorem field_not_copy_clone (f : FieldArgs) (h : acceptField f = true) : ¬ (f.copy = some true ∧ f.clone = some true) := by
  intro ⟨a, b⟩
  have := (errors_nil_iff _).mp (List.isEmpty_iff.mp h) ((fieldGroups f)[1]'(by simp [fieldGroups])) (List.getElem_mem _)
  exact this (conflict_pair (i := 0) (j := 1) (n := "copy") (m := "clone") (by decide) rfl rfl (by simp [a]) (by simp [b]))

theorem struct_not_copy_clone (s : StructArgs) (h : acceptStruct s = true) :
    ¬ (s.copy = some true ∧ s.clone = some true) := by
  intro ⟨a, b⟩
  have := (errors_nil_iff _).mp (List.isEmpty_iff.mp h) ((structGroups s)[1]'(by simp [structGroups])) (List.getElem_mem _)
  exact this (conflict_pair (i := 0) (j := 1) (n := "copy") (m := "clone") (by decide) rfl rfl (by simp [a]) (by simp [b]))

end Verif.Proof.Exclusive
