import Verif.Proof.LogLin
import Verif.Proof.SyncGuard
import Verif.Spec.Cell
/-!
# Laws of legal sequential histories (helper lemmas)
-/

namespace Verif.Proof
open Verif.Spec Verif.Model

variable {V E : Type}

/-- One call moves values only between cell and outside. -/
theorem cell_conserves {c c' : Option V} {d : Done (Op V) (Res V E)} (h : CellStep c d.op d.ret c') :
    (c.toList ++ entered d).Perm (handedOut d ++ c'.toList) := by
  obtain ⟨i, op, r⟩ := d
  cases h with
  | hit k v => simp [entered, handedOut]
  | build k o => cases o <;> simp [entered, handedOut, Outcome.value?]
  | set c v => cases c <;> simp [entered, handedOut]
  | clear c => cases c <;> simp [entered, handedOut]
  | isSet c => simp [entered, handedOut]
  | snapshot c => simp [entered, handedOut]
  | writer c => simp [entered, handedOut]
  | store c v => cases c <;> simp [entered, handedOut]
  | take c => cases c <;> simp [entered, handedOut]
  | deref g v => simp [entered, handedOut]
  | assign g v w => simp [entered, handedOut]

theorem legal_conserves {c c' : Option V} {ds : List (Done (Op V) (Res V E))} (h : Legal CellStep c ds c') :
    (c.toList ++ ds.flatMap entered).Perm (ds.flatMap handedOut ++ c'.toList) := by
  induction h with
  | nil => simp
  | @cons s s' s'' d ds h _ ih =>
    have h1 := cell_conserves h
    simp only [List.flatMap_cons]
    calc s.toList ++ (entered d ++ ds.flatMap entered)
        = (s.toList ++ entered d) ++ ds.flatMap entered := by simp
      _ |>.Perm ((handedOut d ++ s'.toList) ++ ds.flatMap entered) := h1.append_right _
      _ = handedOut d ++ (s'.toList ++ ds.flatMap entered) := by simp
      _ |>.Perm (handedOut d ++ (ds.flatMap handedOut ++ s''.toList)) := ih.append_left _
      _ = handedOut d ++ ds.flatMap handedOut ++ s''.toList := by simp

/-- In a legal history with every call answered, the linearization is a rearrangement of the answered calls. -/
theorem opOf_eq {Op R X : Type} {l : List (LEv Op R X)} {t} (h : Disc l t) {i op} (hi : HEv.inv i op ∈ hist l) :
    opOf (hist l) i = some op := by
  unfold opOf
  cases hf : (hist l).findSome? _ with
  | none =>
    rw [List.findSome?_eq_none_iff] at hf
    have := hf _ hi
    simp at this
  | some op' =>
    obtain ⟨e, h1, h2⟩ := List.exists_of_findSome?_eq_some hf
    cases e with
    | inv j op'' =>
      simp at h2
      obtain ⟨rfl, rfl⟩ := h2
      rw [h.inv_unique (mem_hist_inv.1 hi) (mem_hist_inv.1 h1)]
    | res j r => simp at h2

theorem mem_completed {Op R X : Type} {l : List (LEv Op R X)} {t} (h : Disc l t) {d : Done Op R} :
    d ∈ completed (hist l) ↔ HEv.res d.id d.ret ∈ hist l ∧ HEv.inv d.id d.op ∈ hist l := by
  unfold completed
  rw [List.mem_filterMap]
  constructor
  · rintro ⟨e, h1, h2⟩
    cases e with
    | inv j op => simp at h2
    | res j r =>
      simp only [Option.map_eq_some_iff] at h2
      obtain ⟨op, h3, rfl⟩ := h2
      obtain ⟨op', h4, h5⟩ := h.facts.res_lin j r h1
      rw [opOf_eq h h4] at h3
      simp at h3; subst h3
      exact ⟨h1, h4⟩
  · rintro ⟨h1, h2⟩
    exact ⟨_, h1, by simp [opOf_eq h h2]⟩

theorem nodup_of_map {α β : Type} {f : α → β} {l : List α} (h : (l.map f).Nodup) : l.Nodup := by
  induction l with
  | nil => simp
  | cons a l ih =>
    simp only [List.map_cons, List.nodup_cons, List.mem_map, not_exists, not_and] at h ⊢
    exact ⟨fun ha => h.1 a ha rfl, ih h.2⟩

theorem completed_nodup {Op R : Type} (h : List (HEv Op R)) (g : List (HEv Op R)) (hn : (g.map HEv.key).Nodup) :
    (g.filterMap fun
      | .inv _ _ => none
      | .res i r => (opOf h i).map fun op => (⟨i, op, r⟩ : Done Op R)).Nodup := by
  induction g with
  | nil => simp
  | cons e g ih =>
    simp only [List.map_cons, List.nodup_cons] at hn
    rw [List.filterMap_cons]
    split
    · exact ih hn.2
    · rename_i d hd
      rw [List.nodup_cons]
      refine ⟨?_, ih hn.2⟩
      intro hm
      rw [List.mem_filterMap] at hm
      obtain ⟨e', h1, h2⟩ := hm
      apply hn.1
      cases e with
      | inv j op => simp at hd
      | res j r =>
        cases e' with
        | inv j' op' => simp at h2
        | res j' r' =>
          simp only [Option.map_eq_some_iff] at hd h2
          obtain ⟨op, _, rfl⟩ := hd
          obtain ⟨op', _, h3⟩ := h2
          injection h3 with h4 h5 h6
          subst h4
          exact List.mem_map.2 ⟨_, h1, rfl⟩

theorem Disc.lin_res {Op R X : Type} {l : List (LEv Op R X)} {t} (h : Disc l t) :
    ∀ d ∈ lins l, t d.id = .done → HEv.res d.id d.ret ∈ hist l := by
  induction h with
  | nil => simp [lins]
  | @inv l t i op hd hi ih =>
    intro d hm ht
    simp only [lins_snoc_inv] at hm
    simp only [hist_snoc_inv, List.mem_append]
    refine .inl (ih d hm ?_)
    by_cases hdi : d.id = i
    · rw [hdi] at ht; simp at ht
    · rwa [upd_other _ _ hdi] at ht
  | @lin l t i op r hd hi ih =>
    intro d hm ht
    simp only [lins_snoc_lin, List.mem_append, List.mem_singleton] at hm
    simp only [hist_snoc_lin]
    by_cases hdi : d.id = i
    · rw [hdi] at ht; simp at ht
    · rcases hm with hm | rfl
      · rw [upd_other _ _ hdi] at ht; exact ih d hm ht
      · exact absurd rfl hdi
  | @res l t i op r hd hi ih =>
    intro d hm ht
    simp only [lins_snoc_res] at hm
    simp only [hist_snoc_res, List.mem_append, List.mem_singleton]
    by_cases hdi : d.id = i
    · have := hd.facts.lin_phase d hm
      rw [hdi, hi] at this
      simp at this
      right; rw [hdi, this.2]
    · rw [upd_other _ _ hdi] at ht; exact .inl (ih d hm ht)
  | @cancel l t i op hd hi ih =>
    intro d hm ht
    simp only [lins_snoc_cancel] at hm
    simp only [hist_snoc_cancel]
    by_cases hdi : d.id = i
    · have := hd.facts.lin_phase d hm
      rw [hdi, hi] at this
      simp at this
    · rw [upd_other _ _ hdi] at ht; exact ih d hm ht
  | @other l t x hd ih =>
    intro d hm ht
    simp only [lins_snoc_other] at hm
    simp only [hist_snoc_other]
    exact ih d hm ht

/-- When no call is under way the linearization is a rearrangement of the answered calls. -/
theorem lins_perm_completed {Op R X : Type} {l : List (LEv Op R X)} {t} (h : Disc l t)
    (hq : ∀ i, t i = .fresh ∨ t i = .done) : (lins l).Perm (completed (hist l)) := by
  have f := h.facts
  have hn : (completed (hist l)).Nodup := completed_nodup (hist l) (hist l) h.wellFormed.once
  rw [List.perm_ext_iff_of_nodup (nodup_of_map f.nodup) hn]
  intro d
  rw [mem_completed h]
  constructor
  · intro hd
    refine ⟨?_, f.lin_inv d hd⟩
    have h1 := f.lin_phase d hd
    refine h.lin_res d hd ?_
    rcases hq d.id with h2 | h2
    · rw [h2] at h1; simp at h1
    · exact h2
  · rintro ⟨h1, h2⟩
    obtain ⟨op, h3, h4⟩ := f.res_lin _ _ h1
    have h5 := h.inv_unique (mem_hist_inv.1 h2) (mem_hist_inv.1 h3)
    subst h5
    exact h4

/-- A call takes effect after it was made. -/
theorem Disc.lin_after {Op R X : Type} {l : List (LEv Op R X)} {t} (h : Disc l t) {i op r} {l₁ l₂ : List (LEv Op R X)}
    (hl : l = l₁ ++ .lin i op r :: l₂) : .inv i op ∈ l₁ := by
  induction h generalizing l₁ l₂ with
  | nil => simp at hl
  | inv hd hi ih =>
    rcases snoc_split hl with ⟨l', h1⟩ | ⟨_, h1⟩
    · exact ih h1
    · cases h1
  | lin hd hi ih =>
    rcases snoc_split hl with ⟨l', h1⟩ | ⟨h0, h1⟩
    · exact ih h1
    · injection h1 with h1 h2 h3
      subst h1 h2 h0
      exact mem_hist_inv.1 (hd.facts.invoked_inv _ _ hi)
  | res hd hi ih =>
    rcases snoc_split hl with ⟨l', h1⟩ | ⟨_, h1⟩
    · exact ih h1
    · cases h1
  | cancel hd hi ih =>
    rcases snoc_split hl with ⟨l', h1⟩ | ⟨_, h1⟩
    · exact ih h1
    · cases h1
  | other hd ih =>
    rcases snoc_split hl with ⟨l', h1⟩ | ⟨_, h1⟩
    · exact ih h1
    · cases h1

/-- A call is answered after it took effect, with the result fixed then. -/
theorem Disc.res_after {Op R X : Type} {l : List (LEv Op R X)} {t} (h : Disc l t) {i r} {l₁ l₂ : List (LEv Op R X)}
    (hl : l = l₁ ++ .res i r :: l₂) : ∃ op, .lin i op r ∈ l₁ := by
  induction h generalizing l₁ l₂ with
  | nil => simp at hl
  | inv hd hi ih =>
    rcases snoc_split hl with ⟨l', h1⟩ | ⟨_, h1⟩
    · exact ih h1
    · cases h1
  | lin hd hi ih =>
    rcases snoc_split hl with ⟨l', h1⟩ | ⟨h0, h1⟩
    · exact ih h1
    · cases h1
  | @res l t i op r hd hi ih =>
    rcases snoc_split hl with ⟨l', h1⟩ | ⟨h0, h1⟩
    · exact ih h1
    · injection h1 with h1 h2
      subst h1 h2 h0
      exact ⟨op, mem_lins.1 (hd.facts.linearized_inv _ _ _ hi).2⟩
  | cancel hd hi ih =>
    rcases snoc_split hl with ⟨l', h1⟩ | ⟨_, h1⟩
    · exact ih h1
    · cases h1
  | other hd ih =>
    rcases snoc_split hl with ⟨l', h1⟩ | ⟨_, h1⟩
    · exact ih h1
    · cases h1

/-- No call is made twice. -/
theorem Disc.inv_once {Op R X : Type} {l : List (LEv Op R X)} {t} (h : Disc l t) {i op op'} {l₁ l₂ : List (LEv Op R X)}
    (hl : l = l₁ ++ l₂) (h1 : .inv i op ∈ l₁) (h2 : .inv i op' ∈ l₂) : False := by
  have := h.wellFormed.once
  have hh : hist (l₁ ++ l₂) = hist l₁ ++ hist l₂ := by simp [hist]
  rw [hl, hh, List.map_append, List.nodup_append] at this
  exact this.2.2 _ (List.mem_map.2 ⟨_, mem_hist_inv.2 h1, rfl⟩) _ (List.mem_map.2 ⟨_, mem_hist_inv.2 h2, rfl⟩) rfl

/-- Calls which only look leave the content. -/
theorem legal_readonly {c c' : Option V} {ds : List (Done (Op V) (Res V E))} (h : Legal CellStep c ds c')
    (hr : ∀ d ∈ ds, Sync.writes d.op = false ∧ d.ret.ran = none) : c' = c := by
  induction h with
  | nil => rfl
  | @cons s s' s'' d ds h _ ih =>
    have h1 := hr d (by simp)
    have h2 : s' = s := by
      rw [after_of_step h]
      obtain ⟨i, op, ⟨ran, ret⟩⟩ := d
      obtain ⟨h3, h4⟩ := h1
      simp only at h3 h4
      subst h4
      cases op <;> simp_all [Sync.writes, after]
    rw [ih (fun d hd => hr d (by simp [hd])), h2]

/-- Every entry of a legal history is a step of the object. -/
theorem legal_mem {S Op R : Type} {spec : S → Op → R → S → Prop} {s s' : S} {ds : List (Done Op R)}
    (h : Legal spec s ds s') {d : Done Op R} (hd : d ∈ ds) : ∃ c c', spec c d.op d.ret c' := by
  induction h with
  | nil => simp at hd
  | cons h _ ih =>
    rcases List.mem_cons.1 hd with rfl | hd
    · exact ⟨_, _, h⟩
    · exact ih hd

end Verif.Proof
