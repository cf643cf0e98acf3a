import Verif.Spec.Cancel
import Verif.Proof.AsyncThms
/-!
# Histories without the abandoned calls (helper lemmas)
-/

namespace Verif.Proof
open Verif.Spec Verif.Model

variable {Op R X S : Type}

theorem mem_abandoned {l : List (LEv Op R X)} {i : CallId} : i ∈ abandoned l ↔ .cancel i ∈ l := by
  unfold abandoned
  rw [List.mem_filterMap]
  constructor
  · rintro ⟨e, h1, h2⟩
    cases e <;> simp at h2
    subst h2; exact h1
  · intro h; exact ⟨_, h, rfl⟩

theorem mem_without {gone : List CallId} {h : List (HEv Op R)} {e : HEv Op R} :
    e ∈ without gone h ↔ e ∈ h ∧ e.key.1 ∉ gone := by
  simp [without, List.mem_filter]

theorem before_without {gone : List CallId} {h : List (HEv Op R)} {a b : HEv Op R} (hb : Before (without gone h) a b) :
    Before h a b := by
  obtain ⟨l₁, l₂, l₃, hl⟩ := hb
  obtain ⟨m₁, m₂, e, h1, h2⟩ := List.filter_eq_append_iff.1 hl
  obtain ⟨n₁, n₂, e', h3, h4⟩ := List.filter_eq_append_iff.1 h1
  obtain ⟨a₁, a₂, e₁, _, _, h5⟩ := List.filter_eq_cons_iff.1 h4
  obtain ⟨b₁, b₂, e₂, _, _, h6⟩ := List.filter_eq_cons_iff.1 h2
  subst e e' e₁ e₂
  exact ⟨n₁ ++ a₁, a₂ ++ b₁, b₂, by simp⟩

/-- Calls which took effect were not abandoned: the history without the abandoned ones is linearizable. -/
theorem Disc.linearizable_without {spec : S → Op → R → S → Prop} {s₀ s : S} {l : List (LEv Op R X)}
    {t : CallId → Phase Op R} (h : Disc l t) (hl : Legal spec s₀ (lins l) s) :
    Linearizable spec s₀ (without (abandoned l) (hist l)) := by
  have f := h.facts
  refine ⟨lins l, s, hl, f.nodup, ?_, ?_, ?_⟩
  · intro d hd
    refine mem_without.2 ⟨f.lin_inv d hd, fun hc => ?_⟩
    exact (h.cancelled (mem_abandoned.1 hc)).2.1 d.op d.ret (mem_lins.1 hd)
  · intro i r hr
    obtain ⟨h1, h2⟩ := mem_without.1 hr
    obtain ⟨op, h3, h4⟩ := f.res_lin i r h1
    exact ⟨op, mem_without.2 ⟨h3, h2⟩, h4⟩
  · intro d hd e he hb
    exact f.order d hd e he (before_without hb)

theorem keys_without {gone : List CallId} {h : List (HEv Op R)} (hw : WellFormed h) : WellFormed (without gone h) := by
  constructor
  · exact hw.once.sublist (List.filter_sublist.map _)
  · intro i r l₁ l₂ hl
    obtain ⟨m₁, m₂, e, h1, h2⟩ := List.filter_eq_append_iff.1 hl
    obtain ⟨b₁, b₂, e₂, h3, h4, h5⟩ := List.filter_eq_cons_iff.1 h2
    subst e₂
    obtain ⟨op, ho⟩ := hw.after i r (m₁ ++ b₁) b₂ (by rw [e]; simp)
    refine ⟨op, ?_⟩
    rw [← h1, List.mem_filter]
    rcases List.mem_append.1 ho with ho | ho
    · exact ⟨ho, h4⟩
    · exact absurd (show (!gone.contains (HEv.inv i op : HEv Op R).key.1) = true from h4) (h3 _ ho)

end Verif.Proof
