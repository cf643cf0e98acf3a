import Verif.Proof.SyncBuild
/-!
# Builder runs per call (helper lemmas)
-/

namespace Verif.Proof.Sync
open Verif.Spec Verif.Model Verif.Model.Sync

variable {V E : Type}

/-- The builder events of a call which made the run `ran`. -/
def ofRan (i : CallId) : Option (Outcome V E) → List (BEv V E)
  | none => []
  | some o => [.bstart i, .bend i o]

/-- The builder events of the current call of a process. -/
def evAt (i : CallId) : Pc V E → List (BEv V E)
  | .rBuild _ => [.bstart i]
  | .rSet _ v | .rFlag _ v => [.bstart i, .bend i (.ok v)]
  | .rFail _ o => [.bstart i, .bend i o]
  | .rDown _ ran | .rReady _ ran | .rUpg2 _ ran | .rMap _ ran => ofRan i ran
  | _ => []

structure RunInv (s : St V E) : Prop where
  cur : ∀ p, builderEvents (s.me p) s.log = evAt (s.me p) (s.pc p)
  fut : ∀ p n, s.seq p < n → builderEvents ⟨p, n⟩ s.log = []
  past : ∀ i r, .res i r ∈ s.log → builderEvents i s.log = ofRan i r.ran ∧ i.seq < s.seq i.proc
  ans : ∀ p n, n < s.seq p → (∃ r, .res ⟨p, n⟩ r ∈ s.log) ∨ .cancel ⟨p, n⟩ ∈ s.log
  gone : ∀ i, .cancel i ∈ s.log →
    (builderEvents i s.log = [] ∨ builderEvents i s.log = [.bstart i, .abort i]) ∧ i.seq < s.seq i.proc

theorem runInv_init (v₀ : Option V) : RunInv (init v₀ : St V E) := by
  constructor <;> simp [init, builderEvents, evAt]

theorem be_append (i : CallId) (l l' : List (Ev V E)) :
    builderEvents i (l ++ l') = builderEvents i l ++ builderEvents i l' := by
  simp [builderEvents]

/-- A step within one call. -/
theorem run_within {s s' : St V E} {p : Nat} {x : Pc V E} {es : List (Ev V E)} (h : RunInv s)
    (hl : s'.log = s.log ++ es) (hseq : s'.seq = s.seq) (hpc : s'.pc = upd s.pc p x)
    (hne : ∀ i, i ≠ s.me p → builderEvents i es = []) (hnr : ∀ i r, .res i r ∉ es)
    (hnc : ∀ i, .cancel i ∉ es)
    (hx : evAt (s.me p) (s.pc p) ++ builderEvents (s.me p) es = evAt (s.me p) x) : RunInv s' := by
  have hme : ∀ q, s'.me q = s.me q := by intro q; simp [St.me, hseq]
  constructor
  · intro q
    rw [hme, hl, be_append, h.cur q]
    by_cases hq : q = p
    · subst hq; rw [hx, hpc, upd_same]
    · rw [hne, hpc, upd_other _ _ hq, List.append_nil]
      simp [St.me, hq]
  · intro q n hn
    rw [hseq] at hn
    rw [hl, be_append, h.fut q n hn, hne]
    · rfl
    · simp only [St.me, ne_eq, CallId.mk.injEq, not_and]; rintro rfl; omega
  · intro i r hi
    rw [hl, List.mem_append] at hi
    rcases hi with hi | hi
    · have h1 := h.past i r hi
      rw [hl, be_append, h1.1, hne, List.append_nil, hseq]
      · exact ⟨rfl, h1.2⟩
      · rintro rfl; simp [St.me] at h1
    · exact absurd hi (hnr i r)
  · intro q n hn
    rw [hseq] at hn
    rcases h.ans q n hn with ⟨r, hr⟩ | hr
    · exact .inl ⟨r, by simp [hl, hr]⟩
    · exact .inr (by simp [hl, hr])
  · intro i hi
    rw [hl, List.mem_append] at hi
    rcases hi with hi | hi
    · have h1 := h.gone i hi
      rw [hl, be_append, hne i (by rintro rfl; simp [St.me] at h1), List.append_nil, hseq]
      exact h1
    · exact absurd hi (hnc i)

/-- A step which ends the call. -/
theorem run_end {s s' : St V E} {p : Nat} {x : Pc V E} {es : List (Ev V E)} {r : Res V E} (h : RunInv s)
    (hl : s'.log = s.log ++ es) (hseq : s'.seq = upd s.seq p (s.seq p + 1)) (hpc : s'.pc = upd s.pc p x)
    (hne : ∀ i, builderEvents i es = []) (hnr : ∀ i r', .res i r' ∈ es → i = s.me p ∧ r' = r) (hr : .res (s.me p) r ∈ es)
    (hnc : ∀ i, .cancel i ∉ es) (h0 : evAt (s.me p) (s.pc p) = ofRan (s.me p) r.ran) (hx : ∀ i, evAt i x = []) : RunInv s' := by
  constructor
  · intro q
    rw [hl, be_append, hne, List.append_nil]
    by_cases hq : q = p
    · subst hq
      rw [hpc, upd_same, hx]
      apply h.fut
      simp [hseq]
    · rw [hpc, upd_other _ _ hq]
      have := h.cur q
      simpa [St.me, hseq, upd, hq] using this
  · intro q n hn
    rw [hl, be_append, hne, List.append_nil]
    apply h.fut
    rw [hseq] at hn
    simp only [upd] at hn
    split at hn
    · rename_i hq; subst hq; omega
    · exact hn
  · intro i r' hi
    rw [hl, List.mem_append] at hi
    rw [hl, be_append, hne, List.append_nil, hseq]
    rcases hi with hi | hi
    · have h1 := h.past i r' hi
      refine ⟨h1.1, ?_⟩
      simp only [upd]
      split
      · rename_i hq; rw [hq] at h1; omega
      · exact h1.2
    · obtain ⟨rfl, rfl⟩ := hnr i r' hi
      refine ⟨by rw [h.cur p, h0], ?_⟩
      simp [St.me, upd]
  · intro q n hn
    rw [hseq] at hn
    simp only [upd] at hn
    by_cases hq : q = p
    · subst hq
      by_cases hn' : n = s.seq q
      · subst hn'; exact .inl ⟨r, by rw [hl, List.mem_append]; exact .inr hr⟩
      · rcases h.ans q n (by simp at hn; omega) with ⟨r', hr'⟩ | hr'
        · exact .inl ⟨r', by simp [hl, hr']⟩
        · exact .inr (by simp [hl, hr'])
    · rcases h.ans q n (by simpa [hq] using hn) with ⟨r', hr'⟩ | hr'
      · exact .inl ⟨r', by simp [hl, hr']⟩
      · exact .inr (by simp [hl, hr'])
  · intro i hi
    rw [hl, List.mem_append] at hi
    rw [hl, be_append, hne, List.append_nil, hseq]
    rcases hi with hi | hi
    · have h1 := h.gone i hi
      refine ⟨h1.1, ?_⟩
      simp only [upd]
      split
      · rename_i hq; rw [hq] at h1; omega
      · exact h1.2
    · exact absurd hi (hnc i)

/-- A step which abandons the call. -/
theorem run_quit {s s' : St V E} {p : Nat} {es : List (Ev V E)} (h : RunInv s)
    (hl : s'.log = s.log ++ es) (hseq : s'.seq = upd s.seq p (s.seq p + 1)) (hpc : s'.pc = upd s.pc p .idle)
    (hne : ∀ i, i ≠ s.me p → builderEvents i es = []) (hnr : ∀ i r', .res i r' ∉ es)
    (hnc : ∀ i, .cancel i ∈ es → i = s.me p) (hc : .cancel (s.me p) ∈ es)
    (h0 : builderEvents (s.me p) s.log ++ builderEvents (s.me p) es = [] ∨
      builderEvents (s.me p) s.log ++ builderEvents (s.me p) es = [.bstart (s.me p), .abort (s.me p)]) : RunInv s' := by
  constructor
  · intro q
    by_cases hq : q = p
    · subst hq
      rw [hl, be_append, hpc, upd_same, hne, List.append_nil]
      · apply h.fut; simp [hseq]
      · simp [St.me, hseq]
    · rw [hl, be_append, hne, List.append_nil, hpc, upd_other _ _ hq]
      · have := h.cur q
        simpa [St.me, hseq, upd, hq] using this
      · simp [St.me, hq]
  · intro q n hn
    rw [hseq] at hn
    simp only [upd] at hn
    rw [hl, be_append, hne, List.append_nil]
    · apply h.fut
      split at hn
      · rename_i hq; subst hq; omega
      · exact hn
    · split at hn
      · rename_i hq; subst hq; simp only [St.me, ne_eq, CallId.mk.injEq, not_and]; intro _; omega
      · rename_i hq; simp [St.me, hq]
  · intro i r' hi
    rw [hl, List.mem_append] at hi
    rcases hi with hi | hi
    · have h1 := h.past i r' hi
      rw [hl, be_append, hne i (by rintro rfl; simp [St.me] at h1), List.append_nil, hseq]
      refine ⟨h1.1, ?_⟩
      simp only [upd]
      split
      · rename_i hq; rw [hq] at h1; omega
      · exact h1.2
    · exact absurd hi (hnr i r')
  · intro q n hn
    rw [hseq] at hn
    simp only [upd] at hn
    by_cases hq : q = p
    · subst hq
      by_cases hn' : n = s.seq q
      · subst hn'; exact .inr (by rw [hl, List.mem_append]; exact .inr hc)
      · rcases h.ans q n (by simp at hn; omega) with ⟨r', hr'⟩ | hr'
        · exact .inl ⟨r', by simp [hl, hr']⟩
        · exact .inr (by simp [hl, hr'])
    · rcases h.ans q n (by simpa [hq] using hn) with ⟨r', hr'⟩ | hr'
      · exact .inl ⟨r', by simp [hl, hr']⟩
      · exact .inr (by simp [hl, hr'])
  · intro i hi
    rw [hl, List.mem_append] at hi
    by_cases him : i = s.me p
    · subst him
      rw [hl, be_append]
      exact ⟨h0, by simp [St.me, hseq]⟩
    · rcases hi with hi | hi
      · have h1 := h.gone i hi
        rw [hl, be_append, hne i him, List.append_nil, hseq]
        refine ⟨h1.1, ?_⟩
        simp only [upd]
        split
        · rename_i hq; rw [hq] at h1; omega
        · exact h1.2
      · exact absurd (hnc i hi) him

set_option linter.unusedSimpArgs false
set_option maxHeartbeats 2000000 in
theorem run_go {s s' : St V E} {p} (h : RunInv s) (hs : go s p = some s') : RunInv s' := by
  unfold go at hs
  split at hs <;> rename_i hpc
  all_goals try (repeat' split at hs)
  all_goals first
    | (simp at hs; done)
    | (simp only [Option.map_eq_some_iff, Lock.tryUpgradable, Lock.claim, Lock.tryShared] at hs
       obtain ⟨l, hl, rfl⟩ := hs
       split at hl <;> simp at hl
       subst hl)
    | (simp only [Option.some.injEq] at hs
       subst hs)
  all_goals first
    | (exact run_within (p := p) (es := []) h (List.append_nil _).symm rfl rfl (fun _ _ => rfl) (by simp) (by simp) (by rw [hpc]; rfl))
    | (exact run_within (p := p) h rfl rfl rfl (fun _ _ => rfl) (by simp) (by simp) (by rw [hpc]; rfl))
    | (refine run_within (p := p) (es := [_]) h rfl rfl rfl ?_ (by simp) (by simp) ?_
       · intro i hi; simp [builderEvents, Ne.symm hi]; done
       · rw [hpc]; simp [evAt, builderEvents]; done)
    | (exact run_within (p := p) (es := []) h (List.append_nil _).symm rfl rfl (fun _ _ => rfl) (by simp) (by simp)
        (by rw [hpc]; exact List.append_nil _))
    | (refine run_end (p := p) (es := [_]) h rfl rfl rfl (fun _ => rfl)
        (by intro i r hi; cases List.mem_singleton.1 hi; exact ⟨rfl, rfl⟩) (List.mem_singleton.2 rfl) (by simp) (by rw [hpc]; rfl) ?_
       intro i; first | rfl | (simp only [heldGuard]; split <;> rfl))
    | (refine run_end (p := p) (es := [_, _]) (r := ⟨none, .unit⟩) h (List.append_assoc _ _ _) rfl rfl (fun _ => rfl) ?_
        (List.mem_cons_of_mem _ (List.mem_singleton.2 rfl)) (by simp) (by rw [hpc]; rfl) (fun _ => rfl)
       intro i r hi; simp at hi; exact hi)

theorem run_step {s s' : St V E} {p a} (h : RunInv s) (hs : step s p a = some s') : RunInv s' := by
  cases a with
  | go => exact run_go h hs
  | call op =>
    simp only [step, invoke] at hs
    split at hs <;> rename_i hpc
    all_goals try split at hs
    all_goals first
      | (simp at hs; done)
      | (simp only [Option.some.injEq] at hs
         subst hs)
    all_goals exact run_within (p := p) h rfl rfl rfl (fun _ _ => rfl) (by simp) (by simp) (by rw [hpc]; rfl)
  | finish o =>
    simp only [step, builderReturns] at hs
    split at hs <;> rename_i hpc
    all_goals try split at hs
    all_goals first
      | (simp at hs; done)
      | (simp only [Option.some.injEq] at hs
         subst hs)
    · refine run_within (p := p) (es := [_]) h rfl rfl rfl ?_ (by simp) (by simp) ?_
      · intro i hi; simp [builderEvents, Ne.symm hi]
      · rw [hpc]; simp [evAt, builderEvents]
    · refine run_within (p := p) (es := [_, _]) h (List.append_assoc _ _ _) rfl rfl ?_ (by simp) (by simp) ?_
      · intro i hi; simp [builderEvents, Ne.symm hi]
      · rw [hpc]; simp [evAt, builderEvents]
  | drop =>
    simp only [step, dropGuard] at hs
    split at hs <;> rename_i hpc
    all_goals first
      | (simp at hs; done)
      | (simp only [Option.some.injEq] at hs
         subst hs)
    all_goals exact run_within (p := p) h rfl rfl rfl (fun _ _ => rfl) (by simp) (by simp) (by rw [hpc]; rfl)

theorem run_abandon {s s' : St V E} {p} (h : RunInv s) (hs : abandon s p = some s') : RunInv s' := by
  have hcur := h.cur p
  unfold abandon at hs
  split at hs <;> rename_i hpc
  all_goals first
    | (simp at hs; done)
    | (simp only [Option.some.injEq] at hs
       subst hs)
  all_goals rw [hpc] at hcur
  · exact run_quit (p := p) (es := [_]) h rfl rfl rfl (fun _ _ => rfl) (by simp) (by simp [St.me]) (by simp [St.me])
      (.inl (by rw [hcur]; rfl))
  · exact run_quit (p := p) (es := [_]) h rfl rfl rfl (fun _ _ => rfl) (by simp) (by simp [St.me]) (by simp [St.me])
      (.inl (by rw [hcur]; rfl))
  · exact run_quit (p := p) (es := [_]) h rfl rfl rfl (fun _ _ => rfl) (by simp) (by simp [St.me]) (by simp [St.me])
      (.inl (by rw [hcur]; rfl))
  · refine run_quit (p := p) (es := [_, _]) h (List.append_assoc _ _ _) rfl rfl ?_ (by simp) (by simp [St.me, St.ev])
      (by simp [St.me, St.ev]) (.inr (by rw [hcur]; simp [evAt, builderEvents]))
    intro i hi
    simp [builderEvents, Ne.symm hi]

theorem runInv_reachC {v₀ : Option V} {s : St V E} (h : ReachC v₀ s) : RunInv s := by
  induction h with
  | init => exact runInv_init _
  | step _ hs ih => exact run_step ih hs
  | abandon _ hs ih => exact run_abandon ih hs

end Verif.Proof.Sync
