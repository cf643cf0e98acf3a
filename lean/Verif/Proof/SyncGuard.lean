import Verif.Proof.SyncRuns
/-!
# Read guards of the sync lazy container (helper lemmas)
-/

namespace Verif.Proof
open Verif.Spec Verif.Model

theorem mem_hist_inv {Op R X : Type} {l : List (LEv Op R X)} {i op} : HEv.inv i op ∈ hist l ↔ .inv i op ∈ l := by
  simp only [hist, List.mem_filterMap]
  constructor
  · rintro ⟨e, h1, h2⟩
    cases e <;> simp at h2
    obtain ⟨rfl, rfl⟩ := h2; exact h1
  · intro h; exact ⟨_, h, rfl⟩

theorem mem_hist_res {Op R X : Type} {l : List (LEv Op R X)} {i r} : HEv.res i r ∈ hist l ↔ .res i r ∈ l := by
  simp only [hist, List.mem_filterMap]
  constructor
  · rintro ⟨e, h1, h2⟩
    cases e <;> simp at h2
    obtain ⟨rfl, rfl⟩ := h2; exact h1
  · intro h; exact ⟨_, h, rfl⟩

theorem mem_lins {Op R X : Type} {l : List (LEv Op R X)} {i op r} : (⟨i, op, r⟩ : Done Op R) ∈ lins l ↔ .lin i op r ∈ l := by
  simp only [lins, List.mem_filterMap]
  constructor
  · rintro ⟨e, h1, h2⟩
    cases e <;> simp at h2
    obtain ⟨rfl, rfl, rfl⟩ := h2; exact h1
  · intro h; exact ⟨_, h, rfl⟩

theorem inj_of_nodup_map {α β : Type} {f : α → β} {l : List α} (h : (l.map f).Nodup) {a b : α} (ha : a ∈ l) (hb : b ∈ l)
    (hab : f a = f b) : a = b := by
  induction l with
  | nil => simp at ha
  | cons x l ih =>
    simp only [List.map_cons, List.nodup_cons, List.mem_map, not_exists, not_and] at h
    simp only [List.mem_cons] at ha hb
    rcases ha with rfl | ha <;> rcases hb with rfl | hb
    · rfl
    · exact absurd hab.symm (h.1 b hb)
    · exact absurd hab (h.1 a ha)
    · exact ih h.2 ha hb

theorem Disc.inv_unique {Op R X : Type} {l : List (LEv Op R X)} {t} (h : Disc l t) {i op op'}
    (h1 : .inv i op ∈ l) (h2 : .inv i op' ∈ l) : op = op' := by
  have := inj_of_nodup_map h.wellFormed.once (mem_hist_inv.2 h1) (mem_hist_inv.2 h2) rfl
  simpa using this

theorem Disc.res_unique {Op R X : Type} {l : List (LEv Op R X)} {t} (h : Disc l t) {i r r'}
    (h1 : .res i r ∈ l) (h2 : .res i r' ∈ l) : r = r' := by
  have := inj_of_nodup_map h.wellFormed.once (mem_hist_res.2 h1) (mem_hist_res.2 h2) rfl
  simpa using this

end Verif.Proof

namespace Verif.Proof.Sync
open Verif.Spec Verif.Model Verif.Model.Sync

variable {V E : Type}

/-- Program points at which the process keeps the read guard of call `g`. -/
def guardPc (g : CallId) : Pc V E → Bool
  | .gRead g' => g' = g
  | .gDeref g' m | .gDone g' m _ _ => g' = g ∧ m = false
  | _ => false

theorem guardPc_shared {g : CallId} {c : Pc V E} (h : guardPc g c = true) : holdsS c = true := by
  cases c <;> simp_all [guardPc, holdsS]

/-- New events: content is changed only with exclusive access; a returned value comes from the memory. -/
def EvOk (s s' : St V E) (p : Nat) (es : List (Ev V E)) : Prop :=
  (∀ i op r, .lin i op r ∈ es → (writes op = true ∨ r.ran ≠ none) → excl (s.pc p) = true) ∧
  (∀ g ran v, .res g ⟨ran, .value v⟩ ∈ es → es = [.res g ⟨ran, .value v⟩] ∧ g = s.me p ∧
      ((∃ k, s.pc p = .rMap k ran ∧ s.value = some v ∧ s'.pc p = heldGuard k.mutable g ∧ s'.value = s.value) ∨
       ∃ g' m op w, s.pc p = .gDone g' m op w)) ∧
  (∀ g, guardPc g (s.pc p) = true → guardPc g (s'.pc p) = true ∨ .other (.drop g) ∈ es)

set_option linter.unusedSimpArgs false
set_option maxHeartbeats 2000000 in
theorem evOk_go {s s' : St V E} {p} (hc : Core s) (hs : go s p = some s') :
    (∃ es, s'.log = s.log ++ es ∧ EvOk s s' p es) ∧ ∀ q, q ≠ p → s'.pc q = s.pc q := by
  have hmp := hc.mem p
  unfold go at hs
  split at hs <;> rename_i hpc
  all_goals try (repeat' split at hs)
  all_goals first
    | (simp at hs; done)
    | (simp only [Option.map_eq_some_iff, Lock.tryUpgradable, Lock.claim, Lock.tryShared] at hs
       obtain ⟨l, hl, rfl⟩ := hs
       split at hl <;> simp at hl
       subst hl)
    | (simp only [Option.some.injEq] at hs
       subst hs)
  all_goals rw [hpc] at hmp
  all_goals simp [memAt, ranOk] at hmp
  all_goals refine ⟨?_, by intro q hq; simp [St.to, St.ret, St.lin, St.ev, upd, hq]⟩
  all_goals first
    | (refine ⟨[], (List.append_nil _).symm, ?_, ?_, ?_⟩ <;> simp [hpc, guardPc, St.to]; done)
    | (refine ⟨[_], rfl, ?_, ?_, ?_⟩ <;> simp [hpc, guardPc, St.to, St.ret, St.lin, St.ev, writes, excl, St.me, heldGuard, *]; done)
    | (refine ⟨[_, _], List.append_assoc _ _ _, ?_, ?_, ?_⟩ <;> simp [hpc, guardPc, St.to, St.ret, St.lin, St.ev, writes, excl, St.me, heldGuard, *]; done)
    | (exfalso; simp_all; done)
    | (refine ⟨[_], rfl, ?_, ?_, ?_⟩ <;> simp only [St.to, St.ret, St.lin, St.ev, St.me, heldGuard, List.mem_singleton, hpc] <;>
        grind [guardPc, writes, excl, upd])
    | (refine ⟨[_], rfl, ?_, ?_, ?_⟩
       · simp
       · rename_i k o
         cases o <;> cases k <;> simp_all [getRet, Outcome.value?]
       · simp [hpc, guardPc])

theorem evOk_step {s s' : St V E} {p a} (hc : Core s) (hs : step s p a = some s') :
    (∃ es, s'.log = s.log ++ es ∧ EvOk s s' p es) ∧ ∀ q, q ≠ p → s'.pc q = s.pc q := by
  cases a with
  | go => exact evOk_go hc hs
  | call op =>
    simp only [step, invoke] at hs
    split at hs <;> rename_i hpc
    all_goals try split at hs
    all_goals first
      | (simp at hs; done)
      | (simp only [Option.some.injEq] at hs
         subst hs)
    all_goals refine ⟨?_, by intro q hq; simp [St.begin, upd, hq]⟩
    all_goals (refine ⟨[_], rfl, ?_, ?_, ?_⟩ <;> simp [hpc, guardPc, St.begin])
  | finish o =>
    simp only [step, builderReturns] at hs
    split at hs <;> rename_i hpc
    all_goals try split at hs
    all_goals first
      | (simp at hs; done)
      | (simp only [Option.some.injEq] at hs
         subst hs)
    all_goals refine ⟨?_, by intro q hq; simp [St.to, St.lin, St.ev, upd, hq]⟩
    · refine ⟨[_], rfl, ?_, ?_, ?_⟩ <;> simp [hpc, guardPc]
    · refine ⟨[_, _], List.append_assoc _ _ _, ?_, ?_, ?_⟩ <;> simp [hpc, guardPc, excl]
  | drop =>
    simp only [step, dropGuard] at hs
    split at hs <;> rename_i hpc
    all_goals first
      | (simp at hs; done)
      | (simp only [Option.some.injEq] at hs
         subst hs)
    all_goals refine ⟨?_, by intro q hq; simp [St.to, St.lin, St.ev, upd, hq]⟩
    all_goals (refine ⟨[_], rfl, ?_, ?_, ?_⟩ <;> simp [hpc, guardPc]; try exact fun _ h => h.symm)

/-- While a read guard lives: somebody holds it, the content did not change since it was obtained. -/
def GuardInv (v₀ : Option V) (s : St V E) : Prop :=
  ∀ l₁ l₂ g ran v k, s.log = l₁ ++ .res g ⟨ran, .value v⟩ :: l₂ → .inv g (.get k) ∈ l₁ → k.mutable = false →
    .other (.drop g) ∉ l₂ →
    (∃ p, guardPc g (s.pc p) = true) ∧ (∀ i op r, .lin i op r ∈ l₂ → writes op = false ∧ r.ran = none) ∧
      Legal CellStep v₀ (lins l₁) (some v)

theorem append_split {α : Type} {l es l₁ l₂ : List α} {x : α} (h : l ++ es = l₁ ++ x :: l₂) :
    (∃ l₂', l = l₁ ++ x :: l₂' ∧ l₂ = l₂' ++ es) ∨ (∃ e₁, l₁ = l ++ e₁ ∧ es = e₁ ++ x :: l₂) := by
  rw [List.append_eq_append_iff] at h
  rcases h with ⟨a, h1, h2⟩ | ⟨a, h1, h2⟩
  · exact .inr ⟨a, h1, h2⟩
  · cases a with
    | nil => simp at h1 h2; exact .inr ⟨[], by simp [h1], by simp [h2]⟩
    | cons y a =>
      simp at h2
      obtain ⟨rfl, h2⟩ := h2
      exact .inl ⟨a, h1, h2⟩

/-- No sync call is abandoned. -/
theorem no_abort_step {s s' : St V E} {p a} (hs : step s p a = some s') :
    ∃ es, s'.log = s.log ++ es ∧ ∀ i, .other (.abort i) ∉ es ∧ .cancel i ∉ es := by
  cases a with
  | go =>
    simp only [step, go] at hs
    split at hs <;> rename_i hpc
    all_goals try (repeat' split at hs)
    all_goals first
      | (simp at hs; done)
      | (simp only [Option.map_eq_some_iff] at hs
         obtain ⟨l, hl, rfl⟩ := hs)
      | (simp only [Option.some.injEq] at hs
         subst hs)
    all_goals first
      | exact ⟨[], (List.append_nil _).symm, by simp⟩
      | exact ⟨[_], rfl, by simp⟩
      | exact ⟨[_, _], List.append_assoc _ _ _, by simp⟩
  | call op =>
    simp only [step, invoke] at hs
    split at hs <;> rename_i hpc
    all_goals try split at hs
    all_goals first
      | (simp at hs; done)
      | (simp only [Option.some.injEq] at hs
         subst hs)
    all_goals exact ⟨[_], rfl, by simp⟩
  | finish o =>
    simp only [step, builderReturns] at hs
    split at hs <;> rename_i hpc
    all_goals try split at hs
    all_goals first
      | (simp at hs; done)
      | (simp only [Option.some.injEq] at hs
         subst hs)
    · exact ⟨[_], rfl, by simp⟩
    · exact ⟨[_, _], List.append_assoc _ _ _, by simp⟩
  | drop =>
    simp only [step, dropGuard] at hs
    split at hs <;> rename_i hpc
    all_goals first
      | (simp at hs; done)
      | (simp only [Option.some.injEq] at hs
         subst hs)
    all_goals exact ⟨[_], rfl, by simp⟩

theorem no_abort {v₀ : Option V} {s : St V E} (h : Reach v₀ s) (i : CallId) :
    .other (.abort i) ∉ s.log ∧ .cancel i ∉ s.log := by
  induction h with
  | init => simp [init]
  | step _ hs ih =>
    obtain ⟨es, h1, h2⟩ := no_abort_step hs
    have := h2 i
    rw [h1]; simp [ih, this]

/-- Only an accessor starts the builder. -/
theorem bstart_step {s s' : St V E} {p a} (hs : step s p a = some s') :
    ∃ es, s'.log = s.log ++ es ∧ ∀ i, .other (.bstart i) ∈ es → i = s.me p ∧ ∃ k, s.pc p = .rHaveW k := by
  cases a with
  | go =>
    simp only [step, go] at hs
    split at hs <;> rename_i hpc
    all_goals try (repeat' split at hs)
    all_goals first
      | (simp at hs; done)
      | (simp only [Option.map_eq_some_iff] at hs
         obtain ⟨l, hl, rfl⟩ := hs)
      | (simp only [Option.some.injEq] at hs
         subst hs)
    all_goals first
      | exact ⟨[], (List.append_nil _).symm, by simp⟩
      | exact ⟨[_], rfl, by simp [hpc]⟩
      | exact ⟨[_, _], List.append_assoc _ _ _, by simp⟩
  | call op =>
    simp only [step, invoke] at hs
    split at hs <;> rename_i hpc
    all_goals try split at hs
    all_goals first
      | (simp at hs; done)
      | (simp only [Option.some.injEq] at hs
         subst hs)
    all_goals exact ⟨[_], rfl, by simp⟩
  | finish o =>
    simp only [step, builderReturns] at hs
    split at hs <;> rename_i hpc
    all_goals try split at hs
    all_goals first
      | (simp at hs; done)
      | (simp only [Option.some.injEq] at hs
         subst hs)
    · exact ⟨[_], rfl, by simp⟩
    · exact ⟨[_, _], List.append_assoc _ _ _, by simp⟩
  | drop =>
    simp only [step, dropGuard] at hs
    split at hs <;> rename_i hpc
    all_goals first
      | (simp at hs; done)
      | (simp only [Option.some.injEq] at hs
         subst hs)
    all_goals exact ⟨[_], rfl, by simp⟩

theorem bstart_get {v₀ : Option V} {s : St V E} (h : ReachC v₀ s) (i : CallId) (hi : .other (.bstart i) ∈ s.log) :
    ∃ k, .inv i (.get k) ∈ s.log := by
  induction h with
  | init => simp [init] at hi
  | @step s s' p a hr hs ih =>
    obtain ⟨es, h1, h2⟩ := bstart_step hs
    rw [h1] at hi ⊢
    rw [List.mem_append] at hi
    rcases hi with hi | hi
    · obtain ⟨k, hk⟩ := ih hi; exact ⟨k, by simp [hk]⟩
    · obtain ⟨h3, k, hk⟩ := h2 i hi
      have h4 := tbl_me s p
      rw [hk] at h4
      have h5 := (logInv_reachC hr).1.facts.invoked_inv _ _ h4
      exact ⟨k, by rw [h3]; simp [mem_hist_inv.1 h5]⟩
  | @abandon s s' p hr hs ih =>
    have : ∃ es, s'.log = s.log ++ es ∧ ∀ i, .other (.bstart i) ∉ es := by
      unfold abandon at hs
      split at hs <;> rename_i hpc
      all_goals first
        | (simp at hs; done)
        | (simp only [Option.some.injEq] at hs
           subst hs)
      · exact ⟨[_], rfl, by simp⟩
      · exact ⟨[_], rfl, by simp⟩
      · exact ⟨[_], rfl, by simp⟩
      · exact ⟨[_, _], List.append_assoc _ _ _, by simp⟩
    obtain ⟨es, h1, h2⟩ := this
    rw [h1] at hi ⊢
    rw [List.mem_append] at hi
    rcases hi with hi | hi
    · obtain ⟨k, hk⟩ := ih hi; exact ⟨k, by simp [hk]⟩
    · exact absurd hi (h2 i)

theorem evOk_abandon {s s' : St V E} {p} (hs : abandon s p = some s') :
    (∃ es, s'.log = s.log ++ es ∧ EvOk s s' p es) ∧ ∀ q, q ≠ p → s'.pc q = s.pc q := by
  unfold abandon at hs
  split at hs <;> rename_i hpc
  all_goals first
    | (simp at hs; done)
    | (simp only [Option.some.injEq] at hs
       subst hs)
  all_goals refine ⟨?_, by intro q hq; simp [quit, St.ev, upd, hq]⟩
  all_goals first
    | (refine ⟨[_], rfl, ?_, ?_, ?_⟩ <;> simp [hpc, guardPc]; done)
    | (refine ⟨[_, _], List.append_assoc _ _ _, ?_, ?_, ?_⟩ <;> simp [hpc, guardPc])

theorem guardInv_next {v₀ : Option V} {s s' : St V E} {p} (hr : ReachC v₀ s)
    (hev : (∃ es, s'.log = s.log ++ es ∧ EvOk s s' p es) ∧ ∀ q, q ≠ p → s'.pc q = s.pc q) (ih : GuardInv v₀ s) :
    GuardInv v₀ s' := by
    have hc := core_reachC hr
    obtain ⟨hd, c, hL, _, hcq⟩ := logInv_reachC hr
    obtain ⟨⟨es, hes, hw, hres, hg⟩, hoth⟩ := hev
    intro l₁ l₂ g ran v k hl hi hk hnd
    rw [hes] at hl
    rcases append_split hl with ⟨l₂', h1, h2⟩ | ⟨e₁, h1, h2⟩
    · subst h2
      simp only [List.mem_append, not_or] at hnd
      obtain ⟨⟨q, hq⟩, h4, h5⟩ := ih l₁ l₂' g ran v k h1 hi hk hnd.1
      refine ⟨?_, ?_, h5⟩
      · by_cases hqp : q = p
        · subst hqp
          rcases hg g hq with h6 | h6
          · exact ⟨q, h6⟩
          · exact absurd h6 hnd.2
        · exact ⟨q, by rw [hoth q hqp]; exact hq⟩
      · intro i op r hlin
        simp only [List.mem_append] at hlin
        rcases hlin with hlin | hlin
        · exact h4 i op r hlin
        · have h6 : excl (s.pc p) = false := by
            apply Classical.byContradiction
            intro hx
            have hx : excl (s.pc p) = true := by simpa using hx
            have h7 := hc.ex p hx
            have h8 := (hc.sh q).2 (guardPc_shared hq)
            rw [h7] at h8; simp at h8
          have h7 := hw i op r hlin
          rw [h6] at h7
          simp only [ne_eq, Bool.false_eq_true, imp_false, not_or, Bool.not_eq_true] at h7
          exact ⟨h7.1, Classical.not_not.1 h7.2⟩
    · have h3 : .res g ⟨ran, .value v⟩ ∈ es := by rw [h2]; simp
      obtain ⟨h4, h5, h6⟩ := hres g ran v h3
      rw [h4] at h2
      cases e₁ with
      | cons y ys => cases ys <;> simp at h2
      | nil =>
        simp at h2
        subst h2
        simp at h1
        rw [h1] at hi
        subst h5
        have h7 := tbl_me s p
        rcases h6 with ⟨k', h8, h9, h10, h11⟩ | ⟨g', m, op, w, h8⟩
        · rw [h8] at h7
          have h12 := (hd.facts.linearized_inv _ _ _ h7).1
          have h13 := hd.inv_unique hi (mem_hist_inv.1 h12)
          simp at h13
          subst h13
          refine ⟨⟨p, by rw [h10, hk]; simp [heldGuard, guardPc]⟩, by simp, ?_⟩
          rw [h1]
          have := hcq (hc.no_mid (p := p) (by rw [h8]; rfl) (by rw [h8]; simp [holdsS, hk]))
          rw [← h9, ← this]; exact hL
        · have h14 := hc.mem p
          rw [h8] at h7 h14
          have h12 := (hd.facts.linearized_inv _ _ _ h7).1
          have h13 := hd.inv_unique hi (mem_hist_inv.1 h12)
          simp only [memAt] at h14
          rcases h14 with ⟨h14, _⟩ | ⟨u, h14, _⟩ <;> rw [← h13] at h14 <;> cases h14

theorem guardInv_reachC {v₀ : Option V} {s : St V E} (h : ReachC v₀ s) : GuardInv v₀ s := by
  induction h with
  | init => intro l₁ l₂ g ran v k h; simp [init] at h
  | step hr hs ih => exact guardInv_next hr (evOk_step (core_reachC hr) hs) ih
  | abandon hr hs ih => exact guardInv_next hr (evOk_abandon hs) ih

end Verif.Proof.Sync
