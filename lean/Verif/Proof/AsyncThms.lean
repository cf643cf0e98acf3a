import Verif.Proof.AsyncSim
import Verif.Proof.LogThms
/-!
# Consequences of the simulation (helper lemmas)
-/

namespace Verif.Proof
open Verif.Spec Verif.Model

/-- A cancelled call neither took effect nor answered. -/
theorem Disc.cancelled {Op R X : Type} {l : List (LEv Op R X)} {t} (h : Disc l t) {i : CallId} (hi : .cancel i ∈ l) :
    t i = .done ∧ (∀ op r, .lin i op r ∉ l) ∧ ∀ r, .res i r ∉ l := by
  induction h with
  | nil => simp at hi
  | @inv l t j op hd hj ih =>
    simp at hi
    obtain ⟨h1, h2, h3⟩ := ih hi
    have hne : i ≠ j := by rintro rfl; rw [h1] at hj; cases hj
    exact ⟨by rw [upd_other _ _ hne]; exact h1, by simpa using h2, by simpa using h3⟩
  | @lin l t j op r hd hj ih =>
    simp at hi
    obtain ⟨h1, h2, h3⟩ := ih hi
    have hne : i ≠ j := by rintro rfl; rw [h1] at hj; cases hj
    refine ⟨by rw [upd_other _ _ hne]; exact h1, ?_, by simpa using h3⟩
    intro op' r' hm
    simp [hne] at hm
    exact h2 _ _ hm
  | @res l t j op r hd hj ih =>
    simp at hi
    obtain ⟨h1, h2, h3⟩ := ih hi
    have hne : i ≠ j := by rintro rfl; rw [h1] at hj; cases hj
    refine ⟨by rw [upd_other _ _ hne]; exact h1, by simpa using h2, ?_⟩
    intro r' hm
    simp [hne] at hm
    exact h3 _ hm
  | @cancel l t j op hd hj ih =>
    by_cases hne : i = j
    · subst hne
      refine ⟨by simp, ?_, ?_⟩
      · intro op' r' hm
        simp at hm
        have := hd.facts.lin_phase ⟨i, op', r'⟩ (mem_lins.2 hm)
        rw [hj] at this
        simp at this
      · intro r' hm
        simp at hm
        have := hd.facts.res_done i r' (mem_hist_res.2 hm)
        rw [hj] at this
        cases this
    · simp [hne] at hi
      obtain ⟨h1, h2, h3⟩ := ih hi
      exact ⟨by rw [upd_other _ _ hne]; exact h1, by simpa using h2, by simpa using h3⟩
  | @other l t x hd ih =>
    simp at hi
    obtain ⟨h1, h2, h3⟩ := ih hi
    exact ⟨h1, by simpa using h2, by simpa using h3⟩

end Verif.Proof

namespace Verif.Proof.Sync
open Verif.Spec Verif.Model Verif.Model.Sync

variable {V E : Type} {v₀ : Option V} {s : St V E}

/-- Without stores and successful builds an empty cell stays empty. -/
theorem legal_none {c c' : Option V} {ds : List (Done (Op V) (Res V E))} (h : Legal CellStep c ds c') (hc : c = none)
    (hd : ∀ d ∈ ds, (∀ v, d.op ≠ .set v ∧ d.op ≠ .store v) ∧ ∀ v, d.ret.ran ≠ some (.ok v)) : c' = none := by
  induction h with
  | nil => exact hc
  | @cons a b e d ds hst _ ih =>
    apply ih
    · have h9 := hd d (by simp)
      obtain ⟨di, dop, dr⟩ := d
      subst hc
      cases hst with
      | build k o => cases o <;> simp_all [Outcome.value?]
      | set c v => exact absurd rfl (h9.1 v).1
      | store c v => exact absurd rfl (h9.1 v).2
      | _ => rfl
    · exact fun d' hd' => hd d' (by simp [hd'])

/-- After an abandoned builder run the next access builds. -/
theorem builds_again_abort (h : ReachC v₀ s) {l₁ l₂ l₃ : List (Ev V E)} {i j : CallId} {k' : GetKind} {r}
    (hl : s.log = l₁ ++ .other (.abort i) :: (l₂ ++ .lin j (.get k') r :: l₃))
    (hn : ∀ c op r', .lin c op r' ∈ l₂ → (∀ v, op ≠ .set v ∧ op ≠ .store v) ∧ ∀ v, r'.ran ≠ some (.ok v)) :
    ∃ o', r.ran = some o' := by
  obtain ⟨m, m', h1, h2, h3, c, h4⟩ := Mon.prefixC h hl
  have h5 : m.cont = none := by
    simp only [Mon.over, Option.bind_eq_some_iff] at h2
    obtain ⟨m₁, h2, _⟩ := h2
    simp only [Mon.next] at h2
    split at h2
    · rfl
    · simp at h2
  rw [show lins (LEv.other (.abort i) :: (l₂ ++ .lin j (.get k') r :: l₃)) =
    lins l₂ ++ ⟨j, .get k', r⟩ :: lins l₃ by simp [lins]] at h4
  obtain ⟨c₂, h6, h7⟩ := legal_append h4
  have h8 : c₂ = none := legal_none h6 h5 fun d hd => hn d.id d.op d.ret (mem_lins.1 hd)
  subst h8
  cases h7 with
  | cons h10 _ => cases h10; exact ⟨_, rfl⟩

end Verif.Proof.Sync

namespace Verif.Proof.Async
open Verif.Spec Verif.Model Verif.Model.Async
open Verif.Proof.Sync (ReachC Core core_reachC holdsS holdsU excl claiming memAt mid)

variable {V E : Type} {v₀ : Option V} {s : St V E}

/-- Points at which the process has the write guard. -/
def holdsW : Pc V E → Bool
  | .rHave _ | .rCb _ | .rBuild _ | .rSet _ _ | .rFlag _ _ | .rFail _ _ | .rReady _ _ | .gMut _ | .gWrite _
  | .gAsg _ _ | .xHave _ | .xVal _ | .xRel _ _ | .wHave _ _ | .wVal _ _ | .wRet _ _ _ => true
  | .rMap k _ => k.mutable
  | .gDeref _ m | .gDone _ m _ _ => m
  | _ => false

theorem holdsW_emb (c : Pc V E) : holdsW c = (excl (emb c) || holdsU (emb c)) ∧ claiming (emb c) = false := by
  cases c <;> simp [holdsW, emb, excl, holdsU, claiming]

/-- The lock of the async container and its holders. -/
structure Inv (s : St V E) : Prop where
  wr : ∀ p, s.lk.wr = some p ↔ holdsW (s.pc p) = true
  sh : ∀ p, p ∈ s.lk.shared ↔ holdsS (emb (s.pc p)) = true
  alone : s.lk.wr ≠ none → s.lk.shared = []
  mem : ∀ p, memAt s.value s.flag (emb (s.pc p))
  quiet : (∀ p, mid (emb (s.pc p)) = false) → s.flag = s.value.isSome

theorem inv_reach (h : Reach v₀ s) : Inv s := by
  obtain ⟨L, hr, hl⟩ := sim h
  have hc := core_reachC hr
  refine ⟨?_, ?_, hl.alone, hc.mem, hc.quiet⟩
  · intro p
    have h1 := hc.wr p
    have h2 := hc.upg p
    have h3 := holdsW_emb (s.pc p)
    rw [h3.1]
    change _ ↔ (excl (emb (s.pc p)) || claiming (emb (s.pc p))) = true at h1
    change _ ↔ holdsU (emb (s.pc p)) = true at h2
    rw [h3.2, Bool.or_false] at h1
    rw [Bool.or_eq_true, ← h1, ← h2]
    constructor
    · intro hw; rcases hl.own p hw with h4 | h4
      · exact .inl h4.1
      · exact .inr h4.1
    · rintro (h4 | h4)
      · exact hl.wr_back h4
      · exact hl.upg_back h4
  · intro p
    have h1 := hc.sh p
    rw [← hl.sh]; exact h1

theorem reach_run {s₀ s : St V E} (h₀ : Reach v₀ s₀) {sch : List (Nat × Act V E)} (h : run s₀ sch = some s) :
    Reach v₀ s := by
  induction sch generalizing s₀ with
  | nil => simp [run] at h; exact h ▸ h₀
  | cons x sch ih =>
    obtain ⟨p, a⟩ := x
    simp only [run, Option.bind_eq_some_iff] at h
    obtain ⟨s₁, h1, h2⟩ := h
    exact ih (.step h₀ h1) h2

theorem Inv.no_mid (h : Inv s) {p : Nat} (h0 : mid (emb (s.pc p)) = false)
    (hp : holdsW (s.pc p) = true ∨ holdsS (emb (s.pc p)) = true) : ∀ q, mid (emb (s.pc q)) = false := by
  intro q
  by_cases hq : q = p
  · rw [hq]; exact h0
  · cases hm : mid (emb (s.pc q)) with
    | false => rfl
    | true =>
      have h1 : holdsW (s.pc q) = true := by rw [(holdsW_emb _).1, Sync.mid_excl hm]; rfl
      have h2 := (h.wr q).2 h1
      rcases hp with h3 | h3
      · have := (h.wr p).2 h3; rw [h2] at this; exact absurd (Option.some.inj this) hq
      · have h4 := (h.sh p).2 h3
        rw [h.alone (by rw [h2]; simp)] at h4
        simp at h4

/-! ## Progress -/

/-- Steps a process can still make without beginning a new call. -/
def rank : Pc V E → Nat
  | .idle | .ub => 0
  | .gRead _ | .gMut _ | .gWrite _ => 1
  | .rStart _ => 9 | .rHave _ => 8 | .rCb _ => 7 | .rBuild _ => 6 | .rSet _ _ => 5
  | .rFlag _ _ => 4 | .rFail _ _ => 1 | .rReady _ _ => 3 | .rMap _ _ => 2
  | .gDeref _ _ => 3 | .gDone _ _ _ _ => 2 | .gAsg _ _ => 3
  | .xStart _ => 5 | .xHave _ => 4 | .xVal _ => 3 | .xRel _ _ => 1
  | .wHave _ _ => 4 | .wVal _ _ => 3 | .wRet _ _ _ => 2
  | .sStart => 4 | .sHave => 3 | .sVal _ => 2 | .sBoth _ _ => 1
  | .iStart => 2 | .iDone _ => 1

theorem rank_le (c : Pc V E) : rank c ≤ 9 := by cases c <;> simp [rank]

theorem rank_held (m : Bool) (g : CallId) : rank (heldGuard m g : Pc V E) = 1 := by cases m <;> rfl

set_option linter.unusedSimpArgs false
/-- A step which begins no call uses up rank of its process and leaves the others alone. -/
theorem rank_step {s s' : St V E} {p a} (ha : ∀ op, a ≠ .call op) (hs : step s p a = some s') :
    rank (s'.pc p) < rank (s.pc p) ∧ ∀ q, q ≠ p → s'.pc q = s.pc q := by
  cases a with
  | call op => exact absurd rfl (ha op)
  | go =>
    simp only [step, go] at hs
    split at hs <;> rename_i hpc
    all_goals try (repeat' split at hs)
    all_goals first
      | (simp at hs; done)
      | (simp only [Option.map_eq_some_iff] at hs
         obtain ⟨l, hl, rfl⟩ := hs)
      | (simp only [Option.some.injEq] at hs
         subst hs)
    all_goals refine ⟨?_, by intro q hq; simp [St.to, St.ret, St.lin, St.ev, upd, hq]⟩
    all_goals
      rw [hpc]
      simp [St.to, St.ret, St.lin, St.ev, upd, rank_held]
      simp [rank]
  | finish o =>
    simp only [step, builderReturns] at hs
    split at hs <;> rename_i hpc
    all_goals try split at hs
    all_goals first
      | (simp at hs; done)
      | (simp only [Option.some.injEq] at hs
         subst hs)
    all_goals refine ⟨?_, by intro q hq; simp [St.to, St.ret, St.lin, St.ev, upd, hq]⟩
    all_goals
      rw [hpc]
      simp [St.to, St.ret, St.lin, St.ev, upd, rank]
  | drop =>
    simp only [step, dropGuard] at hs
    split at hs <;> rename_i hpc
    all_goals first
      | (simp at hs; done)
      | (simp only [Option.some.injEq] at hs
         subst hs)
    all_goals refine ⟨?_, by intro q hq; simp [St.to, St.ret, St.lin, St.ev, upd, hq]⟩
    all_goals
      rw [hpc]
      simp [St.to, St.ret, St.lin, St.ev, upd, rank]
  | cancel =>
    simp only [step, cancel] at hs
    split at hs <;> rename_i hpc
    all_goals first
      | (simp at hs; done)
      | (simp only [Option.some.injEq] at hs
         subst hs)
    all_goals refine ⟨?_, by intro q hq; simp [St.quit, St.ev, upd, hq]⟩
    all_goals
      rw [hpc]
      simp [St.quit, St.ev, upd, rank]

/-- Total rank over a list of processes. -/
def total (s : St V E) (ps : List Nat) : Nat := (ps.map fun p => rank (s.pc p)).sum

theorem total_le (s : St V E) (ps : List Nat) : total s ps ≤ 9 * ps.length := by
  induction ps with
  | nil => simp [total]
  | cons p ps ih =>
    have := rank_le (s.pc p)
    simp only [total, List.map_cons, List.sum_cons, List.length_cons] at ih ⊢
    omega

theorem total_step {s s' : St V E} {p a} {ps : List Nat} (ha : ∀ op, a ≠ .call op) (hs : step s p a = some s')
    (hn : ps.Nodup) (hp : p ∈ ps) : total s' ps < total s ps := by
  obtain ⟨h1, h2⟩ := rank_step ha hs
  induction ps with
  | nil => simp at hp
  | cons q ps ih =>
    simp only [List.nodup_cons] at hn
    simp only [total, List.map_cons, List.sum_cons] at ih ⊢
    by_cases hq : q = p
    · subst hq
      have : ps.map (fun p => rank (s'.pc p)) = ps.map (fun p => rank (s.pc p)) := by
        apply List.map_congr_left
        intro r hr
        rw [h2 r (by rintro rfl; exact hn.1 hr)]
      rw [this]; omega
    · have := ih hn.2 (by simpa [Ne.symm hq] using hp)
      rw [h2 q hq]; omega

theorem bounded {s' : St V E} {ps : List Nat} (hps : ps.Nodup) (hid : ∀ p, p ∉ ps → s.pc p = .idle)
    {sch : List (Nat × Act V E)} (hc : ∀ x ∈ sch, ∀ op, x.2 ≠ .call op) (hr : run s sch = some s') :
    sch.length ≤ 9 * ps.length := by
  have key : ∀ (sch : List (Nat × Act V E)) (s : St V E), (∀ p, p ∉ ps → s.pc p = .idle) →
      (∀ x ∈ sch, ∀ op, x.2 ≠ .call op) → run s sch = some s' → sch.length ≤ total s ps := by
    intro sch
    induction sch with
    | nil => intros; simp
    | cons x sch ih =>
      intro s hid hc hr
      obtain ⟨p, a⟩ := x
      simp only [run, Option.bind_eq_some_iff] at hr
      obtain ⟨s₁, h1, h2⟩ := hr
      have ha : ∀ op, a ≠ .call op := hc (p, a) (by simp)
      have hlt := rank_step ha h1
      have hp : p ∈ ps := by
        apply Classical.byContradiction
        intro hn
        rw [hid p hn] at hlt
        simp [rank] at hlt
      have h3 := total_step ha h1 hps hp
      have h4 := ih s₁ (by
        intro q hq
        rw [hlt.2 q (by rintro rfl; exact hq hp)]; exact hid q hq) (fun x hx => hc x (by simp [hx])) h2
      simp only [List.length_cons]
      omega
  exact Nat.le_trans (key sch s hid hc hr) (total_le s ps)

/-- Points which wait for the lock. -/
def waiting : Pc V E → Bool
  | .rStart _ | .xStart _ | .sStart => true
  | _ => false

theorem go_enabled {s : St V E} {q : Nat} (hw : waiting (s.pc q) = false) (hr : (s.pc q).resting = false)
    (hb : ∀ k, s.pc q ≠ .rBuild k) (hu : s.pc q ≠ .ub) : ∃ s', go s q = some s' := by
  unfold go
  cases hc : s.pc q
  all_goals simp [hc, waiting, Pc.resting] at hw hr hb hu
  all_goals first
    | (exact ⟨_, rfl⟩)
    | (cases hv : s.value <;> exact ⟨_, rfl⟩)
    | (rename_i k ran; cases k <;> exact ⟨_, rfl⟩)
    | (rename_i x; cases x <;> exact ⟨_, rfl⟩)

theorem progress {s : St V E} (h : Inv s) {p : Nat} (hp : s.pc p ≠ .idle)
    (hrest : ∀ q, s.pc q ≠ .idle → (s.pc q).resting = false) (hb : ∀ q k, s.pc q ≠ .rBuild k) :
    ∃ q s', go s q = some s' := by
  have hub : ∀ q, s.pc q ≠ .ub := by
    intro q hq; have := h.mem q; rw [hq] at this; exact this
  have hgo : ∀ q, s.pc q ≠ .idle → waiting (s.pc q) = false → ∃ q s', go s q = some s' := fun q h1 h2 =>
    ⟨q, go_enabled h2 (hrest q h1) (hb q) (hub q)⟩
  cases hwr : s.lk.wr with
  | some q =>
    have h1 := (h.wr q).1 hwr
    apply hgo q
    · intro hc; rw [hc] at h1; cases h1
    · revert h1; cases s.pc q <;> simp [holdsW, waiting]
  | none =>
    cases hs : s.lk.shared with
    | cons r rs =>
      have h1 := (h.sh r).1 (by simp [hs])
      apply hgo r
      · intro hc; rw [hc] at h1; cases h1
      · revert h1; cases s.pc r <;> simp [emb, holdsS, waiting]
    | nil =>
      by_cases hw : waiting (s.pc p) = true
      · refine ⟨p, ?_⟩
        unfold go
        revert hw
        cases s.pc p <;> simp [waiting, ALock.tryWrite, ALock.tryShared, hwr, hs]
      · exact hgo p hp (by simpa using hw)

/-- If anybody is inside the container something can happen without new calls and without cancelling. -/
theorem progress_any {s : St V E} (h : Inv s) {p : Nat} (hp : s.pc p ≠ .idle) (o : Outcome V E) :
    ∃ q a s', (a = .go ∨ a = .drop ∨ a = .finish o) ∧ step s q a = some s' := by
  by_cases hr : ∃ q, s.pc q ≠ .idle ∧ (s.pc q).resting = true
  · obtain ⟨q, h1, h2⟩ := hr
    refine ⟨q, .drop, ?_⟩
    simp only [step, dropGuard]
    revert h1 h2
    cases s.pc q <;> simp [Pc.resting]
  · by_cases hb : ∃ q k, s.pc q = .rBuild k
    · obtain ⟨q, k, hb⟩ := hb
      refine ⟨q, .finish o, ?_⟩
      simp only [step, builderReturns, hb]
      cases o <;> simp
    · have h1 : ∀ q, s.pc q ≠ .idle → (s.pc q).resting = false := by
        intro q hq
        cases hx : (s.pc q).resting
        · rfl
        · exact absurd ⟨q, hq, hx⟩ hr
      have h2 : ∀ q k, s.pc q ≠ .rBuild k := fun q k hq => hb ⟨q, k, hq⟩
      obtain ⟨q, s', h3⟩ := progress h hp h1 h2
      exact ⟨q, .go, s', .inl rfl, h3⟩

/-! ## A pending acquisition under a guard that nobody drops -/

/-- Other processes do not move `p`. -/
theorem step_other {s s' : St V E} {p q a} (hs : step s q a = some s') (hq : q ≠ p) : s'.pc p = s.pc p := by
  cases a with
  | call op =>
    simp only [step, invoke] at hs
    split at hs
    all_goals try split at hs
    all_goals first
      | (simp at hs; done)
      | (simp only [Option.some.injEq] at hs
         subst hs)
    all_goals simp [St.begin, upd, Ne.symm hq]
  | go => exact (rank_step (by simp) hs).2 p (Ne.symm hq)
  | finish o => exact (rank_step (by simp) hs).2 p (Ne.symm hq)
  | drop => exact (rank_step (by simp) hs).2 p (Ne.symm hq)
  | cancel => exact (rank_step (by simp) hs).2 p (Ne.symm hq)

/-- ... nor count its calls. -/
theorem seq_other {s s' : St V E} {p q a} (hs : step s q a = some s') (hq : q ≠ p) : s'.seq p = s.seq p := by
  cases a with
  | call op =>
    simp only [step, invoke] at hs
    split at hs
    all_goals try split at hs
    all_goals first
      | (simp at hs; done)
      | (simp only [Option.some.injEq] at hs
         subst hs)
    all_goals simp [St.begin]
  | go =>
    simp only [step, go] at hs
    split at hs <;> rename_i hpc
    all_goals try (repeat' split at hs)
    all_goals first
      | (simp at hs; done)
      | (simp only [Option.map_eq_some_iff] at hs
         obtain ⟨l, hl, rfl⟩ := hs)
      | (simp only [Option.some.injEq] at hs
         subst hs)
    all_goals simp [St.to, St.ret, St.lin, St.ev, upd, Ne.symm hq]
  | finish o =>
    simp only [step, builderReturns] at hs
    split at hs <;> rename_i hpc
    all_goals try split at hs
    all_goals first
      | (simp at hs; done)
      | (simp only [Option.some.injEq] at hs
         subst hs)
    all_goals simp [St.to, St.ret, St.lin, St.ev]
  | drop =>
    simp only [step, dropGuard] at hs
    split at hs <;> rename_i hpc
    all_goals first
      | (simp at hs; done)
      | (simp only [Option.some.injEq] at hs
         subst hs)
    all_goals simp [St.to, St.ev]
  | cancel =>
    simp only [step, cancel] at hs
    split at hs <;> rename_i hpc
    all_goals first
      | (simp at hs; done)
      | (simp only [Option.some.injEq] at hs
         subst hs)
    all_goals simp [St.quit, St.ev, upd, Ne.symm hq]

theorem blocked_run {s' : St V E} (h : Reach v₀ s) {p r : Nat} {g : CallId} {k : GetKind} (hp : s.pc p = .gRead g)
    (hr : s.pc r = .rStart k) {sch : List (Nat × Act V E)}
    (hsch : ∀ x ∈ sch, x.1 ≠ p ∧ (x.1 = r → x.2 ≠ .cancel)) (hrun : run s sch = some s') :
    s'.pc p = .gRead g ∧ s'.pc r = .rStart k := by
  induction sch generalizing s with
  | nil => simp [run] at hrun; subst hrun; exact ⟨hp, hr⟩
  | cons x sch ih =>
    obtain ⟨q, a⟩ := x
    simp only [run, Option.bind_eq_some_iff] at hrun
    obtain ⟨s₁, h1, h2⟩ := hrun
    have hx := hsch (q, a) (by simp)
    simp only at hx
    refine ih (.step h h1) (by rw [step_other h1 hx.1]; exact hp) ?_ (fun y hy => hsch y (by simp [hy])) h2
    by_cases hq : q = r
    · exfalso
      subst hq
      have hc := hx.2 rfl
      cases a with
      | cancel => exact hc rfl
      | call op => simp only [step, invoke, hr] at h1; simp at h1
      | finish o => simp only [step, builderReturns, hr] at h1; simp at h1
      | drop => simp only [step, dropGuard, hr] at h1; simp at h1
      | go =>
        simp only [step, go, hr, ALock.tryWrite] at h1
        have h3 := ((inv_reach h).sh p).2 (by rw [hp]; rfl)
        split at h1
        · rename_i h4; rw [h4.2] at h3; simp at h3
        · simp at h1
    · rw [step_other h1 hq]; exact hr

end Verif.Proof.Async
