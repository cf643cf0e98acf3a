import Verif.Proof.SyncInv
/-!
# Log invariant of the sync lazy container (helper lemmas)

Every call shows invocation, linearization, response in this order, with the result fixed at linearization; the
linearized calls are legal for the sequential cell.
-/

namespace Verif.Proof.Sync
open Verif.Spec Verif.Model Verif.Model.Sync

variable {V E : Type}

/-- Result fixed for an access which took effect, from the value in memory. -/
def gotRes (k : GetKind) (ran : Option (Outcome V E)) : Option V → Res V E
  | some v => ⟨ran, getRet k (.ok v)⟩
  | none => ⟨ran, .panicked⟩

/-- Progress of the current call of a process. -/
def phaseAt (v : Option V) : Pc V E → Phase (Op V) (Res V E)
  | .idle | .gRead _ | .gMut _ | .gWrite _ | .ub => .fresh
  | .rStart k | .rHaveU k | .rUpg k | .rHaveW k | .rBuild k | .rSet k _ | .rFlag k _ => .invoked (.get k)
  | .rFail k o => .linearized (.get k) ⟨some o, getRet k o⟩
  | .rDown k ran | .rReady k ran | .rUpg2 k ran | .rMap k ran => .linearized (.get k) (gotRes k ran v)
  | .gDeref g _ => .invoked (.deref g)
  | .gDone _ _ op w => .linearized op ⟨none, .value w⟩
  | .gAsg g w => .invoked (.assign g w)
  | .xStart x | .xWait x | .xHave x => .invoked x.op
  | .xVal t => .linearized (XKind.op (.put t)) ⟨none, .old v⟩
  | .xRel t old => .linearized (XKind.op (.put t)) ⟨none, .old old⟩
  | .wHave _ t => .invoked (guardOp t)
  | .wVal _ t => .linearized (guardOp t) ⟨none, .old v⟩
  | .wRet _ t old => .linearized (guardOp t) ⟨none, .old old⟩
  | .sStart | .sHave => .invoked .snapshot
  | .sVal o => .linearized .snapshot ⟨none, .snap o o.isSome⟩
  | .sBoth o b => .linearized .snapshot ⟨none, .snap o b⟩
  | .iStart => .invoked .isSet
  | .iDone b => .linearized .isSet ⟨none, .bool b⟩

theorem phaseAt_free {v v' : Option V} {c : Pc V E} (hS : holdsS c = false) (hU : holdsU c = false)
    (hE : excl c = false) (hC : claiming c = false) : phaseAt v c = phaseAt v' c := by
  cases c <;> simp_all [holdsS, holdsU, excl, claiming, phaseAt]

/-- Progress of every call. -/
def tbl (s : St V E) : CallId → Phase (Op V) (Res V E) := fun i =>
  if i.seq < s.seq i.proc then .done
  else if i.seq = s.seq i.proc then phaseAt s.value (s.pc i.proc)
  else .fresh

@[simp] theorem tbl_me (s : St V E) (p : Nat) : tbl s (s.me p) = phaseAt s.value (s.pc p) := by
  simp [tbl, St.me]

/-- The table after a step which stays within the same call. -/
theorem tbl_within {s s' : St V E} {p : Nat} {c : Pc V E} (hseq : s'.seq = s.seq) (hpc : s'.pc = upd s.pc p c)
    (hv : ∀ q, q ≠ p → phaseAt s'.value (s.pc q) = phaseAt s.value (s.pc q)) :
    tbl s' = upd (tbl s) (s.me p) (phaseAt s'.value c) := by
  funext ⟨q, n⟩
  by_cases hq : q = p
  · subst hq
    by_cases hn : n = s.seq q
    · subst hn; simp [tbl, upd, St.me, hseq, hpc]
    · simp [tbl, upd, St.me, hseq, hn]
  · simp [tbl, upd, St.me, hseq, hpc, hq, hv q hq]

theorem tbl_same {s s' : St V E} {p : Nat} {c : Pc V E} (hseq : s'.seq = s.seq) (hpc : s'.pc = upd s.pc p c)
    (hv : ∀ q, q ≠ p → phaseAt s'.value (s.pc q) = phaseAt s.value (s.pc q))
    (hp : phaseAt s'.value c = phaseAt s.value (s.pc p)) : tbl s' = tbl s := by
  rw [tbl_within hseq hpc hv, hp]
  funext i
  by_cases hi : i = s.me p
  · subst hi; simp
  · rw [upd_other _ _ hi]

/-- The table after a step which ends the call. -/
theorem tbl_end {s s' : St V E} {p : Nat} {c : Pc V E} (hseq : s'.seq = upd s.seq p (s.seq p + 1))
    (hpc : s'.pc = upd s.pc p c) (hv : s'.value = s.value) (hc : phaseAt s.value c = .fresh) :
    tbl s' = upd (tbl s) (s.me p) .done := by
  funext ⟨q, n⟩
  by_cases hq : q = p
  · subst hq
    simp only [tbl, upd, St.me, hseq, hpc, hv, if_true, hc, CallId.mk.injEq, true_and]
    grind
  · simp [tbl, upd, St.me, hseq, hpc, hq, hv]

/-- What a program point says about the abstract content. -/
def absAt (c : Option V) : Pc V E → Prop
  | .rFlag _ _ => c = none
  | .xVal t | .wVal _ t => c = t
  | _ => True

/-- Log invariant. -/
def LogInv (v₀ : Option V) (s : St V E) : Prop :=
  Disc s.log (tbl s) ∧ ∃ c, Legal CellStep v₀ (lins s.log) c ∧ (∀ p, absAt c (s.pc p)) ∧
    ((∀ p, mid (s.pc p) = false) → c = s.value)

theorem absAt_free {c c' : Option V} {x : Pc V E} (hE : excl x = false) (h : absAt c x) : absAt c' x := by
  cases x <;> simp_all [excl, absAt]

theorem logInv_init (v₀ : Option V) : LogInv v₀ (init v₀ : St V E) := by
  refine ⟨?_, v₀, .nil, ?_, ?_⟩
  · have : tbl (init v₀ : St V E) = fun _ => .fresh := by
      funext i; simp only [tbl, init, phaseAt]; grind
    rw [this]; exact .nil
  · intro p; simp [init, absAt]
  · intro _; rfl

/-- While somebody holds a shared guard flag and value agree. -/
theorem Core.flag_of_shared {s : St V E} (h : Core s) {p : Nat} (hp : holdsS (s.pc p) = true) :
    s.flag = s.value.isSome := by
  apply h.quiet
  intro q
  by_cases hm : mid (s.pc q) = true
  · have h1 := h.ex q (mid_excl hm)
    have h2 := (h.sh p).2 hp
    rw [h1] at h2; simp at h2
  · simpa using hm

theorem disc_tau {s s' : St V E} {p : Nat} {c : Pc V E} (hd : Disc s.log (tbl s)) (hl : s'.log = s.log)
    (hseq : s'.seq = s.seq) (hpc : s'.pc = upd s.pc p c)
    (hv : ∀ q, q ≠ p → phaseAt s'.value (s.pc q) = phaseAt s.value (s.pc q))
    (hp : phaseAt s'.value c = phaseAt s.value (s.pc p)) : Disc s'.log (tbl s') := by
  rw [hl, tbl_same hseq hpc hv hp]; exact hd

theorem disc_x {s s' : St V E} {p : Nat} {c : Pc V E} {x} (hd : Disc s.log (tbl s)) (hl : s'.log = s.log ++ [.other x])
    (hseq : s'.seq = s.seq) (hpc : s'.pc = upd s.pc p c)
    (hv : ∀ q, q ≠ p → phaseAt s'.value (s.pc q) = phaseAt s.value (s.pc q))
    (hp : phaseAt s'.value c = phaseAt s.value (s.pc p)) : Disc s'.log (tbl s') := by
  rw [hl, tbl_same hseq hpc hv hp]; exact .other hd

theorem disc_inv {s s' : St V E} {p : Nat} {c : Pc V E} {op} (hd : Disc s.log (tbl s))
    (hl : s'.log = s.log ++ [.inv (s.me p) op]) (hseq : s'.seq = s.seq) (hpc : s'.pc = upd s.pc p c)
    (hv : s'.value = s.value)
    (h0 : phaseAt s.value (s.pc p) = .fresh) (h1 : phaseAt s.value c = .invoked op) : Disc s'.log (tbl s') := by
  rw [hl, tbl_within hseq hpc (by intro q _; rw [hv]), hv, h1]; exact .inv hd (by rw [tbl_me, h0])

theorem disc_lin {s s' : St V E} {p : Nat} {c : Pc V E} {op r} (hd : Disc s.log (tbl s))
    (hl : s'.log = s.log ++ [.lin (s.me p) op r]) (hseq : s'.seq = s.seq) (hpc : s'.pc = upd s.pc p c)
    (hv : ∀ q, q ≠ p → phaseAt s'.value (s.pc q) = phaseAt s.value (s.pc q))
    (h0 : phaseAt s.value (s.pc p) = .invoked op) (h1 : phaseAt s'.value c = .linearized op r) :
    Disc s'.log (tbl s') := by
  rw [hl, tbl_within hseq hpc hv, h1]; exact .lin hd (by rw [tbl_me, h0])

theorem disc_res {s s' : St V E} {p : Nat} {c : Pc V E} {op r} (hd : Disc s.log (tbl s))
    (hl : s'.log = s.log ++ [.res (s.me p) r]) (hseq : s'.seq = upd s.seq p (s.seq p + 1)) (hpc : s'.pc = upd s.pc p c)
    (hv : s'.value = s.value)
    (h0 : phaseAt s.value (s.pc p) = .linearized op r) (h1 : phaseAt s.value c = .fresh) :
    Disc s'.log (tbl s') := by
  rw [hl, tbl_end hseq hpc hv h1]; exact .res hd (by rw [tbl_me, h0])

set_option linter.unusedSimpArgs false
set_option maxHeartbeats 2000000 in
theorem disc_go {s s' : St V E} {p} (h : Core s) (hd : Disc s.log (tbl s)) (hs : go s p = some s') :
    Disc s'.log (tbl s') := by
  have hfree : excl (s.pc p) = true → ∀ v q, q ≠ p → phaseAt v (s.pc q) = phaseAt s.value (s.pc q) := by
    intro hp v q hq
    obtain ⟨h1, h2, h3, h4⟩ := h.alone hp hq
    exact phaseAt_free h1 h2 h3 h4
  have hmp := h.mem p
  have hqf := @Core.flag_of_shared V E s h p
  unfold go at hs
  split at hs <;> rename_i hpc
  all_goals try (repeat' split at hs)
  all_goals first
    | (simp at hs; done)
    | (simp only [Option.map_eq_some_iff, Lock.tryUpgradable, Lock.claim, Lock.tryShared] at hs
       obtain ⟨l, hl, rfl⟩ := hs
       split at hl <;> simp at hl
       subst hl)
    | (simp only [Option.some.injEq] at hs
       subst hs)
  all_goals rw [hpc] at hmp hfree hqf
  all_goals simp [memAt, excl, ranOk, holdsS] at hmp hfree hqf
  all_goals first
    | (exfalso; simp_all; done)
    | (refine disc_tau (p := p) hd rfl rfl rfl ?_ ?_ <;> first | (intro q _; rfl) | exact hfree _ | (rw [hpc]; rfl))
    | (refine disc_x (p := p) hd rfl rfl rfl ?_ ?_ <;> first | (intro q _; rfl) | (rw [hpc]; rfl))
    | (refine disc_lin (p := p) hd rfl rfl rfl ?_ (by rw [hpc]; rfl) ?_ <;>
        first | (intro q _; rfl) | exact hfree _ | rfl | (simp [phaseAt, gotRes, St.lin, St.ev, St.to, *]; done))
    | (refine disc_res (p := p) hd rfl rfl rfl rfl (by rw [hpc]; rfl) ?_ <;>
        first | rfl | (simp only [heldGuard]; split <;> rfl))
    | (refine disc_res (p := p) hd rfl rfl rfl rfl (op := .get ‹GetKind›) ?_ ?_ <;>
        first
          | (rw [hpc]; simp [phaseAt, gotRes, *]; done)
          | rfl
          | (simp only [heldGuard]; split <;> rfl)
          | (rw [hpc]; simp only [phaseAt, gotRes]; grind [getRet, Option.isSome]))
    | (refine disc_res (p := p) hd rfl rfl rfl rfl (op := .get .lazyInit) ?_ rfl
       rw [hpc]; simp only [phaseAt, gotRes]; grind [getRet, Option.isSome])
    | (refine disc_tau (p := p) hd rfl rfl rfl (by intro q _; rfl) ?_
       rw [hpc]; simp only [phaseAt, hqf, hmp]; done)
    | (have h1 : tbl (s.lin p Op.writer ⟨none, .unit⟩) = tbl s := rfl
       rw [show tbl ((s.lin p Op.writer ⟨none, .unit⟩).ret p (Pc.gWrite (s.me p)) ⟨none, .unit⟩) =
         upd (upd (tbl s) (s.me p) (.linearized .writer ⟨none, .unit⟩)) (s.me p) .done by
           rw [tbl_end (s := s) (s' := (s.lin p Op.writer ⟨none, .unit⟩).ret p (Pc.gWrite (s.me p)) ⟨none, .unit⟩) (p := p)
             (c := .gWrite (s.me p)) rfl rfl rfl rfl]
           funext i; simp only [upd]; split <;> rfl]
       exact .res (.lin hd (by rw [tbl_me, hpc]; rfl)) (upd_same _ _ _))

set_option maxHeartbeats 2000000 in
theorem disc_invoke {s s' : St V E} {p op} (hd : Disc s.log (tbl s)) (hs : invoke s p op = some s') :
    Disc s'.log (tbl s') := by
  unfold invoke at hs
  split at hs <;> rename_i hpc
  all_goals try split at hs
  all_goals first
    | (simp at hs; done)
    | (simp only [Option.some.injEq] at hs
       subst hs)
  all_goals try (rename_i hg; subst hg)
  all_goals exact disc_inv (p := p) hd rfl rfl rfl rfl (by rw [hpc]; rfl) rfl

theorem disc_finish {s s' : St V E} {p o} (hd : Disc s.log (tbl s)) (hs : builderReturns s p o = some s') :
    Disc s'.log (tbl s') := by
  unfold builderReturns at hs
  split at hs <;> rename_i hpc
  all_goals try (dsimp only at hs; split at hs)
  all_goals first
    | (simp at hs; done)
    | (simp only [Option.some.injEq] at hs
       subst hs)
  · exact disc_x (p := p) hd rfl rfl rfl (by intro q _; rfl) (by rw [hpc]; rfl)
  · rename_i k _ _
    refine disc_lin (s := s.ev (.other (.bend (s.me p) o))) (p := p) (op := .get k) (r := ⟨some o, getRet k o⟩)
      (.other hd) rfl rfl rfl (by intro q _; rfl) ?_ rfl
    show phaseAt s.value (s.pc p) = _
    rw [hpc]; rfl

theorem disc_drop {s s' : St V E} {p} (hd : Disc s.log (tbl s)) (hs : dropGuard s p = some s') :
    Disc s'.log (tbl s') := by
  unfold dropGuard at hs
  split at hs <;> rename_i hpc
  all_goals first
    | (simp at hs; done)
    | (simp only [Option.some.injEq] at hs
       subst hs)
  all_goals exact disc_x (p := p) hd rfl rfl rfl (by intro q _; rfl) (by rw [hpc]; rfl)

/-- Legality of the linearized log with abstract content `c`. -/
def AbsInv (v₀ : Option V) (s : St V E) : Prop :=
  ∃ c, Legal CellStep v₀ (lins s.log) c ∧ (∀ p, absAt c (s.pc p)) ∧ ((∀ p, mid (s.pc p) = false) → c = s.value)

/-- A step which changes neither value nor the linearized log, not from or to a half-way point. -/
theorem abs_tau {v₀ : Option V} {s s' : St V E} {p : Nat} {x : Pc V E} (ha : AbsInv v₀ s)
    (hl : lins s'.log = lins s.log) (hpc : s'.pc = upd s.pc p x) (hv : s'.value = s.value)
    (h0 : mid (s.pc p) = false) (h1 : mid x = false) : AbsInv v₀ s' := by
  obtain ⟨c, h2, h3, h4⟩ := ha
  refine ⟨c, hl ▸ h2, ?_, ?_⟩
  · intro q
    rw [hpc]
    by_cases hq : q = p
    · subst hq; cases x <;> simp_all [mid, absAt]
    · rw [upd_other _ _ hq]; exact h3 q
  · intro hm
    rw [hv]; apply h4
    intro q
    by_cases hq : q = p
    · rw [hq]; exact h0
    · have := hm q; rwa [hpc, upd_other _ _ hq] at this

/-- A step which linearizes a call, nobody being half-way before or after, abstract content = value. -/
theorem abs_lin {v₀ : Option V} {s s' : St V E} {p : Nat} {x : Pc V E} {d} (ha : AbsInv v₀ s)
    (hl : lins s'.log = lins s.log ++ [d]) (hpc : s'.pc = upd s.pc p x)
    (hnm : ∀ q, mid (s.pc q) = false) (hstep : CellStep s.value d.op d.ret s'.value) (h1 : mid x = false) :
    AbsInv v₀ s' := by
  obtain ⟨c, h2, h3, h4⟩ := ha
  have hc := h4 hnm
  subst hc
  refine ⟨s'.value, hl ▸ Legal.snoc h2 hstep, ?_, fun _ => rfl⟩
  intro q
  rw [hpc]
  by_cases hq : q = p
  · subst hq; cases x <;> simp_all [mid, absAt]
  · rw [upd_other _ _ hq]
    have := hnm q
    revert this; cases s.pc q <;> simp [mid, absAt]

/-- Nobody else is half-way if `p` holds something. -/
theorem Core.no_mid {s : St V E} (h : Core s) {p : Nat} (h0 : mid (s.pc p) = false)
    (hp : (excl (s.pc p) || claiming (s.pc p) || holdsS (s.pc p) || holdsU (s.pc p)) = true) :
    ∀ q, mid (s.pc q) = false := by
  intro q
  by_cases hq : q = p
  · rw [hq]; exact h0
  · by_cases hm : mid (s.pc q) = true
    · obtain ⟨h1, h2, h3, h4⟩ := h.alone (mid_excl hm) (Ne.symm hq)
      simp [h1, h2, h3, h4] at hp
    · simpa using hm

/-- Abstract content of a state: differs from memory only while somebody is half-way. -/
theorem abs_half {v₀ : Option V} {s s' : St V E} {p : Nat} {x : Pc V E} {c : Option V} (h : Core s)
    (hpe : excl (s.pc p) = true)
    (hL : Legal CellStep v₀ (lins s'.log) c) (hpc : s'.pc = upd s.pc p x) (hx : absAt c x)
    (hq : mid x = false → c = s'.value) : AbsInv v₀ s' := by
  refine ⟨c, hL, ?_, ?_⟩
  · intro q
    rw [hpc]
    by_cases hqp : q = p
    · subst hqp; simpa using hx
    · rw [upd_other _ _ hqp]
      have := (h.alone hpe hqp).2.2.1
      revert this; cases s.pc q <;> simp [excl, absAt]
  · intro hm
    apply hq
    have := hm p
    rw [hpc] at this; simpa using this

/-- The flag always tells whether the abstract content is present. -/
theorem flag_abs {s : St V E} (h : Core s) {c : Option V} (ha : ∀ p, absAt c (s.pc p))
    (hq : (∀ p, mid (s.pc p) = false) → c = s.value) : s.flag = c.isSome := by
  by_cases hm : ∃ p, mid (s.pc p) = true
  · obtain ⟨p, hm⟩ := hm
    have h1 := h.mem p
    have h2 := ha p
    revert hm h1 h2
    cases s.pc p <;> simp [mid, memAt, absAt]
    · intro _ h2 h3; simp [h2, h3]
    · intro h2 h3; simp [h2, h3]
    · intro h2 h3; simp [h2, h3]
  · have hm' : ∀ p, mid (s.pc p) = false := by simpa using hm
    rw [hq hm', h.quiet hm']

theorem cell_put (c t : Option V) : CellStep (E := E) c (XKind.op (.put t)) ⟨none, .old c⟩ t := by
  cases t <;> constructor

theorem cell_guard (c t : Option V) : CellStep (E := E) c (guardOp t) ⟨none, .old c⟩ t := by
  cases t <;> constructor

set_option maxHeartbeats 2000000 in
theorem abs_go {v₀ : Option V} {s s' : St V E} {p} (h : Core s) (ha : AbsInv v₀ s) (hs : go s p = some s') :
    AbsInv v₀ s' := by
  have hmp := h.mem p
  have hnm := @Core.no_mid V E s h p
  unfold go at hs
  split at hs <;> rename_i hpc
  all_goals try (repeat' split at hs)
  all_goals first
    | (simp at hs; done)
    | (simp only [Option.map_eq_some_iff, Lock.tryUpgradable, Lock.claim, Lock.tryShared] at hs
       obtain ⟨l, hl, rfl⟩ := hs
       split at hl <;> simp at hl
       subst hl)
    | (simp only [Option.some.injEq] at hs
       subst hs)
  all_goals rw [hpc] at hmp
  all_goals simp [memAt, ranOk] at hmp
  all_goals first
    | (exfalso; simp_all; done)
    | (refine abs_tau (p := p) ha ?_ rfl rfl ?_ ?_ <;>
        first
          | rfl
          | (rw [hpc]; rfl)
          | (simp [St.to, St.ev, St.ret, St.lin]; done)
          | (simp only [heldGuard]; split <;> rfl)
          | (simp only [St.to, St.ev, St.ret, St.lin, lins_snoc_res, lins_snoc_other]; done))
    | (refine abs_lin (p := p) ha (lins_snoc_lin _ _ _ _) rfl (hnm (by rw [hpc]; rfl) (by rw [hpc]; first | rfl | (cases ‹Bool› <;> rfl))) ?_ rfl
       simp only [St.to, St.ev, St.ret, St.lin, *]; constructor; done)
    | (refine abs_lin (p := p) ha (by simp only [St.ret, St.lin, St.ev, lins_snoc_res, lins_snoc_lin]; rfl) rfl
        (hnm (by rw [hpc]; rfl) (by rw [hpc]; rfl)) ?_ rfl
       exact .writer _)
    | (obtain ⟨c, h1, h2, h3⟩ := ha
       have hc := h3 (hnm (by rw [hpc]; rfl) (by rw [hpc]; rfl))
       subst hc
       refine abs_half (p := p) h (by rw [hpc]; rfl) h1 rfl ?_ ?_
       · exact hmp
       · intro hm; cases hm)
    | (obtain ⟨c, h1, h2, h3⟩ := ha
       have hc := h2 p
       rw [hpc] at hc
       refine abs_half (p := p) h (by rw [hpc]; rfl) h1 rfl trivial (fun _ => hc))
    | (obtain ⟨c, h1, h2, h3⟩ := ha
       have hc := h3 (hnm (by rw [hpc]; rfl) (by rw [hpc]; rfl))
       subst hc
       refine abs_half (p := p) h (by rw [hpc]; rfl)
         (show Legal _ _ (lins (s.log ++ [_])) _ from (lins_snoc_lin _ _ _ _) ▸ Legal.snoc h1 (by first | exact cell_put _ _ | exact cell_guard _ _)) rfl rfl ?_
       intro hm; cases hm)
    | (obtain ⟨c, h1, h2, h3⟩ := ha
       have hc := h2 p
       rw [hpc] at hc
       have hc' : c = none := hc
       subst hc'
       refine abs_half (p := p) h (by rw [hpc]; rfl)
         (show Legal _ _ (lins (s.log ++ [_])) _ from (lins_snoc_lin _ _ _ _) ▸ Legal.snoc h1 (.build _ (.ok _))) rfl trivial ?_
       intro _; exact hmp.1.symm)
    | (obtain ⟨c, h1, h2, h3⟩ := ha
       refine ⟨c, (show Legal _ _ (lins (s.log ++ [_])) _ from (lins_snoc_lin _ _ _ _) ▸ Legal.snoc h1 ?_), ?_, ?_⟩
       · simp only [flag_abs h h2 h3]; constructor
       · intro q
         by_cases hq : q = p
         · subst hq; simp [St.to, absAt]
         · simp only [St.to, upd_other _ _ hq]; exact h2 q
       · intro hm
         apply h3
         intro q
         by_cases hq : q = p
         · rw [hq, hpc]; rfl
         · have := hm q; simp only [St.to, upd_other _ _ hq] at this; exact this)

theorem abs_step {v₀ : Option V} {s s' : St V E} {p a} (h : Core s) (ha : AbsInv v₀ s) (hs : step s p a = some s') :
    AbsInv v₀ s' := by
  cases a with
  | go => exact abs_go h ha hs
  | call op =>
    simp only [step, invoke] at hs
    split at hs <;> rename_i hpc
    all_goals try split at hs
    all_goals first
      | (simp at hs; done)
      | (simp only [Option.some.injEq] at hs
         subst hs)
    all_goals exact abs_tau (p := p) ha (lins_snoc_inv _ _ _) rfl rfl (by rw [hpc]; rfl) rfl
  | finish o =>
    simp only [step, builderReturns] at hs
    split at hs <;> rename_i hpc
    all_goals try split at hs
    all_goals first
      | (simp at hs; done)
      | (simp only [Option.some.injEq] at hs
         subst hs)
    · exact abs_tau (p := p) ha (lins_snoc_other _ _) rfl rfl (by rw [hpc]; rfl) rfl
    · rename_i k _ hne
      have hv := h.mem p
      rw [hpc] at hv
      refine abs_lin (p := p) (d := ⟨s.me p, .get k, ⟨some o, getRet k o⟩⟩) ha ?_ rfl
        (h.no_mid (by rw [hpc]; rfl) (by rw [hpc]; rfl)) ?_ rfl
      · simp only [St.to, St.lin, St.ev, lins_snoc_lin, lins_snoc_other]; rfl
      · simp only [memAt] at hv
        show CellStep s.value _ _ s.value
        rw [hv]
        have := CellStep.build (V := V) k o
        cases o with
        | ok v => exact absurd rfl (hne v)
        | err e => exact this
        | panic => exact this
  | drop =>
    simp only [step, dropGuard] at hs
    split at hs <;> rename_i hpc
    all_goals first
      | (simp at hs; done)
      | (simp only [Option.some.injEq] at hs
         subst hs)
    all_goals exact abs_tau (p := p) ha (lins_snoc_other _ _) rfl rfl (by rw [hpc]; rfl) rfl

theorem disc_cancel {s s' : St V E} {p : Nat} {op} {l : List (Ev V E)} (hd : Disc l (tbl s))
    (hl : s'.log = l ++ [.cancel (s.me p)]) (hseq : s'.seq = upd s.seq p (s.seq p + 1)) (hpc : s'.pc = upd s.pc p .idle)
    (hv : s'.value = s.value) (h0 : phaseAt s.value (s.pc p) = .invoked op) : Disc s'.log (tbl s') := by
  rw [hl, tbl_end hseq hpc hv rfl]; exact .cancel hd (by rw [tbl_me, h0])

theorem disc_abandon {s s' : St V E} {p} (hd : Disc s.log (tbl s)) (hs : abandon s p = some s') :
    Disc s'.log (tbl s') := by
  unfold abandon at hs
  split at hs <;> rename_i hpc
  all_goals first
    | (simp at hs; done)
    | (simp only [Option.some.injEq] at hs
       subst hs)
  · exact disc_cancel (p := p) hd rfl rfl rfl rfl (by rw [hpc]; rfl)
  · exact disc_cancel (p := p) hd rfl rfl rfl rfl (by rw [hpc]; rfl)
  · exact disc_cancel (p := p) hd rfl rfl rfl rfl (by rw [hpc]; rfl)
  · exact disc_cancel (p := p) (.other hd) rfl rfl rfl rfl (by rw [hpc]; rfl)

theorem abs_abandon {v₀ : Option V} {s s' : St V E} {p} (ha : AbsInv v₀ s) (hs : abandon s p = some s') :
    AbsInv v₀ s' := by
  unfold abandon at hs
  split at hs <;> rename_i hpc
  all_goals first
    | (simp at hs; done)
    | (simp only [Option.some.injEq] at hs
       subst hs)
  all_goals
    refine abs_tau (p := p) ha ?_ rfl rfl (by rw [hpc]; rfl) rfl
    simp only [quit, St.ev, lins_snoc_cancel, lins_snoc_other]

theorem logInv_reachC {v₀ : Option V} {s : St V E} (h : ReachC v₀ s) : LogInv v₀ s := by
  induction h with
  | init => exact logInv_init _
  | @step s s' p a hr hs ih =>
    have hc := core_reachC hr
    refine ⟨?_, abs_step hc ih.2 hs⟩
    cases a with
    | call op => exact disc_invoke ih.1 hs
    | go => exact disc_go hc ih.1 hs
    | finish o => exact disc_finish ih.1 hs
    | drop => exact disc_drop ih.1 hs
  | abandon _ hs ih => exact ⟨disc_abandon ih.1 hs, abs_abandon ih.2 hs⟩

theorem logInv_reach {v₀ : Option V} {s : St V E} (h : Reach v₀ s) : LogInv v₀ s := logInv_reachC (reach_c h)

end Verif.Proof.Sync
