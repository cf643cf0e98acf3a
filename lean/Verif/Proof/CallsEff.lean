import Verif.Model.Calls
import Verif.Proof.SyncBuild
import Verif.Proof.SyncGuard
/-!
# What one step of the sync container does to the call it belongs to (helper lemmas)
-/

namespace Verif.Proof.Calls
open Verif.Spec Verif.Model Verif.Model.Calls Verif.Proof Verif.Proof.Sync
open Verif.Model.Sync (heldGuard)

variable {V E : Type}

/-- Where the process is after a call `op` on the container returned `r`. -/
def AfterOk (me : CallId) (x : Sync.Pc V E) (v' : Option V) (x' : Sync.Pc V E) (r : Res V E) : Op V → Prop
  | .get k =>
    match r.ret with
    | .value v => x' = heldGuard k.mutable me ∧ v' = some v
    | _ => x' = .idle
  | .store _ | .take => ∃ g, x' = .gWrite g
  | .deref g | .assign g _ => ∃ m op w, x = .gDone g m op w ∧ x' = heldGuard m g ∧ r = ⟨none, .value w⟩
  | _ => x' = .idle

/-- What a step of the code of process `p` does to its call. -/
inductive Eff (c c' : Sync.St V E) (p : Nat) : Prop where
  | tau : lins c'.log = lins c.log → decided c c' = none → answered c c' p = none →
      phaseAt c'.value (c'.pc p) = phaseAt c.value (c.pc p) → Eff c c' p
  | lin (op r) : phaseAt c.value (c.pc p) = .invoked op → lins c'.log = lins c.log ++ [⟨c.me p, op, r⟩] →
      decided c c' = some r → answered c c' p = none → phaseAt c'.value (c'.pc p) = .linearized op r →
      (∀ g, op = .deref g → c'.value = c.value ∧
        ∃ m w, c.pc p = .gDeref g m ∧ c'.pc p = .gDone g m (.deref g) w ∧ c.value = some w) → Eff c c' p
  | ret (op r) : phaseAt c.value (c.pc p) = .linearized op r → lins c'.log = lins c.log →
      decided c c' = none → answered c c' p = some r → c'.value = c.value →
      AfterOk (c.me p) (c.pc p) c'.value (c'.pc p) r op → Eff c c' p
  | both : phaseAt c.value (c.pc p) = .invoked .writer →
      lins c'.log = lins c.log ++ [⟨c.me p, .writer, ⟨none, .unit⟩⟩] → decided c c' = some ⟨none, .unit⟩ →
      answered c c' p = some ⟨none, .unit⟩ → c'.pc p = .gWrite (c.me p) → Eff c c' p

theorem decided_of {c c' : Sync.St V E} {es : List (Ev V E)} (h : c'.log = c.log ++ es) :
    decided c c' = es.findSome? linRes := by
  unfold decided
  rw [h, List.drop_left]

theorem eff_tau0 {c c' : Sync.St V E} {p : Nat} (hl : c'.log = c.log) (hseq : c'.seq = c.seq)
    (hp : phaseAt c'.value (c'.pc p) = phaseAt c.value (c.pc p)) : Eff c c' p := by
  refine .tau (by rw [hl]) ?_ (by simp [answered, hseq]) hp
  rw [decided_of (es := []) (by rw [hl, List.append_nil])]; rfl

theorem eff_tau1 {c c' : Sync.St V E} {p : Nat} {x : BEv V E} (hl : c'.log = c.log ++ [.other x]) (hseq : c'.seq = c.seq)
    (hp : phaseAt c'.value (c'.pc p) = phaseAt c.value (c.pc p)) : Eff c c' p := by
  refine .tau (by rw [hl, lins_snoc_other]) ?_ (by simp [answered, hseq]) hp
  rw [decided_of hl]; rfl

theorem eff_lin {c c' : Sync.St V E} {p : Nat} {op : Op V} {r : Res V E} {es : List (BEv V E)}
    (hl : c'.log = c.log ++ es.map .other ++ [.lin (c.me p) op r]) (hseq : c'.seq = c.seq)
    (h0 : phaseAt c.value (c.pc p) = .invoked op)
    (h1 : phaseAt c'.value (c'.pc p) = .linearized op r)
    (hg : ∀ g, op = .deref g → c'.value = c.value ∧
        ∃ m w, c.pc p = .gDeref g m ∧ c'.pc p = .gDone g m (.deref g) w ∧ c.value = some w) : Eff c c' p := by
  refine .lin op r h0 ?_ ?_ (by simp [answered, hseq]) h1 hg
  · rw [hl, lins_snoc_lin, lins_append]
    have : lins (es.map LEv.other : List (Ev V E)) = [] := by
      unfold lins
      rw [List.filterMap_eq_nil_iff]
      intro a ha
      rw [List.mem_map] at ha
      obtain ⟨b, _, rfl⟩ := ha
      rfl
    rw [this, List.append_nil]
  · rw [decided_of (es := es.map .other ++ [.lin (c.me p) op r]) (by rw [hl, List.append_assoc])]
    rw [List.findSome?_append, List.findSome?_eq_none_iff.2]
    · rfl
    · intro a ha
      rw [List.mem_map] at ha
      obtain ⟨b, _, rfl⟩ := ha
      rfl

theorem eff_ret {c c' : Sync.St V E} {p : Nat} {op : Op V} {r : Res V E}
    (hl : c'.log = c.log ++ [.res (c.me p) r]) (hseq : c'.seq = upd c.seq p (c.seq p + 1))
    (h0 : phaseAt c.value (c.pc p) = .linearized op r) (hv : c'.value = c.value)
    (h1 : AfterOk (c.me p) (c.pc p) c'.value (c'.pc p) r op) : Eff c c' p := by
  refine .ret op r h0 (by rw [hl, lins_snoc_res]) ?_ ?_ hv h1
  · rw [decided_of hl]; rfl
  · simp [answered, hseq, hl]

set_option maxHeartbeats 2000000 in
theorem eff_go {c c' : Sync.St V E} {p : Nat} (hc : Core c) (hs : Sync.go c p = some c') : Eff c c' p := by
  have hmp := hc.mem p
  unfold Sync.go at hs
  split at hs <;> rename_i hpc
  all_goals try (repeat' split at hs)
  all_goals first
    | (simp at hs; done)
    | (simp only [Option.map_eq_some_iff, Lock.tryUpgradable, Lock.claim, Lock.tryShared] at hs
       obtain ⟨l, hl, rfl⟩ := hs
       split at hl <;> simp at hl
       subst hl)
    | (simp only [Option.some.injEq] at hs
       subst hs)
  all_goals rw [hpc] at hmp
  all_goals simp [memAt, ranOk] at hmp
  all_goals first
    | (refine eff_tau0 rfl rfl ?_; simp [hpc, phaseAt, Sync.St.to, gotRes]; done)
    | (refine eff_tau1 rfl rfl ?_; simp [hpc, phaseAt, Sync.St.to, Sync.St.ev, gotRes]; done)
    | (refine eff_lin (es := []) (by rw [List.map_nil, List.append_nil]; rfl) rfl (by rw [hpc]; rfl) ?_ ?_
       · simp [phaseAt, Sync.St.to, Sync.St.lin, Sync.St.ev, gotRes, *]; done
       · intro g hg
         first
          | (cases hg; done)
          | (simp only [XKind.op, guardOp] at hg; split at hg <;> cases hg; done)
          | (injection hg with hg
             subst hg
             exact ⟨rfl, _, _, hpc, by simp only [Sync.St.to, upd_same]; rfl, by assumption⟩))
    | (exfalso; simp_all; done)
    | skip
  · rename_i k o
    refine eff_ret (op := .get k) rfl rfl (by rw [hpc]; rfl) rfl ?_
    have : ∀ v, getRet k o ≠ .value v := by
      intro v
      cases o with
      | ok w => simp [Outcome.value?] at hmp
      | _ => cases k <;> simp [getRet]
    simp only [AfterOk, Sync.St.ret, upd_same]
  · refine eff_ret (op := .get .lazyInit) rfl rfl ?_ rfl ?_
    · rw [hpc]
      obtain ⟨v, hv⟩ := Option.isSome_iff_exists.1 hmp.1
      simp [phaseAt, hv, gotRes, getRet]
    · simp only [AfterOk, Sync.St.ret, upd_same]
  · rename_i k ran _ v hv
    have hg : getRet k (.ok v : Outcome V E) = .value v := by
      cases k <;> simp [getRet] at hmp ⊢
    refine eff_ret (op := .get k) rfl rfl ?_ rfl ?_
    · rw [hpc]
      simp [phaseAt, hv, gotRes, hg]
    · simp only [AfterOk, Sync.St.ret, upd_same]
      exact ⟨trivial, hv⟩
  · rename_i g m op v
    refine eff_ret (op := op) rfl rfl (by rw [hpc]; rfl) rfl ?_
    rcases hmp with ⟨rfl, _⟩ | ⟨u, rfl, _⟩
    · exact ⟨m, _, v, hpc, by simp only [Sync.St.ret, upd_same], rfl⟩
    · exact ⟨m, _, v, hpc, by simp only [Sync.St.ret, upd_same], rfl⟩
  · refine .both (by rw [hpc]; rfl) ?_ ?_ ?_ (by simp only [Sync.St.ret, upd_same])
    · simp only [Sync.St.ret, Sync.St.lin, Sync.St.ev, lins_snoc_res, lins_snoc_lin]
    · rw [decided_of (es := [_, _]) (by simp only [Sync.St.ret, Sync.St.lin, Sync.St.ev, List.append_assoc]; rfl)]; rfl
    · simp [answered, Sync.St.ret]; simp [Sync.St.lin, Sync.St.ev]
  · rename_i t o
    refine eff_ret (op := XKind.op (.put t)) rfl rfl (by rw [hpc]; rfl) rfl ?_
    cases t <;> simp only [AfterOk, Sync.St.ret, upd_same, XKind.op]
  · rename_i g t o
    refine eff_ret (op := guardOp t) rfl rfl (by rw [hpc]; rfl) rfl ?_
    cases t <;> exact ⟨g, by simp only [Sync.St.ret, upd_same]⟩
  · refine eff_tau0 rfl rfl ?_
    rename_i o
    have := hc.flag_of_shared (p := p) (by rw [hpc]; rfl)
    simp [hpc, phaseAt, Sync.St.to, this, hmp]
  · refine eff_ret (op := .snapshot) rfl rfl (by rw [hpc]; rfl) rfl ?_
    simp only [AfterOk, Sync.St.ret, upd_same]
  · refine eff_ret (op := .isSet) rfl rfl (by rw [hpc]; rfl) rfl ?_
    simp only [AfterOk, Sync.St.ret, upd_same]

theorem eff_finish {c c' : Sync.St V E} {p : Nat} {o : Outcome V E}
    (hs : Sync.builderReturns c p o = some c') : Eff c c' p := by
  unfold Sync.builderReturns at hs
  split at hs <;> rename_i hpc
  · rename_i k
    simp only at hs
    split at hs
    · simp only [Option.some.injEq] at hs
      subst hs
      refine eff_tau1 rfl rfl ?_
      simp [hpc, phaseAt, Sync.St.to, Sync.St.ev]
    · simp only [Option.some.injEq] at hs
      subst hs
      refine eff_lin (op := .get k) (es := [_]) (by rw [List.map_cons, List.map_nil]; rfl) rfl (by rw [hpc]; rfl) ?_ ?_
      · simp [phaseAt, Sync.St.to]
      · intro g hg; cases hg
  · cases hs

/-- A step changes the value only if the process has exclusive access. -/
theorem step_value {c c' : Sync.St V E} {p : Nat} {a : Sync.Act V E} (hs : Sync.step c p a = some c') :
    c'.value = c.value ∨ excl (c.pc p) = true := by
  cases a with
  | go =>
    simp only [Sync.step, Sync.go] at hs
    split at hs <;> rename_i hpc
    all_goals try (repeat' split at hs)
    all_goals first
      | (simp at hs; done)
      | (simp only [Option.map_eq_some_iff] at hs
         obtain ⟨l, hl, rfl⟩ := hs)
      | (simp only [Option.some.injEq] at hs
         subst hs)
    all_goals first
      | exact .inl rfl
      | (right; rw [hpc]; rfl)
  | call op =>
    simp only [Sync.step, Sync.invoke] at hs
    split at hs
    all_goals try split at hs
    all_goals first
      | (simp at hs; done)
      | (simp only [Option.some.injEq] at hs
         subst hs
         exact .inl rfl)
  | finish o =>
    simp only [Sync.step, Sync.builderReturns] at hs
    split at hs
    all_goals try split at hs
    all_goals first
      | (simp at hs; done)
      | (simp only [Option.some.injEq] at hs
         subst hs
         exact .inl rfl)
  | drop =>
    simp only [Sync.step, Sync.dropGuard] at hs
    split at hs
    all_goals first
      | (simp at hs; done)
      | (simp only [Option.some.injEq] at hs
         subst hs
         exact .inl rfl)

/-- What a step of `p` leaves alone in the other processes. -/
structure Frame' (c c' : Sync.St V E) (q : Nat) : Prop where
  pc : c'.pc q = c.pc q
  phase : phaseAt c'.value (c'.pc q) = phaseAt c.value (c.pc q)
  value : holdsS (c.pc q) = true → c'.value = c.value

theorem frame_step {c c' : Sync.St V E} {p q : Nat} {a : Sync.Act V E} (hc : Core c) (hs : Sync.step c p a = some c')
    (hq : q ≠ p) : Frame' c c' q := by
  have hpc := (evOk_step hc hs).2 q hq
  rcases step_value hs with hv | he
  · exact ⟨hpc, by rw [hpc, hv], fun _ => hv⟩
  · obtain ⟨h1, h2, h3, h4⟩ := hc.alone he hq
    exact ⟨hpc, by rw [hpc]; exact phaseAt_free h1 h2 h3 h4, fun h => by rw [h1] at h; cases h⟩

/-- The sequential step behind a linearized call. -/
theorem cell_of_snoc {v₀ c c' : Option V} {l : List (Done (Op V) (Res V E))} {d}
    (h : Legal CellStep v₀ l c) (h' : Legal CellStep v₀ (l ++ [d]) c') : CellStep c d.op d.ret c' := by
  obtain ⟨c₁, h1, h2⟩ := legal_append h'
  cases legal_det h h1
  cases h2 with
  | cons h3 h4 => cases h4; exact h3

end Verif.Proof.Calls
