import Verif.Model.Async
import Verif.Proof.SyncInv
/-!
# The async container inside the sync machine (helper lemmas)

Every state of the async container corresponds to a state of the machine of `Model/Sync.lean` (with abandoned calls) which
has the same value, flag, and log. One async step is zero to three sync steps.
-/

namespace Verif.Proof.Async
open Verif.Spec Verif.Model
open Verif.Proof.Sync (ReachC abandon quit Core core_reachC holdsS holdsU excl claiming memAt)

variable {V E : Type}

/-- The corresponding program point. -/
def emb : Async.Pc V E → Sync.Pc V E
  | .idle => .idle
  | .rStart k => .rStart k
  | .rHave k => .rHaveU k
  | .rCb k => .rHaveW k
  | .rBuild k => .rBuild k
  | .rSet k v => .rSet k v
  | .rFlag k v => .rFlag k v
  | .rFail k o => .rFail k o
  | .rReady k ran => .rReady k ran
  | .rMap k ran => .rMap k ran
  | .gRead g => .gRead g
  | .gMut g => .gMut g
  | .gWrite g => .gWrite g
  | .gDeref g m => .gDeref g m
  | .gDone g m op v => .gDone g m op v
  | .gAsg g v => .gAsg g v
  | .xStart x => .xStart x
  | .xHave x => .xHave x
  | .xVal t => .xVal t
  | .xRel t o => .xRel t o
  | .wHave g t => .wHave g t
  | .wVal g t => .wVal g t
  | .wRet g t o => .wRet g t o
  | .sStart => .sStart
  | .sHave => .sHave
  | .sVal o => .sVal o
  | .sBoth o b => .sBoth o b
  | .iStart => .iStart
  | .iDone b => .iDone b
  | .ub => .ub

/-- The sync state with lock `L` which shows the async state `a`. -/
def mk (a : Async.St V E) (L : Lock) : Sync.St V E :=
  { value := a.value, flag := a.flag, lk := L, pc := fun p => emb (a.pc p), seq := a.seq, log := a.log }

/-- Locks correspond: an exclusive async hold is an exclusive or an upgradable sync hold, with no readers. -/
structure LkRel (l : Async.ALock) (L : Lock) : Prop where
  sh : L.shared = l.shared
  free : l.wr = none → L.wr = none ∧ L.upg = none
  own : ∀ p, l.wr = some p → (L.wr = some p ∧ L.upg = none) ∨ (L.upg = some p ∧ L.wr = none)
  alone : l.wr ≠ none → l.shared = []

theorem emb_upd (f : Nat → Async.Pc V E) (p : Nat) (c : Async.Pc V E) :
    (fun q => emb (upd f p c q)) = upd (fun q => emb (f q)) p (emb c) := by
  funext q; simp only [upd]; split <;> rfl

/-- Exclusive sync hold read back. -/
theorem LkRel.wr_back {l L} (h : LkRel l L) {p} (hp : L.wr = some p) : l.wr = some p := by
  cases hl : l.wr with
  | none => have := (h.free hl).1; simp_all
  | some q => rcases h.own q hl with h1 | h1 <;> simp_all

theorem LkRel.upg_back {l L} (h : LkRel l L) {p} (hp : L.upg = some p) : l.wr = some p := by
  cases hl : l.wr with
  | none => have := (h.free hl).2; simp_all
  | some q => rcases h.own q hl with h1 | h1 <;> simp_all

theorem LkRel.drop_write {l L} (h : LkRel l L) {p} (hp : L.wr = some p) : LkRel l.dropWrite L.dropWrite := by
  have hl := h.wr_back hp
  have h1 := h.own p hl
  have h2 := h.sh
  constructor <;> simp_all [Async.ALock.dropWrite, Lock.dropWrite]

theorem LkRel.drop_upg {l L} (h : LkRel l L) {p} (hp : L.upg = some p) : LkRel l.dropWrite L.dropUpg := by
  have hl := h.upg_back hp
  have h1 := h.own p hl
  have h2 := h.sh
  constructor <;> simp_all [Async.ALock.dropWrite, Lock.dropUpg]

theorem LkRel.drop_shared {l L} (h : LkRel l L) (p : Nat) : LkRel (l.dropShared p) (L.dropShared p) := by
  obtain ⟨h1, h2, h3, h4⟩ := h
  refine ⟨by simp [Async.ALock.dropShared, Lock.dropShared, h1], h2, h3, fun h5 => ?_⟩
  simp [Async.ALock.dropShared, h4 h5]

theorem LkRel.down {l L} (h : LkRel l L) {p} (hp : L.upg = some p) : LkRel (l.downgrade p) (L.downgradeToShared p) := by
  have hl := h.upg_back hp
  have h1 := h.own p hl
  have h2 := h.sh
  have h3 := h.alone
  constructor <;> simp_all [Async.ALock.downgrade, Lock.downgradeToShared]

theorem LkRel.up {l L} (h : LkRel l L) {p} (hp : L.upg = some p) :
    LkRel l (L.upgradeClaim p) ∧ (L.upgradeClaim p).drained = true := by
  have hl := h.upg_back hp
  have h1 := h.own p hl
  have h2 := h.sh
  have h3 := h.alone
  refine ⟨?_, ?_⟩
  · constructor <;> simp_all [Lock.upgradeClaim]
  · simp_all [Lock.upgradeClaim, Lock.drained]

theorem LkRel.toUpg {l L} (h : LkRel l L) {p} (hp : L.wr = some p) : LkRel l (L.downgradeToUpg p) := by
  have hl := h.wr_back hp
  have h1 := h.own p hl
  have h2 := h.sh
  have h3 := h.alone
  constructor <;> simp_all [Lock.downgradeToUpg]

theorem LkRel.shared {l L} (h : LkRel l L) {p l'} (hp : l.tryShared p = some l') :
    ∃ L', L.tryShared p = some L' ∧ LkRel l' L' := by
  obtain ⟨h1, h2, h3, h4⟩ := h
  simp only [Async.ALock.tryShared] at hp
  split at hp <;> simp at hp
  rename_i hw
  subst hp
  refine ⟨{ L with shared := p :: L.shared }, by simp [Lock.tryShared, h2 hw], ?_⟩
  constructor <;> simp_all

theorem LkRel.writeU {l L} (h : LkRel l L) {p l'} (hp : l.tryWrite p = some l') :
    ∃ L', L.tryUpgradable p = some L' ∧ LkRel l' L' := by
  obtain ⟨h1, h2, h3, h4⟩ := h
  simp only [Async.ALock.tryWrite] at hp
  split at hp <;> simp at hp
  rename_i hw
  subst hp
  refine ⟨{ L with upg := some p }, by simp [Lock.tryUpgradable, h2 hw.1], ?_⟩
  constructor <;> simp_all

theorem LkRel.writeX {l L} (h : LkRel l L) {p l'} (hp : l.tryWrite p = some l') :
    ∃ L', L.claim p = some L' ∧ L'.drained = true ∧ LkRel l' L' := by
  obtain ⟨h1, h2, h3, h4⟩ := h
  simp only [Async.ALock.tryWrite] at hp
  split at hp <;> simp at hp
  rename_i hw
  subst hp
  refine ⟨{ L with wr := some p }, by simp [Lock.claim, h2 hw.1], ?_, ?_⟩
  · simp [Lock.drained, h1, hw.2]
  · constructor <;> simp_all

/-- What is to be shown for each step. -/
def Ok (v₀ : Option V) (a : Async.St V E) : Prop := ∃ L, ReachC v₀ (mk a L) ∧ LkRel a.lk L

theorem one {v₀ : Option V} {s : Sync.St V E} {a' : Async.St V E} {L' : Lock} {p} (hr : ReachC v₀ s)
    (hs : Sync.go s p = some (mk a' L')) (hl : LkRel a'.lk L') : Ok v₀ a' :=
  ⟨L', hr.step (a := .go) hs, hl⟩

@[simp] theorem mk_me (a : Async.St V E) (L : Lock) (p : Nat) : (mk a L).me p = a.me p := rfl

theorem mk_to (a : Async.St V E) (L : Lock) (p c) : mk (a.to p c) L = (mk a L).to p (emb c) := by
  simp [mk, Async.St.to, Sync.St.to, emb_upd]

theorem mk_ev (a : Async.St V E) (L : Lock) (e) : mk (a.ev e) L = (mk a L).ev e := rfl

theorem mk_lin (a : Async.St V E) (L : Lock) (p op r) : mk (a.lin p op r) L = (mk a L).lin p op r := rfl

theorem mk_ret (a : Async.St V E) (L : Lock) (p c r) : mk (a.ret p c r) L = (mk a L).ret p (emb c) r := by
  simp [mk, Async.St.ret, Sync.St.ret, emb_upd, Async.St.me, Sync.St.me]

theorem mk_quit (a : Async.St V E) (L : Lock) (p) : mk (a.quit p) L = quit (mk a L) p := by
  simp only [mk, Async.St.quit, quit, emb_upd, Async.St.me, Sync.St.me]; rfl

theorem mk_begin (a : Async.St V E) (L : Lock) (p op c) : mk (a.begin p op c) L = (mk a L).begin p op (emb c) := by
  simp [mk, Async.St.begin, Sync.St.begin, emb_upd, Async.St.me, Sync.St.me]

theorem to_pc (s : Sync.St V E) (p c) : (s.to p c).pc p = c := by simp [Sync.St.to, upd]

theorem to_to (s : Sync.St V E) (p c c') : (s.to p c).to p c' = s.to p c' := by
  simp only [Sync.St.to, Sync.St.mk.injEq, true_and, and_true]
  funext q; simp only [upd]; split <;> rfl

theorem emb_held (m : Bool) (g : CallId) : emb (Async.heldGuard m g : Async.Pc V E) = Sync.heldGuard m g := by
  cases m <;> rfl

set_option linter.unusedSimpArgs false
set_option maxHeartbeats 2000000 in
theorem sim_go {v₀ : Option V} {a a' : Async.St V E} {p} (h : Ok v₀ a) (hs : Async.go a p = some a') : Ok v₀ a' := by
  obtain ⟨L, hr, hl⟩ := h
  have hc := core_reachC hr
  have hwr := hc.wr p
  have hupg := hc.upg p
  have hmem := hc.mem p
  have hpcL : (mk a L).pc p = emb (a.pc p) := rfl
  rw [hpcL] at hwr hupg hmem
  have hraw : ∀ c, a.pc p = c → (mk a L).pc p = emb c := fun c hc => by rw [← hc]; rfl
  unfold Async.go at hs
  split at hs <;> rename_i hpc
  all_goals try (repeat' split at hs)
  all_goals have hgo := hraw _ hpc
  all_goals rw [hpc] at hwr hupg hmem
  all_goals simp [emb, excl, claiming, holdsU, memAt, mk, GetKind.mutable] at hwr hupg hmem
  all_goals simp only [emb] at hgo
  all_goals first
    | (simp at hs; done)
    | (simp only [Option.map_eq_some_iff] at hs
       obtain ⟨l, hl', rfl⟩ := hs)
    | (simp only [Option.some.injEq] at hs
       subst hs)
  all_goals try first
    | (refine one hr (p := p) (L' := L) ?_ hl
       simp only [Sync.go, hgo, mk_to, mk_ev, mk_lin, mk_ret, emb_held]
       all_goals first
         | rfl
         | (simp only [mk, *]
            first | done | rfl))
    | (refine one hr (p := p) (L' := L.dropWrite) ?_ (hl.drop_write (p := p) (by assumption))
       simp only [Sync.go, hgo, mk_to, mk_ev, mk_lin, mk_ret, emb_held]
       all_goals first
         | rfl
         | (simp only [mk, *]
            first | done | rfl))
    | (refine one hr (p := p) (L' := L.dropUpg) ?_ (hl.drop_upg (p := p) (by assumption))
       simp only [Sync.go, hgo, mk_to, mk_ev, mk_lin, mk_ret, emb_held]
       all_goals first
         | rfl
         | (simp only [mk, *]
            first | done | rfl))
    | (refine one hr (p := p) (L' := L.dropShared p) ?_ (hl.drop_shared p)
       simp only [Sync.go, hgo, mk_to, mk_ev, mk_lin, mk_ret, emb_held]
       all_goals first
         | rfl
         | (simp only [mk, *]
            first | done | rfl))
    | (refine one hr (p := p) (L' := L.downgradeToShared p) ?_ (hl.down (p := p) (by assumption))
       simp only [Sync.go, hgo, mk_to, mk_ev, mk_lin, mk_ret, emb_held]
       all_goals first
         | rfl
         | (simp only [mk, *]
            first | done | rfl))
  · -- rStart
    obtain ⟨L', h1, h2⟩ := hl.writeU hl'
    refine one hr (p := p) (L' := L') ?_ h2
    simp only [Sync.go, hgo, mk_to, emb]
    simp only [show (mk a L).lk = L from rfl, h1, Option.map_some]
    rfl
  · -- rHave, nothing there
    rename_i hv
    obtain ⟨h1, h2⟩ := hl.up hupg
    have hr' : ReachC v₀ ({ mk a L with lk := L.upgradeClaim p }.to p (.rUpg _)) :=
      hr.step (p := p) (a := .go) (by simp only [Sync.step, Sync.go, hgo, show (mk a L).value = none from hv]; rfl)
    refine one hr' (p := p) (L' := L.upgradeClaim p) ?_ h1
    simp only [Sync.go, to_pc, to_to, mk_to, emb]
    exact if_pos h2
  · -- rFlag
    rename_i k v
    have hr' : ReachC v₀ (({ mk a L with flag := true }.lin p (.get k) ⟨some (.ok v), getRet k (.ok v)⟩).to p
        (.rDown k (some (.ok v)))) :=
      hr.step (p := p) (a := .go) (by simp only [Sync.step, Sync.go, hgo])
    refine one hr' (p := p) (L' := L.downgradeToUpg p) ?_ (hl.toUpg hwr)
    simp only [Sync.go, to_pc, mk_to, emb]
    exact congrArg some (to_to { ({ mk a L with flag := true }.lin p (.get k)
      ⟨some (.ok v), getRet k (.ok v)⟩ : Sync.St V E) with lk := L.downgradeToUpg p } p _ _)
  iterate 2
    · -- rReady, mutable forms
      obtain ⟨h1, h2⟩ := hl.up hupg
      have hr' : ReachC v₀ ({ mk a L with lk := L.upgradeClaim p }.to p (.rUpg2 _ _)) :=
        hr.step (p := p) (a := .go) (by simp only [Sync.step, Sync.go, hgo]; rfl)
      refine one hr' (p := p) (L' := L.upgradeClaim p) ?_ h1
      simp only [Sync.go, to_pc, to_to, mk_to, emb]
      exact if_pos h2
  · -- rMap without a value
    rename_i k _ _ _ hk
    have hw : L.wr = some p := by
      apply hwr.2; cases k <;> simp [GetKind.mutable] at hk ⊢
    refine one hr (p := p) (L' := L.dropWrite) ?_ (hl.drop_write hw)
    simp only [Sync.go, hgo, mk_ret, emb]
    simp only [mk, *]
    rfl
  · -- xStart
    obtain ⟨L', h1, h2, h3⟩ := hl.writeX hl'
    have hr' : ReachC v₀ ({ mk a L with lk := L' }.to p (.xWait _)) :=
      hr.step (p := p) (a := .go) (by
        simp only [Sync.step, Sync.go, hgo, show (mk a L).lk = L from rfl, h1, Option.map_some]; rfl)
    refine one hr' (p := p) (L' := L') ?_ h3
    simp only [Sync.go, to_pc, to_to, mk_to, emb]
    exact if_pos h2
  · -- sStart
    obtain ⟨L', h1, h2⟩ := hl.shared hl'
    refine one hr (p := p) (L' := L') ?_ h2
    simp only [Sync.go, hgo, mk_to, emb]
    simp only [show (mk a L).lk = L from rfl, h1, Option.map_some]
    rfl

set_option maxHeartbeats 2000000 in
theorem mk_invoke {a a' : Async.St V E} {p op} {L : Lock} (hs : Async.invoke a p op = some a') :
    Sync.invoke (mk a L) p op = some (mk a' L) ∧ a'.lk = a.lk := by
  have hraw : ∀ c, a.pc p = c → (mk a L).pc p = emb c := fun c hc => by rw [← hc]; rfl
  unfold Async.invoke at hs
  split at hs <;> rename_i hpc
  all_goals try split at hs
  all_goals first
    | (simp at hs; done)
    | (simp only [Option.some.injEq] at hs
       subst hs)
  all_goals have hgo := hraw _ hpc
  all_goals simp only [emb] at hgo
  all_goals refine ⟨?_, rfl⟩
  all_goals simp only [Sync.invoke, hgo, mk_begin]
  all_goals first
    | rfl
    | exact if_pos (by assumption)

theorem sim_invoke {v₀ : Option V} {a a' : Async.St V E} {p op} (h : Ok v₀ a) (hs : Async.invoke a p op = some a') :
    Ok v₀ a' := by
  obtain ⟨L, hr, hl⟩ := h
  obtain ⟨h1, h2⟩ := mk_invoke (L := L) hs
  exact ⟨L, hr.step (p := p) (a := .call op) h1, by rw [h2]; exact hl⟩

theorem mk_finish {a a' : Async.St V E} {p o} {L : Lock} (hs : Async.builderReturns a p o = some a') :
    Sync.builderReturns (mk a L) p o = some (mk a' L) ∧ a'.lk = a.lk := by
  have hraw : ∀ c, a.pc p = c → (mk a L).pc p = emb c := fun c hc => by rw [← hc]; rfl
  unfold Async.builderReturns at hs
  split at hs <;> rename_i hpc
  · have hgo := hraw _ hpc
    simp only [emb] at hgo
    dsimp only at hs
    cases o <;> simp only [Option.some.injEq] at hs <;> subst hs
    all_goals refine ⟨?_, rfl⟩
    all_goals simp only [Sync.builderReturns, hgo, mk_to, mk_lin, mk_ev]
    all_goals rfl
  · simp at hs

theorem sim_finish {v₀ : Option V} {a a' : Async.St V E} {p o} (h : Ok v₀ a)
    (hs : Async.builderReturns a p o = some a') : Ok v₀ a' := by
  obtain ⟨L, hr, hl⟩ := h
  obtain ⟨h1, h2⟩ := mk_finish (L := L) hs
  exact ⟨L, hr.step (p := p) (a := .finish o) h1, by rw [h2]; exact hl⟩

theorem sim_drop {v₀ : Option V} {a a' : Async.St V E} {p} (h : Ok v₀ a) (hs : Async.dropGuard a p = some a') :
    Ok v₀ a' := by
  obtain ⟨L, hr, hl⟩ := h
  have hc := core_reachC hr
  have hwr := hc.wr p
  have hraw : ∀ c, a.pc p = c → (mk a L).pc p = emb c := fun c hc => by rw [← hc]; rfl
  unfold Async.dropGuard at hs
  split at hs <;> rename_i hpc
  all_goals first
    | (simp at hs; done)
    | (simp only [Option.some.injEq] at hs
       subst hs)
  all_goals have hgo := hraw _ hpc
  all_goals simp only [emb] at hgo
  all_goals rw [hgo] at hwr
  all_goals simp [excl, claiming] at hwr
  · refine ⟨L.dropShared p, hr.step (p := p) (a := .drop) ?_, hl.drop_shared p⟩
    simp only [Sync.step, Sync.dropGuard, hgo, mk_to, mk_ev, emb]; rfl
  · refine ⟨L.dropWrite, hr.step (p := p) (a := .drop) ?_, hl.drop_write hwr⟩
    simp only [Sync.step, Sync.dropGuard, hgo, mk_to, mk_ev, emb]; rfl
  · refine ⟨L.dropWrite, hr.step (p := p) (a := .drop) ?_, hl.drop_write hwr⟩
    simp only [Sync.step, Sync.dropGuard, hgo, mk_to, mk_ev, emb]; rfl

theorem sim_cancel {v₀ : Option V} {a a' : Async.St V E} {p} (h : Ok v₀ a) (hs : Async.cancel a p = some a') :
    Ok v₀ a' := by
  obtain ⟨L, hr, hl⟩ := h
  have hc := core_reachC hr
  have hwr := hc.wr p
  have hraw : ∀ c, a.pc p = c → (mk a L).pc p = emb c := fun c hc => by rw [← hc]; rfl
  unfold Async.cancel at hs
  split at hs <;> rename_i hpc
  all_goals first
    | (simp at hs; done)
    | (simp only [Option.some.injEq] at hs
       subst hs)
  all_goals have hgo := hraw _ hpc
  all_goals simp only [emb] at hgo
  all_goals rw [hgo] at hwr
  all_goals simp [excl, claiming] at hwr
  · refine ⟨L, hr.abandon (p := p) ?_, hl⟩
    simp only [abandon, hgo, mk_quit]
  · refine ⟨L, hr.abandon (p := p) ?_, hl⟩
    simp only [abandon, hgo, mk_quit]
  · refine ⟨L.dropWrite, hr.abandon (p := p) ?_, hl.drop_write hwr⟩
    simp only [abandon, hgo, mk_quit]; rfl
  · refine ⟨L.dropWrite, hr.abandon (p := p) ?_, hl.drop_write hwr⟩
    simp only [abandon, hgo, mk_quit, mk_ev]; rfl

/-- Every reachable state of the async container is shown by a reachable state of the sync machine. -/
theorem sim {v₀ : Option V} {a : Async.St V E} (h : Async.Reach v₀ a) : Ok v₀ a := by
  induction h with
  | init => exact ⟨.free, .init, by constructor <;> simp [Async.init, Async.ALock.free, Lock.free]⟩
  | @step s s' p x _ hs ih =>
    cases x with
    | call op => exact sim_invoke ih hs
    | go => exact sim_go ih hs
    | finish o => exact sim_finish ih hs
    | drop => exact sim_drop ih hs
    | cancel => exact sim_cancel ih hs

end Verif.Proof.Async
