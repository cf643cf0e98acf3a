import Verif.Proof.Weak
import Verif.Proof.SyncLog
/-!
# The sync container without a global order of memory accesses (helper lemmas)
-/

namespace Verif.Proof.Weak
open Verif.Spec Verif.Model Verif.Model.Weak Verif.Proof Verif.Model.Sync Verif.Proof.Sync

set_option linter.unusedSimpArgs false
set_option linter.unusedSectionVars false
variable {V E : Type}

theorem modeS_excl {c : Pc V E} : modeS c = .excl ↔ excl c = true := by
  cases c <;> simp [modeS, excl] <;> split <;> simp_all

theorem modeS_none {c : Pc V E} (h1 : holdsS c = false) (h2 : holdsU c = false) (h3 : excl c = false)
    (h4 : claiming c = false) : modeS c = .none := by
  cases c <;> simp_all [modeS, holdsS, holdsU, excl, claiming]

/-- A step changes the program point of one process only. -/
theorem sync_other {s s' : Sync.St V E} {p q : Nat} {a : Sync.Act V E} (hs : Sync.step s p a = some s') (hq : q ≠ p) :
    s'.pc q = s.pc q ∧ s'.seq q = s.seq q := by
  cases a <;> simp only [Sync.step] at hs
  · unfold invoke at hs
    split at hs <;> (try split at hs) <;> simp at hs <;> subst hs <;> simp [St.begin, upd, hq]
  · unfold go at hs
    split at hs <;> (repeat' split at hs) <;>
      first
        | (simp at hs; done)
        | (simp only [Option.map_eq_some_iff] at hs
           obtain ⟨l, _, rfl⟩ := hs
           simp [St.to, upd, hq])
        | (simp only [Option.some.injEq] at hs
           subst hs
           simp [St.to, St.ret, St.lin, St.ev, upd, hq])
  · unfold builderReturns at hs
    split at hs <;> (try split at hs) <;> simp at hs <;> subst hs <;> simp [St.to, St.lin, St.ev, upd, hq]
  · unfold dropGuard at hs
    split at hs <;> simp at hs <;> subst hs <;> simp [St.to, St.ev, upd, hq]

theorem sync_flag {s s' : Sync.St V E} {p : Nat} {a : Sync.Act V E} (hs : Sync.step s p a = some s') :
    s'.flag = ((sync : Machine _ _ V E).stores s p a).getD s.flag := by
  cases a <;> simp only [Sync.step] at hs
  · unfold invoke at hs
    split at hs <;> (try split at hs) <;> simp at hs <;> subst hs <;> simp [St.begin, sync]
  · unfold go at hs
    split at hs <;> rename_i hpc <;> (repeat' split at hs) <;>
      first
        | (simp at hs; done)
        | (simp only [Option.map_eq_some_iff] at hs
           obtain ⟨l, _, rfl⟩ := hs
           simp [St.to, sync, hpc])
        | (simp only [Option.some.injEq] at hs
           subst hs
           simp [St.to, St.ret, St.lin, St.ev, sync, hpc])
  · unfold builderReturns at hs
    split at hs <;> (try split at hs) <;> simp at hs <;> subst hs <;> simp [St.to, St.lin, St.ev, sync]
  · unfold dropGuard at hs
    split at hs <;> simp at hs <;> subst hs <;> simp [St.to, St.ev, sync]

theorem sync_store {s s' : Sync.St V E} {p : Nat} {a : Sync.Act V E} (hs : Sync.step s p a = some s')
    (h : ((sync : Machine _ _ V E).stores s p a).isSome = true) :
    modeS (s.pc p) = .excl ∧ modeS (s'.pc p) = .excl ∧ (sync : Machine _ _ V E).loads s p a = false := by
  cases a <;> simp only [Sync.step] at hs
  · simp [sync] at h
  · unfold go at hs
    split at hs <;> rename_i hpc <;> (repeat' split at hs) <;>
      first
        | (simp at hs; done)
        | (simp [sync, hpc] at h; done)
        | (simp only [Option.some.injEq] at hs
           subst hs
           simp [St.to, St.ret, St.lin, St.ev, sync, hpc, modeS])
  · simp [sync] at h
  · simp [sync] at h

theorem sync_touch {s s' : Sync.St V E} {p : Nat} {a : Sync.Act V E} {w : Bool} (hc : Core s)
    (hs : Sync.step s p a = some s') (h : (sync : Machine _ _ V E).touches s p a = some w) :
    modeS (s.pc p) ≠ .none ∧ modeS (s'.pc p) ≠ .none ∧ (w = true → modeS (s.pc p) = .excl ∧ modeS (s'.pc p) = .excl) := by
  have hm := hc.mem p
  cases a <;> simp only [Sync.step] at hs
  · simp [sync] at h
  · unfold go at hs
    split at hs <;> rename_i hpc <;> rw [hpc] at hm <;> (repeat' split at hs) <;>
      first
        | (simp at hs; done)
        | (simp [sync, hpc] at h; done)
        | (simp [memAt, ranOk, *] at hm; done)
        | (simp only [Option.some.injEq] at hs
           subst hs
           simp [sync, hpc] at h
           subst h
           simp [St.to, St.ret, St.lin, St.ev, sync, hpc, modeS, heldGuard] <;> (split <;> simp_all [modeS]))
  · simp [sync] at h
  · simp [sync] at h

theorem getRet_bool (k : GetKind) (o : Outcome V E) (b : Bool) : getRet k o ≠ .bool b := by
  cases k <;> cases o <;> simp [getRet]

theorem put_isSet (t : Option V) : (XKind.put t).op ≠ .isSet := by cases t <;> simp [XKind.op]

theorem guardOp_isSet (t : Option V) : guardOp t ≠ .isSet := by cases t <;> simp [guardOp]

theorem held_got {m : Bool} {g : CallId} {s : Sync.St V E} {p : Nat} (h : s.pc p = heldGuard m g) :
    (sync : Machine _ _ V E).got s p = .none := by
  simp only [sync, h, heldGuard]; cases m <;> rfl

theorem sync_ev {s s' : Sync.St V E} {p : Nat} {a : Sync.Act V E} (hc : Core s) (hs : Sync.step s p a = some s') :
    ∃ es, s'.log = s.log ++ es ∧ Shape (sync : Machine _ _ V E) Sync.St.flag Sync.St.me s p a s' es := by
  have hm := hc.mem p
  have hf := @Core.flag_of_shared V E s hc p
  cases a <;> simp only [Sync.step] at hs
  · unfold invoke at hs
    split at hs <;> rename_i hpc <;> (try split at hs) <;> simp at hs <;> subst hs <;>
      exact ⟨_, rfl, ⟨.inr (.inl ⟨_, rfl⟩), .inl ⟨by simp [sync], by simp [lins], by simp [sync, St.begin]⟩⟩⟩
  · unfold go at hs
    split at hs <;> rename_i hpc <;> rw [hpc] at hm hf <;> (repeat' split at hs) <;>
      first
        | (simp at hs; done)
        | (simp [memAt, ranOk, *] at hm; done)
        | (simp only [Option.map_eq_some_iff] at hs
           obtain ⟨l, _, rfl⟩ := hs
           refine ⟨[], (List.append_nil _).symm, ⟨.inl rfl, .inl ⟨?_, rfl, ?_⟩⟩⟩ <;> simp [sync, hpc, St.to])
        | (simp only [Option.some.injEq] at hs
           subst hs
           refine ⟨[], (List.append_nil _).symm, ⟨.inl rfl, ?_⟩⟩
           simp [sync, St.to, hpc, lins, hist, modeS]; done)
        | (simp only [Option.some.injEq] at hs
           subst hs
           refine ⟨_, rfl, ?_⟩
           constructor
           · simp [hist, sync, hpc, St.lin, St.ev, St.me, holdsS, memAt] at hf hm ⊢ <;> simp_all [getRet]
           · simp [hist, lins, sync, hpc, St.lin, St.ev, St.ret, St.to, St.me, modeS, heldGuard]
             try (split <;> simp)
           done)
        | (simp only [Option.some.injEq] at hs
           subst hs
           refine ⟨_, List.append_assoc _ _ _, ?_⟩
           constructor
           · simp [hist, sync, hpc, St.lin, St.ev, St.me, holdsS, memAt] at hf hm ⊢ <;> simp_all [getRet]
           · simp [hist, lins, sync, hpc, St.lin, St.ev, St.ret, St.to, St.me, modeS, heldGuard]
           done)
        | skip
    all_goals
      simp only [Option.some.injEq] at hs
      subst hs
    · refine ⟨_, rfl, ⟨.inr (.inr ⟨_, rfl, ?_⟩), .inl ⟨?_, rfl, ?_⟩⟩⟩
      · simp only [sync, hpc]
        exact getRet_bool _ _
      · simp [sync, hpc]
      · simp [sync, St.ret]
    · refine ⟨_, rfl, ⟨.inr (.inr ⟨_, rfl, ?_⟩), .inl ⟨?_, rfl, ?_⟩⟩⟩
      · simp [sync, hpc]
      · simp [sync, hpc]
      · exact held_got (by simp only [St.ret, upd_same]; rfl)
    · refine ⟨_, rfl, ⟨.inr (.inr ⟨_, rfl, ?_⟩), .inl ⟨?_, rfl, ?_⟩⟩⟩
      · simp [sync, hpc]
      · simp [sync, hpc]
      · exact held_got (by simp only [St.ret, upd_same]; rfl)
    · refine ⟨_, rfl, ⟨.inl rfl, .inr (.inl ⟨?_, ?_, ?_, _, _, put_isSet _, rfl⟩)⟩⟩
      · simp [sync, hpc]
      · simp [sync, St.to]
      · simp [sync, hpc, modeS]
    · refine ⟨_, rfl, ⟨.inl rfl, .inr (.inl ⟨?_, ?_, ?_, _, _, guardOp_isSet _, rfl⟩)⟩⟩
      · simp [sync, hpc]
      · simp [sync, St.to]
      · simp [sync, hpc, modeS]
  · unfold builderReturns at hs
    split at hs
    · rename_i hpc
      dsimp only at hs
      split at hs <;> simp only [Option.some.injEq] at hs <;> subst hs
      · exact ⟨_, rfl, ⟨.inl rfl, .inl ⟨rfl, rfl, by simp [sync, St.to]⟩⟩⟩
      · refine ⟨_, List.append_assoc _ _ _, ⟨.inl rfl, .inr (.inl ⟨rfl, ?_, ?_, _, _, ?_, rfl⟩)⟩⟩
        · simp [sync, St.to]
        · simp [sync, hpc, modeS]
        · simp
    · cases hs
  · unfold dropGuard at hs
    split at hs <;> simp at hs <;> subst hs <;>
      exact ⟨_, rfl, ⟨.inl rfl, .inl ⟨by simp [sync], rfl, by simp [sync, St.to]⟩⟩⟩

theorem sound_sync (v₀ : Option V) :
    Sound (sync : Machine _ _ V E) v₀ (ReachC v₀) Sync.St.flag Sync.St.me where
  keep h hs := .step h hs
  alone h hp hq := by
    obtain ⟨h1, h2, h3, h4⟩ := (core_reachC h).alone (modeS_excl.1 hp) hq
    exact modeS_none h1 h2 h3 h4
  other _ hs hq := by
    obtain ⟨h1, h2⟩ := sync_other hs hq
    simp only [sync, St.me, h1, h2, and_self]
  disc h := ⟨_, (logInv_reachC h).1⟩
  legal h := by
    obtain ⟨_, c, h1, h2, h3⟩ := logInv_reachC h
    exact ⟨c, h1, (flag_abs (core_reachC h) h2 h3).symm⟩
  flag_ _ hs := sync_flag hs
  store _ hs h := sync_store hs h
  touch h hs ht := sync_touch (core_reachC h) hs ht
  snap {s p o} _ hg := by
    simp only [sync] at hg ⊢
    cases hpc : s.pc p <;> rw [hpc] at hg <;> simp at hg
    simp [modeS]
  proc _ _ := rfl
  ev h hs := sync_ev (core_reachC h) hs

theorem all_sync {v₀ : Option V} {s : Weak.St (Sync.St V E) V E} (h : Weak.Reach sync (Sync.init v₀) v₀.isSome s) :
    All (sync : Machine _ _ V E) v₀ (ReachC v₀) Sync.St.flag Sync.St.me s :=
  all_reach (sound_sync v₀) .init rfl (fun _ => rfl) (fun _ => rfl) rfl h

/-- What a process has loaded. -/
def loaded (s : Sync.St V E) (p : Nat) : Option Bool :=
  match s.pc p with
  | .iDone b => some b
  | .sBoth _ b => some b
  | _ => none

theorem plain_sync : Plain (sync : Machine _ _ V E) Sync.St.flag loaded where
  load {s p a s'} hs h := by
    cases a <;> simp only [sync] at hs h <;> try (cases h; done)
    simp only [Sync.step] at hs
    cases hpc : s.pc p <;> rw [hpc] at h <;> simp at h <;> simp only [go, hpc, Option.some.injEq] at hs <;> subst hs <;>
      simp [loaded, St.to, St.lin, St.ev]
  quiet {s p a s'} hs h := by
    simp only [sync] at hs
    cases a <;> simp only [Sync.step] at hs
    · unfold invoke at hs
      split at hs <;> (try split at hs) <;> simp at hs <;> subst hs <;> simp [St.begin, loaded]
    · unfold go at hs
      split at hs <;> rename_i hpc <;> (repeat' split at hs) <;>
        first
          | (simp at hs; done)
          | (simp [sync, hpc] at h; done)
          | (simp only [Option.map_eq_some_iff] at hs
             obtain ⟨l, _, rfl⟩ := hs
             simp [St.to, loaded]; done)
          | (simp only [Option.some.injEq] at hs
             subst hs
             simp [St.to, St.ret, St.lin, St.ev, loaded, heldGuard]; done)
          | (simp only [Option.some.injEq] at hs
             subst hs
             simp [St.to, St.ret, St.lin, St.ev, loaded, heldGuard]
             split <;> simp_all; done)
          | (simp only [Option.some.injEq] at hs
             subst hs
             simp only [St.ret, loaded, heldGuard, upd_same]
             split <;> rename_i hx <;> (split at hx <;> simp_all))
    · unfold builderReturns at hs
      split at hs <;> (try split at hs) <;> simp at hs <;> subst hs <;> simp [St.to, St.lin, St.ev, loaded]
    · unfold dropGuard at hs
      split at hs <;> simp at hs <;> subst hs <;> simp [St.to, St.ev, loaded]
  other hs hq := by simp only [loaded, (sync_other hs hq).1]
  none {s p} h := by
    simp only [loaded] at h
    simp only [sync]
    cases hpc : s.pc p <;> rw [hpc] at h <;> simp at h <;> rfl
  ans {s p a s' c} hs h e he := by
    simp only [loaded] at h
    simp only [sync] at hs he ⊢
    cases hpc : s.pc p <;> rw [hpc] at h <;> simp at h <;> subst h <;> cases a <;>
      simp only [Sync.step, invoke, go, builderReturns, dropGuard, hpc, Option.some.injEq] at hs <;>
      first
        | (cases hs; done)
        | (subst hs
           simp [St.ret, hist] at he
           subst he
           simp [shown, answer])

end Verif.Proof.Weak
