import Verif.Proof.WeakSync
import Verif.Proof.AsyncThms
/-!
# The async container without a global order of memory accesses (helper lemmas)
-/

namespace Verif.Proof.WeakAsync
open Verif.Spec Verif.Model Verif.Model.Weak Verif.Proof Verif.Proof.Weak Verif.Model.Async Verif.Proof.Async
open Verif.Proof.Sync (ReachC core_reachC logInv_reachC flag_abs holdsS holdsU excl claiming memAt ranOk mid mid_excl)

set_option linter.unusedSimpArgs false
set_option linter.unusedSectionVars false
variable {V E : Type}

theorem modeA_excl {c : Pc V E} : modeA c = .excl ↔ holdsW c = true := by
  cases c <;> simp [modeA, holdsW] <;> split <;> simp_all

theorem modeA_none {c : Pc V E} (h1 : holdsS (emb c) = false) (h2 : holdsW c = false) : modeA c = .none := by
  cases c <;> simp_all [modeA, holdsS, holdsW, emb]

theorem async_flag {s s' : Async.St V E} {p : Nat} {a : Async.Act V E} (hs : Async.step s p a = some s') :
    s'.flag = ((async : Machine _ _ V E).stores s p a).getD s.flag := by
  cases a <;> simp only [Async.step] at hs
  · unfold invoke at hs
    split at hs <;> (try split at hs) <;> simp at hs <;> subst hs <;> simp [St.begin, async]
  · unfold go at hs
    split at hs <;> rename_i hpc <;> (repeat' split at hs) <;>
      first
        | (simp at hs; done)
        | (simp only [Option.map_eq_some_iff] at hs
           obtain ⟨l, _, rfl⟩ := hs
           simp [St.to, async, hpc])
        | (simp only [Option.some.injEq] at hs
           subst hs
           simp [St.to, St.ret, St.lin, St.ev, async, hpc])
  · unfold builderReturns at hs
    split at hs <;> (try split at hs) <;> simp at hs <;> subst hs <;> simp [St.to, St.lin, St.ev, async]
  · unfold dropGuard at hs
    split at hs <;> simp at hs <;> subst hs <;> simp [St.to, St.ev, async]
  · unfold cancel at hs
    split at hs <;> simp at hs <;> subst hs <;> simp [St.quit, St.ev, async]

theorem async_store {s s' : Async.St V E} {p : Nat} {a : Async.Act V E} (hs : Async.step s p a = some s')
    (h : ((async : Machine _ _ V E).stores s p a).isSome = true) :
    modeA (s.pc p) = .excl ∧ modeA (s'.pc p) = .excl ∧ (async : Machine _ _ V E).loads s p a = false := by
  cases a <;> simp only [Async.step] at hs
  · simp [async] at h
  · unfold go at hs
    split at hs <;> rename_i hpc <;> (repeat' split at hs) <;>
      first
        | (simp at hs; done)
        | (simp [async, hpc] at h; done)
        | (simp only [Option.some.injEq] at hs
           subst hs
           simp [St.to, St.ret, St.lin, St.ev, async, hpc, modeA])
  · simp [async] at h
  · simp [async] at h
  · simp [async] at h

theorem async_touch {s s' : Async.St V E} {p : Nat} {a : Async.Act V E} {w : Bool} (hc : Inv s)
    (hs : Async.step s p a = some s') (h : (async : Machine _ _ V E).touches s p a = some w) :
    modeA (s.pc p) ≠ .none ∧ modeA (s'.pc p) ≠ .none ∧ (w = true → modeA (s.pc p) = .excl ∧ modeA (s'.pc p) = .excl) := by
  have hm := hc.mem p
  cases a <;> simp only [Async.step] at hs
  · simp [async] at h
  · unfold go at hs
    split at hs <;> rename_i hpc <;> rw [hpc] at hm <;> simp only [emb] at hm <;> (repeat' split at hs) <;>
      first
        | (simp at hs; done)
        | (simp [async, hpc] at h; done)
        | (simp [memAt, ranOk, *] at hm; done)
        | (simp only [Option.some.injEq] at hs
           subst hs
           simp [async, hpc] at h
           subst h
           simp [St.to, St.ret, St.lin, St.ev, async, hpc, modeA, heldGuard] <;> (split <;> simp_all [modeA]))
  · simp [async] at h
  · simp [async] at h
  · simp [async] at h

theorem flag_shared {s : Async.St V E} (h : Inv s) {p : Nat} (hp : holdsS (emb (s.pc p)) = true) :
    s.flag = s.value.isSome := by
  apply h.quiet
  intro q
  by_cases hm : mid (emb (s.pc q)) = true
  · have h1 : s.lk.wr = some q := (h.wr q).2 (by rw [(holdsW_emb _).1, mid_excl hm]; rfl)
    have h2 := h.alone (by rw [h1]; simp)
    have h3 := (h.sh p).2 hp
    rw [h2] at h3; simp at h3
  · simpa using hm

theorem held_got {m : Bool} {g : CallId} {s : Async.St V E} {p : Nat} (h : s.pc p = heldGuard m g) :
    (async : Machine _ _ V E).got s p = .none := by
  simp only [async, h, heldGuard]; cases m <;> rfl

theorem async_ev {s s' : Async.St V E} {p : Nat} {a : Async.Act V E} (hc : Inv s) (hs : Async.step s p a = some s') :
    ∃ es, s'.log = s.log ++ es ∧ Shape (async : Machine _ _ V E) Async.St.flag Async.St.me s p a s' es := by
  have hm := hc.mem p
  have hf := @flag_shared V E s hc p
  cases a <;> simp only [Async.step] at hs
  · unfold invoke at hs
    split at hs <;> rename_i hpc <;> (try split at hs) <;> simp at hs <;> subst hs <;>
      exact ⟨_, rfl, ⟨.inr (.inl ⟨_, rfl⟩), .inl ⟨by simp [async], by simp [lins], by simp [async, St.begin]⟩⟩⟩
  · unfold go at hs
    split at hs <;> rename_i hpc <;> rw [hpc] at hm hf <;> simp only [emb] at hm hf <;> (repeat' split at hs) <;>
      first
        | (simp at hs; done)
        | (simp [memAt, ranOk, *] at hm; done)
        | (simp only [Option.map_eq_some_iff] at hs
           obtain ⟨l, _, rfl⟩ := hs
           refine ⟨[], (List.append_nil _).symm, ⟨.inl rfl, .inl ⟨?_, rfl, ?_⟩⟩⟩ <;> simp [async, hpc, St.to])
        | (simp only [Option.some.injEq] at hs
           subst hs
           refine ⟨[], (List.append_nil _).symm, ⟨.inl rfl, ?_⟩⟩
           simp [async, St.to, hpc, lins, hist, modeA]; done)
        | (simp only [Option.some.injEq] at hs
           subst hs
           refine ⟨_, rfl, ?_⟩
           constructor
           · simp [hist, async, hpc, St.lin, St.ev, St.me, holdsS, memAt] at hf hm ⊢ <;> simp_all [getRet]
           · simp [hist, lins, async, hpc, St.lin, St.ev, St.ret, St.to, St.me, modeA, heldGuard]
             try (split <;> simp)
           done)
        | (simp only [Option.some.injEq] at hs
           subst hs
           refine ⟨_, List.append_assoc _ _ _, ?_⟩
           constructor
           · simp [hist, async, hpc, St.lin, St.ev, St.me, holdsS, memAt] at hf hm ⊢ <;> simp_all [getRet]
           · simp [hist, lins, async, hpc, St.lin, St.ev, St.ret, St.to, St.me, modeA, heldGuard]
           done)
        | skip
    all_goals
      simp only [Option.some.injEq] at hs
      subst hs
    · refine ⟨_, rfl, ⟨.inr (.inr ⟨_, rfl, ?_⟩), .inl ⟨?_, rfl, ?_⟩⟩⟩
      · simp only [async, hpc]
        exact getRet_bool _ _
      · simp [async, hpc]
      · simp [async, St.ret]
    · refine ⟨_, rfl, ⟨.inr (.inr ⟨_, rfl, ?_⟩), .inl ⟨?_, rfl, ?_⟩⟩⟩
      · simp [async, hpc]
      · simp [async, hpc]
      · exact held_got (by simp only [St.ret, upd_same]; rfl)
    · refine ⟨_, rfl, ⟨.inr (.inr ⟨_, rfl, ?_⟩), .inl ⟨?_, rfl, ?_⟩⟩⟩
      · simp [async, hpc]
      · simp [async, hpc]
      · exact held_got (by simp only [St.ret, upd_same]; rfl)
    · refine ⟨_, rfl, ⟨.inl rfl, .inr (.inl ⟨?_, ?_, ?_, _, _, put_isSet _, rfl⟩)⟩⟩
      · simp [async, hpc]
      · simp [async, St.to]
      · simp [async, hpc, modeA]
    · refine ⟨_, rfl, ⟨.inl rfl, .inr (.inl ⟨?_, ?_, ?_, _, _, guardOp_isSet _, rfl⟩)⟩⟩
      · simp [async, hpc]
      · simp [async, St.to]
      · simp [async, hpc, modeA]
  · unfold builderReturns at hs
    split at hs
    · rename_i hpc
      dsimp only at hs
      split at hs <;> simp only [Option.some.injEq] at hs <;> subst hs
      · exact ⟨_, rfl, ⟨.inl rfl, .inl ⟨rfl, rfl, by simp [async, St.to]⟩⟩⟩
      · refine ⟨_, List.append_assoc _ _ _, ⟨.inl rfl, .inr (.inl ⟨rfl, ?_, ?_, _, _, ?_, rfl⟩)⟩⟩
        · simp [async, St.to]
        · simp [async, hpc, modeA]
        · simp
    · cases hs
  · unfold dropGuard at hs
    split at hs <;> simp at hs <;> subst hs <;>
      exact ⟨_, rfl, ⟨.inl rfl, .inl ⟨by simp [async], rfl, by simp [async, St.to]⟩⟩⟩
  · unfold cancel at hs
    split at hs <;> simp at hs <;> subst hs <;>
      first
        | exact ⟨_, rfl, ⟨.inl rfl, .inl ⟨by simp [async], rfl, by simp [async, St.quit]⟩⟩⟩
        | exact ⟨_, List.append_assoc _ _ _, ⟨.inl rfl, .inl ⟨by simp [async], rfl, by simp [async, St.quit]⟩⟩⟩

theorem sound_async (v₀ : Option V) :
    Sound (async : Machine _ _ V E) v₀ (Async.Reach v₀) Async.St.flag Async.St.me where
  keep h hs := .step h hs
  alone {s p q} h hp hq := by
    have hi := inv_reach h
    have h1 := (hi.wr p).2 (modeA_excl.1 hp)
    apply modeA_none
    · have h2 := hi.alone (by rw [h1]; simp)
      have h3 := hi.sh q
      rw [h2] at h3; simpa using h3
    · have h3 := hi.wr q
      rw [h1] at h3
      simp [Ne.symm hq] at h3; exact h3
  other _ hs hq := by
    have h1 := step_other hs (Ne.symm hq)
    have h2 := seq_other hs (Ne.symm hq)
    simp only [async, St.me, h1, h2, and_self]
  disc h := by
    obtain ⟨L, hr, _⟩ := sim h
    exact ⟨_, (logInv_reachC hr).1⟩
  legal h := by
    obtain ⟨L, hr, _⟩ := sim h
    obtain ⟨_, c, h1, h2, h3⟩ := logInv_reachC hr
    exact ⟨c, h1, (flag_abs (core_reachC hr) h2 h3).symm⟩
  flag_ _ hs := async_flag hs
  store _ hs h := async_store hs h
  touch h hs ht := async_touch (inv_reach h) hs ht
  snap {s p o} _ hg := by
    simp only [async] at hg ⊢
    cases hpc : s.pc p <;> rw [hpc] at hg <;> simp at hg
    simp [modeA]
  proc _ _ := rfl
  ev h hs := async_ev (inv_reach h) hs

theorem all_async {v₀ : Option V} {s : Weak.St (Async.St V E) V E} (h : Weak.Reach async (Async.init v₀) v₀.isSome s) :
    All (async : Machine _ _ V E) v₀ (Async.Reach v₀) Async.St.flag Async.St.me s :=
  all_reach (sound_async v₀) .init rfl (fun _ => rfl) (fun _ => rfl) rfl h

/-- What a process has loaded. -/
def loaded (s : Async.St V E) (p : Nat) : Option Bool :=
  match s.pc p with
  | .iDone b => some b
  | .sBoth _ b => some b
  | _ => none

theorem plain_async : Plain (async : Machine _ _ V E) Async.St.flag loaded where
  load {s p a s'} hs h := by
    cases a <;> simp only [async] at hs h <;> try (cases h; done)
    simp only [Async.step] at hs
    cases hpc : s.pc p <;> rw [hpc] at h <;> simp at h <;> simp only [go, hpc, Option.some.injEq] at hs <;> subst hs <;>
      simp [loaded, St.to, St.lin, St.ev]
  quiet {s p a s'} hs h := by
    simp only [async] at hs
    cases a <;> simp only [Async.step] at hs
    · unfold invoke at hs
      split at hs <;> (try split at hs) <;> simp at hs <;> subst hs <;> simp [St.begin, loaded]
    · unfold go at hs
      split at hs <;> rename_i hpc <;> (repeat' split at hs) <;>
        first
          | (simp at hs; done)
          | (simp [async, hpc] at h; done)
          | (simp only [Option.map_eq_some_iff] at hs
             obtain ⟨l, _, rfl⟩ := hs
             simp [St.to, loaded]; done)
          | (simp only [Option.some.injEq] at hs
             subst hs
             simp [St.to, St.ret, St.lin, St.ev, loaded, heldGuard]; done)
          | (simp only [Option.some.injEq] at hs
             subst hs
             simp [St.to, St.ret, St.lin, St.ev, loaded, heldGuard]
             split <;> simp_all; done)
          | (simp only [Option.some.injEq] at hs
             subst hs
             simp only [St.ret, loaded, heldGuard, upd_same]
             split <;> rename_i hx <;> (split at hx <;> simp_all))
    · unfold builderReturns at hs
      split at hs <;> (try split at hs) <;> simp at hs <;> subst hs <;> simp [St.to, St.lin, St.ev, loaded]
    · unfold dropGuard at hs
      split at hs <;> simp at hs <;> subst hs <;> simp [St.to, St.ev, loaded]
    · unfold cancel at hs
      split at hs <;> simp at hs <;> subst hs <;> simp [St.quit, St.ev, loaded]
  other hs hq := by simp only [loaded, step_other hs (Ne.symm hq)]
  none {s p} h := by
    simp only [loaded] at h
    simp only [async]
    cases hpc : s.pc p <;> rw [hpc] at h <;> simp at h <;> rfl
  ans {s p a s' c} hs h e he := by
    simp only [loaded] at h
    simp only [async] at hs he ⊢
    cases hpc : s.pc p <;> rw [hpc] at h <;> simp at h <;> subst h <;> cases a <;>
      simp only [Async.step, invoke, go, builderReturns, dropGuard, cancel, hpc, Option.some.injEq] at hs <;>
      first
        | (cases hs; done)
        | (subst hs
           simp [St.ret, hist] at he
           subst he
           simp [shown, answer])

end Verif.Proof.WeakAsync
