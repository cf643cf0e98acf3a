import Verif.Proof.FallibleFields
import Verif.Proof.AsyncFallible
/-!
# Async lazy fields with builders which may fail: all fields together, and termination (helper lemmas)
-/

namespace Verif.Proof.AsyncFallible
open Verif.Spec Verif.Model Verif.Model.AsyncMulti Verif.Model.AsyncFallible Verif.Proof.AsyncMulti Relation
open Verif.Model.Fallible (looking feed asks)
open Verif.Proof.AsyncFields (frame_eq)
open Verif.Proof.Fallible (value Solves solution orElse Sub Item Lighter lighter_wf cut_head cut_remove cut_double sum_step)

set_option linter.unusedSectionVars false
variable {F V E : Type} [DecidableEq F]

/-- Program points of all calls. -/
def pcs (s : CSt F V E) (i : F) (p : Nat) : Async.Pc V E := (s.m.obj i).pc p

/-- Along a stack, each builder is about to get the answer of the call above it. -/
def Waits (code : Nat → Code F V E) (pc : F → Nat → Async.Pc V E) : List (F × Nat) → Prop
  | a :: b :: l => (∃ q k, code b.2 = .read q a.1 k ∧ asked q (pc a.1 a.2)) ∧ Waits code pc (b :: l)
  | _ => True

theorem waits_congr {code code' : Nat → Code F V E} {pc pc' : F → Nat → Async.Pc V E} {f : F × Nat} {l : List (F × Nat)}
    (hf : ∀ q, asked q (pc f.1 f.2) → asked q (pc' f.1 f.2))
    (h : ∀ g ∈ l, code' g.2 = code g.2 ∧ pc' g.1 g.2 = pc g.1 g.2) (hw : Waits code pc (f :: l)) :
    Waits code' pc' (f :: l) := by
  induction l generalizing f with
  | nil => trivial
  | cons g l ih =>
    obtain ⟨⟨q, k, h1, h2⟩, h3⟩ := hw
    obtain ⟨h4, h5⟩ := h g (.head _)
    exact ⟨⟨q, k, h4.trans h1, hf q h2⟩, ih (fun q => by rw [h5]; exact id) (fun x hx => h x (.tail _ hx)) h3⟩

theorem waits_tail {code : Nat → Code F V E} {pc : F → Nat → Async.Pc V E} {f : F × Nat} {l : List (F × Nat)}
    (hw : Waits code pc (f :: l)) : Waits code pc l := by
  cases l with
  | nil => trivial
  | cons g l => exact hw.2

/-- Object and programs fit the solution `ρ`. -/
structure CInv (dep : F → F → Prop) (bld : F → Code F V E) (v₀ : F → Option V) (ρ : F → Outcome V E) (s : CSt F V E) :
    Prop where
  reach : Reach dep false v₀ s.m
  calm : ∀ i, Calm (v₀ i) (ρ i) (s.m.obj i)
  code : ∀ t i p, (i, p) ∈ s.m.stack t → value ρ (s.code p) = value ρ (bld i) ∧ (s.code p).Reads (dep i)
  wait : ∀ t, Waits s.code (pcs s) (s.m.stack t)

theorem cinv_init {dep : F → F → Prop} {bld : F → Code F V E} {v₀ : F → Option V} {ρ : F → Outcome V E}
    (hρ : Solves bld v₀ ρ) (c : Nat → Code F V E) : CInv dep bld v₀ ρ (⟨init v₀, c⟩ : CSt F V E) := by
  refine ⟨.init, fun i => calm_init _ _ ?_, ?_, ?_⟩
  · intro v hv; rw [hρ i, hv]; rfl
  · simp [init]
  · simp [init, Waits]

theorem finish_inside {s s' : Async.St V E} {p : Nat} {o : Outcome V E} (hs : Async.step s p (.finish o) = some s') :
    gone (s'.pc p) = false := by
  simp only [Async.step, Async.builderReturns] at hs
  split at hs
  · split at hs
    all_goals
      simp only [Option.some.injEq] at hs
      subst hs
      simp [Async.St.lin, Async.St.ev, Async.St.to, upd, gone]
  · cases hs

/-- What a step does which begins no new call: the innermost call goes on; or it is over and was the only one; or it is
over and the builder below gets the answer it should; or it was dropped. -/
def Turn (v₀ : F → Option V) (ρ : F → Outcome V E) (s s' : CSt F V E) (t : Nat) (c : Async.Act V E) : Prop :=
  ∃ i p rest o, s.m.stack t = (i, p) :: rest ∧ Async.step (s.m.obj i) p c = some o ∧ s'.m = settle s.m t i p rest o ∧
    Calm (v₀ i) (ρ i) o ∧
    ((gone (o.pc p) = false ∧ s'.code = s.code ∧ ∀ q, asked q ((s.m.obj i).pc p) → asked q (o.pc p)) ∨
     (gone (o.pc p) = true ∧ (rest = [] ∨ c = .cancel) ∧ s'.code = s.code) ∨
     (gone (o.pc p) = true ∧ ∃ i' p' l q k, rest = (i', p') :: l ∧ s.code p' = .read q i k ∧
       s'.code = upd s.code p' (k (getRet q (ρ i)))))

/-- Every step begins a call or is a turn of the innermost one. -/
theorem cstep_cases {dep : F → F → Prop} {bld : F → Code F V E} {v₀ : F → Option V} {ρ : F → Outcome V E}
    (hρ : Solves bld v₀ ρ) {s s' : CSt F V E} {t : Nat} {a : Act F V E} (hp : CInv dep bld v₀ ρ s)
    (h : cstep bld s t a = some s') :
    (∃ j op o, a = .call j op ∧ step false s.m t (.call j op) = some s'.m ∧ userTurn false s.m t = true ∧
      Async.step (s.m.obj j) s.m.next (.call op) = some o ∧
      s'.m = { obj := upd s.m.obj j o
               queue := upd s.m.queue j (if queued (o.pc s.m.next) then s.m.queue j ++ [s.m.next] else s.m.queue j)
               stack := upd s.m.stack t ((j, s.m.next) :: s.m.stack t), next := s.m.next + 1 } ∧
      s'.code = upd s.code s.m.next (bld j) ∧ looking op = true ∧ ((s.m.stack t = []) ∨
        ∃ i p rest q k, s.m.stack t = (i, p) :: rest ∧ s.code p = .read q j k ∧ op = .get q)) ∨
    (∃ b c, lower b = some c ∧ step false s.m t b = some s'.m ∧ ((∀ op, c ≠ .call op) ∨ ∃ op, a = .use op) ∧
      (c = .cancel → a = .cancel) ∧
      Turn v₀ ρ s s' t c) := by
  have hi := inv_reach hp.reach
  have hcore := fun i => Proof.Async.inv_reach (hi.obj i)
  cases a with
  | call j op =>
    left
    simp only [cstep] at h
    split at h
    · rename_i hok
      simp only [Option.map_eq_some_iff] at h
      obtain ⟨m, h1, rfl⟩ := h
      rcases step_cases h1 with ⟨j', op', o, hj, hu, ho, hm'⟩ | ⟨_, _, _, _, _, _, hb, _⟩
      case inr => simp [lower] at hb
      simp only [Act.call.injEq] at hj
      obtain ⟨rfl, rfl⟩ := hj
      refine ⟨j, op, o, rfl, h1, hu, ho, hm', rfl, ?_⟩
      unfold mayLook at hok
      cases hst : s.m.stack t with
      | nil => rw [hst] at hok; exact ⟨hok, .inl rfl⟩
      | cons f rest =>
        obtain ⟨i, p⟩ := f
        rw [hst] at hok
        simp only at hok
        cases hc : s.code p with
        | ret v => rw [hc] at hok; cases hok
        | read q j' k =>
          rw [hc] at hok
          simp only [Bool.and_eq_true, decide_eq_true_eq] at hok
          obtain ⟨h2, rfl⟩ := hok
          cases op with
          | get q' =>
            simp only [asks, decide_eq_true_eq] at h2
            subst h2
            exact ⟨rfl, .inr ⟨i, p, rest, q', k, rfl, hc, rfl⟩⟩
          | _ => simp [asks] at h2
    · cases h
  | use op =>
    right
    cases op with
    | deref g =>
      simp only [cstep, Option.map_eq_some_iff] at h
      obtain ⟨m, h1, rfl⟩ := h
      refine ⟨.use (.deref g), .call (.deref g), rfl, h1, .inr ⟨_, rfl⟩, by simp, ?_⟩
      rcases step_cases h1 with ⟨_, _, _, hj, _⟩ | ⟨i, p, rest, c, o, hst, hb, ho, _, hm⟩
      · cases hj
      simp only [lower, Option.some.injEq] at hb
      subst hb
      exact ⟨i, p, rest, o, hst, ho, hm, calm_call (hp.calm i) (.inr ⟨g, rfl⟩) ho,
        .inl ⟨call_inside ho, rfl, fun q hq => asked_use hq ho⟩⟩
    | _ => simp [cstep] at h
  | go =>
    right
    simp only [cstep, Option.map_eq_some_iff] at h
    obtain ⟨m, h1, rfl⟩ := h
    refine ⟨.go, .go, rfl, h1, .inl (by simp), by simp, ?_⟩
    rcases step_cases h1 with ⟨_, _, _, hj, _⟩ | ⟨i, p, rest, c, o, hst, hb, ho, _, hm⟩
    · cases hj
    simp only [lower, Option.some.injEq] at hb
    subst hb
    refine ⟨i, p, rest, o, hst, ho, hm, calm_go (hcore i) (hp.calm i) ho, ?_⟩
    have hobj : m.obj i = o := by rw [hm]; simp [settle, upd]
    cases hg : gone (o.pc p) with
    | false =>
      refine .inl ⟨rfl, ?_, ?_⟩
      · cases rest with
        | nil => simp [leave, hst]
        | cons f l => simp [leave, hst, hobj, hg]
      · intro q hq
        rcases asked_go (hcore i) (hp.calm i) hq ho with h2 | ⟨h2, _⟩
        · exact h2
        · rw [hg] at h2; cases h2
    | true =>
      right
      cases rest with
      | nil => exact .inl ⟨rfl, .inl rfl, by simp [leave, hst]⟩
      | cons f l =>
        obtain ⟨i', p'⟩ := f
        have hw := hp.wait t
        rw [hst] at hw
        obtain ⟨⟨q, k, hk, hq⟩, _⟩ := hw
        simp only at hk hq
        rcases asked_go (hcore i) (hp.calm i) hq ho with h2 | ⟨_, h2⟩
        · rw [asked_inside h2] at hg; cases hg
        · refine .inr ⟨rfl, i', p', l, q, k, rfl, hk, ?_⟩
          simp [leave, hst, hobj, hg, h2, hk, feed]
  | finish o' =>
    right
    simp only [cstep] at h
    split at h
    · rename_i i p rest hst
      split at h
      · rename_i o hc
        simp only [Option.map_eq_some_iff] at h
        obtain ⟨m, h1, rfl⟩ := h
        refine ⟨.finish o, .finish o, rfl, h1, .inl (by simp), by simp, ?_⟩
        rcases step_cases h1 with ⟨_, _, _, hj, _⟩ | ⟨i', p', rest', c, o₁, hst', hb, ho, _, hm⟩
        · cases hj
        simp only [lower, Option.some.injEq] at hb
        subst hb
        rw [hst] at hst'
        simp only [List.cons.injEq, Prod.mk.injEq] at hst'
        obtain ⟨⟨rfl, rfl⟩, rfl⟩ := hst'
        have hv : o = ρ i := by
          have h1 := (hp.code t i p (by rw [hst]; exact .head _)).1
          rw [hc] at h1
          have h2 : v₀ i = none := by
            apply Classical.byContradiction
            intro hne
            apply ((hp.calm i).given hne).2.2
            have h3 := (hcore i).mem p
            simp only [Async.step, Async.builderReturns] at ho
            revert ho h3
            cases (s.m.obj i).pc p <;> simp [Proof.Async.emb, Proof.Sync.memAt]
          rw [hρ i, h2]
          exact h1
        exact ⟨i, p, rest, o₁, hst, ho, hm, calm_finish (hcore i) (hp.calm i) (hv ▸ ho),
          .inl ⟨finish_inside ho, rfl, fun q hq => asked_finish hq ho⟩⟩
      · cases h
    · cases h
  | drop =>
    right
    simp only [cstep, Option.map_eq_some_iff] at h
    obtain ⟨m, h1, rfl⟩ := h
    refine ⟨.drop, .drop, rfl, h1, .inl (by simp), by simp, ?_⟩
    rcases step_cases h1 with ⟨_, _, _, hj, _⟩ | ⟨i, p, rest, c, o, hst, hb, ho, _, hm⟩
    · cases hj
    simp only [lower, Option.some.injEq] at hb
    subst hb
    obtain ⟨hg, v, hv, hq⟩ := asked_drop (hcore i) (hp.calm i) ho
    refine ⟨i, p, rest, o, hst, ho, hm, calm_drop (hp.calm i) ho, .inr ?_⟩
    cases rest with
    | nil => exact .inl ⟨hg, .inl rfl, by simp [release, hst]⟩
    | cons f l =>
      obtain ⟨i', p'⟩ := f
      have hw := hp.wait t
      rw [hst] at hw
      obtain ⟨⟨q, k, hk, hq'⟩, _⟩ := hw
      simp only at hk hq'
      refine .inr ⟨hg, i', p', l, q, k, rfl, hk, ?_⟩
      simp only [release, hst, hv, hk, feed]
      rw [hq q hq']
  | cancel =>
    right
    simp only [cstep, Option.map_eq_some_iff] at h
    obtain ⟨m, h1, rfl⟩ := h
    refine ⟨.cancel, .cancel, rfl, h1, .inl (by simp), by simp, ?_⟩
    rcases step_cases h1 with ⟨_, _, _, hj, _⟩ | ⟨i, p, rest, c, o, hst, hb, ho, _, hm⟩
    · cases hj
    simp only [lower, Option.some.injEq] at hb
    subst hb
    exact ⟨i, p, rest, o, hst, ho, hm, calm_cancel (hcore i) (hp.calm i) ho, .inr (.inl ⟨cancel_gone ho, .inr rfl, rfl⟩)⟩

/-- What a turn leaves alone, and what becomes of the stack. -/
theorem turn_facts {v₀ : F → Option V} {s s' : CSt F V E} {t i p rest} {c : Async.Act V E}
    {o : Async.St V E} (hi : Inv v₀ s.m) (hst : s.m.stack t = (i, p) :: rest)
    (ho : Async.step (s.m.obj i) p c = some o) (hm : s'.m = settle s.m t i p rest o) :
    (∀ j q, q ≠ p → pcs s' j q = pcs s j q) ∧ pcs s' i p = o.pc p ∧ (∀ g ∈ rest, g.2 ≠ p) ∧
    (∀ t', t' ≠ t → s'.m.stack t' = s.m.stack t') ∧ (∀ t', t' ≠ t → ∀ g ∈ s.m.stack t', g.2 ≠ p ∧ ∀ f ∈ rest, g.2 ≠ f.2) := by
  have hnd := hi.nodup t
  rw [hst] at hnd
  simp only [List.map_cons, List.nodup_cons] at hnd
  refine ⟨?_, by simp [pcs, hm, settle, upd], ?_, ?_, ?_⟩
  · intro j q hq
    simp only [pcs, hm, settle]
    by_cases hj : j = i
    · subst hj; simp only [upd, if_true]; exact others ho hq
    · simp only [upd, hj, if_false]
  · intro g hg hgp
    exact hnd.1 (List.mem_map.2 ⟨g, hg, hgp⟩)
  · intro t' ht; rw [hm]; simp [settle, upd, ht]
  · intro t' ht g hg
    refine ⟨?_, ?_⟩
    · intro hgp
      exact ht (frame_eq hi (i := i) (p := p) (t := t) (by rw [hst]; exact .head _) (i' := g.1) (by rw [← hgp]; exact hg)).1
    · intro f hf hgp
      exact ht (frame_eq hi (i := f.1) (p := f.2) (t := t) (by rw [hst]; exact .tail _ hf) (i' := g.1)
        (by rw [← hgp]; exact hg)).1

theorem cinv_step {dep : F → F → Prop} {bld : F → Code F V E} {v₀ : F → Option V} {ρ : F → Outcome V E}
    {s s' : CSt F V E} {t : Nat} {a : Act F V E} (hr : ∀ i, (bld i).Reads (dep i)) (hρ : Solves bld v₀ ρ)
    (h : CInv dep bld v₀ ρ s) (hs : cstep bld s t a = some s') : CInv dep bld v₀ ρ s' := by
  have hi := inv_reach h.reach
  rcases cstep_cases hρ h hs with ⟨j, op, o, rfl, hm, hu, ho, hm', hcode, hop, hst⟩ |
    ⟨b, c, hb, hm, _, _, i, p, rest, o, hst, ho, hm', hcalm, hturn⟩
  · -- a call begins
    have hne : ∀ t' i p, (i, p) ∈ s.m.stack t' → s'.code p = s.code p ∧ pcs s' i p = pcs s i p := by
      intro t' i p hmem
      have := (hi.inside _ _ _ hmem).1
      refine ⟨?_, ?_⟩
      · rw [hcode]; simp only [upd]; rw [if_neg (by omega)]
      · simp only [pcs, hm']
        by_cases hj : i = j
        · rw [hj]; simp only [upd, if_true]; exact others ho (by omega)
        · simp only [upd, hj, if_false]
    have hnew : s'.code s.m.next = bld j := by rw [hcode]; simp [upd]
    refine ⟨.step h.reach ?_ hm, ?_, ?_, ?_⟩
    · intro i hib
      rcases hst with hst | ⟨i', p, rest, q, k, hst, hc, _⟩
      · simp [inBuilder, hst] at hib
      · have hb : building ((s.m.obj i').pc p) = true := by simpa [userTurn, hst] using hu
        rw [inBuilder_top hst hb] at hib
        simp only [Option.some.injEq] at hib
        subst hib
        have := (h.code t i' p (by rw [hst]; exact .head _)).2
        rw [hc] at this
        exact this.1
    · intro i
      rw [hm']
      by_cases hi' : i = j
      · subst hi'; simp only [upd, if_true]; exact calm_call (h.calm i) (.inl hop) ho
      · simp only [upd, hi', if_false]; exact h.calm i
    · intro t' i p hmem
      rw [hm'] at hmem
      by_cases ht : t' = t
      · subst ht
        simp only [upd, if_true, List.mem_cons, Prod.mk.injEq] at hmem
        rcases hmem with ⟨rfl, rfl⟩ | hmem
        · rw [hnew]; exact ⟨rfl, hr i⟩
        · rw [(hne _ _ _ hmem).1]; exact h.code _ _ _ hmem
      · simp only [upd, ht, if_false] at hmem
        rw [(hne _ _ _ hmem).1]; exact h.code _ _ _ hmem
    · intro t'
      have hw : Waits s'.code (pcs s') (s.m.stack t') := by
        have := h.wait t'
        have hne' := hne t'
        revert this hne'
        cases s.m.stack t' with
        | nil => intros; trivial
        | cons f l =>
          exact fun h1 h2 => waits_congr (fun q => by rw [(h2 f.1 f.2 (.head _)).2]; exact id)
            (fun g hg => h2 g.1 g.2 (.tail _ hg)) h1
      by_cases ht : t' = t
      · subst ht
        rw [hm']
        simp only [upd, if_true]
        rcases hst with hst | ⟨i', p, rest, q, k, hst, hc, rfl⟩
        · rw [hst]; trivial
        · rw [hst] at hw ⊢
          refine ⟨⟨q, k, ?_, ?_⟩, hw⟩
          · simp only
            rw [(hne t' i' p (by rw [hst]; exact .head _)).1]; exact hc
          · simp only [pcs, hm', upd, if_true]
            exact asked_call ho
      · have : s'.m.stack t' = s.m.stack t' := by rw [hm']; simp [upd, ht]
        rw [this]; exact hw
  · have hal : Allowed dep s.m t b := by cases b <;> simp [lower] at hb <;> trivial
    obtain ⟨hpc, hpp, hnd, hoth, hsep⟩ := turn_facts hi hst ho hm'
    have hstack : s'.m.stack t = if gone (o.pc p) then rest else (i, p) :: rest := by
      rw [hm']; simp [settle, upd]
    -- programs of the calls which remain
    have hcd : ∀ t' i' p', (i', p') ∈ s'.m.stack t' → (i', p') ∈ s.m.stack t' ∧
        (s'.code p' = s.code p' ∨ ∃ q k, s.code p' = .read q i k ∧ s'.code p' = k (getRet q (ρ i))) := by
      intro t' i' p' hmem
      have hin : (i', p') ∈ s.m.stack t' := by
        by_cases ht : t' = t
        · subst ht
          rw [hstack] at hmem
          rw [hst]
          split at hmem
          · exact .tail _ hmem
          · exact hmem
        · rw [hoth t' ht] at hmem; exact hmem
      refine ⟨hin, ?_⟩
      rcases hturn with ⟨_, h1, _⟩ | ⟨_, _, h1⟩ | ⟨_, i₁, p₁, l, q, k, rfl, hk, h1⟩
      · left; rw [h1]
      · left; rw [h1]
      · by_cases hp : p' = p₁
        · right
          subst hp
          exact ⟨q, k, hk, by rw [h1]; simp [upd]⟩
        · left; rw [h1]; simp [upd, hp]
    refine ⟨.step h.reach hal hm, ?_, ?_, ?_⟩
    · intro i'
      rw [hm']
      by_cases hi : i' = i
      · subst hi; simp only [settle, upd, if_true]; exact hcalm
      · simp only [settle, upd, hi, if_false]; exact h.calm i'
    · intro t' i' p' hmem
      obtain ⟨hin, hcs⟩ := hcd t' i' p' hmem
      have h1 := h.code t' i' p' hin
      rcases hcs with h2 | ⟨q, k, hk, h2⟩
      · rw [h2]; exact h1
      · rw [hk] at h1
        rw [h2]
        exact ⟨h1.1, h1.2.2 _⟩
    · intro t'
      by_cases ht : t' = t
      · subst ht
        have hw := h.wait t'
        rw [hst] at hw
        rw [hstack]
        rcases hturn with ⟨hg, hcode, hask⟩ | ⟨hg, _, hcode⟩ | ⟨hg, i₁, p₁, l, q, k, rfl, hk, hcode⟩
        · rw [hg]
          simp only [Bool.false_eq_true, if_false]
          refine waits_congr (f := (i, p)) ?_ ?_ hw
          · intro q hq
            simp only at hq ⊢
            rw [hpp]; exact hask q hq
          · intro g hg'
            exact ⟨by rw [hcode], hpc _ _ (hnd g hg')⟩
        · rw [hg]
          simp only [if_true]
          have hw' := waits_tail hw
          revert hw' hnd
          cases rest with
          | nil => intros; trivial
          | cons f l =>
            intro hnd hw'
            refine waits_congr ?_ ?_ hw'
            · intro q hq
              rw [hpc _ _ (hnd f (.head _))]; exact hq
            · intro g hg'
              exact ⟨by rw [hcode], hpc _ _ (hnd g (.tail _ hg'))⟩
        · rw [hg]
          simp only [if_true]
          refine waits_congr (f := (i₁, p₁)) ?_ ?_ (waits_tail hw)
          · intro q hq
            simp only at hq ⊢
            rw [hpc _ _ (hnd (i₁, p₁) (.head _))]; exact hq
          · intro g hg'
            refine ⟨?_, hpc _ _ (hnd g (.tail _ hg'))⟩
            rw [hcode]
            have h3 := hi.nodup t'
            rw [hst] at h3
            simp only [List.map_cons, List.nodup_cons] at h3
            simp only [upd]
            rw [if_neg]
            intro hgp
            exact h3.2.1 (List.mem_map.2 ⟨g, hg', hgp⟩)
      · rw [hoth t' ht]
        have hw := h.wait t'
        have hsame : ∀ g ∈ s.m.stack t', s'.code g.2 = s.code g.2 ∧ pcs s' g.1 g.2 = pcs s g.1 g.2 := by
          intro g hg
          obtain ⟨h1, h2⟩ := hsep t' ht g hg
          refine ⟨?_, hpc _ _ h1⟩
          rcases hturn with ⟨_, hcode, _⟩ | ⟨_, _, hcode⟩ | ⟨_, i₁, p₁, l, q, k, rfl, hk, hcode⟩
          · rw [hcode]
          · rw [hcode]
          · rw [hcode]
            simp only [upd]
            rw [if_neg (h2 (i₁, p₁) (.head _))]
        revert hw hsame
        cases s.m.stack t' with
        | nil => intros; trivial
        | cons f l =>
          exact fun hw hsame => waits_congr (fun q => by rw [(hsame f (.head _)).2]; exact id)
            (fun g hg => hsame g (.tail _ hg)) hw

theorem cinv_reach {dep : F → F → Prop} {bld : F → Code F V E} {v₀ : F → Option V} {ρ : F → Outcome V E}
    {s : CSt F V E} (hr : ∀ i, (bld i).Reads (dep i)) (hρ : Solves bld v₀ ρ) (h : CReach bld v₀ s) :
    CInv dep bld v₀ ρ s := by
  induction h with
  | init c => exact cinv_init hρ c
  | step _ hs ih => exact cinv_step hr hρ ih hs

/-! ## Weights -/

/-- Weights of the calls of a stack; the innermost counts a little more. -/
def items (s : CSt F V E) : Nat → List (F × Nat) → List (Item F V E)
  | _, [] => []
  | n, (i, p) :: l => (i, s.code p, 2 * Proof.Async.rank (pcs s i p) + n) :: items s 0 l

theorem items_congr {s s' : CSt F V E} {n : Nat} {l : List (F × Nat)}
    (h : ∀ g ∈ l, s'.code g.2 = s.code g.2 ∧ pcs s' g.1 g.2 = pcs s g.1 g.2) : items s' n l = items s n l := by
  induction l generalizing n with
  | nil => rfl
  | cons g l ih =>
    obtain ⟨i, p⟩ := g
    obtain ⟨h1, h2⟩ := h (i, p) (.head _)
    simp only at h1 h2
    simp only [items, h1, h2, ih fun x hx => h x (.tail _ hx)]

/-- Weights of the calls of a task. -/
def load (s : CSt F V E) (t : Nat) : Multiset (Item F V E) := items s 1 (s.m.stack t)

theorem load_step {dep : F → F → Prop} {bld : F → Code F V E} {v₀ : F → Option V} {ρ : F → Outcome V E}
    (hρ : Solves bld v₀ ρ) {s s' : CSt F V E} {t : Nat} {a : Act F V E} (hp : CInv dep bld v₀ ρ s) (ha : inside s t a)
    (hs : cstep bld s t a = some s') :
    TransGen (CutExpand (Lighter dep)) (load s' t) (load s t) ∧ ∀ t', t' ≠ t → load s' t' = load s t' := by
  have hi := inv_reach hp.reach
  rcases cstep_cases hρ hp hs with ⟨j, op, o, rfl, hm, hu, ho, hm', hcode, hop, hst⟩ |
    ⟨b, c, hb, hm, hc, hcan, i, p, rest, o, hst, ho, hm', hcalm, hturn⟩
  · -- a builder calls
    rcases hst with hst | ⟨i, p, rest, q, k, hst, hc, _⟩
    · exact absurd hst ha
    have hnx : ∀ t' g, g ∈ s.m.stack t' → s'.code g.2 = s.code g.2 ∧ pcs s' g.1 g.2 = pcs s g.1 g.2 := by
      intro t' g hmem
      have := (hi.inside _ _ _ hmem).1
      refine ⟨?_, ?_⟩
      · rw [hcode]; simp only [upd]; rw [if_neg (by omega)]
      · simp only [pcs, hm']
        by_cases hj : g.1 = j
        · rw [hj]; simp only [upd, if_true]; exact others ho (by omega)
        · simp only [upd, hj, if_false]
    have hdep : dep i j := by
      have := (hp.code t i p (by rw [hst]; exact .head _)).2
      rw [hc] at this; exact this.1
    have hnx' := hnx t
    rw [hst] at hnx'
    refine ⟨?_, ?_⟩
    · unfold load
      have hstack : s'.m.stack t = (j, s.m.next) :: s.m.stack t := by rw [hm']; simp [upd]
      rw [hstack, hst]
      simp only [items]
      rw [items_congr (s' := s') (s := s) (n := 0) (l := rest) (fun g hg => hnx' g (.tail _ hg))]
      refine .single (cut_double ?_ ?_)
      · exact .left _ _ hdep
      · obtain ⟨h1, h2⟩ := hnx' (i, p) (.head _)
        simp only at h1 h2
        rw [h1, h2]
        exact .right _ (.right _ (by omega))
    · intro t' ht
      unfold load
      have hstack : s'.m.stack t' = s.m.stack t' := by rw [hm']; simp [upd, ht]
      rw [hstack]
      congr 1
      exact items_congr (hnx t')
  · have hnc : ∀ op, c ≠ .call op := by
      rcases hc with h1 | ⟨op, rfl⟩
      · exact h1
      · exact absurd ha id
    obtain ⟨hpc, hpp, hnd, hoth, hsep⟩ := turn_facts hi hst ho hm'
    have hrank := (Proof.Async.rank_step hnc ho).1
    have hstack : s'.m.stack t = if gone (o.pc p) then rest else (i, p) :: rest := by
      rw [hm']; simp [settle, upd]
    refine ⟨?_, ?_⟩
    · unfold load
      rw [hst, hstack]
      rcases hturn with ⟨hg, hcode, _⟩ | ⟨hg, hr, hcode⟩ | ⟨hg, i₁, p₁, l, q, k, rfl, hk, hcode⟩
      · rw [hg]
        simp only [Bool.false_eq_true, if_false, items, hcode]
        rw [items_congr (s' := s') (s := s) (n := 0) (l := rest)
          (fun g hg' => ⟨by rw [hcode], hpc _ _ (hnd g hg')⟩)]
        apply cut_head
        right; right
        rw [hpp]
        simp only [pcs]
        omega
      · have : rest = [] := by
          rcases hr with h1 | h1
          · exact h1
          · have := hcan h1
            subst this
            exact absurd ha id
        subst this
        rw [hg]
        simp only [if_true, items]
        exact .single cut_remove
      · rw [hg]
        simp only [if_true, items]
        have h3 := hi.nodup t
        rw [hst] at h3
        simp only [List.map_cons, List.nodup_cons] at h3
        rw [items_congr (s' := s') (s := s) (n := 0) (l := l)]
        · refine .trans (b := (((i₁, s.code p₁, 2 * Proof.Async.rank (pcs s i₁ p₁) + 0) :: items s 0 l : List _) :
            Multiset (Item F V E))) (cut_head ?_) (.single cut_remove)
          rw [hcode, hk]
          simp only [upd, if_true]
          exact .right _ (.left _ _ (.mk _ _ _ _))
        · intro g hg'
          refine ⟨?_, hpc _ _ (hnd g (.tail _ hg'))⟩
          rw [hcode]
          simp only [upd]
          rw [if_neg]
          intro hgp
          exact h3.2.1 (List.mem_map.2 ⟨g, hg', hgp⟩)
    · intro t' ht
      unfold load
      rw [hoth t' ht]
      congr 1
      apply items_congr
      intro g hg
      obtain ⟨h1, h2⟩ := hsep t' ht g hg
      refine ⟨?_, hpc _ _ h1⟩
      rcases hturn with ⟨_, hcode, _⟩ | ⟨_, _, hcode⟩ | ⟨_, i₁, p₁, l, q, k, rfl, hk, hcode⟩
      · rw [hcode]
      · rw [hcode]
      · rw [hcode]
        simp only [upd]
        rw [if_neg (h2 (i₁, p₁) (.head _))]

/-- A step leaves the stacks of other tasks alone. -/
theorem stack_others {bld : F → Code F V E} {s s' : CSt F V E} {t : Nat} {a : Act F V E} (hs : cstep bld s t a = some s') :
    ∀ t', t' ≠ t → s'.m.stack t' = s.m.stack t' := by
  have key : ∀ {b : Act F V E} {m : St F V E}, step false s.m t b = some m → ∀ t', t' ≠ t → m.stack t' = s.m.stack t' := by
    intro b m hm t' ht
    rcases step_cases hm with ⟨_, _, _, _, _, _, hm'⟩ | ⟨_, _, _, _, _, _, _, _, _, hm'⟩
    all_goals (rw [hm']; simp [settle, upd, ht])
  cases a with
  | call j op =>
    simp only [cstep] at hs
    split at hs
    · simp only [Option.map_eq_some_iff] at hs
      obtain ⟨m, h1, rfl⟩ := hs
      exact key h1
    · cases hs
  | use op =>
    cases op with
    | deref g =>
      simp only [cstep, Option.map_eq_some_iff] at hs
      obtain ⟨m, h1, rfl⟩ := hs
      exact key h1
    | _ => simp [cstep] at hs
  | finish o =>
    simp only [cstep] at hs
    split at hs
    · split at hs
      · simp only [Option.map_eq_some_iff] at hs
        obtain ⟨m, h1, rfl⟩ := hs
        exact key h1
      · cases hs
    · cases hs
  | _ =>
    simp only [cstep, Option.map_eq_some_iff] at hs
    obtain ⟨m, h1, rfl⟩ := hs
    exact key h1

/-- In every reachable state finitely many tasks are inside. -/
theorem finite_tasks {bld : F → Code F V E} {v₀ : F → Option V} {s : CSt F V E} (h : CReach bld v₀ s) :
    ∃ ts : List Nat, ts.Nodup ∧ ∀ t, t ∉ ts → s.m.stack t = [] := by
  induction h with
  | init c => exact ⟨[], .nil, fun _ _ => rfl⟩
  | @step s s' t a h hs ih =>
    obtain ⟨ts, hn, hts⟩ := ih
    have hoth := stack_others hs
    by_cases ht : t ∈ ts
    · refine ⟨ts, hn, fun t' ht' => ?_⟩
      rw [hoth t' (by rintro rfl; exact ht' ht)]; exact hts t' ht'
    · refine ⟨t :: ts, List.nodup_cons.2 ⟨ht, hn⟩, fun t' ht' => ?_⟩
      simp only [List.mem_cons, not_or] at ht'
      rw [hoth t' ht'.1]; exact hts t' ht'.2

/-- No endless run of inside steps. -/
theorem no_endless {dep : F → F → Prop} (hwf : WellFounded fun j i => dep i j) {bld : F → Code F V E}
    {v₀ : F → Option V} (hr : ∀ i, (bld i).Reads (dep i)) {f : Nat → CSt F V E} (h0 : CReach bld v₀ (f 0))
    (hf : ∀ n, ∃ t a, inside (f n) t a ∧ cstep bld (f n) t a = some (f (n + 1))) : False := by
  obtain ⟨ρ, hρ⟩ := solution hwf hr v₀
  obtain ⟨ts, hn, hts⟩ := finite_tasks h0
  have hreach : ∀ n, CReach bld v₀ (f n) := by
    intro n
    induction n with
    | zero => exact h0
    | succ n ih => obtain ⟨t, a, _, h⟩ := hf n; exact .step ih h
  have hin : ∀ n t a, inside (f n) t a → cstep bld (f n) t a = some (f (n + 1)) → (f n).m.stack t ≠ [] := by
    intro n t a h1 h2
    rcases cstep_cases hρ (cinv_reach hr hρ (hreach n)) h2 with ⟨j, op, o, rfl, _⟩ | ⟨_, _, _, _, _, _, i, p, rest, o, hst, _⟩
    · exact h1
    · rw [hst]; simp
  have hcov : ∀ n t, t ∉ ts → (f n).m.stack t = [] := by
    intro n
    induction n with
    | zero => exact hts
    | succ n ih =>
      intro t ht
      obtain ⟨t₁, a, h1, h2⟩ := hf n
      have : t ≠ t₁ := by rintro rfl; exact hin n t a h1 h2 (ih t ht)
      rw [stack_others h2 t this]; exact ih t ht
  have hdec : ∀ n, TransGen (CutExpand (Lighter dep)) (ts.map (load (f (n + 1)))).sum (ts.map (load (f n))).sum := by
    intro n
    obtain ⟨t, a, h1, h2⟩ := hf n
    obtain ⟨h3, h4⟩ := load_step hρ (cinv_reach hr hρ (hreach n)) h1 h2
    refine sum_step h3 h4 hn ?_
    apply Classical.byContradiction
    intro ht
    exact hin n t a h1 h2 (hcov n t ht)
  have hw := (lighter_wf (V := V) (E := E) hwf).cutExpand.transGen
  have : ∀ x n, x = (ts.map (load (f n))).sum → False := by
    intro x
    induction x using hw.induction with
    | _ x ih =>
      rintro n rfl
      exact ih _ (hdec n) (n + 1) rfl
  exact this _ 0 rfl

/-- As long as anybody is inside, some inside step is possible. -/
theorem inside_enabled {dep : F → F → Prop} (hwf : WellFounded fun j i => dep i j) {bld : F → Code F V E}
    {v₀ : F → Option V} {ρ : F → Outcome V E} {s : CSt F V E} (hp : CInv dep bld v₀ ρ s) {t : Nat}
    (ht : s.m.stack t ≠ []) : ∃ t' a s', inside s t' a ∧ cstep bld s t' a = some s' := by
  have hi := inv_reach hp.reach
  cases hst : s.m.stack t with
  | nil => exact absurd hst ht
  | cons f rest =>
    obtain ⟨i, p⟩ := f
    obtain ⟨t', h1, h2⟩ := unblocked hi (deep_reach hp.reach) hwf i t p rest hst
    refine ⟨t', ?_⟩
    cases hst' : s.m.stack t' with
    | nil => exact absurd hst' h1
    | cons f rest =>
      obtain ⟨i, p⟩ := f
      by_cases hb : building ((s.m.obj i).pc p) = true
      · cases hc : s.code p with
        | ret o =>
          refine ⟨.finish .panic, ?_⟩
          simp only [inside, true_and, cstep, hst', hc, step, Async.builderReturns]
          revert hb
          cases (s.m.obj i).pc p <;> simp [building]
          cases o <;> simp
        | read q j k =>
          refine ⟨.call j (.get q), ?_⟩
          have hg : (s.m.obj j).pc s.m.next = .idle := by
            rw [← gone_iff]
            cases hg : gone ((s.m.obj j).pc s.m.next)
            · obtain ⟨t'', h3⟩ := hi.owner j _ hg
              have := (hi.inside _ _ _ h3).1
              omega
            · rfl
          simp [inside, cstep, mayLook, asks, hst', hc, step, userTurn, hb, Async.invoke, hg]
      · by_cases hh : holding ((s.m.obj i).pc p) = true
        · refine ⟨.drop, ?_⟩
          simp only [inside, true_and, cstep, step, hst', Async.dropGuard]
          revert hh
          cases (s.m.obj i).pc p <;> simp [holding]
        · cases hg : Async.go (s.m.obj i) p with
          | none => exact absurd ⟨i, p, rest, hst', by simpa using hb, by simpa using hh, .inr (by simp [hg])⟩ h2
          | some o =>
            cases htu : turn s.m i p with
            | false => exact absurd ⟨i, p, rest, hst', by simpa using hb, by simpa using hh, .inl htu⟩ h2
            | true => exact ⟨.go, by simp [inside, cstep, step, hst', hg, htu]⟩

end Verif.Proof.AsyncFallible
