import Verif.Proof.FieldsTerm
import Verif.Proof.AsyncFields
/-!
# Reading async lazy fields comes to an end (helper lemmas)

Every call on a stack is weighed by its field, the rest of its builder program, and its program point. A step replaces one
weight by finitely many smaller ones.
-/

namespace Verif.Proof.AsyncFields
open Verif.Spec Verif.Model Verif.Model.AsyncMulti Verif.Proof.AsyncMulti Relation
open Verif.Proof.Fields (value Solves solution WaitOn Sub sub_wf Item Lighter lighter_wf cut_head cut_remove cut_double
  transGen_add_right transGen_add_left fetchK)

set_option linter.unusedSectionVars false
variable {F V E : Type} [DecidableEq F]

/-! ## Calls of builders end with a guard -/

/-- Where a fetching call can be. -/
def fetchPc : Async.Pc V E → Bool
  | .rStart k | .rHave k | .rCb k | .rBuild k | .rSet k _ | .rFlag k _ | .rReady k _
  | .rMap k _ => fetchK k
  | .gRead _ | .gDeref _ _ | .gDone _ _ _ _ => true
  | _ => false

theorem fetch_inside {c : Async.Pc V E} (h : fetchPc c = true) : gone c = false := by
  cases c <;> simp_all [fetchPc, gone]

set_option linter.unusedSimpArgs false
theorem fetch_go {c : Option V} {r : V} {s s' : Async.St V E} {p : Nat} (hc : Proof.Async.Inv s) (h : Calm c r s)
    (hf : fetchPc (s.pc p) = true) (hs : Async.go s p = some s') : fetchPc (s'.pc p) = true := by
  have hm := hc.mem p
  have hp := h.pcs p
  unfold Async.go at hs
  split at hs <;> rename_i hpc
  all_goals rw [hpc] at hf hm hp
  all_goals simp only [fetchPc, Bool.false_eq_true] at hf
  all_goals try (repeat' split at hs)
  all_goals first
    | (simp at hs; done)
    | (simp only [Option.map_eq_some_iff, Async.ALock.tryWrite, Async.ALock.tryShared] at hs
       obtain ⟨l, hl, rfl⟩ := hs
       split at hl <;> simp at hl
       subst hl)
    | (simp only [Option.some.injEq] at hs
       subst hs)
  all_goals simp [calm, Proof.Async.emb, Proof.Sync.memAt, Proof.Sync.ranOk, fetchK] at hm hp hf
  all_goals simp [Async.St.to, Async.St.ret, Async.St.lin, Async.St.ev, upd, fetchPc, Async.heldGuard, hf, hp, fetchK]
  all_goals simp_all

theorem fetch_use {s s' : Async.St V E} {p : Nat} {g : CallId} (hs : Async.step s p (.call (.deref g)) = some s') :
    fetchPc (s'.pc p) = true := by
  simp only [Async.step, Async.invoke] at hs
  split at hs
  all_goals try split at hs
  all_goals simp at *
  all_goals (subst hs; simp [Async.St.begin, upd, fetchPc])

theorem fetch_call {s s' : Async.St V E} {p : Nat} {op : Op V} (hf : fetching op = true)
    (hs : Async.step s p (.call op) = some s') : fetchPc (s'.pc p) = true := by
  cases op with
  | get k =>
    simp only [Async.step, Async.invoke] at hs
    cases hpc : s.pc p <;> simp [hpc] at hs
    subst hs
    revert hf
    cases k <;> simp [fetching, fetchPc, fetchK, upd, Async.St.begin]
  | _ => simp [fetching] at hf

theorem fetch_finish {s s' : Async.St V E} {p : Nat} {v : V} (hf : fetchPc (s.pc p) = true)
    (hs : Async.step s p (.finish (.ok v)) = some s') : fetchPc (s'.pc p) = true := by
  simp only [Async.step, Async.builderReturns] at hs
  split at hs <;> rename_i hpc
  · rw [hpc] at hf
    simp only [Option.some.injEq] at hs
    subst hs
    simpa [Async.St.ev, Async.St.to, upd, fetchPc] using hf
  · cases hs

/-- All calls of a stack but the outermost end with a guard. -/
def FetchOn (pc : F → Nat → Async.Pc V E) : List (F × Nat) → Prop
  | a :: b :: l => fetchPc (pc a.1 a.2) = true ∧ FetchOn pc (b :: l)
  | _ => True

theorem fetchOn_congr {pc pc' : F → Nat → Async.Pc V E} {l : List (F × Nat)} (h : ∀ g ∈ l, pc' g.1 g.2 = pc g.1 g.2)
    (hw : FetchOn pc l) : FetchOn pc' l := by
  induction l with
  | nil => trivial
  | cons g l ih =>
    cases l with
    | nil => trivial
    | cons g' l =>
      exact ⟨by rw [h g (.head _)]; exact hw.1, ih (fun x hx => h x (.tail _ hx)) hw.2⟩

theorem fetchOn_tail {pc : F → Nat → Async.Pc V E} {f : F × Nat} {l : List (F × Nat)} (hw : FetchOn pc (f :: l)) :
    FetchOn pc l := by
  cases l with
  | nil => trivial
  | cons g l => exact hw.2

/-- Program points of all calls. -/
def pcs (s : PSt F V E) (i : F) (p : Nat) : Async.Pc V E := (s.m.obj i).pc p

/-- After a step of the innermost call, which keeps fetching if it was. -/
theorem fetchOn_settle {v₀ : F → Option V} {s s' : PSt F V E} {t i p rest} {c : Async.Act V E} {o : Async.St V E}
    (hi : Inv v₀ s.m) (h : ∀ t, FetchOn (pcs s) (s.m.stack t)) (hst : s.m.stack t = (i, p) :: rest)
    (ho : Async.step (s.m.obj i) p c = some o) (hm : s'.m = settle s.m t i p rest o)
    (hf : fetchPc ((s.m.obj i).pc p) = true → fetchPc (o.pc p) = true ∨ gone (o.pc p) = true) (t' : Nat) :
    FetchOn (pcs s') (s'.m.stack t') := by
  have hoth : ∀ j q t'', (j, q) ∈ s.m.stack t'' → q ≠ p → pcs s' j q = pcs s j q := by
    intro j q t'' hmem hq
    simp only [pcs, hm, settle]
    by_cases hj : j = i
    · subst hj; simp only [upd, if_true]; exact others ho hq
    · simp only [upd, hj, if_false]
  have hmine : (i, p) ∈ s.m.stack t := by rw [hst]; exact .head _
  have hnd := hi.nodup t
  rw [hst] at hnd
  simp only [List.map_cons, List.nodup_cons] at hnd
  have hrest : ∀ g ∈ rest, pcs s' g.1 g.2 = pcs s g.1 g.2 := by
    intro g hg
    apply hoth g.1 g.2 t (by rw [hst]; exact .tail _ hg)
    intro hgp
    exact hnd.1 (List.mem_map.2 ⟨g, hg, hgp⟩)
  by_cases ht : t' = t
  · subst ht
    have hw := h t'
    rw [hst] at hw
    rw [hm]
    simp only [settle, upd, if_true]
    split
    · exact fetchOn_congr hrest (fetchOn_tail hw)
    · rename_i hg
      cases rest with
      | nil => trivial
      | cons g l =>
        refine ⟨?_, fetchOn_congr hrest hw.2⟩
        simp only [pcs, hm, settle, upd, if_true]
        rcases hf hw.1 with h1 | h1
        · exact h1
        · exact absurd h1 hg
  · have hw := h t'
    rw [hm]
    simp only [settle, upd, ht, if_false]
    refine fetchOn_congr ?_ hw
    intro g hg
    apply hoth g.1 g.2 t' hg
    intro hgp
    exact ht (frame_eq hi hmine (i' := g.1) (by rw [← hgp]; exact hg)).1

theorem fetch_step {dep : F → F → Prop} {bld : F → Prog F V} {v₀ : F → Option V} {ρ : F → V} {s s' : PSt F V E} {t : Nat}
    {a : Act F V E} (hp : PInv dep bld v₀ ρ s) (h : ∀ t, FetchOn (pcs s) (s.m.stack t)) (hs : pstep bld s t a = some s') :
    ∀ t, FetchOn (pcs s') (s'.m.stack t) := by
  have hi := inv_reach hp.reach
  have hcore := fun i => Proof.Async.inv_reach (hi.obj i)
  rcases pstep_cases hs with ⟨j, op, rfl, hm, hcode, hop, hst⟩ | ⟨g, rfl, hm, hcode⟩ | ⟨rfl, hm, hcode⟩ |
    ⟨o, i, p, rest, v, rfl, hst, hc, hm, hcode⟩ | ⟨rfl, hm, hcode⟩ | ⟨rfl, hm, hcode⟩
  all_goals rcases step_cases hm with ⟨j', op', o', hj, hu, ho, hm'⟩ | ⟨i', p', rest', c', o', hst', hb, ho, _, hm'⟩
  all_goals first
    | (cases hj; done)
    | (simp [lower] at hb; done)
    | skip
  · simp only [Act.call.injEq] at hj
    obtain ⟨rfl, rfl⟩ := hj
    intro t'
    have hsame : ∀ t', ∀ g ∈ s.m.stack t', pcs s' g.1 g.2 = pcs s g.1 g.2 := by
      intro t' g hg
      have := (hi.inside _ _ _ hg).1
      simp only [pcs, hm']
      by_cases hj : g.1 = j
      · rw [hj]; simp only [upd, if_true]; exact others ho (by omega)
      · simp only [upd, hj, if_false]
    have hw := fetchOn_congr (hsame t') (h t')
    by_cases ht : t' = t
    · subst ht
      rw [hm']
      simp only [upd, if_true]
      rcases hst with hst | ⟨i, p, rest, k, hst, hc, hf⟩
      · rw [hst]; trivial
      · rw [hst] at hw ⊢
        refine ⟨?_, hw⟩
        simp only [pcs, hm', upd, if_true]
        exact fetch_call hf ho
    · have : s'.m.stack t' = s.m.stack t' := by rw [hm']; simp [upd, ht]
      rw [this]; exact hw
  · simp only [lower, Option.some.injEq] at hb; subst hb
    exact fetchOn_settle hi h hst' ho hm' fun _ => .inl (fetch_use ho)
  · simp only [lower, Option.some.injEq] at hb; subst hb
    exact fetchOn_settle hi h hst' ho hm' fun hf => .inl (fetch_go (hcore i') (hp.calm i') hf ho)
  · simp only [lower, Option.some.injEq] at hb; subst hb
    exact fetchOn_settle hi h hst' ho hm' fun hf => .inl (fetch_finish hf ho)
  · have hb' := hb
    simp only [lower, Option.some.injEq] at hb'; subst hb'
    refine fetchOn_settle hi h hst' ho hm' fun _ => .inr ?_
    simp only [Async.step, Async.dropGuard] at ho
    split at ho
    all_goals first
      | (simp at ho; done)
      | (simp only [Option.some.injEq] at ho; subst ho; simp [Async.St.to, upd, gone])
  · simp only [lower, Option.some.injEq] at hb; subst hb
    refine fetchOn_settle hi h hst' ho hm' fun _ => .inr ?_
    simp only [Async.step, Async.cancel] at ho
    split at ho
    all_goals first
      | (simp at ho; done)
      | (simp only [Option.some.injEq] at ho; subst ho; simp [Async.St.quit, upd, gone])

theorem fetch_reach {dep : F → F → Prop} {bld : F → Prog F V} {v₀ : F → Option V} {ρ : F → V} {s : PSt F V E}
    (hr : ∀ i, (bld i).Reads (dep i)) (hρ : Solves bld v₀ ρ) (h : PReach bld v₀ s) :
    ∀ t, FetchOn (pcs s) (s.m.stack t) := by
  induction h with
  | init c => simp [init, FetchOn]
  | step h hs ih => exact fetch_step (pinv_reach hr hρ h) ih hs

/-! ## Weights -/

/-- Weights of the calls of a stack; the innermost counts a little more. -/
def items (s : PSt F V E) : Nat → List (F × Nat) → List (Item F V)
  | _, [] => []
  | n, (i, p) :: l => (i, s.code p, 2 * Proof.Async.rank (pcs s i p) + n) :: items s 0 l

theorem items_congr {s s' : PSt F V E} {n : Nat} {l : List (F × Nat)}
    (h : ∀ g ∈ l, s'.code g.2 = s.code g.2 ∧ pcs s' g.1 g.2 = pcs s g.1 g.2) : items s' n l = items s n l := by
  induction l generalizing n with
  | nil => rfl
  | cons g l ih =>
    obtain ⟨i, p⟩ := g
    obtain ⟨h1, h2⟩ := h (i, p) (.head _)
    simp only at h1 h2
    simp only [items, h1, h2, ih fun x hx => h x (.tail _ hx)]

/-- Weights of the calls of a task. -/
def load (s : PSt F V E) (t : Nat) : Multiset (Item F V) := items s 1 (s.m.stack t)

/-- Tasks other than the moving one. -/
theorem load_others {v₀ : F → Option V} {s s' : PSt F V E} {t t' : Nat} (hi : Inv v₀ s.m) (ht : t' ≠ t)
    (hstack : s'.m.stack t' = s.m.stack t')
    (hcode : ∀ p, p < s.m.next → (∀ i, (i, p) ∉ s.m.stack t) → s'.code p = s.code p)
    (hpc : ∀ i p, p < s.m.next → (∀ i, (i, p) ∉ s.m.stack t) → pcs s' i p = pcs s i p) : load s' t' = load s t' := by
  unfold load
  rw [hstack]
  congr 1
  apply items_congr
  intro g hg
  have h1 := (hi.inside _ _ _ hg).1
  have h2 : ∀ i, (i, g.2) ∉ s.m.stack t := fun i hm => ht (frame_eq hi hm (i' := g.1) hg).1
  exact ⟨hcode _ h1 h2, hpc _ _ h1 h2⟩

/-- A step of the innermost call which leaves programs alone, as far as it does not uncover another call. -/
theorem load_settle {dep : F → F → Prop} {v₀ : F → Option V} {s s' : PSt F V E} {t i p rest} {c : Async.Act V E}
    {o : Async.St V E} (hi : Inv v₀ s.m) (hst : s.m.stack t = (i, p) :: rest) (hc : ∀ op, c ≠ .call op)
    (ho : Async.step (s.m.obj i) p c = some o) (hm : s'.m = settle s.m t i p rest o) (hcode : s'.code = s.code)
    (hg : gone (o.pc p) = true → rest = []) :
    TransGen (CutExpand (Lighter dep)) (load s' t) (load s t) ∧ ∀ t', t' ≠ t → load s' t' = load s t' := by
  have hr := (Proof.Async.rank_step hc ho).1
  have hnd := hi.nodup t
  rw [hst] at hnd
  simp only [List.map_cons, List.nodup_cons] at hnd
  have hoth : ∀ j q, q ≠ p → pcs s' j q = pcs s j q := by
    intro j q hq
    simp only [pcs, hm, settle]
    by_cases hj : j = i
    · subst hj; simp only [upd, if_true]; exact others ho hq
    · simp only [upd, hj, if_false]
  refine ⟨?_, ?_⟩
  · unfold load
    rw [hst, hm]
    simp only [settle, upd, if_true]
    cases hgo : gone (o.pc p)
    · simp only [Bool.false_eq_true, if_false, items, hcode]
      rw [items_congr (s' := s') (s := s) (n := 0) (l := rest)]
      · apply cut_head
        right; right
        have : pcs s' i p = o.pc p := by simp [pcs, hm, settle, upd]
        rw [this]
        simp only [pcs]
        omega
      · intro g hg'
        refine ⟨by rw [hcode], hoth _ _ ?_⟩
        intro hgp
        exact hnd.1 (List.mem_map.2 ⟨g, hg', hgp⟩)
    · have := hg hgo
      subst this
      simp only [if_true, items]
      exact .single cut_remove
  · intro t' ht
    refine load_others hi ht (by rw [hm]; simp [settle, upd, ht]) (fun p _ _ => by rw [hcode]) ?_
    intro j q _ hq
    apply hoth
    rintro rfl
    exact hq i (by rw [hst]; exact .head _)

theorem load_step {dep : F → F → Prop} {bld : F → Prog F V} {v₀ : F → Option V} {ρ : F → V} {s s' : PSt F V E} {t : Nat}
    {a : Act F V E} (hp : PInv dep bld v₀ ρ s) (hf : ∀ t, FetchOn (pcs s) (s.m.stack t)) (ha : inner s t a)
    (hs : pstep bld s t a = some s') :
    TransGen (CutExpand (Lighter dep)) (load s' t) (load s t) ∧ ∀ t', t' ≠ t → load s' t' = load s t' := by
  have hi := inv_reach hp.reach
  have hcore := fun i => Proof.Async.inv_reach (hi.obj i)
  rcases pstep_cases hs with ⟨j, op, rfl, hm, hcode, hop, hst⟩ | ⟨g, rfl, hm, hcode⟩ | ⟨rfl, hm, hcode⟩ |
    ⟨o, i, p, rest, v, rfl, hst, hc, hm, hcode⟩ | ⟨rfl, hm, hcode⟩ | ⟨rfl, hm, hcode⟩
  all_goals rcases step_cases hm with ⟨j', op', o', hj, hu, ho, hm'⟩ | ⟨i', p', rest', c', o', hst', hb, ho, _, hm'⟩
  all_goals first
    | (cases hj; done)
    | (simp [lower] at hb; done)
    | skip
  · -- a builder calls
    simp only [Act.call.injEq] at hj
    obtain ⟨rfl, rfl⟩ := hj
    rcases hst with hst | ⟨i, p, rest, k, hst, hc, hf⟩
    · exact absurd hst ha
    have hb : building ((s.m.obj i).pc p) = true := by simpa [userTurn, hst] using hu
    have hnx : ∀ q, q < s.m.next → ∀ i, pcs s' i q = pcs s i q := by
      intro q hq i
      simp only [pcs, hm']
      by_cases hj : i = j
      · rw [hj]; simp only [upd, if_true]; exact others ho (by omega)
      · simp only [upd, hj, if_false]
    have hcd : ∀ q, q < s.m.next → s'.code q = s.code q := by
      intro q hq
      rw [hcode]; simp only [upd]; rw [if_neg (by omega)]
    have hdep : dep i j := by
      have := (hp.code t i p (by rw [hst]; exact .head _)).2
      rw [hc] at this; exact this.1
    refine ⟨?_, ?_⟩
    · have hlt : ∀ g ∈ (i, p) :: rest, g.2 < s.m.next := by
        intro g hg
        rw [← hst] at hg
        exact (hi.inside _ _ _ hg).1
      unfold load
      rw [hm']
      simp only [upd, if_true]
      rw [hst]
      simp only [items]
      rw [items_congr (s' := s') (s := s) (n := 0) (l := rest) (fun g hg =>
        ⟨hcd _ (hlt g (.tail _ hg)), hnx _ (hlt g (.tail _ hg)) _⟩)]
      refine .single (cut_double ?_ ?_)
      · exact .left _ _ hdep
      · rw [hcd p (hlt _ (.head _)), hnx p (hlt _ (.head _))]
        exact .right _ (.right _ (by omega))
    · intro t' ht
      exact load_others hi ht (by rw [hm']; simp [upd, ht]) (fun q hq _ => hcd q hq) (fun i q hq _ => hnx q hq i)
  · exact absurd ha id
  · simp only [lower, Option.some.injEq] at hb; subst hb
    refine load_settle hi hst' (by simp) ho hm' hcode ?_
    intro hg
    cases rest' with
    | nil => rfl
    | cons f l =>
      have hw := hf t
      rw [hst'] at hw
      rw [fetch_inside (fetch_go (hcore i') (hp.calm i') hw.1 ho)] at hg
      cases hg
  · simp only [lower, Option.some.injEq] at hb; subst hb
    refine load_settle hi hst' (by simp) ho hm' hcode ?_
    intro hg
    cases rest' with
    | nil => rfl
    | cons f l =>
      have hw := hf t
      rw [hst'] at hw
      rw [fetch_inside (fetch_finish hw.1 ho)] at hg
      cases hg
  · -- a guard is dropped
    obtain ⟨hpop, hoth⟩ := drop_stack hst' hm
    have hpc : ∀ j q, q ≠ p' → pcs s' j q = pcs s j q := by
      intro j q hq
      simp only [pcs, hm', settle]
      by_cases hj : j = i'
      · subst hj; simp only [upd, if_true]; exact others ho hq
      · simp only [upd, hj, if_false]
    have hnd := hi.nodup t
    rw [hst'] at hnd
    simp only [List.map_cons, List.nodup_cons] at hnd
    cases rest' with
    | nil =>
      have hcode' : s'.code = s.code := by rw [hcode]; simp [resume, hst']
      refine load_settle hi hst' (c := .drop) (by simp) ?_ hm' hcode' fun _ => rfl
      simp only [lower, Option.some.injEq] at hb; rw [hb]; exact ho
    | cons f l =>
      obtain ⟨i, p⟩ := f
      have hw := hp.wait t
      rw [hst'] at hw
      obtain ⟨⟨k, hk⟩, _⟩ := hw
      simp only at hk
      have hv : ∃ v, (s.m.obj i').value = some v := by
        have h1 := (hcore i').mem p'
        have h2 := (hp.calm i').pcs p'
        simp only [lower, Option.some.injEq] at hb; subst hb
        simp only [Async.step, Async.dropGuard] at ho
        revert h1 h2 ho
        cases (s.m.obj i').pc p' <;> simp [calm, Proof.Async.emb, Proof.Sync.memAt, Option.isSome_iff_exists]
        intro x hx _; exact ⟨x, hx⟩
      obtain ⟨v, hv⟩ := hv
      have hcode' : s'.code = upd s.code p (k v) := by rw [hcode]; simp [resume, hst', hk, hv]
      have hnd1 : p ≠ p' := by
        intro h; apply hnd.1; rw [← h]; simp
      have hnd2 : ∀ g ∈ l, g.2 ≠ p ∧ g.2 ≠ p' := by
        intro g hg
        refine ⟨fun h => ?_, fun h => ?_⟩
        · have := hnd.2
          simp only [List.map_cons, List.nodup_cons] at this
          exact this.1 (List.mem_map.2 ⟨g, hg, h⟩)
        · exact hnd.1 (List.mem_map.2 ⟨g, .tail _ hg, h⟩)
      refine ⟨?_, ?_⟩
      · unfold load
        rw [hpop, hst']
        simp only [items]
        rw [items_congr (s' := s') (s := s) (n := 0) (l := l)]
        · refine .trans (b := (((i, s.code p, 2 * Proof.Async.rank (pcs s i p) + 0) :: items s 0 l : List _) :
            Multiset (Item F V))) (cut_head ?_) (.single cut_remove)
          rw [hcode', hk]
          simp only [upd, if_true]
          exact .right _ (.left _ _ (.mk _ _ _))
        · intro g hg
          obtain ⟨h1, h2⟩ := hnd2 g hg
          exact ⟨by rw [hcode']; simp [upd, h1], hpc _ _ h2⟩
      · intro t' ht
        refine load_others hi ht (hoth t' ht) ?_ ?_
        · intro q _ hq
          rw [hcode']
          simp only [upd]
          rw [if_neg]
          rintro rfl
          exact hq i (by rw [hst']; exact .tail _ (.head _))
        · intro j q _ hq
          apply hpc
          rintro rfl
          exact hq i' (by rw [hst']; exact .head _)
  · exact absurd ha id

/-- Weights of all calls of the tasks listed. -/
def allLoad (s : PSt F V E) (ts : List Nat) : Multiset (Item F V) := (ts.map (load s)).sum

theorem allLoad_step {r : Item F V → Item F V → Prop} {s s' : PSt F V E} {t : Nat} {ts : List Nat}
    (h : TransGen (CutExpand r) (load s' t) (load s t)) (ho : ∀ t', t' ≠ t → load s' t' = load s t') (hn : ts.Nodup)
    (ht : t ∈ ts) : TransGen (CutExpand r) (allLoad s' ts) (allLoad s ts) := by
  induction ts with
  | nil => cases ht
  | cons q ts ih =>
    simp only [List.nodup_cons] at hn
    simp only [allLoad, List.map_cons, List.sum_cons]
    by_cases hq : q = t
    · subst hq
      have : ts.map (load s') = ts.map (load s) := by
        apply List.map_congr_left
        intro r hr
        exact ho r (by rintro rfl; exact hn.1 hr)
      rw [this]
      exact transGen_add_right _ h
    · rw [ho q hq]
      refine transGen_add_left _ (ih hn.2 ?_)
      rcases List.mem_cons.1 ht with h1 | h1
      · exact absurd h1.symm hq
      · exact h1

/-- Inner steps are made by tasks that are inside, and bring nobody else inside. -/
theorem inner_stack {bld : F → Prog F V} {s s' : PSt F V E} {t : Nat} {a : Act F V E} (ha : inner s t a)
    (hs : pstep bld s t a = some s') : s.m.stack t ≠ [] ∧ ∀ t', t' ≠ t → s'.m.stack t' = s.m.stack t' := by
  rcases pstep_cases hs with ⟨j, op, rfl, hm, hcode, hop, hst⟩ | ⟨g, rfl, hm, hcode⟩ | ⟨rfl, hm, hcode⟩ |
    ⟨o, i, p, rest, v, rfl, hst, hc, hm, hcode⟩ | ⟨rfl, hm, hcode⟩ | ⟨rfl, hm, hcode⟩
  all_goals rcases step_cases hm with ⟨j', op', o', hj, hu, ho, hm'⟩ | ⟨i', p', rest', c', o', hst', hb, ho, _, hm'⟩
  all_goals first
    | (cases hj; done)
    | (simp [lower] at hb; done)
    | (exact ⟨ha, fun t' ht => by rw [hm']; simp [upd, ht]⟩)
    | (exact ⟨by rw [hst']; simp, fun t' ht => by rw [hm']; simp [settle, upd, ht]⟩)

/-- In every reachable state finitely many tasks are inside. -/
theorem finite_tasks {bld : F → Prog F V} {v₀ : F → Option V} {s : PSt F V E} (h : PReach bld v₀ s) :
    ∃ ts : List Nat, ts.Nodup ∧ ∀ t, t ∉ ts → s.m.stack t = [] := by
  induction h with
  | init c => exact ⟨[], .nil, fun _ _ => rfl⟩
  | @step s s' t a h hs ih =>
    obtain ⟨ts, hn, hts⟩ := ih
    have hoth : ∀ t', t' ≠ t → s'.m.stack t' = s.m.stack t' := by
      rcases pstep_cases hs with ⟨j, op, rfl, hm, _⟩ | ⟨g, rfl, hm, _⟩ | ⟨rfl, hm, _⟩ |
        ⟨o, i, p, rest, v, rfl, _, _, hm, _⟩ | ⟨rfl, hm, _⟩ | ⟨rfl, hm, _⟩
      all_goals
        rcases step_cases hm with ⟨j', op', o', hj, hu, ho, hm'⟩ | ⟨i', p', rest', c', o', hst', hb, ho, _, hm'⟩
        all_goals (intro t' ht; rw [hm']; simp [settle, upd, ht])
    by_cases ht : t ∈ ts
    · refine ⟨ts, hn, fun t' ht' => ?_⟩
      rw [hoth t' (by rintro rfl; exact ht' ht)]; exact hts t' ht'
    · refine ⟨t :: ts, List.nodup_cons.2 ⟨ht, hn⟩, fun t' ht' => ?_⟩
      simp only [List.mem_cons, not_or] at ht'
      rw [hoth t' ht'.1]; exact hts t' ht'.2

/-- No endless run of inner steps. -/
theorem no_endless {dep : F → F → Prop} (hwf : WellFounded fun j i => dep i j) {bld : F → Prog F V} {v₀ : F → Option V}
    (hr : ∀ i, (bld i).Reads (dep i)) {f : Nat → PSt F V E} (h0 : PReach bld v₀ (f 0))
    (hf : ∀ n, ∃ t a, inner (f n) t a ∧ pstep bld (f n) t a = some (f (n + 1))) : False := by
  obtain ⟨ρ, hρ⟩ := solution hwf hr v₀
  obtain ⟨ts, hn, hts⟩ := finite_tasks h0
  have hreach : ∀ n, PReach bld v₀ (f n) := by
    intro n
    induction n with
    | zero => exact h0
    | succ n ih => obtain ⟨t, a, _, h⟩ := hf n; exact .step ih h
  have hcov : ∀ n t, t ∉ ts → (f n).m.stack t = [] := by
    intro n
    induction n with
    | zero => exact hts
    | succ n ih =>
      intro t ht
      obtain ⟨t₁, a, h1, h2⟩ := hf n
      obtain ⟨h3, h4⟩ := inner_stack h1 h2
      have : t ≠ t₁ := by rintro rfl; exact h3 (ih t ht)
      rw [h4 t this]; exact ih t ht
  have hdec : ∀ n, TransGen (CutExpand (Lighter dep)) (allLoad (f (n + 1)) ts) (allLoad (f n) ts) := by
    intro n
    obtain ⟨t, a, h1, h2⟩ := hf n
    obtain ⟨h3, h4⟩ := load_step (pinv_reach hr hρ (hreach n)) (fetch_reach hr hρ (hreach n)) h1 h2
    refine allLoad_step h3 h4 hn ?_
    apply Classical.byContradiction
    intro ht
    exact (inner_stack h1 h2).1 (hcov n t ht)
  have hw := (lighter_wf (V := V) hwf).cutExpand.transGen
  have : ∀ x n, x = allLoad (f n) ts → False := by
    intro x
    induction x using hw.induction with
    | _ x ih =>
      rintro n rfl
      exact ih _ (hdec n) (n + 1) rfl
  exact this _ 0 rfl

/-- As long as anybody is inside, some inner step is possible. -/
theorem inner_enabled {dep : F → F → Prop} (hwf : WellFounded fun j i => dep i j) {bld : F → Prog F V} {v₀ : F → Option V}
    {ρ : F → V} {s : PSt F V E} (hp : PInv dep bld v₀ ρ s) {t : Nat} (ht : s.m.stack t ≠ []) :
    ∃ t' a s', inner s t' a ∧ pstep bld s t' a = some s' := by
  have hi := inv_reach hp.reach
  cases hst : s.m.stack t with
  | nil => exact absurd hst ht
  | cons f rest =>
    obtain ⟨i, p⟩ := f
    obtain ⟨t', h1, h2⟩ := unblocked hi (deep_reach hp.reach) hwf i t p rest hst
    refine ⟨t', ?_⟩
    cases hst' : s.m.stack t' with
    | nil => exact absurd hst' h1
    | cons f rest =>
      obtain ⟨i, p⟩ := f
      by_cases hb : building ((s.m.obj i).pc p) = true
      · cases hc : s.code p with
        | ret v =>
          refine ⟨.finish .panic, ?_⟩
          simp only [inner, true_and, pstep, hst', hc, step, Async.builderReturns]
          revert hb
          cases (s.m.obj i).pc p <;> simp [building]
        | read j k =>
          refine ⟨.call j (.get .read), ?_⟩
          have hg : (s.m.obj j).pc s.m.next = .idle := by
            rw [← gone_iff]
            cases hg : gone ((s.m.obj j).pc s.m.next)
            · obtain ⟨t'', h3⟩ := hi.owner j _ hg
              have := (hi.inside _ _ _ h3).1
              omega
            · rfl
          simp [inner, pstep, mayCall, hst', hc, fetching, step, userTurn, hb, Async.invoke, hg]
      · by_cases hh : holding ((s.m.obj i).pc p) = true
        · refine ⟨.drop, ?_⟩
          simp only [inner, true_and, pstep, step, hst', Async.dropGuard]
          revert hh
          cases (s.m.obj i).pc p <;> simp [holding]
        · cases hg : Async.go (s.m.obj i) p with
          | none => exact absurd ⟨i, p, rest, hst', by simpa using hb, by simpa using hh, .inr (by simp [hg])⟩ h2
          | some o =>
            cases htu : turn s.m i p with
            | false => exact absurd ⟨i, p, rest, hst', by simpa using hb, by simpa using hh, .inl htu⟩ h2
            | true => exact ⟨.go, by simp [inner, pstep, step, hst', hg, htu]⟩

end Verif.Proof.AsyncFields
