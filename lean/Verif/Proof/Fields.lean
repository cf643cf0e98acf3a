import Verif.Model.Multi
import Verif.Proof.Multi
/-!
# Values of lazy fields depending on each other (helper lemmas)
-/

namespace Verif.Proof.Fields
open Verif.Spec Verif.Model Verif.Model.Multi Verif.Proof.Multi

set_option linter.unusedSectionVars false
variable {F V E : Type} [DecidableEq F]

/-! ## Sequential evaluation -/

/-- Value of a program when the fields have the values `ρ`. -/
def value (ρ : F → V) : Prog F V → V
  | .ret v => v
  | .read j k => value ρ (k (ρ j))

/-- `ρ` gives every field its initial content, or else what its builder makes of `ρ`. -/
def Solves (bld : F → Prog F V) (v₀ : F → Option V) (ρ : F → V) : Prop :=
  ∀ i, ρ i = (v₀ i).getD (value ρ (bld i))

/-- Value of a program which only reads fields for which a value is given. -/
def valueOn {P : F → Prop} (ρ : ∀ j, P j → V) : (pr : Prog F V) → pr.Reads P → V
  | .ret v, _ => v
  | .read j k, h => valueOn ρ (k (ρ j h.1)) (h.2 _)

theorem valueOn_eq {P : F → Prop} (ρ : F → V) (pr : Prog F V) (h : pr.Reads P) :
    valueOn (fun j _ => ρ j) pr h = value ρ pr := by
  induction pr with
  | ret v => rfl
  | read j k ih => exact ih _ _

theorem solution {dep : F → F → Prop} (hwf : WellFounded fun j i => dep i j) {bld : F → Prog F V}
    (hr : ∀ i, (bld i).Reads (dep i)) (v₀ : F → Option V) : ∃ ρ, Solves bld v₀ ρ := by
  let f : (i : F) → ((j : F) → dep i j → V) → V := fun i ih => (v₀ i).getD (valueOn ih (bld i) (hr i))
  refine ⟨hwf.fix f, ?_⟩
  intro i
  rw [hwf.fix_eq]
  simp only [f]
  rw [valueOn_eq]

/-- Evaluation from contents which agree with a solution gives the solution's values. -/
theorem eval_value {bld : F → Prog F V} {v₀ : F → Option V} {ρ : F → V} (hρ : Solves bld v₀ ρ) {σ σ' : F → Option V}
    {pr : Prog F V} {v : V} (h : Eval bld σ pr v σ') (h0 : ∀ i u, v₀ i = some u → σ i = some u)
    (hσ : ∀ i u, σ i = some u → u = ρ i) :
    v = value ρ pr ∧ (∀ i u, v₀ i = some u → σ' i = some u) ∧ (∀ i u, σ' i = some u → u = ρ i) := by
  induction h with
  | ret => exact ⟨rfl, h0, hσ⟩
  | hit h1 _ ih =>
    obtain ⟨h2, h3, h4⟩ := ih h0 hσ
    refine ⟨?_, h3, h4⟩
    rw [h2, hσ _ _ h1]; rfl
  | @miss σ σ₁ σ' j k u w h1 _ _ ih1 ih2 =>
    obtain ⟨h2, h3, h4⟩ := ih1 h0 hσ
    have hv : v₀ j = none := by
      cases hv : v₀ j with
      | none => rfl
      | some x => rw [h0 _ _ hv] at h1; cases h1
    have hu : u = ρ j := by rw [h2, hρ j, hv]; rfl
    obtain ⟨h5, h6, h7⟩ := ih2 (by
        intro i x hx
        simp only
        split
        · rename_i hi; subst hi; rw [hv] at hx; cases hx
        · exact h3 i x hx) (by
        intro i x hx
        simp only at hx
        split at hx
        · rename_i hi; subst hi; cases hx; exact hu
        · exact h4 i x hx)
    refine ⟨?_, h6, h7⟩
    rw [h5, hu]; rfl

/-- Acyclic evaluation always comes to an end. -/
theorem eval_total {dep : F → F → Prop} (hwf : WellFounded fun j i => dep i j) {bld : F → Prog F V}
    (hr : ∀ i, (bld i).Reads (dep i)) (i : F) : ∀ σ, ∃ v σ', Eval bld σ (.read i .ret) v σ' := by
  induction i using hwf.induction with
  | _ i ih =>
    intro σ
    have key : ∀ (pr : Prog F V), pr.Reads (dep i) → ∀ σ, ∃ v σ', Eval bld σ pr v σ' := by
      intro pr
      induction pr with
      | ret v => exact fun _ σ => ⟨v, σ, .ret⟩
      | read j k ihk =>
        intro hrd σ
        obtain ⟨u, σ₁, h1⟩ := ih j hrd.1 σ
        cases h1 with
        | hit h2 h3 =>
          obtain ⟨w, σ₂, h4⟩ := ihk _ (hrd.2 _) σ
          exact ⟨w, σ₂, .hit h2 h4⟩
        | miss h2 h3 h5 =>
          obtain ⟨w, σ₂, h4⟩ := ihk _ (hrd.2 _) _
          exact ⟨w, σ₂, .miss h2 h3 h4⟩
    cases hi : σ i with
    | some u => exact ⟨u, σ, .hit hi .ret⟩
    | none =>
      obtain ⟨u, σ₁, h1⟩ := key (bld i) (hr i) σ
      exact ⟨u, _, .miss hi h1 .ret⟩

/-! ## One container when nobody sets or clears -/

/-- Where a process can be when only reading calls are made and builders give `r`. -/
def calm (r : V) : Sync.Pc V E → Prop
  | .idle | .gRead _ => True
  | .gDeref _ m => m = false
  | .rStart k | .rHaveU k | .rUpg k | .rHaveW k | .rBuild k | .rDown k _ | .rReady k _ | .rMap k _ => k.mutable = false
  | .rSet k v | .rFlag k v => k.mutable = false ∧ v = r
  | .gDone _ m _ v => m = false ∧ v = r
  | .sStart | .sHave | .sVal _ | .sBoth _ _ | .iStart | .iDone _ => True
  | _ => False

/-- Is this the start of a builder run? -/
def isStart : Ev V E → Bool
  | .other (.bstart _) => true
  | _ => false

/-- A builder run is under way, its value not yet stored. -/
def running : Sync.Pc V E → Bool
  | .rBuild _ | .rSet _ _ => true
  | _ => false

/-- A container with initial content `c` whose builder gives `r`, with reading calls only. -/
structure Calm (c : Option V) (r : V) (s : Sync.St V E) : Prop where
  val : ∀ v, s.value = some v → v = r
  pcs : ∀ p, calm r (s.pc p)
  once : s.log.countP isStart ≤ 1
  under : 0 < s.log.countP isStart → s.value = none → ∃ p, running (s.pc p) = true
  given : c ≠ none → s.log.countP isStart = 0 ∧ s.value ≠ none
  ans : ∀ id a v, LEv.res id a ∈ s.log → a.ret = .value v → s.value = some v

theorem calm_init (c : Option V) (r : V) (h : ∀ v, c = some v → v = r) : Calm c r (Sync.init c : Sync.St V E) := by
  refine ⟨h, ?_, ?_, ?_, ?_, ?_⟩ <;> simp [Sync.init, calm]

theorem running_excl {c : Sync.Pc V E} (h : running c = true) : Proof.Sync.excl c = true := by
  cases c <;> simp_all [running, Proof.Sync.excl]

/-- Steps which neither store a value nor start a builder. -/
theorem calm_keep {c : Option V} {r : V} {s s' : Sync.St V E} {p : Nat} (h : Calm c r s) (hv : s'.value = s.value)
    (hl : s'.log.countP isStart = s.log.countP isStart)
    (hr : ∀ id a v, LEv.res id a ∈ s'.log → a.ret = .value v → LEv.res id a ∈ s.log ∨ s.value = some v)
    (hp : ∀ q, q ≠ p → s'.pc q = s.pc q) (hc : calm r (s'.pc p))
    (hrun : running (s.pc p) = true → running (s'.pc p) = true) : Calm c r s' := by
  obtain ⟨hval, hpcs, honce, hund, hgiv, hans⟩ := h
  refine ⟨by rw [hv]; exact hval, fun q => ?_, by rw [hl]; exact honce, ?_, by rw [hl, hv]; exact hgiv, ?_⟩
  · by_cases hq : q = p
    · subst hq; exact hc
    · rw [hp q hq]; exact hpcs q
  · rw [hl, hv]
    intro h1 h2
    obtain ⟨q, hq⟩ := hund h1 h2
    refine ⟨q, ?_⟩
    by_cases hqp : q = p
    · subst hqp; exact hrun hq
    · rw [hp q hqp]; exact hq
  · intro id a v h1 h2
    rw [hv]
    rcases hr id a v h1 h2 with h3 | h3
    · exact hans id a v h3 h2
    · exact h3

/-- A builder run starts. -/
theorem calm_start {c : Option V} {r : V} {s : Sync.St V E} {p : Nat} {k : GetKind} (hc : Proof.Sync.Core s)
    (h : Calm c r s) (hp : s.pc p = .rHaveW k) (hv : s.value = none) :
    Calm c r ((s.ev (.other (.bstart (s.me p)))).to p (.rBuild k)) := by
  have hz : s.log.countP isStart = 0 := by
    apply Classical.byContradiction
    intro hne
    obtain ⟨q, hq⟩ := h.under (by omega) hv
    by_cases hqp : q = p
    · subst hqp; rw [hp] at hq; cases hq
    · have := (hc.alone (p := p) (q := q) (by rw [hp]; rfl) hqp).2.2.1
      rw [running_excl hq] at this; cases this
  have hk := h.pcs p
  rw [hp] at hk
  refine ⟨h.val, ?_, ?_, ?_, ?_, ?_⟩
  · intro q
    by_cases hq : q = p
    · subst hq; simp only [Sync.St.to, upd, if_true]; exact hk
    · simp only [Sync.St.to, Sync.St.ev, upd, hq, if_false]; exact h.pcs q
  · simp [Sync.St.to, Sync.St.ev, hz, isStart]
  · intro _ _
    exact ⟨p, by simp [Sync.St.to, upd, running]⟩
  · intro hne; exact absurd hv (h.given hne).2
  · intro id a v h1 h2
    simp [Sync.St.to, Sync.St.ev] at h1
    exact h.ans id a v h1 h2

/-- The value of the builder is stored. -/
theorem calm_set {c : Option V} {r : V} {s : Sync.St V E} {p : Nat} {k : GetKind} {v : V} (hc : Proof.Sync.Core s)
    (h : Calm c r s) (hp : s.pc p = .rSet k v) : Calm c r ({ s with value := some v }.to p (.rFlag k v)) := by
  have hk := h.pcs p
  have hm := hc.mem p
  rw [hp] at hk hm
  simp only [Proof.Sync.memAt] at hm
  refine ⟨?_, ?_, h.once, ?_, ?_, ?_⟩
  · intro w hw
    simp [Sync.St.to] at hw
    exact hw ▸ hk.2
  · intro q
    by_cases hq : q = p
    · subst hq; simp only [Sync.St.to, upd, if_true]; exact hk
    · simp only [Sync.St.to, upd, hq, if_false]; exact h.pcs q
  · intro _ hw; simp [Sync.St.to] at hw
  · intro hne; exact absurd hm (h.given hne).2
  · intro id a w h1 h2
    have := h.ans id a w h1 h2
    rw [hm] at this; cases this

set_option linter.unusedSimpArgs false
set_option maxHeartbeats 1000000 in
theorem calm_go {c : Option V} {r : V} {s s' : Sync.St V E} {p : Nat} (hc : Proof.Sync.Core s) (h : Calm c r s)
    (hs : Sync.go s p = some s') : Calm c r s' := by
  have hmp := hc.mem p
  have hval := h.val
  have hpp := h.pcs p
  have hoth := fun q (hq : q ≠ p) => others (a := .go) hs hq
  have hkeep := fun s' => @calm_keep V E c r s s' p h
  unfold Sync.go at hs
  split at hs <;> rename_i hpc
  all_goals try (repeat' split at hs)
  all_goals first
    | (simp at hs; done)
    | (simp only [Option.map_eq_some_iff, Lock.tryUpgradable, Lock.claim, Lock.tryShared] at hs
       obtain ⟨l, hl, rfl⟩ := hs
       split at hl <;> simp at hl
       subst hl)
    | (simp only [Option.some.injEq] at hs
       subst hs)
  all_goals first
    | exact calm_start hc h hpc (by assumption)
    | exact calm_set hc h hpc
    | skip
  all_goals rw [hpc] at hpp hmp hkeep
  all_goals simp [calm, Proof.Sync.memAt, GetKind.mutable] at hpp hmp
  all_goals refine hkeep _ rfl ?_ ?_ hoth ?_ ?_
  all_goals clear hkeep hoth
  all_goals try simp [Sync.St.to, Sync.St.ret, Sync.St.lin, Sync.St.ev, isStart, upd, calm, running, Sync.heldGuard, GetKind.mutable]
  all_goals try (intro id a v h1 h2; exact .inl h1)
  all_goals try (rintro id a v (h1 | ⟨rfl, rfl⟩) h2 <;> first | exact .inl h1 | (simp at h2; done) | skip)
  all_goals grind [Proof.Sync.ranOk, calm]

set_option maxHeartbeats 1000000 in
theorem calm_call {c : Option V} {r : V} {s s' : Sync.St V E} {p : Nat} {op : Op V} (h : Calm c r s)
    (hop : reading op = true ∨ ∃ g, op = .deref g) (hs : Sync.step s p (.call op) = some s') : Calm c r s' := by
  have hpp := h.pcs p
  have hoth := fun q (hq : q ≠ p) => others hs hq
  have hkeep := fun s' => @calm_keep V E c r s s' p h
  simp only [Sync.step, Sync.invoke] at hs
  split at hs <;> rename_i hpc
  all_goals try split at hs
  all_goals first
    | (simp at hs; done)
    | (simp only [Option.some.injEq] at hs
       subst hs)
  all_goals simp [reading] at hop
  all_goals rw [hpc] at hpp hkeep
  all_goals simp [calm] at hpp
  all_goals refine hkeep _ rfl ?_ ?_ hoth ?_ ?_
  all_goals clear hkeep hoth
  all_goals try simp [Sync.St.begin, isStart, upd, calm, running]
  all_goals try (intro id a v h1 h2; exact .inl h1)
  all_goals (rename_i k; revert hop; cases k <;> simp [GetKind.mutable])

theorem calm_finish {c : Option V} {r : V} {s s' : Sync.St V E} {p : Nat} (h : Calm c r s)
    (hs : Sync.step s p (.finish (.ok r)) = some s') : Calm c r s' := by
  have hpp := h.pcs p
  have hoth := fun q (hq : q ≠ p) => others hs hq
  have hkeep := fun s' => @calm_keep V E c r s s' p h
  simp only [Sync.step, Sync.builderReturns] at hs
  split at hs <;> rename_i hpc
  · simp only [Option.some.injEq] at hs
    subst hs
    rw [hpc] at hpp hkeep
    simp [calm] at hpp
    refine hkeep _ rfl ?_ ?_ hoth ?_ ?_
    all_goals simp [Sync.St.ev, Sync.St.to, isStart, upd, calm, running, hpp]
    intro id a v h1 h2; exact .inl h1
  · cases hs

theorem calm_drop {c : Option V} {r : V} {s s' : Sync.St V E} {p : Nat} (h : Calm c r s)
    (hs : Sync.step s p .drop = some s') : Calm c r s' := by
  have hpp := h.pcs p
  have hoth := fun q (hq : q ≠ p) => others hs hq
  have hkeep := fun s' => @calm_keep V E c r s s' p h
  simp only [Sync.step, Sync.dropGuard] at hs
  split at hs <;> rename_i hpc
  all_goals first
    | (simp at hs; done)
    | (simp only [Option.some.injEq] at hs
       subst hs)
  all_goals rw [hpc] at hpp hkeep
  all_goals simp [calm] at hpp
  all_goals refine hkeep _ rfl ?_ ?_ hoth ?_ ?_
  all_goals simp [Sync.St.ev, Sync.St.to, isStart, upd, calm, running]
  all_goals (intro id a v h1 h2; exact .inl h1)

/-! ## All fields together -/

/-- What a step with programs is: a step of the object, with what it does to the programs. -/
theorem pstep_cases {bld : F → Prog F V} {s s' : PSt F V E} {t : Nat} {a : Act F V E} (h : pstep bld s t a = some s') :
    (∃ j op, a = .call j op ∧ step false s.m t (.call j op) = some s'.m ∧ s'.code = upd s.code s.m.next (bld j) ∧
      reading op = true ∧ ((s.m.stack t = []) ∨
        ∃ i p rest k, s.m.stack t = (i, p) :: rest ∧ s.code p = .read j k ∧ fetching op = true)) ∨
    (∃ g, a = .use (.deref g) ∧ step false s.m t (.use (.deref g)) = some s'.m ∧ s'.code = s.code) ∨
    (a = .go ∧ step false s.m t .go = some s'.m ∧ s'.code = s.code) ∨
    (∃ o i p rest v, a = .finish o ∧ s.m.stack t = (i, p) :: rest ∧ s.code p = .ret v ∧
      step false s.m t (.finish (.ok v)) = some s'.m ∧ s'.code = s.code) ∨
    (a = .drop ∧ step false s.m t .drop = some s'.m ∧ s'.code = resume s t) := by
  cases a with
  | call j op =>
    left
    simp only [pstep] at h
    split at h
    · rename_i hok
      simp only [Option.map_eq_some_iff] at h
      obtain ⟨m, h1, rfl⟩ := h
      refine ⟨j, op, rfl, h1, rfl, ?_⟩
      unfold mayCall at hok
      cases hst : s.m.stack t with
      | nil => rw [hst] at hok; exact ⟨hok, .inl rfl⟩
      | cons f rest =>
        obtain ⟨i, p⟩ := f
        rw [hst] at hok
        simp only at hok
        cases hc : s.code p with
        | ret v => rw [hc] at hok; cases hok
        | read j' k =>
          rw [hc] at hok
          simp only [Bool.and_eq_true, decide_eq_true_eq] at hok
          obtain ⟨h2, rfl⟩ := hok
          refine ⟨?_, .inr ⟨i, p, rest, k, rfl, hc, h2⟩⟩
          revert h2
          cases op with
          | get k => cases k <;> simp [fetching, reading]
          | _ => simp [fetching]
    · cases h
  | use op =>
    right; left
    cases op with
    | deref g =>
      simp only [pstep, Option.map_eq_some_iff] at h
      obtain ⟨m, h1, rfl⟩ := h
      exact ⟨g, rfl, h1, rfl⟩
    | _ => simp [pstep] at h
  | go =>
    right; right; left
    simp only [pstep, Option.map_eq_some_iff] at h
    obtain ⟨m, h1, rfl⟩ := h
    exact ⟨rfl, h1, rfl⟩
  | finish o =>
    right; right; right; left
    simp only [pstep] at h
    split at h
    · rename_i i p rest hst
      split at h
      · rename_i v hc
        simp only [Option.map_eq_some_iff] at h
        obtain ⟨m, h1, rfl⟩ := h
        exact ⟨o, i, p, rest, v, rfl, hst, hc, h1, rfl⟩
      · cases h
    · cases h
  | drop =>
    right; right; right; right
    simp only [pstep, Option.map_eq_some_iff] at h
    obtain ⟨m, h1, rfl⟩ := h
    exact ⟨rfl, h1, rfl⟩

/-- Along a stack, each builder is about to read the field called from it. -/
def WaitOn (code : Nat → Prog F V) : List (F × Nat) → Prop
  | a :: b :: l => (∃ k, code b.2 = .read a.1 k) ∧ WaitOn code (b :: l)
  | _ => True

theorem waitOn_congr {code code' : Nat → Prog F V} {f : F × Nat} {l : List (F × Nat)}
    (h : ∀ g ∈ l, code' g.2 = code g.2) (hw : WaitOn code (f :: l)) : WaitOn code' (f :: l) := by
  induction l generalizing f with
  | nil => trivial
  | cons g l ih =>
    refine ⟨?_, ih (fun x hx => h x (.tail _ hx)) hw.2⟩
    rw [h g (.head _)]; exact hw.1

theorem waitOn_tail {code : Nat → Prog F V} {f : F × Nat} {l : List (F × Nat)} (hw : WaitOn code (f :: l)) :
    WaitOn code l := by
  cases l with
  | nil => trivial
  | cons g l => exact hw.2

/-- Object and programs fit the solution `ρ`. -/
structure PInv (dep : F → F → Prop) (bld : F → Prog F V) (v₀ : F → Option V) (ρ : F → V) (s : PSt F V E) : Prop where
  reach : Reach dep false v₀ s.m
  calm : ∀ i, Calm (v₀ i) (ρ i) (s.m.obj i)
  code : ∀ t i p, (i, p) ∈ s.m.stack t → value ρ (s.code p) = value ρ (bld i) ∧ (s.code p).Reads (dep i)
  wait : ∀ t, WaitOn s.code (s.m.stack t)

theorem pinv_init {dep : F → F → Prop} {bld : F → Prog F V} {v₀ : F → Option V} {ρ : F → V} (hρ : Solves bld v₀ ρ)
    (c : Nat → Prog F V) : PInv dep bld v₀ ρ (⟨init v₀, c⟩ : PSt F V E) := by
  refine ⟨.init, fun i => calm_init _ _ ?_, ?_, ?_⟩
  · intro v hv; rw [hρ i, hv]; rfl
  · simp [init]
  · simp [init, WaitOn]

/-- Steps of the innermost call which leave the programs alone. -/
theorem pinv_keep {dep : F → F → Prop} {bld : F → Prog F V} {v₀ : F → Option V} {ρ : F → V} {s s' : PSt F V E} {t : Nat}
    {b : Act F V E} {c : Sync.Act V E} (h : PInv dep bld v₀ ρ s) (hb : lower b = some c)
    (hm : step false s.m t b = some s'.m) (hcode : s'.code = s.code)
    (hcalm : ∀ i p rest o, s.m.stack t = (i, p) :: rest → Sync.step (s.m.obj i) p c = some o → Calm (v₀ i) (ρ i) o) :
    PInv dep bld v₀ ρ s' := by
  have hal : Allowed dep s.m t b := by cases b <;> simp [lower] at hb <;> trivial
  refine ⟨.step h.reach hal hm, ?_, ?_, ?_⟩
  all_goals
    rcases step_cases hm with ⟨j, op, o, rfl, _⟩ | ⟨i, p, rest, c', o, hst, hb', ho, hm'⟩
    · simp [lower] at hb
    rw [hb] at hb'
    simp only [Option.some.injEq] at hb'
    subst hb'
  · intro i'
    rw [hm']
    by_cases hi : i' = i
    · subst hi; simp only [settle, upd, if_true]; exact hcalm _ _ _ _ hst ho
    · simp only [settle, upd, hi, if_false]; exact h.calm i'
  · intro t' i' p' hmem
    rw [hcode]
    apply h.code t'
    rw [hm'] at hmem
    by_cases ht : t' = t
    · subst ht
      rw [hst]
      simp only [settle, upd, if_true] at hmem
      split at hmem
      · exact .tail _ hmem
      · exact hmem
    · simpa only [settle, upd, ht, if_false] using hmem
  · intro t'
    rw [hcode, hm']
    have := h.wait t'
    by_cases ht : t' = t
    · subst ht
      rw [hst] at this
      simp only [settle, upd, if_true]
      split
      · exact waitOn_tail this
      · exact this
    · simpa only [settle, upd, ht, if_false] using this

/-- A process number belongs to one frame. -/
theorem frame_eq {v₀ : F → Option V} {s : St F V E} (hi : Inv v₀ s) {t t' : Nat} {i i' : F} {p : Nat}
    (h : (i, p) ∈ s.stack t) (h' : (i', p) ∈ s.stack t') : t' = t ∧ i' = i := by
  have ht := hi.uniq _ _ _ _ _ h h'
  subst ht
  refine ⟨rfl, ?_⟩
  have hnd := hi.nodup t
  revert h h' hnd
  induction s.stack t with
  | nil => intro h; cases h
  | cons f l ih =>
    intro h h' hnd
    simp only [List.map_cons, List.nodup_cons] at hnd
    rcases List.mem_cons.1 h with h1 | h1
    · rcases List.mem_cons.1 h' with h2 | h2
      · rw [← h1] at h2; exact (Prod.mk.inj h2).1
      · exact absurd (List.mem_map.2 ⟨_, h2, by rw [← h1]⟩) hnd.1
    · rcases List.mem_cons.1 h' with h2 | h2
      · exact absurd (List.mem_map.2 ⟨_, h1, by rw [← h2]⟩) hnd.1
      · exact ih h1 h2 hnd.2

/-- Dropping a guard takes it off the stack. -/
theorem drop_stack {keep : Bool} {s s' : St F V E} {t : Nat} {f : F × Nat} {rest : List (F × Nat)}
    (hst : s.stack t = f :: rest) (hs : step keep s t .drop = some s') :
    s'.stack t = rest ∧ ∀ t', t' ≠ t → s'.stack t' = s.stack t' := by
  rcases step_cases hs with ⟨j', op', o, hj, _⟩ | ⟨i, p, rest', b, o, hst', hb, ho, rfl⟩
  · cases hj
  · rw [hst] at hst'
    simp only [List.cons.injEq] at hst'
    obtain ⟨rfl, rfl⟩ := hst'
    simp only [lower, Option.some.injEq] at hb
    subst hb
    have : gone (o.pc p) = true := by
      simp only [Sync.step, Sync.dropGuard] at ho
      split at ho
      all_goals first
        | (simp at ho; done)
        | (simp only [Option.some.injEq] at ho; subst ho; simp [Sync.St.to, upd, gone])
    exact ⟨by simp [settle, upd, this], fun t' ht => by simp [settle, upd, ht]⟩

theorem pinv_step {dep : F → F → Prop} {bld : F → Prog F V} {v₀ : F → Option V} {ρ : F → V} {s s' : PSt F V E} {t : Nat}
    {a : Act F V E} (hr : ∀ i, (bld i).Reads (dep i)) (hρ : Solves bld v₀ ρ) (h : PInv dep bld v₀ ρ s)
    (hs : pstep bld s t a = some s') : PInv dep bld v₀ ρ s' := by
  have hi := inv_reach h.reach
  have hcore := fun i => Proof.Sync.core_reach (hi.obj i)
  rcases pstep_cases hs with ⟨j, op, rfl, hm, hcode, hop, hst⟩ | ⟨g, rfl, hm, hcode⟩ | ⟨rfl, hm, hcode⟩ |
    ⟨o, i, p, rest, v, rfl, hst, hc, hm, hcode⟩ | ⟨rfl, hm, hcode⟩
  · -- a call begins
    rcases step_cases hm with ⟨j', op', o, hj, hu, ho, hm'⟩ | ⟨_, _, _, _, _, _, hb, _⟩
    case inr => simp [lower] at hb
    simp only [Act.call.injEq] at hj
    obtain ⟨rfl, rfl⟩ := hj
    have hne : ∀ t' i p, (i, p) ∈ s.m.stack t' → s'.code p = s.code p := by
      intro t' i p hmem
      rw [hcode]
      have := (hi.inside _ _ _ hmem).1
      simp only [upd]
      rw [if_neg (by omega)]
    have hnew : s'.code s.m.next = bld j := by rw [hcode]; simp [upd]
    refine ⟨.step h.reach ?_ hm, ?_, ?_, ?_⟩
    · intro i hib
      rcases hst with hst | ⟨i', p, rest, k, hst, hc, _⟩
      · simp [inBuilder, hst] at hib
      · have hb : building ((s.m.obj i').pc p) = true := by simpa [userTurn, hst] using hu
        rw [inBuilder_top hst hb] at hib
        simp only [Option.some.injEq] at hib
        subst hib
        have := (h.code t i' p (by rw [hst]; exact .head _)).2
        rw [hc] at this
        exact this.1
    · intro i
      rw [hm']
      by_cases hi' : i = j
      · subst hi'; simp only [upd, if_true]; exact calm_call (h.calm i) (.inl hop) ho
      · simp only [upd, hi', if_false]; exact h.calm i
    · intro t' i p hmem
      rw [hm'] at hmem
      by_cases ht : t' = t
      · subst ht
        simp only [upd, if_true, List.mem_cons, Prod.mk.injEq] at hmem
        rcases hmem with ⟨rfl, rfl⟩ | hmem
        · rw [hnew]; exact ⟨rfl, hr i⟩
        · rw [hne _ _ _ hmem]; exact h.code _ _ _ hmem
      · simp only [upd, ht, if_false] at hmem
        rw [hne _ _ _ hmem]; exact h.code _ _ _ hmem
    · intro t'
      rw [hm']
      have hw : WaitOn s'.code (s.m.stack t') := by
        have := h.wait t'
        have hne' := hne t'
        revert this hne'
        cases s.m.stack t' with
        | nil => intros; trivial
        | cons f l => exact fun h1 h2 => waitOn_congr (fun g hg => h2 g.1 g.2 (.tail _ hg)) h1
      by_cases ht : t' = t
      · subst ht
        simp only [upd, if_true]
        rcases hst with hst | ⟨i', p, rest, k, hst, hc, _⟩
        · rw [hst]; trivial
        · rw [hst] at hw
          rw [hst]
          refine ⟨⟨k, ?_⟩, hw⟩
          simp only
          rw [hne t' i' p (by rw [hst]; exact .head _)]; exact hc
      · simpa only [upd, ht, if_false] using hw
  · exact pinv_keep h (c := .call (.deref g)) rfl hm hcode fun i p rest o _ ho => calm_call (h.calm i) (.inr ⟨g, rfl⟩) ho
  · exact pinv_keep h (c := .go) rfl hm hcode fun i p rest o _ ho => calm_go (hcore i) (h.calm i) ho
  · refine pinv_keep h (c := .finish (.ok v)) rfl hm hcode fun i' p' rest' o _ ho => ?_
    rename_i hst'
    rw [hst] at hst'
    simp only [List.cons.injEq, Prod.mk.injEq] at hst'
    obtain ⟨⟨rfl, rfl⟩, rfl⟩ := hst'
    have hv : v = ρ i := by
      have h1 := (h.code t i p (by rw [hst]; exact .head _)).1
      rw [hc] at h1
      have h2 : v₀ i = none := by
        apply Classical.byContradiction
        intro hne
        apply ((h.calm i).given hne).2
        have h3 := (hcore i).mem p
        simp only [Sync.step, Sync.builderReturns] at ho
        revert ho h3
        cases (s.m.obj i).pc p <;> simp [Proof.Sync.memAt]
      rw [hρ i, h2]
      exact h1
    exact calm_finish (h.calm i) (hv ▸ ho)
  · -- a guard is dropped
    have hold : PInv dep bld v₀ ρ (⟨s'.m, s.code⟩ : PSt F V E) :=
      pinv_keep (s' := ⟨s'.m, s.code⟩) h (c := .drop) rfl hm rfl fun i p rest o _ ho => calm_drop (h.calm i) ho
    have : (∀ p, s'.code p = s.code p) ∨ ∃ j q i p rest k v, s.m.stack t = (j, q) :: (i, p) :: rest ∧
        s.code p = .read j k ∧ (s.m.obj j).value = some v ∧ s'.code = upd s.code p (k v) := by
      rw [hcode]
      have hw := h.wait t
      unfold resume
      cases hst : s.m.stack t with
      | nil => exact .inl fun _ => rfl
      | cons f l =>
        cases l with
        | nil => exact .inl fun _ => rfl
        | cons g rest =>
          obtain ⟨j, q⟩ := f
          obtain ⟨i, p⟩ := g
          rw [hst] at hw
          obtain ⟨⟨k, hk⟩, _⟩ := hw
          simp only at hk
          simp only [hk]
          cases hv : (s.m.obj j).value with
          | none => exact .inl fun _ => rfl
          | some v => exact .inr ⟨j, q, i, p, rest, k, v, rfl, hk, hv, rfl⟩
    rcases this with hsame | ⟨j, q, i, p, rest, k, v, hst, hk, hv, hnew⟩
    · have : s' = ⟨s'.m, s.code⟩ := by cases s'; simp only [PSt.mk.injEq, true_and]; funext p; exact hsame p
      rw [this]; exact hold
    · have hvj : v = ρ j := (h.calm j).val v hv
      have hnd := hi.nodup t
      rw [hst] at hnd
      simp only [List.map_cons, List.nodup_cons] at hnd
      refine ⟨hold.reach, hold.calm, ?_, ?_⟩
      · intro t' i' p' hmem
        have h1 := hold.code t' i' p' hmem
        rw [hnew]
        simp only [upd]
        split
        · rename_i hp
          subst hp
          simp only at h1
          rw [hk] at h1
          have hmem' : (i', p') ∈ s.m.stack t' := by
            by_cases ht : t' = t
            · subst ht
              rw [(drop_stack hst hm).1] at hmem
              rw [hst]; exact .tail _ hmem
            · rw [(drop_stack hst hm).2 t' ht] at hmem; exact hmem
          obtain ⟨_, rfl⟩ := frame_eq hi (i := i) (t := t) (by rw [hst]; exact .tail _ (.head _)) hmem'
          refine ⟨?_, h1.2.2 v⟩
          rw [← h1.1, hvj]; rfl
        · exact h1
      · intro t'
        rw [hnew]
        by_cases ht : t' = t
        · subst ht
          have hw := hold.wait t'
          simp only at hw
          rw [(drop_stack hst hm).1] at hw ⊢
          refine waitOn_congr ?_ hw
          intro g hg
          simp only [upd]
          rw [if_neg]
          intro hgp
          exact hnd.2.1 (List.mem_map.2 ⟨g, hg, hgp⟩)
        · have hw := hold.wait t'
          simp only at hw
          rw [(drop_stack hst hm).2 t' ht] at hw ⊢
          have hne : ∀ g ∈ s.m.stack t', upd s.code p (k v) g.2 = s.code g.2 := by
            intro g hg
            simp only [upd]
            rw [if_neg]
            intro hgp
            exact ht (frame_eq hi (i := i) (t := t) (by rw [hst]; exact .tail _ (.head _)) (i' := g.1) (by rw [← hgp]; exact hg)).1
          revert hw hne
          cases s.m.stack t' with
          | nil => intros; trivial
          | cons f l => exact fun hw hne => waitOn_congr (fun g hg => hne g (.tail _ hg)) hw

theorem pinv_reach {dep : F → F → Prop} {bld : F → Prog F V} {v₀ : F → Option V} {ρ : F → V} {s : PSt F V E}
    (hr : ∀ i, (bld i).Reads (dep i)) (hρ : Solves bld v₀ ρ) (h : PReach bld v₀ s) : PInv dep bld v₀ ρ s := by
  induction h with
  | init c => exact pinv_init hρ c
  | step _ hs ih => exact pinv_step hr hρ ih hs

end Verif.Proof.Fields
