import Verif.Props.Multi
import Verif.Props.Mixed
/-!
# Cyclic dependencies of lazy builders: the exact rule for C15

Model: `Verif.Model.Multi`. A single thread which reads the fields along a cycle, each from within the builder of the one
before, comes back to a field whose builder it is in.
-/

namespace Verif.Props.Cycles
open Verif.Spec Verif.Model Verif.Model.Multi Verif.Proof Verif.Proof.Multi
open Verif.Props.Mixed (Acyclic)
open Verif.Proof.Locks (upd_upd)

set_option linter.unusedSectionVars false
variable {F V E : Type} [DecidableEq F] {dep dep' : F → F → Prop} {keep : Bool} {v₀ : F → Option V} {s s' : St F V E}

theorem reach_mono (hd : ∀ i j, dep i j → dep' i j) (h : Reach dep keep v₀ s) : Reach dep' keep v₀ s := by
  induction h with
  | init => exact .init
  | @step s s' t a _ ha hs ih =>
    refine .step ih ?_ hs
    cases a with
    | call j op => exact fun i hi => hd i j (ha i hi)
    | _ => trivial

/-- A run calls finitely many fields. -/
theorem reach_finite (h : Reach dep keep v₀ s) : ∃ l : List F, Reach (fun i j => dep i j ∧ j ∈ l) keep v₀ s := by
  induction h with
  | init => exact ⟨[], .init⟩
  | @step s s' t a _ ha hs ih =>
    obtain ⟨l, hl⟩ := ih
    cases a with
    | call j op =>
      refine ⟨j :: l, .step (a := .call j op) (reach_mono ?_ hl) (fun i hi => ⟨ha i hi, .head _⟩) hs⟩
      exact fun i j' h => ⟨h.1, .tail _ h.2⟩
    | use op => exact ⟨l, .step (a := .use op) hl trivial hs⟩
    | go => exact ⟨l, .step (a := .go) hl trivial hs⟩
    | finish o => exact ⟨l, .step (a := .finish o) hl trivial hs⟩
    | drop => exact ⟨l, .step (a := .drop) hl trivial hs⟩

theorem no_deadlock (hac : Acyclic dep) (h : Reach dep false v₀ s) : ¬ Deadlock s := by
  obtain ⟨l, hl⟩ := reach_finite h
  exact Props.Multi.C15_no_deadlock (Proof.Mixed.acyclic_wf hac l) hl

/-! ## The deadlock -/

theorem reach_call {t : Nat} {j : F} {op : Op V} {o : Sync.St V E} (h : Reach dep keep v₀ s)
    (hu : userTurn keep s t = true) (ha : ∀ i, inBuilder s t = some i → dep i j)
    (ho : Sync.invoke (s.obj j) s.next op = some o) :
    Reach dep keep v₀ { obj := upd s.obj j o, stack := upd s.stack t ((j, s.next) :: s.stack t), next := s.next + 1 } :=
  .step (t := t) (a := .call j op) h ha (by simp [step, hu, ho])

theorem reach_go {t : Nat} {i : F} {p : Nat} {rest : List (F × Nat)} {o : Sync.St V E} (h : Reach dep keep v₀ s)
    (hst : s.stack t = (i, p) :: rest) (ho : Sync.go (s.obj i) p = some o) :
    Reach dep keep v₀ (settle s t i p rest o) :=
  .step (t := t) (a := .go) h trivial (by simp [step, hst, ho])

/-- Thread 0 is inside the builders of the fields `l`, innermost first; the others are not inside, everything else is free,
and the fields of `c` not yet called have no value. -/
structure Nest (c : List F) (s : St F V E) (l : List F) : Prop where
  others : ∀ t, t ≠ 0 → s.stack t = []
  fields : (s.stack 0).map Prod.fst = l
  build : ∀ f ∈ s.stack 0, building ((s.obj f.1).pc f.2) = true ∧ (s.obj f.1).lk.wr = some f.2
  free : ∀ i, i ∉ l → (s.obj i).lk = Lock.free
  empty : ∀ i, i ∉ l → i ∈ c → (s.obj i).value = none

theorem nest_turn {c l : List F} (hn : Nest c s l) : userTurn keep s 0 = true := by
  unfold userTurn
  cases hst : s.stack 0 with
  | nil => rfl
  | cons f rest => simp [(hn.build f (by simp [hst])).1]

theorem nest_in {c l : List F} (hn : Nest c s l) : inBuilder s 0 = l.head? := by
  rw [← hn.fields, inBuilder]
  cases hst : s.stack 0 with
  | nil => rfl
  | cons f rest => simp [(hn.build f (by simp [hst])).1]

theorem fresh (hi : Inv v₀ s) (i : F) : (s.obj i).pc s.next = .idle := by
  rw [← gone_iff]
  cases hg : gone ((s.obj i).pc s.next)
  · obtain ⟨t, h⟩ := hi.owner i _ hg
    have := (hi.inside _ _ _ h).1
    omega
  · rfl

/-- One field further. -/
theorem deeper {c l : List F} (h : Reach dep keep v₀ s) (hn : Nest c s l) {j : F} (hj : j ∉ l) (hc : j ∈ c)
    (hd : ∀ i, l.head? = some i → dep i j) : ∃ s' : St F V E, Reach dep keep v₀ s' ∧ Nest c s' (j :: l) := by
  have hi := inv_reach h
  have hlk := hn.free j hj
  have hv := hn.empty j hj hc
  have hp := fresh hi j
  let o₁ := (s.obj j).begin s.next (.get .read) (.rStart .read)
  let o₂ := { o₁ with lk := ⟨[], some s.next, none⟩ }.to s.next (.rHaveU .read)
  let o₃ := { o₂ with lk := ⟨[], none, some s.next⟩ }.to s.next (.rUpg .read)
  let o₄ := o₃.to s.next (.rHaveW .read)
  let o₅ := (o₄.ev (.other (.bstart (o₄.me s.next)))).to s.next (.rBuild .read)
  have r1 := reach_call (t := 0) (op := .get .read) (o := o₁) h (nest_turn hn)
    (fun i hi' => hd i (by rw [nest_in hn] at hi'; exact hi')) (by simp [Sync.invoke, hp, o₁])
  have r2 := reach_go (t := 0) (i := j) (p := s.next) (rest := s.stack 0) (o := o₂) r1 (by simp)
    (by simp [o₂, o₁, Sync.go, Sync.St.begin, Lock.tryUpgradable, hlk, Lock.free])
  have r3 := reach_go (t := 0) (i := j) (p := s.next) (rest := s.stack 0) (o := o₃) r2 (by simp [settle, o₂, Sync.St.to, gone])
    (by
      have h1 : o₂.pc s.next = .rHaveU .read := by simp [o₂, Sync.St.to]
      have h2 : o₂.value = none := hv
      have h3 : o₂.lk.upgradeClaim s.next = ⟨[], none, some s.next⟩ := rfl
      simp [settle, Sync.go, h1, h2, h3, o₃])
  have r4 := reach_go (t := 0) (i := j) (p := s.next) (rest := s.stack 0) (o := o₄) r3 (by simp [settle, o₃, Sync.St.to, gone])
    (by
      have h1 : o₃.pc s.next = .rUpg .read := by simp [o₃, Sync.St.to]
      have h2 : o₃.lk.drained = true := rfl
      simp [settle, Sync.go, h1, h2, o₄])
  have r5 := reach_go (t := 0) (i := j) (p := s.next) (rest := s.stack 0) (o := o₅) r4 (by simp [settle, o₄, Sync.St.to, gone])
    (by
      have h1 : o₄.pc s.next = .rHaveW .read := by simp [o₄, Sync.St.to]
      have h2 : o₄.value = none := hv
      simp [settle, Sync.go, h1, h2, o₅])
  have hob : ∀ i, i ≠ j → (settle (settle (settle (settle { obj := upd s.obj j o₁, stack := upd s.stack 0 ((j, s.next) :: s.stack 0), next := s.next + 1 } 0 j s.next (s.stack 0) o₂) 0 j s.next (s.stack 0) o₃) 0 j s.next (s.stack 0) o₄) 0 j s.next (s.stack 0) o₅).obj i = s.obj i := by
    intro i hij; simp [settle, upd, hij]
  have hoj : (settle (settle (settle (settle { obj := upd s.obj j o₁, stack := upd s.stack 0 ((j, s.next) :: s.stack 0), next := s.next + 1 } 0 j s.next (s.stack 0) o₂) 0 j s.next (s.stack 0) o₃) 0 j s.next (s.stack 0) o₄) 0 j s.next (s.stack 0) o₅).obj j = o₅ := by
    simp [settle]
  have hst : (settle (settle (settle (settle { obj := upd s.obj j o₁, stack := upd s.stack 0 ((j, s.next) :: s.stack 0), next := s.next + 1 } 0 j s.next (s.stack 0) o₂) 0 j s.next (s.stack 0) o₃) 0 j s.next (s.stack 0) o₄) 0 j s.next (s.stack 0) o₅).stack = upd s.stack 0 ((j, s.next) :: s.stack 0) := by
    simp [settle, o₅, Sync.St.to, gone, upd_upd]
  refine ⟨_, r5, ⟨?_, ?_, ?_, ?_, ?_⟩⟩
  · intro t ht
    rw [hst, upd_other _ _ ht]; exact hn.others t ht
  · rw [hst]; simp [hn.fields]
  · rw [hst]
    intro f hf
    simp only [upd_same, List.mem_cons] at hf
    rcases hf with rfl | hf
    · rw [hoj]; exact ⟨by simp [o₅, Sync.St.to, building], rfl⟩
    · have hfl : f.1 ∈ l := by rw [← hn.fields]; exact List.mem_map_of_mem hf
      rw [hob f.1 (by rintro rfl; exact hj hfl)]
      exact hn.build f hf
  · intro i hil
    simp only [List.mem_cons, not_or] at hil
    rw [hob i hil.1]; exact hn.free i hil.2
  · intro i hil hic
    simp only [List.mem_cons, not_or] at hil
    rw [hob i hil.1]; exact hn.empty i hil.2 hic

/-- Back at a field whose builder the thread is in. -/
theorem stop {c l : List F} (h : Reach dep keep v₀ s) (hn : Nest c s l) {j : F} (hj : j ∈ l)
    (hd : ∀ i, l.head? = some i → dep i j) : ∃ s' : St F V E, Reach dep keep v₀ s' ∧ Deadlock s' := by
  have hi := inv_reach h
  have hp := fresh hi j
  have hw : (s.obj j).lk.wr ≠ none := by
    rw [← hn.fields, List.mem_map] at hj
    obtain ⟨f, hf, rfl⟩ := hj
    rw [(hn.build f hf).2]; simp
  have r1 := reach_call (t := 0) (op := .get .read) (o := (s.obj j).begin s.next (.get .read) (.rStart .read)) h
    (nest_turn hn) (fun i hi' => hd i (by rw [nest_in hn] at hi'; exact hi')) (by simp [Sync.invoke, hp])
  refine ⟨_, r1, ⟨0, by simp⟩, ?_⟩
  intro t ht
  by_cases h0 : t = 0
  · subst h0
    exact ⟨j, s.next, s.stack 0, by simp, by simp [Sync.St.begin, building], by simp [Sync.St.begin, holding],
      by simp [Sync.go, Sync.St.begin, Lock.tryUpgradable, hw]⟩
  · simp only [upd_other _ _ h0] at ht
    exact absurd (hn.others t h0) ht

/-- Emptying a lazy container, alone. -/
theorem sync_clear {o : Sync.St V E} {p : Nat} (hp : o.pc p = .idle) (hl : o.lk = Lock.free) :
    ∃ o₁ o₂ o₃ o₄ o₅ o₆ : Sync.St V E, Sync.invoke o p .clear = some o₁ ∧
      Sync.go o₁ p = some o₂ ∧ Sync.go o₂ p = some o₃ ∧ Sync.go o₃ p = some o₄ ∧ Sync.go o₄ p = some o₅ ∧
      Sync.go o₅ p = some o₆ ∧ gone (o₂.pc p) = false ∧ gone (o₃.pc p) = false ∧ gone (o₄.pc p) = false ∧
      gone (o₅.pc p) = false ∧ gone (o₆.pc p) = true ∧ o₆.lk = Lock.free ∧ o₆.value = none := by
  let o₁ := o.begin p .clear (.xStart (.put none))
  let o₂ := { o₁ with lk := ⟨[], none, some p⟩ }.to p (.xWait (.put none))
  let o₃ := o₂.to p (.xHave (.put none))
  let o₄ := ({ o₃ with flag := (none : Option V).isSome }.lin p (XKind.op (.put none)) ⟨none, .old o₃.value⟩).to p (.xVal none)
  let o₅ := { o₄ with value := none }.to p (.xRel none o₄.value)
  let o₆ := { o₅ with lk := o₅.lk.dropWrite }.ret p .idle ⟨none, .old o₄.value⟩
  refine ⟨o₁, o₂, o₃, o₄, o₅, o₆, by simp [Sync.invoke, hp, o₁], ?_, ?_, ?_, ?_, ?_, ?_⟩
  · simp [o₂, o₁, Sync.go, Sync.St.begin, Lock.claim, hl, Lock.free]
  · simp [o₃, o₂, Sync.go, Sync.St.to, Lock.drained]
  · simp [o₄, o₃, Sync.go, Sync.St.to]
  · simp [o₅, o₄, Sync.go, Sync.St.to]
  · simp [o₆, o₅, Sync.go, Sync.St.to]
  · exact ⟨by simp [o₂, Sync.St.to, gone], by simp [o₃, Sync.St.to, gone], by simp [o₄, Sync.St.to, gone],
      by simp [o₅, Sync.St.to, gone], by simp [o₆, Sync.St.ret, gone], rfl, rfl⟩

/-- Thread 0 empties a field from outside. -/
theorem clear {c : List F} (h : Reach dep keep v₀ s) (hn : Nest c s []) (j : F) :
    ∃ s' : St F V E, Reach dep keep v₀ s' ∧ Nest (j :: c) s' [] := by
  have hi := inv_reach h
  have hs0 : s.stack 0 = [] := List.map_eq_nil_iff.1 hn.fields
  obtain ⟨o₁, o₂, o₃, o₄, o₅, o₆, h1, h2, h3, h4, h5, h6, g2, g3, g4, g5, g6, hl, hv⟩ :=
    sync_clear (fresh hi j) (hn.free j (by simp))
  have r1 := reach_call (t := 0) h (nest_turn hn) (fun i hi' => by rw [nest_in hn] at hi'; cases hi') h1
  have r2 := reach_go (t := 0) (i := j) (p := s.next) (rest := []) r1 (by simp [hs0]) (by simpa using h2)
  have r3 := reach_go (t := 0) (i := j) (p := s.next) (rest := []) r2 (by simp [settle, g2]) (by simpa [settle] using h3)
  have r4 := reach_go (t := 0) (i := j) (p := s.next) (rest := []) r3 (by simp [settle, g3]) (by simpa [settle] using h4)
  have r5 := reach_go (t := 0) (i := j) (p := s.next) (rest := []) r4 (by simp [settle, g4]) (by simpa [settle] using h5)
  have r6 := reach_go (t := 0) (i := j) (p := s.next) (rest := []) r5 (by simp [settle, g5]) (by simpa [settle] using h6)
  refine ⟨_, r6, ⟨?_, ?_, ?_, ?_, ?_⟩⟩
  · intro t ht
    simp [settle, upd, ht, hn.others]
  · simp [settle, g6]
  · simp [settle, g6]
  · intro i _
    by_cases hij : i = j
    · subst hij; simpa [settle] using hl
    · simpa [settle, upd, hij] using hn.free i (by simp)
  · intro i _ hic
    by_cases hij : i = j
    · subst hij; simpa [settle] using hv
    · simp only [List.mem_cons, hij, false_or] at hic
      simpa [settle, upd, hij] using hn.empty i (by simp) hic

theorem clear_all (c : List F) : ∃ s : St F V E, Reach dep keep v₀ s ∧ Nest c s [] := by
  induction c with
  | nil => exact ⟨init v₀, .init, ⟨fun _ _ => rfl, rfl, by simp [init], fun _ _ => rfl, by simp⟩⟩
  | cons j c ih =>
    obtain ⟨s, h1, h2⟩ := ih
    exact clear h1 h2 j

theorem cycle_deadlock {i : F} (h : Relation.TransGen dep i i) : ∃ s : St F V E, Reach dep keep v₀ s ∧ Deadlock s := by
  obtain ⟨n, c, hn, h0, hc, hd⟩ := Proof.Mixed.cycle_seq h
  have key : ∀ m, m ≤ n → (∃ s : St F V E, Reach dep keep v₀ s ∧ Deadlock s) ∨
      ∃ s : St F V E, Reach dep keep v₀ s ∧ Nest ((List.range n).map c) s ((List.range m).map c).reverse := by
    intro m
    induction m with
    | zero =>
      intro _
      obtain ⟨s, h1, h2⟩ := clear_all (dep := dep) (keep := keep) (v₀ := v₀) (E := E) ((List.range n).map c)
      exact .inr ⟨s, h1, h2⟩
    | succ m ih =>
      intro hm
      rcases ih (by omega) with h1 | ⟨s, h1, h2⟩
      · exact .inl h1
      · have hd' : ∀ i, (((List.range m).map c).reverse).head? = some i → dep i (c m) := by
          intro i hi
          cases m with
          | zero => simp at hi
          | succ m =>
            simp [List.range_succ] at hi
            rw [← hi]; exact hd m (by omega)
        by_cases hmem : c m ∈ ((List.range m).map c).reverse
        · exact .inl (stop h1 h2 hmem hd')
        · obtain ⟨s', h3, h4⟩ := deeper h1 h2 hmem (List.mem_map_of_mem (by simp; omega)) hd'
          exact .inr ⟨s', h3, by simpa [List.range_succ] using h4⟩
  rcases key n (Nat.le_refl _) with h1 | ⟨s, h1, h2⟩
  · exact h1
  · refine stop h1 h2 (j := c n) ?_ ?_
    · rw [hc, ← h0, List.mem_reverse]; exact List.mem_map_of_mem (by simp; omega)
    · intro i hi
      cases n with
      | zero => omega
      | succ m =>
        simp [List.range_succ] at hi
        rw [← hi]; exact hd m (by omega)

/-- Lazy fields whose guards are not kept deadlock exactly if the dependencies of their builders have a cycle, whatever the
fields hold at the beginning. -/
theorem C15_deadlock_iff : (∃ s : St F V E, Reach dep false v₀ s ∧ Deadlock s) ↔ ¬ Acyclic dep := by
  constructor
  · rintro ⟨s, h1, h2⟩ hac
    exact no_deadlock hac h1 h2
  · intro h
    simp only [Acyclic, Classical.not_forall, Classical.not_not] at h
    obtain ⟨i, hi⟩ := h
    exact cycle_deadlock hi

-- both sides occur: a chain of three fields has no cycle, two fields that read each other have one
example : Acyclic (fun i j => Props.Multi.chain i j = true) ∧ ¬ Acyclic (fun i j : Bool => (i != j) = true) := by
  refine ⟨fun i hi => ?_, fun h => h true (.tail (.single (b := false) rfl) rfl)⟩
  have : ∀ {i j}, Relation.TransGen (fun i j => Props.Multi.chain i j = true) i j → i.1 < j.1 := by
    intro i j h
    induction h with
    | single h => simp [Props.Multi.chain] at h; omega
    | tail _ h ih => simp [Props.Multi.chain] at h; omega
  exact absurd (this hi) (by omega)

end Verif.Props.Cycles
