import Verif.Props.AsyncMulti
import Verif.Props.Mixed
/-!
# Cyclic dependencies of lazy builders: the exact rule for C73

Model: `Verif.Model.AsyncMulti`. As in `Verif.Props.Cycles`: a single task which reads the fields along a cycle, each from within the builder of
the one before, comes back to a field whose builder it is in.
-/

namespace Verif.Props.AsyncCycles
open Verif.Spec Verif.Model Verif.Model.AsyncMulti Verif.Proof Verif.Proof.AsyncMulti
open Verif.Props.Mixed (Acyclic)
open Verif.Proof.Locks (upd_upd)

set_option linter.unusedSectionVars false
variable {F V E : Type} [DecidableEq F] {dep dep' : F → F → Prop} {keep : Bool} {v₀ : F → Option V} {s s' : St F V E}

theorem reach_mono (hd : ∀ i j, dep i j → dep' i j) (h : Reach dep keep v₀ s) : Reach dep' keep v₀ s := by
  induction h with
  | init => exact .init
  | @step s s' t a _ ha hs ih =>
    refine .step ih ?_ hs
    cases a with
    | call j op => exact fun i hi => hd i j (ha i hi)
    | _ => trivial

/-- A run calls finitely many fields. -/
theorem reach_finite (h : Reach dep keep v₀ s) : ∃ l : List F, Reach (fun i j => dep i j ∧ j ∈ l) keep v₀ s := by
  induction h with
  | init => exact ⟨[], .init⟩
  | @step s s' t a _ ha hs ih =>
    obtain ⟨l, hl⟩ := ih
    cases a with
    | call j op =>
      refine ⟨j :: l, .step (a := .call j op) (reach_mono ?_ hl) (fun i hi => ⟨ha i hi, .head _⟩) hs⟩
      exact fun i j' h => ⟨h.1, .tail _ h.2⟩
    | use op => exact ⟨l, .step (a := .use op) hl trivial hs⟩
    | go => exact ⟨l, .step (a := .go) hl trivial hs⟩
    | finish o => exact ⟨l, .step (a := .finish o) hl trivial hs⟩
    | drop => exact ⟨l, .step (a := .drop) hl trivial hs⟩
    | cancel => exact ⟨l, .step (a := .cancel) hl trivial hs⟩

theorem no_deadlock (hac : Acyclic dep) (h : Reach dep false v₀ s) : ¬ Deadlock s := by
  obtain ⟨l, hl⟩ := reach_finite h
  exact Props.AsyncMulti.C73_no_deadlock (Proof.Mixed.acyclic_wf hac l) hl

/-! ## The deadlock -/

theorem reach_call {t : Nat} {j : F} {op : Op V} {o : Async.St V E} (h : Reach dep keep v₀ s)
    (hu : userTurn keep s t = true) (ha : ∀ i, inBuilder s t = some i → dep i j)
    (ho : Async.invoke (s.obj j) s.next op = some o) (hq : queued (o.pc s.next) = true) :
    Reach dep keep v₀
      { obj := upd s.obj j o
        queue := upd s.queue j (s.queue j ++ [s.next])
        stack := upd s.stack t ((j, s.next) :: s.stack t)
        next := s.next + 1 } :=
  .step (t := t) (a := .call j op) h ha (by simp [step, hu, ho, hq])

theorem reach_go {t : Nat} {i : F} {p : Nat} {rest : List (F × Nat)} {o : Async.St V E} (h : Reach dep keep v₀ s)
    (hst : s.stack t = (i, p) :: rest) (ht : turn s i p = true) (ho : Async.go (s.obj i) p = some o) :
    Reach dep keep v₀ (settle s t i p rest o) :=
  .step (t := t) (a := .go) h trivial (by simp [step, hst, ho, ht])

/-- Task 0 is inside the builders of the fields `l`, innermost first; the others are not inside, everything else is free,
nobody waits, and the fields of `c` not yet called have no value. -/
structure Nest (c : List F) (s : St F V E) (l : List F) : Prop where
  others : ∀ t, t ≠ 0 → s.stack t = []
  fields : (s.stack 0).map Prod.fst = l
  build : ∀ f ∈ s.stack 0, building ((s.obj f.1).pc f.2) = true ∧ (s.obj f.1).lk.wr = some f.2
  free : ∀ i, i ∉ l → (s.obj i).lk = Async.ALock.free
  empty : ∀ i, i ∉ l → i ∈ c → (s.obj i).value = none
  queue : ∀ i, s.queue i = []

theorem nest_turn {c l : List F} (hn : Nest c s l) : userTurn keep s 0 = true := by
  unfold userTurn
  cases hst : s.stack 0 with
  | nil => rfl
  | cons f rest => simp [(hn.build f (by simp [hst])).1]

theorem nest_in {c l : List F} (hn : Nest c s l) : inBuilder s 0 = l.head? := by
  rw [← hn.fields, inBuilder]
  cases hst : s.stack 0 with
  | nil => rfl
  | cons f rest => simp [(hn.build f (by simp [hst])).1]

theorem fresh (hi : Inv v₀ s) (i : F) : (s.obj i).pc s.next = .idle := by
  rw [← gone_iff]
  cases hg : gone ((s.obj i).pc s.next)
  · obtain ⟨t, h⟩ := hi.owner i _ hg
    have := (hi.inside _ _ _ h).1
    omega
  · rfl

/-- One field further. -/
theorem deeper {c l : List F} (h : Reach dep keep v₀ s) (hn : Nest c s l) {j : F} (hj : j ∉ l) (hc : j ∈ c)
    (hd : ∀ i, l.head? = some i → dep i j) : ∃ s' : St F V E, Reach dep keep v₀ s' ∧ Nest c s' (j :: l) := by
  have hi := inv_reach h
  have hlk := hn.free j hj
  have hv := hn.empty j hj hc
  have hp := fresh hi j
  have hq := hn.queue
  let o₁ := (s.obj j).begin s.next (.get .read) (.rStart .read)
  let o₂ := { o₁ with lk := ⟨[], some s.next⟩ }.to s.next (.rHave .read)
  let o₃ := o₂.to s.next (.rCb .read)
  let o₄ := (o₃.ev (.other (.bstart (o₃.me s.next)))).to s.next (.rBuild .read)
  have p1 : o₁.pc s.next = .rStart .read := by simp [o₁, Async.St.begin]
  have p2 : o₂.pc s.next = .rHave .read := by simp [o₂, Async.St.to]
  have p3 : o₃.pc s.next = .rCb .read := by simp [o₃, Async.St.to]
  have p4 : o₄.pc s.next = .rBuild .read := by simp [o₄, Async.St.to]
  have r1 := reach_call (t := 0) (op := .get .read) (o := o₁) h (nest_turn hn)
    (fun i hi' => hd i (by rw [nest_in hn] at hi'; exact hi')) (by simp [Async.invoke, hp, o₁]) (by simp [p1, queued])
  let s₁ : St F V E :=
      { obj := upd s.obj j o₁
        queue := upd s.queue j (s.queue j ++ [s.next])
        stack := upd s.stack 0 ((j, s.next) :: s.stack 0)
        next := s.next + 1 }
  let s₂ := settle s₁ 0 j s.next (s.stack 0) o₂
  let s₃ := settle s₂ 0 j s.next (s.stack 0) o₃
  let s₄ := settle s₃ 0 j s.next (s.stack 0) o₄
  have r2 : Reach dep keep v₀ s₂ := reach_go r1 (by simp [s₁]) (by simp [s₁, turn, hq])
    (by simp [s₁, o₂, o₁, Async.go, Async.St.begin, Async.ALock.tryWrite, hlk, Async.ALock.free])
  have r3 : Reach dep keep v₀ s₃ := reach_go r2 (by simp [s₂, settle, p2, gone])
    (by simp [turn, s₂, settle, p2, queued]) (by
      have h2 : o₂.value = none := hv
      simp [s₂, settle, Async.go, p2, h2, o₃])
  have r4 : Reach dep keep v₀ s₄ := reach_go r3 (by simp [s₃, settle, p3, gone])
    (by simp [turn, s₃, settle, p3, queued]) (by simp [s₃, settle, Async.go, p3, o₄])
  have hob : ∀ i, i ≠ j → s₄.obj i = s.obj i := by
    intro i hij; simp [s₄, s₃, s₂, s₁, settle, upd, hij]
  have hoj : s₄.obj j = o₄ := by simp [s₄, settle]
  have hst : s₄.stack = upd s.stack 0 ((j, s.next) :: s.stack 0) := by
    simp [s₄, s₃, s₂, s₁, settle, p4, gone, upd_upd]
  refine ⟨s₄, r4, ⟨?_, ?_, ?_, ?_, ?_, ?_⟩⟩
  · intro t ht
    rw [hst, upd_other _ _ ht]; exact hn.others t ht
  · rw [hst]; simp [hn.fields]
  · rw [hst]
    intro f hf
    simp only [upd_same, List.mem_cons] at hf
    rcases hf with rfl | hf
    · rw [hoj]; exact ⟨by simp [p4, building], rfl⟩
    · have hfl : f.1 ∈ l := by rw [← hn.fields]; exact List.mem_map_of_mem hf
      rw [hob f.1 (by rintro rfl; exact hj hfl)]
      exact hn.build f hf
  · intro i hil
    simp only [List.mem_cons, not_or] at hil
    rw [hob i hil.1]; exact hn.free i hil.2
  · intro i hil hic
    simp only [List.mem_cons, not_or] at hil
    rw [hob i hil.1]; exact hn.empty i hil.2 hic
  · intro i
    by_cases hij : i = j
    · subst hij; simp [s₄, s₃, s₂, s₁, settle, p2, p3, p4, queued, hq]
    · simp [s₄, s₃, s₂, s₁, settle, upd, hij, hq]

/-- Back at a field whose builder the thread is in. -/
theorem stop {c l : List F} (h : Reach dep keep v₀ s) (hn : Nest c s l) {j : F} (hj : j ∈ l)
    (hd : ∀ i, l.head? = some i → dep i j) : ∃ s' : St F V E, Reach dep keep v₀ s' ∧ Deadlock s' := by
  have hi := inv_reach h
  have hp := fresh hi j
  have hw : (s.obj j).lk.wr ≠ none := by
    rw [← hn.fields, List.mem_map] at hj
    obtain ⟨f, hf, rfl⟩ := hj
    rw [(hn.build f hf).2]; simp
  have r1 := reach_call (t := 0) (op := .get .read) (o := (s.obj j).begin s.next (.get .read) (.rStart .read)) h
    (nest_turn hn) (fun i hi' => hd i (by rw [nest_in hn] at hi'; exact hi')) (by simp [Async.invoke, hp])
    (by simp [Async.St.begin, queued])
  refine ⟨_, r1, ⟨0, by simp⟩, ?_⟩
  intro t ht
  by_cases h0 : t = 0
  · subst h0
    exact ⟨j, s.next, s.stack 0, by simp, by simp [Async.St.begin, building], by simp [Async.St.begin, holding],
      
      .inr (by simp [Async.go, Async.St.begin, Async.ALock.tryWrite, hw])⟩
  · simp only [upd_other _ _ h0] at ht
    exact absurd (hn.others t h0) ht

/-- Emptying a lazy container, alone. -/
theorem async_clear {o : Async.St V E} {p : Nat} (hp : o.pc p = .idle) (hl : o.lk = Async.ALock.free) :
    ∃ o₁ o₂ o₃ o₄ o₅ : Async.St V E, Async.invoke o p .clear = some o₁ ∧
      Async.go o₁ p = some o₂ ∧ Async.go o₂ p = some o₃ ∧ Async.go o₃ p = some o₄ ∧ Async.go o₄ p = some o₅ ∧
      o₁.pc p = .xStart (.put none) ∧ o₂.pc p = .xHave (.put none) ∧ o₃.pc p = .xVal none ∧
      o₄.pc p = .xRel none o.value ∧ o₅.pc p = .idle ∧ o₅.lk = Async.ALock.free ∧ o₅.value = none := by
  let o₁ := o.begin p .clear (.xStart (.put none))
  let o₂ := { o₁ with lk := ⟨[], some p⟩ }.to p (.xHave (.put none))
  let o₃ := ({ o₂ with flag := (none : Option V).isSome }.lin p (XKind.op (.put none)) ⟨none, .old o₂.value⟩).to p (.xVal none)
  let o₄ := { o₃ with value := none }.to p (.xRel none o₃.value)
  let o₅ := { o₄ with lk := o₄.lk.dropWrite }.ret p .idle ⟨none, .old o₃.value⟩
  refine ⟨o₁, o₂, o₃, o₄, o₅, by simp [Async.invoke, hp, o₁], ?_, ?_, ?_, ?_, ?_⟩
  · simp [o₂, o₁, Async.go, Async.St.begin, Async.ALock.tryWrite, hl, Async.ALock.free]
  · simp [o₃, o₂, Async.go, Async.St.to]
  · simp [o₄, o₃, Async.go, Async.St.to]
  · simp [o₅, o₄, Async.go, Async.St.to]
  · refine ⟨by simp [o₁, Async.St.begin], by simp [o₂, Async.St.to], by simp [o₃, Async.St.to], ?_,
      by simp [o₅, Async.St.ret], rfl, rfl⟩
    have : o₃.value = o.value := rfl
    simp [o₄, Async.St.to, this]

/-- Task 0 empties a field from outside. -/
theorem clear {c : List F} (h : Reach dep keep v₀ s) (hn : Nest c s []) (j : F) :
    ∃ s' : St F V E, Reach dep keep v₀ s' ∧ Nest (j :: c) s' [] := by
  have hi := inv_reach h
  have hs0 : s.stack 0 = [] := List.map_eq_nil_iff.1 hn.fields
  have hq := hn.queue
  obtain ⟨o₁, o₂, o₃, o₄, o₅, h1, h2, h3, h4, h5, p1, p2, p3, p4, p5, hl, hv⟩ :=
    async_clear (fresh hi j) (hn.free j (by simp))
  have r1 := reach_call (t := 0) h (nest_turn hn) (fun i hi' => by rw [nest_in hn] at hi'; cases hi') h1 (by simp [p1, queued])
  have r2 := reach_go (t := 0) (i := j) (p := s.next) (rest := []) r1 (by simp [hs0]) (by simp [turn, hq]) (by simpa using h2)
  have r3 := reach_go (t := 0) (i := j) (p := s.next) (rest := []) r2 (by simp [settle, p2, gone])
    (by simp [turn, settle, p2, queued]) (by simpa [settle] using h3)
  have r4 := reach_go (t := 0) (i := j) (p := s.next) (rest := []) r3 (by simp [settle, p3, gone])
    (by simp [turn, settle, p3, queued]) (by simpa [settle] using h4)
  have r5 := reach_go (t := 0) (i := j) (p := s.next) (rest := []) r4 (by simp [settle, p4, gone])
    (by simp [turn, settle, p4, queued]) (by simpa [settle] using h5)
  refine ⟨_, r5, ⟨?_, ?_, ?_, ?_, ?_, ?_⟩⟩
  · intro t ht
    simp [settle, upd, ht, hn.others]
  · simp [settle, p5, gone]
  · simp [settle, p5, gone]
  · intro i _
    by_cases hij : i = j
    · subst hij; simpa [settle] using hl
    · simpa [settle, upd, hij] using hn.free i (by simp)
  · intro i _ hic
    by_cases hij : i = j
    · subst hij; simpa [settle] using hv
    · simp only [List.mem_cons, hij, false_or] at hic
      simpa [settle, upd, hij] using hn.empty i (by simp) hic
  · intro i
    by_cases hij : i = j
    · subst hij; simp [settle, p2, p3, p4, p5, queued, hq]
    · simp [settle, upd, hij, hq]

theorem clear_all (c : List F) : ∃ s : St F V E, Reach dep keep v₀ s ∧ Nest c s [] := by
  induction c with
  | nil => exact ⟨init v₀, .init, ⟨fun _ _ => rfl, rfl, by simp [init], fun _ _ => rfl, by simp, fun _ => rfl⟩⟩
  | cons j c ih =>
    obtain ⟨s, h1, h2⟩ := ih
    exact clear h1 h2 j

theorem cycle_deadlock {i : F} (h : Relation.TransGen dep i i) : ∃ s : St F V E, Reach dep keep v₀ s ∧ Deadlock s := by
  obtain ⟨n, c, hn, h0, hc, hd⟩ := Proof.Mixed.cycle_seq h
  have key : ∀ m, m ≤ n → (∃ s : St F V E, Reach dep keep v₀ s ∧ Deadlock s) ∨
      ∃ s : St F V E, Reach dep keep v₀ s ∧ Nest ((List.range n).map c) s ((List.range m).map c).reverse := by
    intro m
    induction m with
    | zero =>
      intro _
      obtain ⟨s, h1, h2⟩ := clear_all (dep := dep) (keep := keep) (v₀ := v₀) (E := E) ((List.range n).map c)
      exact .inr ⟨s, h1, h2⟩
    | succ m ih =>
      intro hm
      rcases ih (by omega) with h1 | ⟨s, h1, h2⟩
      · exact .inl h1
      · have hd' : ∀ i, (((List.range m).map c).reverse).head? = some i → dep i (c m) := by
          intro i hi
          cases m with
          | zero => simp at hi
          | succ m =>
            simp [List.range_succ] at hi
            rw [← hi]; exact hd m (by omega)
        by_cases hmem : c m ∈ ((List.range m).map c).reverse
        · exact .inl (stop h1 h2 hmem hd')
        · obtain ⟨s', h3, h4⟩ := deeper h1 h2 hmem (List.mem_map_of_mem (by simp; omega)) hd'
          exact .inr ⟨s', h3, by simpa [List.range_succ] using h4⟩
  rcases key n (Nat.le_refl _) with h1 | ⟨s, h1, h2⟩
  · exact h1
  · refine stop h1 h2 (j := c n) ?_ ?_
    · rw [hc, ← h0, List.mem_reverse]; exact List.mem_map_of_mem (by simp; omega)
    · intro i hi
      cases n with
      | zero => omega
      | succ m =>
        simp [List.range_succ] at hi
        rw [← hi]; exact hd m (by omega)

/-- Async lazy fields whose guards are not kept deadlock exactly if the dependencies of their builders have a cycle, whatever the
fields hold at the beginning. -/
theorem C73_deadlock_iff : (∃ s : St F V E, Reach dep false v₀ s ∧ Deadlock s) ↔ ¬ Acyclic dep := by
  constructor
  · rintro ⟨s, h1, h2⟩ hac
    exact no_deadlock hac h1 h2
  · intro h
    simp only [Acyclic, Classical.not_forall, Classical.not_not] at h
    obtain ⟨i, hi⟩ := h
    exact cycle_deadlock hi

-- both sides occur: a chain of three fields has no cycle, two fields that read each other have one
example : Acyclic (fun i j => Props.AsyncMulti.chain i j = true) ∧ ¬ Acyclic (fun i j : Bool => (i != j) = true) := by
  refine ⟨fun i hi => ?_, fun h => h true (.tail (.single (b := false) rfl) rfl)⟩
  have : ∀ {i j}, Relation.TransGen (fun i j => Props.AsyncMulti.chain i j = true) i j → i.1 < j.1 := by
    intro i j h
    induction h with
    | single h => simp [Props.AsyncMulti.chain] at h; omega
    | tail _ h ih => simp [Props.AsyncMulti.chain] at h; omega
  exact absurd (this hi) (by omega)

end Verif.Props.AsyncCycles
