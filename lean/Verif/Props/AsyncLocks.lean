import Verif.Proof.AsyncLocksCycle
import Verif.Props.Mixed
import Verif.Props.Locks
import Verif.Proof.Cancel
/-!
# Lock-protected fields of async structs: C90, C91

Model: `Verif.Model.AsyncLocks`, any number of `FXRwLockAsync` containers (/repo/fieldx/src/async/fxlock.rs) and the helpers
which go straight to them (/repo/fieldx_derive/src/codegen/sync.rs). `Reach eqv dep v₀ s`: some schedule of any number of
tasks leads from contents `v₀` to `s`, where a task waits for `j` while holding `i` only if `dep i j`; `eqv` is the user's
`==`.
-/

namespace Verif.Props.AsyncLocks
open Verif.Spec Verif.Spec.Memory Verif.Model Verif.Model.AsyncLocks Verif.Proof Verif.Proof.AsyncLocks
open Verif.Props.Locks (legal_split eq_of_key)
open Verif.Props.Mixed (Acyclic)
open Verif.Model.Async (ALock)

variable {L V : Type} [DecidableEq L] {eqv : V → V → Bool} {dep : L → L → Prop} {v₀ : L → V} {s s' : St L V}

/-- Any order of locking. -/
abbrev anyOrder : L → L → Prop := fun _ _ => True

omit [DecidableEq L] in
theorem any_allowed {t : Nat} {a : Act L V} : Allowed anyOrder s t a := by
  unfold Allowed
  split <;> simp [anyOrder]

theorem reach_run {s₀ : St L V} (h₀ : Reach eqv anyOrder v₀ s₀) {sch : List (Nat × Act L V)}
    (h : run eqv s₀ sch = some s) : Reach eqv anyOrder v₀ s := by
  induction sch generalizing s₀ with
  | nil => simp [run] at h; exact h ▸ h₀
  | cons x sch ih =>
    obtain ⟨t, a⟩ := x
    simp only [run, Option.bind_eq_some_iff] at h
    obtain ⟨s₁, h1, h2⟩ := h
    exact ih (.step h₀ any_allowed h1) h2

/-! ## C90 lock-protected fields of async structs together are linearizable -/

/-- The calls on all containers together, comparisons of two of them included, are linearizable with respect to plain
memory. -/
theorem C90_linearizable (h : Reach eqv dep v₀ s) : Linearizable (Step eqv) v₀ (hist s.log) :=
  (log_reach h).1.linearizable (log_reach h).2

/-- Calls are answered at most once and only after they began. -/
theorem C90_wellFormed (h : Reach eqv dep v₀ s) : WellFormed (hist s.log) := (log_reach h).1.wellFormed

/-- The contents are those the calls, in their order, lead to. -/
theorem C90_contents (h : Reach eqv dep v₀ s) :
    ∃ ds : List (Done (Op L V) (Ret V)), Legal (Step eqv) v₀ ds s.val ∧
      ∀ c r, HEv.res c r ∈ hist s.log → ∃ op, (⟨c, op, r⟩ : Done (Op L V) (Ret V)) ∈ ds :=
  ⟨lins s.log, (log_reach h).2, fun c r hr => by
    obtain ⟨op, _, h2⟩ := (log_reach h).1.facts.res_lin c r hr
    exact ⟨op, h2⟩⟩

/-- An answered comparison compared two contents which were there at the same time. -/
theorem C90_eq_atomic (h : Reach eqv dep v₀ s) {c : CallId} {i j : L} {b : Bool}
    (hi : HEv.inv c (.eq i j) ∈ hist s.log) (hr : HEv.res c (.bool b) ∈ hist s.log) :
    ∃ (ds : List (Done (Op L V) (Ret V))) (σ : L → V), ds <+: lins s.log ∧ Legal (Step eqv) v₀ ds σ ∧
      b = eqv (σ i) (σ j) := by
  obtain ⟨op, h1, h2⟩ := (log_reach h).1.facts.res_lin c _ hr
  have hk := (C90_wellFormed h).once
  have hop : op = .eq i j := by
    have := eq_of_key hk h1 hi rfl
    simpa using this
  subst hop
  obtain ⟨σ, σ', l₁, l₂, h3, h4, h5⟩ := legal_split (log_reach h).2 h2
  refine ⟨l₁, σ, ⟨_, h3.symm⟩, h4, ?_⟩
  cases h5; rfl

/-- A call whose future was dropped neither took effect nor answered: the contents come from the other calls alone. -/
theorem C90_cancelled (h : Reach eqv dep v₀ s) {c : CallId} (hc : LEv.cancel c ∈ s.log) :
    (∀ r, HEv.res c r ∉ hist s.log) ∧ ∀ op r, (⟨c, op, r⟩ : Done (Op L V) (Ret V)) ∉ lins s.log := by
  obtain ⟨_, h1, h2⟩ := (log_reach h).1.cancelled hc
  exact ⟨fun r hr => h2 r (mem_hist_res.1 hr), fun op r hr => h1 op r (mem_lins.1 hr)⟩

/-- The calls fit together as if the cancelled ones had never been made. -/
theorem C90_cancelled_never_made (h : Reach eqv dep v₀ s) :
    WellFormed (without (abandoned s.log) (hist s.log)) ∧
      Linearizable (Step eqv) v₀ (without (abandoned s.log) (hist s.log)) := by
  obtain ⟨hD, hL⟩ := log_reach h
  exact ⟨keys_without hD.wellFormed, hD.linearizable_without hL⟩

/-- Dropping a future changes no content, no lock and no guard. -/
theorem C90_cancel_no_effect {t : Nat} (hs : step eqv s t .cancel = some s') :
    s'.val = s.val ∧ s'.lock = s.lock ∧ s'.held = s.held ∧ ∀ u, u ≠ t → s'.pc u = s.pc u := by
  simp only [step, cancel] at hs
  split at hs
  case h_5 => cases hs
  all_goals
    simp at hs; subst hs
    exact ⟨rfl, rfl, rfl, fun u hu => by simp [St.quit, St.leave, upd, hu]⟩

/-- What one step does to the content of a container: only the holder of its exclusive guard changes it. -/
theorem val_step (hc : Core s) {u : Nat} {a : Act L V} {i : L} (hs : step eqv s u a = some s') (hw : (s.lock i).wr ≠ some u) :
    s'.val i = s.val i := by
  have h4 := hc.wr i u
  simp only [hw, if_false] at h4
  cases a with
  | call op =>
    simp only [step, invoke] at hs
    split at hs
    · cases op <;> simp at hs
      case deref | assign => obtain ⟨_, rfl⟩ := hs; rfl
      all_goals subst hs; rfl
    · cases hs
  | panic =>
    simp only [step, panics] at hs
    split at hs <;> simp at hs <;> subst hs <;> rfl
  | cancel =>
    simp only [step, cancel] at hs
    split at hs <;> simp at hs <;> subst hs <;> rfl
  | drop g =>
    simp only [step, dropGuard] at hs
    split at hs
    · split at hs <;> simp at hs
      subst hs; rfl
    · cases hs
  | go =>
    simp only [step, go] at hs
    split at hs <;> rename_i hpc
    case h_1 => cases hs
    case h_2 | h_8 | h_9 | h_14 =>
      simp only [Option.map_eq_some_iff] at hs
      obtain ⟨m, hm, rfl⟩ := hs
      obtain ⟨_, _, rfl⟩ := shared_some hm
      rfl
    case h_5 | h_15 =>
      simp only [Option.map_eq_some_iff] at hs
      obtain ⟨m, hm, rfl⟩ := hs
      obtain ⟨_, _, _, rfl⟩ := exclusive_some hm
      rfl
    case h_6 k v =>
      simp at hs; subst hs
      by_cases hk : i = k
      · subst hk; rw [hpc] at h4; simp [owns] at h4
      · simp [St.lin, St.to, upd, hk]
    case h_17 k v =>
      simp at hs; subst hs
      by_cases hk : i = k
      · subst hk
        have := List.count_pos_iff.2 (hc.asg u i v hpc)
        omega
      · simp [St.lin, St.to, upd, hk]
    all_goals
      simp at hs; subst hs; rfl

theorem owner_of_guard (hc : Core s) {t : Nat} {i : L} (hg : (i, true) ∈ s.held t) : (s.lock i).wr = some t := by
  have h1 := hc.wr i t
  have h2 := List.count_pos_iff.2 hg
  by_cases hw : (s.lock i).wr = some t
  · exact hw
  · simp only [hw, if_false] at h1; omega

/-- While somebody keeps a reading guard the content does not change. -/
theorem C90_read_guard_stable {t u : Nat} {i : L} {a : Act L V} (h : Reach eqv dep v₀ s) (hg : (i, false) ∈ s.held t)
    (hs : step eqv s u a = some s') : s'.val i = s.val i := by
  have hc := core_reach h
  refine val_step hc hs ?_
  intro hw
  have h1 := (hc.no_reader (u := t) hw).2
  exact List.count_eq_zero.1 h1 hg

/-- A writing guard excludes every other guard on the container. -/
theorem C90_write_guard_alone {t u : Nat} {i : L} {m : Bool} (h : Reach eqv dep v₀ s) (hg : (i, true) ∈ s.held t)
    (hu : (i, m) ∈ s.held u) : u = t ∧ m = true ∧ (s.held t).count (i, true) = 1 := by
  have hc := core_reach h
  have hw := owner_of_guard hc hg
  cases m with
  | false => exact absurd hu (List.count_eq_zero.1 (hc.no_reader hw).2)
  | true =>
    have hwu := owner_of_guard hc hu
    have htu : u = t := by rw [hw] at hwu; simpa using hwu.symm
    refine ⟨htu, rfl, ?_⟩
    have h1 := hc.wr i t
    have h2 := List.count_pos_iff.2 hg
    simp only [hw, if_true] at h1
    omega

/-- While task `t` keeps a writing guard only `t` changes the content. -/
theorem C90_write_guard_stable {t u : Nat} {i : L} {a : Act L V} (h : Reach eqv dep v₀ s) (hg : (i, true) ∈ s.held t)
    (hut : u ≠ t) (hs : step eqv s u a = some s') : s'.val i = s.val i := by
  have hc := core_reach h
  refine val_step hc hs ?_
  rw [owner_of_guard hc hg]
  simpa using fun h => hut h.symm

/-- Containers of the examples: `false` and `true`, contents are numbers. -/
abbrev demoRun (sch : List (Nat × Act Bool Nat)) : Option (St Bool Nat) :=
  run (fun a b => a == b) (init fun b => if b then 2 else 1) sch

/-- Thread 0 compares, task 1 sets the first to 2 in the meantime and has to wait, task 2 wants to set it too and gives up. -/
def demo : List (Nat × Act Bool Nat) :=
  [(0, .call (.eq false true)), (0, .go), (1, .call (.swap false 2)), (2, .call (.swap false 7)), (0, .go), (0, .go), (0, .go),
   (2, .cancel), (0, .go), (0, .go), (1, .go), (1, .go), (1, .go), (1, .call (.eq false true)), (1, .go), (1, .go),
   (1, .go), (1, .go), (1, .go), (1, .go)]

-- two comparisons with a setter between them: different answers; the call which was given up has none
example : ∃ s, demoRun demo = some s ∧ hist s.log =
    [.inv ⟨0, 0⟩ (.eq false true), .inv ⟨1, 0⟩ (.swap false 2), .inv ⟨2, 0⟩ (.swap false 7), .res ⟨0, 0⟩ (.bool false),
     .res ⟨1, 0⟩ (.value 1), .inv ⟨1, 1⟩ (.eq false true), .res ⟨1, 1⟩ (.bool true)] ∧ LEv.cancel ⟨2, 0⟩ ∈ s.log ∧
    s.val false = 2 :=
  ⟨_, rfl, rfl, by decide, rfl⟩

-- a reader keeps a guard and looks; a setter comes in between and waits; later a writer writes through its guard
example : (∃ s, demoRun [(0, .call (.read false)), (0, .go), (1, .call (.swap false 9)), (0, .call (.deref false)),
      (0, .go), (0, .go)] = some s ∧ (false, false) ∈ s.held 0 ∧ HEv.res ⟨0, 1⟩ (.value 1) ∈ hist s.log ∧
      Stuck (fun a b => a == b) s 1) ∧
    ∃ s, demoRun [(0, .call (.write true)), (0, .go), (0, .call (.assign true 7)), (0, .go), (0, .go)] = some s ∧
      (true, true) ∈ s.held 0 ∧ s.val true = 7 :=
  ⟨⟨_, rfl, by decide, by decide, by decide, rfl⟩, _, rfl, by decide, rfl⟩

/-! ## C91 waiting for lock-protected fields of async structs -/

/-- Task `u` has a guard of container `i`. -/
def Holds (s : St L V) (u : Nat) (i : L) : Prop := u ∈ (s.lock i).shared ∨ (s.lock i).wr = some u

/-- Steps during which task `t` stays in the same waiting place `c`. -/
inductive Staying (eqv : V → V → Bool) (t : Nat) (c : Pc L V) : St L V → St L V → Prop where
  | refl {s : St L V} : s.pc t = c → Staying eqv t c s s
  | step {s m q : St L V} {u : Nat} {a : Act L V} : Staying eqv t c s m → step eqv m u a = some q → q.pc t = c →
      Staying eqv t c s q

/-- What a step does to a queue. -/
theorem queue_step {v : Nat} {a : Act L V} (hs : step eqv s v a = some s') (i : L) :
    s'.queue i = s.queue i ∨ s'.queue i = s.queue i ++ [v] ∨ s'.queue i = (s.queue i).erase v ∨
      s'.queue i = (s.queue i).erase v ++ [v] := by
  cases a with
  | call op =>
    simp only [step, invoke] at hs
    split at hs
    · cases op <;> simp at hs
      case deref | assign => obtain ⟨_, rfl⟩ := hs; exact .inl rfl
      all_goals
        subst hs
        simp only [St.begin, St.enter, upd]
        split
        · rename_i h; subst h; exact .inr (.inl rfl)
        · exact .inl rfl
    · cases hs
  | panic =>
    simp only [step, panics] at hs
    split at hs <;> simp at hs <;> subst hs <;> exact .inl rfl
  | cancel =>
    simp only [step, cancel] at hs
    split at hs
    case h_5 => cases hs
    all_goals
      simp at hs; subst hs
      simp only [St.quit, St.leave, upd]
      split
      · rename_i h; subst h; exact .inr (.inr (.inl rfl))
      · exact .inl rfl
  | drop g =>
    simp only [step, dropGuard] at hs
    split at hs
    · split at hs <;> simp at hs
      subst hs; exact .inl rfl
    · cases hs
  | go =>
    simp only [step, go] at hs
    split at hs <;> rename_i hpc
    case h_1 => cases hs
    case h_2 | h_9 | h_14 =>
      simp only [Option.map_eq_some_iff] at hs
      obtain ⟨m, hm, rfl⟩ := hs
      obtain ⟨_, _, rfl⟩ := shared_some hm
      simp only [St.to, St.ret, St.lin, St.keep, upd]
      split
      · rename_i h; subst h; exact .inr (.inr (.inl rfl))
      · exact .inl rfl
    case h_8 k j =>
      simp only [Option.map_eq_some_iff] at hs
      obtain ⟨m, hm, rfl⟩ := hs
      obtain ⟨_, _, rfl⟩ := shared_some hm
      simp only [St.to, St.enter, upd]
      by_cases h1 : i = j
      · subst h1
        by_cases h2 : i = k
        · subst h2; simp
        · simp [h2]
      · by_cases h2 : i = k
        · subst h2; simp [h1]
        · simp [h1, h2]
    case h_5 | h_15 =>
      simp only [Option.map_eq_some_iff] at hs
      obtain ⟨m, hm, rfl⟩ := hs
      obtain ⟨_, _, _, rfl⟩ := exclusive_some hm
      simp only [St.to, St.ret, St.lin, St.keep, upd]
      split
      · rename_i h; subst h; exact .inr (.inr (.inl rfl))
      · exact .inl rfl
    all_goals
      simp at hs; subst hs; exact .inl rfl

/-- Only the first of the queue gets a guard. -/
theorem gain_step {v u : Nat} {a : Act L V} {i : L} (hs : step eqv s v a = some s') (h : Holds s' u i) (hn : ¬ Holds s u i) :
    v = u ∧ (s.queue i).head? = some u := by
  have same : s'.lock i = s.lock i → False := by
    intro he
    apply hn
    unfold Holds at h ⊢
    rwa [he] at h
  have less : ∀ k, s'.lock = upd s.lock k ((s.lock k).dropShared v) ∨ s'.lock = upd s.lock k (s.lock k).dropWrite → False := by
    intro k he
    by_cases hk : i = k
    · subst hk
      apply hn
      unfold Holds at h ⊢
      rcases he with he | he
      · rw [he] at h
        simp only [upd_same, ALock.dropShared] at h
        exact h.imp List.mem_of_mem_erase id
      · rw [he] at h
        simp only [upd_same, ALock.dropWrite] at h
        exact .inl (h.resolve_right (by simp))
    · apply same
      rcases he with he | he <;> rw [he, upd_other _ _ hk]
  cases a with
  | call op =>
    simp only [step, invoke] at hs
    split at hs
    · cases op <;> simp at hs
      case deref | assign => obtain ⟨_, rfl⟩ := hs; exact (same rfl).elim
      all_goals subst hs; exact (same rfl).elim
    · cases hs
  | panic =>
    simp only [step, panics] at hs
    split at hs <;> simp at hs <;> subst hs <;> exact (same rfl).elim
  | cancel =>
    simp only [step, cancel] at hs
    split at hs <;> simp at hs <;> subst hs <;> exact (same rfl).elim
  | drop g =>
    simp only [step, dropGuard] at hs
    split at hs
    · split at hs <;> simp at hs
      subst hs
      refine (less g.1 ?_).elim
      obtain ⟨k, m⟩ := g
      cases m
      · exact .inl rfl
      · exact .inr rfl
    · cases hs
  | go =>
    have shr : ∀ {k : L} {m : St L V}, s.shared k v = some m → s'.lock = m.lock → v = u ∧ (s.queue i).head? = some u := by
      intro k m hm he
      obtain ⟨hq, hw, rfl⟩ := shared_some hm
      by_cases hk : i = k
      · subst hk
        unfold Holds at h
        rw [he] at h
        simp only [upd_same, List.mem_cons] at h
        rcases h with (h | h) | h
        · exact ⟨h.symm, by rw [h]; exact hq⟩
        · exact (hn (.inl h)).elim
        · cases h
      · exact (same (by rw [he]; exact upd_other _ _ hk)).elim
    have exc : ∀ {k : L} {m : St L V}, s.exclusive k v = some m → s'.lock = m.lock → v = u ∧ (s.queue i).head? = some u := by
      intro k m hm he
      obtain ⟨hq, hw, _, rfl⟩ := exclusive_some hm
      by_cases hk : i = k
      · subst hk
        unfold Holds at h
        rw [he] at h
        simp only [upd_same, List.not_mem_nil, false_or, Option.some.injEq] at h
        exact ⟨h, by rw [← h]; exact hq⟩
      · exact (same (by rw [he]; exact upd_other _ _ hk)).elim
    simp only [step, go] at hs
    split at hs <;> rename_i hpc
    case h_1 => cases hs
    case h_2 | h_8 | h_9 | h_14 =>
      simp only [Option.map_eq_some_iff] at hs
      obtain ⟨m, hm, rfl⟩ := hs
      exact shr hm rfl
    case h_5 | h_15 =>
      simp only [Option.map_eq_some_iff] at hs
      obtain ⟨m, hm, rfl⟩ := hs
      exact exc hm rfl
    case h_4 k r =>
      simp at hs; subst hs
      exact (less k (.inl rfl)).elim
    case h_12 j k r =>
      simp at hs; subst hs
      exact (less k (.inl rfl)).elim
    case h_13 k j r =>
      simp at hs; subst hs
      exact (less k (.inl rfl)).elim
    case h_7 k v r =>
      simp at hs; subst hs
      exact (less k (.inr rfl)).elim
    all_goals
      simp at hs; subst hs; exact (same rfl).elim

/-- A task which waits moves only by leaving its place. -/
theorem waiting_moves {t : Nat} {a : Act L V} {i : L} (hw : wants (s.pc t) = some i) (hs : step eqv s t a = some s') :
    s'.pc t ≠ s.pc t := by
  cases a with
  | call op =>
    simp only [step, invoke] at hs
    split at hs
    · rename_i hp; rw [hp] at hw; cases hw
    · cases hs
  | panic =>
    simp only [step, panics] at hs
    split at hs <;> rename_i hp
    case h_5 => cases hs
    all_goals rw [hp] at hw; cases hw
  | cancel =>
    simp only [step, cancel] at hs
    split at hs <;> rename_i hp
    case h_5 => cases hs
    all_goals simp at hs; subst hs; simp [hp, St.quit]
  | drop g =>
    simp only [step, dropGuard] at hs
    split at hs
    · rename_i hp; rw [hp] at hw; cases hw
    · cases hs
  | go =>
    simp only [step, go] at hs
    split at hs <;> rename_i hpc
    case h_1 => cases hs
    case h_2 | h_8 | h_9 | h_14 =>
      simp only [Option.map_eq_some_iff] at hs
      obtain ⟨m, hm, rfl⟩ := hs
      simp [hpc, St.to, St.ret]
    case h_5 | h_15 =>
      simp only [Option.map_eq_some_iff] at hs
      obtain ⟨m, hm, rfl⟩ := hs
      simp [hpc, St.to, St.ret]
    all_goals rw [hpc] at hw; cases hw

/-- First come, first served. While task `t` waits for a container nobody gets a guard of it who neither had one nor waited
for one when `t` came. -/
theorem C91_no_overtaking {t u : Nat} {i : L} {c : Pc L V} (h : Reach eqv dep v₀ s) (hc : wants c = some i)
    (hu : ¬ Holds s u i) (hw : wants (s.pc u) ≠ some i) (hst : Staying eqv t c s s') : ¬ Holds s' u i := by
  have key : ∀ {m : St L V}, Staying eqv t c s m →
      ¬ Holds m u i ∧ m.pc t = c ∧ ∃ pre post, m.queue i = pre ++ t :: post ∧ u ∉ pre ∧ u ≠ t := by
    intro m hm
    induction hm with
    | @refl hp =>
      have hcore := core_reach h
      have ht : t ∈ s.queue i := (queued hcore).2 (by rw [hp]; exact hc)
      obtain ⟨pre, post, hq⟩ := List.append_of_mem ht
      refine ⟨hu, hp, pre, post, hq, ?_, ?_⟩
      · intro hm
        exact hw ((queued hcore).1 (by rw [hq]; exact List.mem_append_left _ hm))
      · rintro rfl
        exact hw (by rw [hp]; exact hc)
    | @step m q v a _ hs hp ih =>
      obtain ⟨h1, h2, pre, post, h3, h4, h5⟩ := ih
      have hvt : v ≠ t := by
        rintro rfl
        exact waiting_moves (by rw [h2]; exact hc) hs (by rw [hp, h2])
      have hhead : (m.queue i).head? ≠ some u := by
        rw [h3]
        cases pre with
        | nil => simpa using fun h => h5 h.symm
        | cons x _ => simp only [List.cons_append, List.head?_cons]; intro h; cases h; exact h4 (.head _)
      refine ⟨fun hq => hhead (gain_step hs hq h1).2, hp, ?_⟩
      have herase : ∃ pre' post', (m.queue i).erase v = pre' ++ t :: post' ∧ u ∉ pre' := by
        rw [h3, List.erase_append]
        split
        · exact ⟨_, _, rfl, fun h => h4 (List.mem_of_mem_erase h)⟩
        · exact ⟨pre, post.erase v, by rw [List.erase_cons_tail (by simpa using fun h => hvt h.symm)], h4⟩
      rcases queue_step hs i with h6 | h6 | h6 | h6
      · exact ⟨pre, post, by rw [h6, h3], h4, h5⟩
      · exact ⟨pre, post ++ [v], by rw [h6, h3]; simp, h4, h5⟩
      · obtain ⟨pre', post', h7, h8⟩ := herase
        exact ⟨pre', post', by rw [h6, h7], h8, h5⟩
      · obtain ⟨pre', post', h7, h8⟩ := herase
        exact ⟨pre', post' ++ [v], by rw [h6, h7]; simp, h8, h5⟩
  exact (key hst).1

/-- Task 0 keeps a reading guard, task 1 wants to set. -/
def overtakeStart : St Bool Nat :=
  (run (fun a b => a == b) (init fun _ => 1) [(0, .call (.read false)), (0, .go), (1, .call (.swap false 9))]).getD
    (init fun _ => 1)

-- a setter waits behind a reading guard; a later reader waits too, although it could share the lock with the holder
example : ∃ s s' : St Bool Nat, Reach (fun a b => a == b) anyOrder (fun _ => 1) s ∧ wants (s.pc 1) = some false ∧
    ¬ Holds s 2 false ∧ wants (s.pc 2) ≠ some false ∧ Staying (fun a b => a == b) 1 (.xWait false 9) s s' ∧
    s'.pc 2 = .rWait false ∧ Holds s' 0 false ∧ Stuck (fun a b => a == b) s' 2 := by
  refine ⟨overtakeStart, _, reach_run (sch := [(0, .call (.read false)), (0, .go), (1, .call (.swap false 9))]) .init rfl,
    rfl, ?_, by decide, .step (u := 2) (a := .call (.read false)) (.refl rfl) rfl rfl, rfl, .inl (by decide), by decide, rfl⟩
  rintro (h | h) <;> revert h <;> decide

/-- If locks are taken in an order without cycles, every stuck task waits, through a chain of tasks, for one which can
move or which is at the user with a guard. -/
theorem C91_chain (hac : Acyclic dep) (h : Reach eqv dep v₀ s) {t : Nat}
    (ht : Stuck eqv s t) : ∃ u, Relation.TransGen (WaitsFor s) t u ∧ Inside s u ∧ ¬ Stuck eqv s u := by
  obtain ⟨i, hi, _⟩ := stuck_cases (core_reach h) ht
  exact chain (wants_wf hac h) (core_reach h) (ord_reach h) i t ht hi

/-- So there is no deadlock. -/
theorem C91_no_deadlock (hac : Acyclic dep) (h : Reach eqv dep v₀ s) : ¬ Deadlock eqv s := by
  rintro ⟨⟨t, ht⟩, hall⟩
  obtain ⟨u, _, h1, h2⟩ := C91_chain hac h (hall t ht)
  exact h2 (hall u h1)

/-- With a cycle there is one, whatever the contents at the beginning; so this is exactly when tasks can deadlock. -/
theorem C91_deadlock_iff : (∃ s : St L V, Reach eqv dep v₀ s ∧ Deadlock eqv s) ↔ ¬ Acyclic dep := by
  constructor
  · rintro ⟨s, h1, h2⟩ hac
    exact C91_no_deadlock hac h1 h2
  · intro h
    simp only [Acyclic, Classical.not_forall, Classical.not_not] at h
    obtain ⟨r, hr⟩ := h
    exact cycle_deadlock hr

/-- Steps left for a list of tasks. -/
def total (s : St L V) (ts : List Nat) : Nat := (ts.map (load s)).sum

theorem total_step {t : Nat} {a : Act L V} {ts : List Nat} (hn : ts.Nodup) (ht : t ∈ ts) (ha : quiet a = true)
    (hs : step eqv s t a = some s') : total s' ts < total s ts := by
  obtain ⟨h1, h2⟩ := load_step ha hs
  have h3 : ∀ u, u ≠ t → load s' u = load s u := fun u hu => by simp [load, (h2 u hu).1, (h2 u hu).2]
  unfold total
  clear hs h2
  induction ts with
  | nil => cases ht
  | cons x ts ih =>
    simp only [List.map_cons, List.sum_cons]
    rw [List.nodup_cons] at hn
    by_cases hx : x = t
    · subst hx
      have : ts.map (load s') = ts.map (load s) := by
        apply List.map_congr_left
        intro u hu
        exact h3 u (by rintro rfl; exact hn.1 hu)
      rw [this]; omega
    · have := ih hn.2 (by rcases List.mem_cons.1 ht with rfl | h; exact absurd rfl hx; exact h)
      rw [h3 x hx]; omega

/-- Every call completes: once nothing new is begun, whatever steps are taken in whatever order, after at most six steps
for each call and one for each guard nothing is left to do, and then everybody is out. `ts` lists the tasks that are
inside. -/
theorem C91_every_call_completes (hac : Acyclic dep) (h : Reach eqv dep v₀ s) {ts : List Nat}
    (hn : ts.Nodup) (hts : ∀ t, t ∉ ts → ¬ Inside s t) {sch : List (Nat × Act L V)}
    (hq : ∀ x ∈ sch, quiet x.2 = true) (hr : run eqv s sch = some s') :
    sch.length ≤ (ts.map fun t => 6 + (s.held t).length).sum ∧
    ((∀ t a, quiet a = true → step eqv s' t a = none) → ∀ t, ¬ Inside s' t) := by
  have hmain : ∀ (sch : List (Nat × Act L V)) (s : St L V), Reach eqv dep v₀ s → (∀ t, t ∉ ts → ¬ Inside s t) →
      (∀ x ∈ sch, quiet x.2 = true) → run eqv s sch = some s' → sch.length ≤ total s ts ∧ Reach eqv dep v₀ s' := by
    intro sch
    induction sch with
    | nil => intro s h _ _ hr; simp [run] at hr; exact ⟨by simp, hr ▸ h⟩
    | cons x sch ih =>
      intro s h hts hq hr
      obtain ⟨t, a⟩ := x
      simp only [run, Option.bind_eq_some_iff] at hr
      obtain ⟨s₁, h1, h2⟩ := hr
      have ha : quiet a = true := hq (t, a) (.head _)
      have hld := load_step ha h1
      have ht : t ∈ ts := by
        apply Classical.byContradiction
        intro ht
        have hni := hts t ht
        simp only [Inside, not_or, Classical.not_not] at hni
        have : load s t = 0 := by simp [load, hni.1, hni.2, left]
        omega
      have hal : Allowed dep s t a := by cases a <;> first | cases ha; done | trivial
      obtain ⟨h3, h4⟩ := ih s₁ (.step h hal h1) (fun u hu hi => by
          have hut : u ≠ t := by rintro rfl; exact hu ht
          refine hts u hu ?_
          simpa [Inside, (hld.2 u hut).1, (hld.2 u hut).2] using hi)
        (fun x hx => hq x (.tail _ hx)) h2
      have := total_step hn ht ha h1
      exact ⟨by simp only [List.length_cons]; omega, h4⟩
  obtain ⟨h1, h2⟩ := hmain sch s h hts hq hr
  refine ⟨Nat.le_trans h1 ?_, ?_⟩
  · unfold total
    clear hn hts h1 hmain
    induction ts with
    | nil => simp
    | cons x ts ih =>
      simp only [List.map_cons, List.sum_cons]
      have : load s x ≤ 6 + (s.held x).length := by
        have := left_le (s.pc x)
        simp only [load]; omega
      omega
  · intro hend t ht
    have move : ∀ u, Inside s' u → ¬ Stuck eqv s' u → False := by
      intro u hu hs
      by_cases hp : s'.pc u = .idle
      · rcases hu with hu | hu
        · exact hu hp
        · obtain ⟨g, hg⟩ := List.exists_mem_of_ne_nil _ hu
          have := hend u (.drop g) rfl
          simp [step, dropGuard, hp, hg] at this
      · exact hs ⟨hp, hend u .go rfl⟩
    by_cases hs : Stuck eqv s' t
    · obtain ⟨u, _, h3, h4⟩ := C91_chain hac h2 hs
      exact move u h3 h4
    · exact move t ht hs

/-- Without writers nobody waits long: the first of every queue can move. -/
theorem C91_readers_never_wait (h : Reach eqv dep v₀ s)
    (hw : ∀ t i, wantsAlone (s.pc t) = false ∧ owns (s.pc t) ≠ some i ∧ (i, true) ∉ s.held t) {t : Nat} {i : L}
    (hq : (s.queue i).head? = some t) : ¬ Stuck eqv s t := by
  intro ht
  have hc := core_reach h
  have hi : wants (s.pc t) = some i := (queued hc).1 (List.mem_of_head? hq)
  obtain ⟨k, h1, h2⟩ := stuck_cases hc ht
  rw [hi] at h1; cases h1
  rcases h2 with ⟨u, rest, h2, h3⟩ | ⟨_, u, hu⟩ | ⟨_, h2, _⟩
  · rw [h2] at hq
    simp only [List.head?_cons, Option.some.injEq] at hq
    subst hq
    have := hc.que i u
    rw [if_pos hi, h2, List.count_cons_self] at this
    have := List.count_pos_iff.2 h3
    omega
  · have := hc.wr i u
    rw [if_pos hu, List.count_eq_zero.2 (hw u i).2.2] at this
    simp [(hw u i).2.1] at this
  · rw [(hw t i).1] at h2; cases h2

/-- A container compared with itself while another task sets it: both wait for ever. -/
theorem C91_self_comparison_deadlocks : ∃ (v₀ : Bool → Nat) (s : St Bool Nat),
    Reach (fun a b => a == b) anyOrder v₀ s ∧ Deadlock (fun a b => a == b) s ∧
    HEv.inv ⟨0, 0⟩ (.eq false false) ∈ hist s.log ∧ s.held 0 = [] ∧ s.held 1 = [] := by
  refine ⟨fun b => if b then 2 else 1, _, reach_run (sch := [(0, .call (.eq false false)), (1, .call (.swap false 5)),
    (0, .go)]) .init rfl, ⟨⟨0, .inl (by decide)⟩, ?_⟩, by decide, rfl, rfl⟩
  intro t ht
  match t with
  | 0 => exact ⟨by decide, rfl⟩
  | 1 => exact ⟨by decide, rfl⟩
  | n + 2 => rcases ht with h | h <;> exact absurd rfl h

/-- A task which keeps a reading guard reads again while another one waits to write: both wait for ever. -/
theorem C91_reading_twice_deadlocks : ∃ (v₀ : Bool → Nat) (s : St Bool Nat),
    Reach (fun a b => a == b) anyOrder v₀ s ∧ Deadlock (fun a b => a == b) s ∧
    s.held 0 = [(false, false)] ∧ s.pc 0 = .rWait false ∧ s.held 1 = [] := by
  refine ⟨fun b => if b then 2 else 1, _, reach_run (sch := [(0, .call (.read false)), (0, .go), (1, .call (.swap false 5)),
    (0, .call (.read false))]) .init rfl, ⟨⟨0, .inl (by decide)⟩, ?_⟩, rfl, rfl, rfl⟩
  intro t ht
  match t with
  | 0 => exact ⟨by decide, rfl⟩
  | 1 => exact ⟨by decide, rfl⟩
  | n + 2 => rcases ht with h | h <;> exact absurd rfl h

/-- Two threads compare two objects in opposite directions, two tasks set them: all four wait for ever. -/
theorem C91_crossing_deadlocks : ∃ (v₀ : Bool → Nat) (s : St Bool Nat),
    Reach (fun a b => a == b) anyOrder v₀ s ∧ Deadlock (fun a b => a == b) s ∧
    HEv.inv ⟨0, 0⟩ (.eq false true) ∈ hist s.log ∧ HEv.inv ⟨1, 0⟩ (.eq true false) ∈ hist s.log ∧
    ∀ t, s.held t = [] := by
  refine ⟨fun b => if b then 2 else 1, _, reach_run (sch := [(0, .call (.eq false true)), (1, .call (.eq true false)),
    (2, .call (.swap false 5)), (3, .call (.swap true 5)), (0, .go), (1, .go)])
    .init rfl, ⟨⟨0, .inl (by decide)⟩, ?_⟩, by decide, by decide, fun _ => rfl⟩
  intro t ht
  match t with
  | 0 => exact ⟨by decide, rfl⟩
  | 1 => exact ⟨by decide, rfl⟩
  | 2 => exact ⟨by decide, rfl⟩
  | 3 => exact ⟨by decide, rfl⟩
  | n + 4 => rcases ht with h | h <;> exact absurd rfl h

-- the hypotheses can be met: a comparison in order, held up by a setter, which is held up by nobody
example : Acyclic Props.Locks.firstSecond ∧ ∃ s, Reach (fun a b => a == b) Props.Locks.firstSecond (fun _ => 1) s ∧
    Stuck (fun a b => a == b) s 0 ∧ WaitsFor s 0 1 ∧ ∀ t, t ∉ [0, 1] → ¬ Inside s t := by
  refine ⟨?_, _, .step (t := 0) (a := .go) (.step (t := 1) (a := .go) (.step (t := 1) (a := .call (.swap true 5))
    (.step (t := 0) (a := .call (.eq false true)) .init ⟨by simp [init], rfl, rfl⟩ rfl) (by intro g hg; cases hg) rfl)
    trivial rfl) trivial rfl, ⟨by decide, rfl⟩, .owner (i := true) rfl rfl rfl, ?_⟩
  · have key : ∀ {a b}, Relation.TransGen Props.Locks.firstSecond a b → a = false ∧ b = true := by
      intro a b h
      induction h with
      | single h => exact h
      | tail _ h ih => exact ⟨ih.1, h.2⟩
    intro r hr
    have := key hr
    rw [this.1] at this
    cases this.2
  · intro t ht
    match t with
    | 0 => simp at ht
    | 1 => simp at ht
    | n + 2 => rintro (h | h) <;> exact h rfl

-- and so can those of the iff: the order "any" on two containers has cycles
example : ¬ Acyclic (anyOrder : Bool → Bool → Prop) := fun h => h true (.single trivial)

end Verif.Props.AsyncLocks
