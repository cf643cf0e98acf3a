import Verif.Model.Threads
import Verif.Proof.CallsLive
import Verif.Proof.LockCallsLive
import Verif.Proof.Whole
/-!
# Threads calling helpers: what one step does on one field (helper lemmas)
-/

namespace Verif.Proof.Threads
open Verif.Spec Verif.Model Verif.Model.Args Verif.Model.Method Verif.Model.Threads

set_option linter.unusedSectionVars false

/-! ## Lazy fields -/

section
variable {V E : Type} {fal cl : Bool} {code : Kind → Option Body} {v₀ : Option V} {o o' : Calls.St V E} {p q : Nat}

/-- Nobody else moves. -/
theorem others (hi : Calls.Inv fal cl v₀ o) {a : Calls.Act V E} (hs : Calls.step code o p a = some o') (hq : q ≠ p) :
    o'.pc q = o.pc q ∧ o'.c.pc q = o.c.pc q := by
  by_cases ha : ∃ c, a = .call c
  · obtain ⟨c, rfl⟩ := ha
    simp only [Calls.step, Calls.invoke] at hs
    split at hs
    · simp only [Option.map_eq_some_iff] at hs
      obtain ⟨b, _, rfl⟩ := hs
      exact ⟨upd_other _ _ hq, rfl⟩
    · simp only [Option.bind_eq_some_iff, Option.map_eq_some_iff] at hs
      obtain ⟨op, _, c', hc, rfl⟩ := hs
      exact ⟨upd_other _ _ hq, Calls.invoke_others hc hq⟩
    · cases hs
  · exact (Calls.less_step hi (fun c hc => ha ⟨c, hc⟩) hs).2 q hq

/-- The helper which process `p` is in. -/
def kindOf : Calls.Pc V E → Option Kind
  | .run f _ _ | .wait f _ _ | .stop f _ => some f.kind
  | _ => none

/-- In a helper which takes the lock. -/
def busy (o : Calls.St V E) (p : Nat) : Bool :=
  match kindOf (o.pc p) with
  | some .predicate | none => false
  | _ => true

theorem settle_kind {f : Calls.Frame V E} {m todo} {c' : Sync.St V E} :
    kindOf ((Calls.settle o p f m todo c').pc p) = some f.kind := by
  have hn : (Calls.note o p f m todo o.c c').2.kind = f.kind := by
    unfold Calls.note
    split
    · split <;> rfl
    · rfl
  simp only [Calls.settle]
  split
  · simp [Calls.St.to, kindOf, hn]
  · split <;> simp [Calls.St.to, kindOf, hn]

theorem settleUse_kind {u : Calls.Call V} {dec} {c' : Sync.St V E} :
    kindOf ((Calls.settleUse o p u dec c').pc p) = none := by
  unfold Calls.settleUse
  cases Calls.decided o.c c' <;> cases Calls.answered o.c c' p <;> simp [Calls.St.to, Calls.St.ret, Calls.St.lin, kindOf]

/-- A process stays in its helper. -/
theorem kind_step {a : Calls.Act V E} (hs : Calls.step code o p a = some o') {k : Kind} (hk : kindOf (o'.pc p) = some k) :
    kindOf (o.pc p) = some k ∨ ∃ v b, a = .call (.helper k v b) := by
  cases a with
  | call c =>
    simp only [Calls.step, Calls.invoke] at hs
    split at hs
    · simp only [Option.map_eq_some_iff] at hs
      obtain ⟨b, _, rfl⟩ := hs
      simp only [Calls.St.begin, upd_same, kindOf, Option.some.injEq] at hk
      subst hk; exact .inr ⟨_, _, rfl⟩
    · simp only [Option.bind_eq_some_iff, Option.map_eq_some_iff] at hs
      obtain ⟨op, _, c', hc, rfl⟩ := hs
      simp [Calls.St.begin, kindOf] at hk
    · cases hs
  | go =>
    left
    simp only [Calls.step, Calls.go] at hs
    split at hs <;> rename_i hpc
    · cases hs
    · cases hs
    · rename_i f todo b
      rw [hpc]
      cases todo with
      | cons m todo =>
        simp only [Calls.goRun] at hs
        split at hs
        · split at hs <;> cases hs <;> simpa [Calls.St.to, Calls.St.lin, kindOf] using hk
        · split at hs
          · cases hs; simpa [Calls.St.to, kindOf] using hk
          · cases hs; simpa [Calls.St.to, kindOf] using hk
          · simp only [Option.map_eq_some_iff] at hs
            obtain ⟨c', _, rfl⟩ := hs
            simpa [Calls.St.to, kindOf] using hk
          · cases hs
      | nil =>
        simp only [Calls.goRun] at hs
        split at hs
        · cases hs; simpa [hpc, kindOf] using hk
        · split at hs
          · cases hs; simpa [Calls.St.to, kindOf] using hk
          · cases hs
            simp only [Calls.St.ret, upd_same] at hk
            split at hk <;> cases hk
    · simp only [Option.map_eq_some_iff] at hs
      obtain ⟨c', _, rfl⟩ := hs
      rw [settle_kind] at hk; rw [hpc]; exact hk
    · simp only [Option.map_eq_some_iff] at hs
      obtain ⟨c', _, rfl⟩ := hs
      rw [settleUse_kind] at hk; cases hk
    · split at hs
      · cases hs; simpa [hpc] using hk
      · cases hs; simp [Calls.St.ret, kindOf] at hk
  | finish r =>
    left
    simp only [Calls.step, Calls.finish] at hs
    split at hs <;> rename_i hpc
    · simp only [Option.map_eq_some_iff] at hs
      obtain ⟨c', _, rfl⟩ := hs
      rw [settle_kind] at hk; rw [hpc]; exact hk
    · cases hs
  | drop =>
    simp only [Calls.step, Calls.dropGuard] at hs
    split at hs
    · simp only [Option.map_eq_some_iff] at hs
      obtain ⟨c', _, rfl⟩ := hs
      simp [Calls.St.to, kindOf] at hk
    · cases hs

theorem busy_iff : busy o p = true ↔ ∃ k, kindOf (o.pc p) = some k ∧ k ≠ .predicate := by
  unfold busy
  cases kindOf (o.pc p) with
  | none => simp
  | some k => cases k <;> simp

theorem gone_iff : gone o p = true ↔ o.pc p = .idle := by
  unfold gone
  cases o.pc p <;> simp

theorem busy_step {a : Calls.Act V E} (hs : Calls.step code o p a = some o') (hb : busy o' p = true)
    (hg : gone o p = false) : busy o p = true := by
  rw [busy_iff] at hb ⊢
  obtain ⟨k, hk, hne⟩ := hb
  rcases kind_step hs hk with h | ⟨v, b, rfl⟩
  · exact ⟨k, h, hne⟩
  · simp only [Calls.step, Calls.invoke] at hs
    split at hs
    · rename_i hpc _
      rw [gone_iff.2 hpc] at hg; cases hg
    · simp [Calls.useOp] at hs
    · cases hs

/-- Operations of the container which take the lock. -/
def takes : Op V → Bool
  | .isSet | .deref _ | .assign _ _ | .store _ | .take => false
  | _ => true

theorem entered_takes {x : Sync.Pc V E} {v : Option V} {op : Op V} {dec} {g : Res V E → Res V E}
    (h : Mixed.entered x = true) (hu : Calls.Under v x op dec g) : takes op = true := by
  have hx : ∀ k : XKind V, takes k.op = true := by
    intro k
    cases k with
    | writer => rfl
    | put t => cases t <;> rfl
  cases x <;> simp [Mixed.entered, Mixed.running, Multi.building] at h <;>
    rcases hu with ⟨hu, _⟩ | ⟨_, hu, _⟩ <;> simp only [Sync.phaseAt, Phase.invoked.injEq, Phase.linearized.injEq, reduceCtorEq] at hu
  all_goals first
    | (rw [← hu]; first | rfl | exact hx _)
    | (rw [← hu.1]; rfl)

/-- Whoever has entered the container is in a helper which takes the lock. -/
theorem entered_busy (hi : Calls.Inv fal cl v₀ o) (h : Mixed.entered (o.c.pc p) = true) : busy o p = true := by
  have hl := hi.loc p
  rw [busy_iff]
  revert hl h
  generalize o.pc p = y
  generalize o.c.pc p = x
  generalize o.c.value = v
  intro h hl
  cases hl with
  | idle => cases h
  | keeps hg => cases x <;> simp [Calls.isGuard] at hg <;> cases h
  | start => cases h
  | dwait _ _ hj _ hu =>
    refine ⟨_, rfl, ?_⟩
    intro hk
    rw [hk] at hj
    have := entered_takes h hu
    cases hj; cases this
  | wwait _ hk => exact ⟨_, rfl, by rw [hk]; simp⟩
  | whave => cases h
  | ask => cases h
  | askErr => cases h
  | star => cases h
  | place => cases h
  | deref _ _ hk => exact ⟨_, rfl, by rw [hk]; simp⟩
  | wrap => cases h
  | fin _ _ _ hx =>
    rcases hx with rfl | hx
    · cases h
    · cases x <;> simp [Calls.isGuard] at hx <;> cases h
  | stop _ hx =>
    rcases hx with rfl | hx
    · cases h
    · cases x <;> simp [Calls.isGuard] at hx <;> cases h
  | use hm hn hu =>
    exfalso
    cases hm with
    | helper => exact hn _ _ _ rfl
    | _ => cases entered_takes h hu

/-- At the user in the helper, at the user in the container. -/
theorem user_user (hi : Calls.Inv fal cl v₀ o) (h : atUser o p = true) : Mixed.atUser (o.c.pc p) = true := by
  have hl := hi.loc p
  unfold atUser at h
  revert hl h
  generalize o.pc p = y
  generalize o.c.pc p = x
  generalize o.c.value = v
  intro h hl
  cases hl <;> simp at h
  case keeps hg => cases x <;> simp [Calls.isGuard] at hg <;> rfl
  all_goals cases x <;> simp [Multi.building] at h <;> rfl

theorem gone_gone (hi : Calls.Inv fal cl v₀ o) (h : gone o p = true) : o.c.pc p = .idle := by
  have hl := hi.loc p
  rw [gone_iff.1 h] at hl
  revert hl
  generalize o.c.pc p = x
  generalize o.c.value = v
  intro hl
  cases hl; rfl

/-- If the code of a helper cannot move then that of the container cannot. -/
theorem go_none (hi : Calls.Inv fal cl v₀ o) (hu : atUser o p = false) (hg : gone o p = false) (h : Calls.go o p = none) :
    o.c.pc p ≠ .idle ∧ Mixed.atUser (o.c.pc p) = false ∧ Sync.go o.c p = none := by
  have key : o.c.pc p ≠ .idle ∧ Calls.isGuard (o.c.pc p) = false → Multi.building (o.c.pc p) = false →
      Sync.go o.c p = none → o.c.pc p ≠ .idle ∧ Mixed.atUser (o.c.pc p) = false ∧ Sync.go o.c p = none := by
    rintro ⟨h1, h2⟩ h3 h4
    refine ⟨h1, ?_, h4⟩
    revert h2 h3 h4
    unfold Sync.go
    cases o.c.pc p <;> simp [Calls.isGuard, Multi.building, Mixed.atUser]
  cases hpc : o.pc p with
  | idle => rw [gone_iff.2 hpc] at hg; cases hg
  | keeps => simp [atUser, hpc] at hu
  | run f todo a => obtain ⟨s', hs⟩ := Calls.run_enabled hi hpc; rw [h] at hs; cases hs
  | stop f r => obtain ⟨s', hs⟩ := Calls.stop_enabled hpc; rw [h] at hs; cases hs
  | wait f m todo =>
    simp only [atUser, hpc] at hu
    simp only [Calls.go, hpc, Option.map_eq_none_iff] at h
    exact key (Calls.wait_busy hi (.inl ⟨f, m, todo, hpc⟩)) hu h
  | use u dec =>
    simp only [Calls.go, hpc, Option.map_eq_none_iff] at h
    refine key (Calls.wait_busy hi (.inr ⟨u, dec, hpc⟩)) ?_ h
    cases hb : Multi.building (o.c.pc p) with
    | false => rfl
    | true =>
      have := entered_busy (p := p) hi (by simp [Mixed.entered, hb])
      simp [busy, hpc, kindOf] at this

/-- Code of the library moves only where the user's does not. -/
theorem go_user (h : Calls.go o p = some o') : atUser o p = false := by
  unfold atUser
  unfold Calls.go at h
  split at h <;> rename_i hpc <;> simp only [hpc]
  · cases h
  · simp only [Option.map_eq_some_iff] at h
    obtain ⟨c', hc, _⟩ := h
    revert hc
    unfold Sync.go
    cases o.c.pc p <;> simp [Multi.building]

/-- A call which begins. -/
theorem call_inside {k : Kind} {v : V} {b : Bool} (hs : Calls.step code o p (.call (.helper k v b)) = some o') :
    gone o' p = false ∧ atUser o' p = false ∧ kindOf (o'.pc p) = some k ∧ o'.c = o.c ∧ o.pc p = .idle := by
  simp only [Calls.step, Calls.invoke] at hs
  split at hs
  · rename_i hpc hc
    cases hc
    simp only [Option.map_eq_some_iff] at hs
    obtain ⟨b, _, rfl⟩ := hs
    refine ⟨?_, ?_, ?_, rfl, hpc⟩ <;> simp [Calls.St.begin, gone, atUser, kindOf]
  · rename_i hc; simp [Calls.useOp] at hs
  · cases hs

theorem grows_note {f : Calls.Frame V E} {m todo} {c c' : Sync.St V E} :
    Whole.Grows o.log (Calls.note o p f m todo c c').1.log p := by
  unfold Calls.note
  split
  · split
    · exact .one fun c hc => by simp only [Whole.who, Option.some.injEq] at hc; subst hc; rfl
    · exact .nil
  · exact .nil

theorem grows_settle {f : Calls.Frame V E} {m todo} {c' : Sync.St V E} :
    Whole.Grows o.log (Calls.settle o p f m todo c').log p := by
  have h := grows_note (o := o) (p := p) (f := f) (m := m) (todo := todo) (c := o.c) (c' := c')
  simp only [Calls.settle]
  split
  · exact h
  · split <;> exact h

theorem grows_settleUse {u : Calls.Call V} {dec} {c' : Sync.St V E} :
    Whole.Grows o.log (Calls.settleUse o p u dec c').log p := by
  unfold Calls.settleUse
  cases Calls.decided o.c c' <;> cases Calls.answered o.c c' p
  · exact .nil
  · exact .one fun c hc => by simp only [Whole.who, Option.some.injEq] at hc; subst hc; rfl
  · exact .one fun c hc => by simp only [Whole.who, Option.some.injEq] at hc; subst hc; rfl
  · refine .two (fun c hc => ?_) fun c hc => ?_ <;>
      (simp only [Whole.who, Option.some.injEq] at hc; subst hc; rfl)

/-- The log grows by events of the process which moves. -/
theorem grows {a : Calls.Act V E} (hs : Calls.step code o p a = some o') : Whole.Grows o.log o'.log p := by
  have one : ∀ {e : LEv (Calls.Call V) (Res V E) Unit}, Whole.who e = some (o.me p) → Whole.Grows o.log (o.log ++ [e]) p :=
    fun h => .one fun c hc => by rw [h] at hc; cases hc; rfl
  cases a with
  | call c =>
    simp only [Calls.step, Calls.invoke] at hs
    split at hs
    · simp only [Option.map_eq_some_iff] at hs
      obtain ⟨b, _, rfl⟩ := hs
      exact one rfl
    · simp only [Option.bind_eq_some_iff, Option.map_eq_some_iff] at hs
      obtain ⟨op, _, c', hc, rfl⟩ := hs
      exact one rfl
    · cases hs
  | go =>
    simp only [Calls.step, Calls.go] at hs
    split at hs <;> rename_i hpc
    · cases hs
    · cases hs
    · rename_i f todo b
      cases todo with
      | cons m todo =>
        simp only [Calls.goRun] at hs
        split at hs
        · split at hs <;> cases hs
          · exact .nil
          · exact one rfl
        · split at hs
          · cases hs; exact .nil
          · cases hs; exact .nil
          · simp only [Option.map_eq_some_iff] at hs
            obtain ⟨c', _, rfl⟩ := hs
            exact .nil
          · cases hs
      | nil =>
        simp only [Calls.goRun] at hs
        split at hs
        · cases hs; exact .nil
        · split at hs
          · cases hs; exact .nil
          · cases hs; exact one rfl
    · simp only [Option.map_eq_some_iff] at hs
      obtain ⟨c', _, rfl⟩ := hs
      exact grows_settle
    · simp only [Option.map_eq_some_iff] at hs
      obtain ⟨c', _, rfl⟩ := hs
      exact grows_settleUse
    · split at hs
      · cases hs; exact .nil
      · cases hs; exact one rfl
  | finish r =>
    simp only [Calls.step, Calls.finish] at hs
    split at hs
    · simp only [Option.map_eq_some_iff] at hs
      obtain ⟨c', _, rfl⟩ := hs
      exact grows_settle
    · cases hs
  | drop =>
    simp only [Calls.step, Calls.dropGuard] at hs
    split at hs
    · simp only [Option.map_eq_some_iff] at hs
      obtain ⟨c', _, rfl⟩ := hs
      exact .nil
    · cases hs

end

/-! ## Lock-protected fields -/

section
variable {L W : Type} [DecidableEq L] {own cl : L → Bool} {code : L → Kind → Option Body} {eqv : Option W → Option W → Bool}
  {dep : L → L → Prop} {w₀ : L → Option W} {l l' : LockCalls.St L W} {t u : Nat}

/-- Fields whose locks a call takes. -/
def callFields : LockCalls.Call L W → List L
  | .helper i _ _ _ | .clone i => [i]
  | .eq i j => [i, j]
  | _ => []

/-- Fields whose locks the running call takes. -/
def pcFields : LockCalls.Pc L W → List L
  | .run f _ _ | .wait f _ _ | .stop f => [f.field]
  | .other c _ => callFields c
  | .idle => []

theorem lidle_iff (c : LockCalls.Pc L W) : idle c = true ↔ c = .idle := by cases c <;> simp [idle]

theorem lothers {a : LockCalls.Act L W} (hs : LockCalls.step code eqv l t a = some l') (hu : u ≠ t) :
    l'.pc u = l.pc u ∧ l'.c.held u = l.c.held u ∧ l'.c.pc u = l.c.pc u := by
  obtain ⟨h1, h2⟩ := LockCalls.others_stay hu hs
  refine ⟨h1, h2, ?_⟩
  cases a with
  | call call =>
    simp only [LockCalls.step, LockCalls.invoke] at hs
    split at hs
    · split at hs
      · split at hs
        · split at hs
          · cases hs; rfl
          · cases hs
        · cases hs
      · simp only [Option.bind_eq_some_iff, Option.map_eq_some_iff] at hs
        obtain ⟨op, _, c', hc', rfl⟩ := hs
        exact (LockCalls.step_other (eqv := eqv) (a := .call op) hc' hu).1
    · cases hs
  | go => exact ((LockCalls.hload_step (a := .go) rfl hs).2 u hu).2.2
  | panic => exact ((LockCalls.hload_step (a := .panic) rfl hs).2 u hu).2.2
  | drop g => exact ((LockCalls.hload_step (a := .drop g) rfl hs).2 u hu).2.2

theorem lsettle_fields {f : LockCalls.Frame L W} {m todo} {c' : Locks.St L (Option W)} :
    pcFields ((LockCalls.settle l t f m todo c').pc t) = [f.field] := by
  have hn := (LockCalls.note_frame l t f m todo l.c c').1
  simp only [LockCalls.settle]
  split
  · simp [LockCalls.St.to, pcFields, hn]
  · split <;> simp [LockCalls.St.to, pcFields, hn]

theorem lsettleOther_fields {c : LockCalls.Call L W} {dec} {c' : Locks.St L (Option W)} {k : L}
    (h : k ∈ pcFields ((LockCalls.settleOther l t c dec c').pc t)) : k ∈ callFields c := by
  revert h
  unfold LockCalls.settleOther
  cases LockCalls.decided l.c c' <;> cases LockCalls.answered l.c c' t <;>
    simp [LockCalls.St.to, LockCalls.St.ret, LockCalls.St.lin, pcFields]

theorem fields_step {a : LockCalls.Act L W} (hs : LockCalls.step code eqv l t a = some l') {k : L}
    (hk : k ∈ pcFields (l'.pc t)) : k ∈ pcFields (l.pc t) ∨ ∃ c, a = .call c ∧ k ∈ callFields c := by
  cases a with
  | call c =>
    right
    refine ⟨c, rfl, ?_⟩
    simp only [LockCalls.step, LockCalls.invoke] at hs
    split at hs
    · split at hs
      · split at hs
        · split at hs
          · cases hs; simpa [LockCalls.St.begin, pcFields, callFields] using hk
          · cases hs
        · cases hs
      · simp only [Option.bind_eq_some_iff, Option.map_eq_some_iff] at hs
        obtain ⟨op, _, c', hc', rfl⟩ := hs
        simpa [LockCalls.St.begin, pcFields] using hk
    · cases hs
  | go =>
    left
    simp only [LockCalls.step] at hs
    cases hpc : l.pc t with
    | idle => simp [LockCalls.go, hpc] at hs
    | wait f m todo =>
      simp only [LockCalls.go, hpc, Option.map_eq_some_iff] at hs
      obtain ⟨c', _, rfl⟩ := hs
      rw [lsettle_fields] at hk; exact hk
    | other u dec =>
      simp only [LockCalls.go, hpc, Option.map_eq_some_iff] at hs
      obtain ⟨c', _, rfl⟩ := hs
      exact lsettleOther_fields hk
    | stop f =>
      simp only [LockCalls.go, hpc] at hs
      split at hs
      · simp only [Option.map_eq_some_iff] at hs
        obtain ⟨c', _, rfl⟩ := hs
        simpa [LockCalls.St.to, pcFields] using hk
      · cases hs; simp [LockCalls.St.ret, pcFields] at hk
    | run f todo b =>
      simp only [LockCalls.go, hpc] at hs
      cases todo with
      | nil =>
        simp only [LockCalls.goRun] at hs
        split at hs
        · simp only [Option.map_eq_some_iff] at hs
          obtain ⟨c', _, rfl⟩ := hs
          simpa [LockCalls.St.to, pcFields] using hk
        · cases hs; simp [LockCalls.St.ret, pcFields] at hk
      | cons m todo =>
        simp only [LockCalls.goRun] at hs
        split at hs
        · cases hs; simpa [LockCalls.St.to, pcFields] using hk
        · split at hs
          · cases hs; simpa [LockCalls.St.to, pcFields] using hk
          · simp only [Option.map_eq_some_iff] at hs
            obtain ⟨c', _, rfl⟩ := hs
            simpa [LockCalls.St.to, pcFields] using hk
          · cases hs
  | panic =>
    left
    simp only [LockCalls.step, LockCalls.panics] at hs
    split at hs <;> rename_i hpc
    · simp only [Option.map_eq_some_iff] at hs
      obtain ⟨c', _, rfl⟩ := hs
      rw [hpc]; exact lsettleOther_fields hk
    · cases hs
  | drop g =>
    left
    simp only [LockCalls.step, LockCalls.dropGuard] at hs
    split at hs
    · simp only [Option.map_eq_some_iff] at hs
      obtain ⟨c', _, rfl⟩ := hs
      exact hk
    · cases hs

theorem job_targets {o c : Bool} {i : L} {v : W} {k : Kind} {ex : Bool} {m : MOp} {op : Memory.Op L (Option W)}
    (h : LockCalls.Job o c i v k ex m op) : Mixed.targets (LockCalls.begun op) = [] := by
  cases h <;> rfl

/-- The locks which the containers want are those of the running call. -/
theorem targets_fields (hi : LockCalls.Inv own cl eqv dep w₀ l) {k : L} (h : k ∈ Mixed.targets (l.c.pc t)) :
    k ∈ pcFields (l.pc t) := by
  have hl := hi.loc t
  revert hl h
  generalize l.pc t = y
  generalize l.c.pc t = x
  generalize l.c.held t = hd
  intro h hl
  cases hl with
  | idle | start | mid | «have» | fin | stop | stopped => simp [Mixed.targets] at h
  | @acq f ex _ _ _ _ _ hx =>
    cases ex
    · simp only [Bool.false_eq_true, if_false] at hx; subst hx; simpa [Mixed.targets, pcFields] using h
    · simp only [if_true] at hx
      rcases hx with rfl | rfl <;> simpa [Mixed.targets, pcFields] using h
  | call _ hj _ hx =>
    exfalso
    rcases hx with ⟨rfl, _⟩ | ⟨o, rfl, _⟩
    · rw [job_targets hj] at h; simp at h
    · simp [Mixed.targets] at h
  | other hm hop hx =>
    simp only [pcFields]
    have key : ∀ {op : Memory.Op L (Option W)}, Locks.phaseAt x = .invoked op ∨ (∃ r, Locks.phaseAt x = .linearized op r) →
        k ∈ Mixed.targets x → k ∈ Mixed.opTargets op := by
      intro op h1 h2
      cases x <;> simp [Mixed.targets] at h2 <;> rcases h1 with h1 | ⟨_, h1⟩ <;> simp [Locks.phaseAt] at h1 <;>
        subst h1 <;> simp [Mixed.opTargets, h2]
    have := key (by
      rcases hx with ⟨h1, _⟩ | ⟨r, h1, _⟩
      · exact .inl h1
      · exact .inr ⟨r, h1⟩) h
    cases hm <;> simpa [Mixed.opTargets, callFields] using this

/-- No call on the fields: none on the locks. -/
theorem lidle_idle (hi : LockCalls.Inv own cl eqv dep w₀ l) (h : l.pc t = .idle) : l.c.pc t = .idle := by
  have hl := hi.loc t
  rw [h] at hl
  revert hl
  generalize l.c.pc t = x
  generalize l.c.held t = hd
  intro hl
  cases hl; rfl

/-- If the code of a helper cannot move then the locks cannot. -/
theorem lgo_none (hi : LockCalls.Inv own cl eqv dep w₀ l) (hp : l.pc t ≠ .idle) (h : LockCalls.go eqv l t = none) :
    Locks.Stuck eqv l.c t := by
  cases hpc : l.pc t with
  | idle => exact absurd hpc hp
  | run f todo a =>
    obtain ⟨s', hs⟩ := LockCalls.run_enabled (code := fun _ _ => none) hi hpc
    simp only [LockCalls.step] at hs
    rw [h] at hs; cases hs
  | stop f =>
    obtain ⟨s', hs⟩ := LockCalls.stop_enabled (code := fun _ _ => none) hi hpc
    simp only [LockCalls.step] at hs
    rw [h] at hs; cases hs
  | wait f m todo =>
    simp only [LockCalls.go, hpc, Option.map_eq_none_iff] at h
    exact ⟨(LockCalls.busy_iff hi t).2 (.inl ⟨f, m, todo, hpc⟩), h⟩
  | other c dec =>
    simp only [LockCalls.go, hpc, Option.map_eq_none_iff] at h
    exact ⟨(LockCalls.busy_iff hi t).2 (.inr ⟨c, dec, hpc⟩), h⟩

theorem lnote_grows {f : LockCalls.Frame L W} {m todo} {c c' : Locks.St L (Option W)} :
    ∃ n, (LockCalls.note l t f m todo c c').1.log = l.log ++ n := by
  unfold LockCalls.note
  split
  · split
    · exact ⟨_, rfl⟩
    · exact ⟨[], (List.append_nil _).symm⟩
  · exact ⟨[], (List.append_nil _).symm⟩

theorem lsettle_grows {f : LockCalls.Frame L W} {m todo} {c' : Locks.St L (Option W)} :
    ∃ n, (LockCalls.settle l t f m todo c').log = l.log ++ n := by
  have h := lnote_grows (l := l) (t := t) (f := f) (m := m) (todo := todo) (c := l.c) (c' := c')
  simp only [LockCalls.settle]
  split
  · exact h
  · split <;> exact h

theorem lsettleOther_grows {c : LockCalls.Call L W} {dec} {c' : Locks.St L (Option W)} :
    ∃ n, (LockCalls.settleOther l t c dec c').log = l.log ++ n := by
  unfold LockCalls.settleOther
  cases LockCalls.decided l.c c' <;> cases LockCalls.answered l.c c' t
  · exact ⟨[], (List.append_nil _).symm⟩
  · exact ⟨_, rfl⟩
  · exact ⟨_, rfl⟩
  · exact ⟨_, List.append_assoc _ _ _⟩

theorem lgrows {a : LockCalls.Act L W} (hs : LockCalls.step code eqv l t a = some l') : ∃ n, l'.log = l.log ++ n := by
  have nil : ∃ n, l.log = l.log ++ n := ⟨[], (List.append_nil _).symm⟩
  cases a with
  | call c =>
    simp only [LockCalls.step, LockCalls.invoke] at hs
    split at hs
    · split at hs
      · split at hs
        · split at hs
          · cases hs; exact ⟨_, rfl⟩
          · cases hs
        · cases hs
      · simp only [Option.bind_eq_some_iff, Option.map_eq_some_iff] at hs
        obtain ⟨op, _, c', hc', rfl⟩ := hs
        exact ⟨_, rfl⟩
    · cases hs
  | go =>
    simp only [LockCalls.step] at hs
    cases hpc : l.pc t with
    | idle => simp [LockCalls.go, hpc] at hs
    | wait f m todo =>
      simp only [LockCalls.go, hpc, Option.map_eq_some_iff] at hs
      obtain ⟨c', _, rfl⟩ := hs
      exact lsettle_grows
    | other u dec =>
      simp only [LockCalls.go, hpc, Option.map_eq_some_iff] at hs
      obtain ⟨c', _, rfl⟩ := hs
      exact lsettleOther_grows
    | stop f =>
      simp only [LockCalls.go, hpc] at hs
      split at hs
      · simp only [Option.map_eq_some_iff] at hs
        obtain ⟨c', _, rfl⟩ := hs
        exact nil
      · cases hs; exact ⟨_, rfl⟩
    | run f todo b =>
      simp only [LockCalls.go, hpc] at hs
      cases todo with
      | nil =>
        simp only [LockCalls.goRun] at hs
        split at hs
        · simp only [Option.map_eq_some_iff] at hs
          obtain ⟨c', _, rfl⟩ := hs
          exact nil
        · cases hs; exact ⟨_, rfl⟩
      | cons m todo =>
        simp only [LockCalls.goRun] at hs
        split at hs
        · cases hs; exact ⟨_, rfl⟩
        · split at hs
          · cases hs; exact nil
          · simp only [Option.map_eq_some_iff] at hs
            obtain ⟨c', _, rfl⟩ := hs
            exact nil
          · cases hs
  | panic =>
    simp only [LockCalls.step, LockCalls.panics] at hs
    split at hs <;> rename_i hpc
    · simp only [Option.map_eq_some_iff] at hs
      obtain ⟨c', _, rfl⟩ := hs
      exact lsettleOther_grows
    · cases hs
  | drop g =>
    simp only [LockCalls.step, LockCalls.dropGuard] at hs
    split at hs
    · simp only [Option.map_eq_some_iff] at hs
      obtain ⟨c', _, rfl⟩ := hs
      exact nil
    · cases hs

/-- Weakening the order. -/
theorem lreach_mono {dep' : L → L → Prop} {c : Locks.St L (Option W)} (h : Locks.Reach eqv dep w₀ c) (hd : ∀ i j, dep i j → dep' i j) :
    Locks.Reach eqv dep' w₀ c := by
  induction h with
  | init => exact .init
  | @step s s' t a _ ha hs ih =>
    refine .step ih ?_ hs
    cases a with
    | call op => cases op <;> simp only [Locks.Allowed] at ha ⊢ <;> grind
    | _ => trivial

end

end Verif.Proof.Threads
