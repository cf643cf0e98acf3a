import Verif.Props.Threads
import Verif.Props.Multi
/-!
# Nobody is refused: C105, sync structs

The theorems about schedules (C01 to C10, C47, C59 to C61, C88, C96, C97, C100, C101) speak about the steps there are. Here:
there are all the steps there should be. Whoever runs code of the user can begin any operation, use and drop the guards kept,
end a builder in any way; code of the library goes on unless it waits for a lock, and waits only while the lock says so.
-/

namespace Verif.Props.Receptive
open Verif.Spec Verif.Model Verif.Model.Args Verif.Model.Method

set_option linter.unusedSectionVars false

/-- The step exists. -/
def Can {α : Type} (o : Option α) : Prop := ∃ a, o = some a

/-- What may be called where: operations on the container from outside, operations on a guard with that guard. -/
def MayCall {V E : Type} (c : Sync.Pc V E) : Op V → Prop
  | .get _ | .set _ | .clear | .writer | .isSet | .snapshot => c = .idle
  | .store _ | .take => ∃ g, c = .gWrite g
  | .deref g => c = .gRead g ∨ c = .gMut g
  | .assign g _ => c = .gMut g

/-- Keeps a guard. -/
def Keeps {V E : Type} (c : Sync.Pc V E) : Prop := ∃ g, c = .gRead g ∨ c = .gMut g ∨ c = .gWrite g

/-- In its builder. -/
def Builds {V E : Type} (c : Sync.Pc V E) : Prop := ∃ k, c = .rBuild k

/-- What code of the library waits for: the end of exclusive and upgradable holders, of shared holders, of exclusive ones. -/
def LockSays {V E : Type} (l : Lock) : Sync.Pc V E → Prop
  | .rStart _ | .xStart _ => l.wr = none ∧ l.upg = none
  | .rUpg _ | .rUpg2 _ _ | .xWait _ => l.shared = []
  | .sStart => l.wr = none
  | _ => True

section
variable {V E : Type}

/-- **C105.** One lazy container: what can happen to a process is exactly what its place in the code calls for. -/
theorem C105_sync {v₀ : Option V} {s : Sync.St V E} (h : Sync.Reach v₀ s) (p : Nat) :
    (∀ op, Can (Sync.step s p (.call op)) ↔ MayCall (s.pc p) op) ∧
    (∀ o, Can (Sync.step s p (.finish o)) ↔ Builds (s.pc p)) ∧
    (Can (Sync.step s p .drop) ↔ Keeps (s.pc p)) ∧
    (Can (Sync.step s p .go) ↔ s.pc p ≠ .idle ∧ ¬ Builds (s.pc p) ∧ ¬ Keeps (s.pc p) ∧ LockSays s.lk (s.pc p)) := by
  have hub : s.pc p ≠ .ub := by
    intro hu
    have := (Proof.Sync.core_reach h).mem p
    rw [hu] at this; exact this
  refine ⟨fun op => ?_, fun o => ?_, ?_, ?_⟩
  · unfold Can
    simp only [Sync.step, Sync.invoke]
    cases hp : s.pc p <;> cases op <;> simp [MayCall, eq_comm]
  · unfold Can Builds
    simp only [Sync.step, Sync.builderReturns]
    cases hp : s.pc p <;> cases o <;> simp
  · unfold Can Keeps
    simp only [Sync.step, Sync.dropGuard]
    cases hp : s.pc p <;> simp
  · unfold Can Builds Keeps
    simp only [Sync.step, Sync.go]
    cases hp : s.pc p with
    | ub => exact absurd hp hub
    | rStart k => simp [LockSays, Lock.tryUpgradable]
    | xStart k => simp [LockSays, Lock.claim]
    | sStart => simp [LockSays, Lock.tryShared]
    | rUpg k => simp [LockSays, Lock.drained]
    | rUpg2 k r => simp [LockSays, Lock.drained]
    | xWait k => simp [LockSays, Lock.drained]
    | rReady k r => cases k <;> simp [LockSays]
    | xHave x => cases x <;> simp [LockSays]
    | rHaveU k => cases s.value <;> simp [LockSays]
    | rHaveW k => cases s.value <;> simp [LockSays]
    | rMap k r => cases s.value <;> simp [LockSays]
    | gDeref g m => cases s.value <;> simp [LockSays]
    | gAsg g v => cases s.value <;> simp [LockSays]
    | _ => simp [LockSays]

/-- A process with the number of nobody is outside. -/
theorem pc_free {keep : Bool} {F : Type} [DecidableEq F] {dep : F → F → Prop} {v₀ : F → Option V} {s : Multi.St F V E}
    (h : Multi.Reach dep keep v₀ s) (i : F) : (s.obj i).pc s.next = .idle := by
  have hi := Proof.Multi.inv_reach h
  cases hg : Multi.gone ((s.obj i).pc s.next) with
  | false =>
    obtain ⟨t, ht⟩ := hi.owner i _ hg
    have := (hi.inside _ _ _ ht).1
    omega
  | true =>
    revert hg
    cases (s.obj i).pc s.next <;> simp [Multi.gone]

/-! ### Locks -/

/-- What may be called by a thread outside of calls: what takes a lock always, what needs a guard with that guard. -/
def LockMayCall {L W : Type} (held : List (L × Bool)) : Memory.Op L W → Prop
  | .deref i => (i, false) ∈ held ∨ (i, true) ∈ held
  | .assign i _ => (i, true) ∈ held
  | _ => True

/-- What a call waits for. -/
def LocksSay {L W : Type} (l : L → Lock) : Locks.Pc L W → Prop
  | .gWait i | .rWait i | .eWait1 i _ | .eWait2 _ i => (l i).wr = none
  | .xWait i _ | .wWait i => (l i).wr = none ∧ (l i).upg = none
  | .xDrain i _ | .wDrain i => (l i).shared = []
  | _ => True

/-- Code of the user runs inside a call: `clone`, `into`, `==`. -/
def InUser {L W : Type} : Locks.Pc L W → Prop
  | .gHave _ | .xHave _ _ | .eHave _ _ | .eMid _ _ _ => True
  | _ => False

/-- **C105.** Lock-protected containers: what can happen to a thread is exactly what its place in the code calls for. -/
theorem C105_locks {L W : Type} [DecidableEq L] (eqv : W → W → Bool) (s : Locks.St L W) (t : Nat) :
    (∀ op, Can (Locks.step eqv s t (.call op)) ↔ s.pc t = .idle ∧ LockMayCall (s.held t) op) ∧
    (∀ g, Can (Locks.step eqv s t (.drop g)) ↔ s.pc t = .idle ∧ g ∈ s.held t) ∧
    (Can (Locks.step eqv s t .panic) ↔ InUser (s.pc t)) ∧
    (Can (Locks.step eqv s t .go) ↔ s.pc t ≠ .idle ∧ LocksSay s.lock (s.pc t)) := by
  refine ⟨fun op => ?_, fun g => ?_, ?_, ?_⟩
  · unfold Can
    simp only [Locks.step, Locks.invoke]
    cases hp : s.pc t <;> cases op <;> simp [LockMayCall]
  · unfold Can
    simp only [Locks.step, Locks.dropGuard]
    cases hp : s.pc t <;> simp
  · unfold Can
    simp only [Locks.step, Locks.panics]
    cases hp : s.pc t <;> simp [InUser]
  · unfold Can
    simp only [Locks.step, Locks.go]
    cases hp : s.pc t <;> simp [LocksSay, Lock.tryShared, Lock.claim, Lock.drained]

/-! ### Helpers -/

/-- What may be done with the guard which a helper returned. -/
def MayUse {V E : Type} (c : Sync.Pc V E) : Spec.Calls.Call V → Prop
  | .deref => ∃ g, c = .gRead g ∨ c = .gMut g
  | .assign _ => ∃ g, c = .gMut g
  | .store _ | .take => ∃ g, c = .gWrite g
  | .helper _ _ _ => False

/-- Who is in a builder is in a helper. -/
theorem builds_waits {fal cl : Bool} {y : Calls.Pc V E} {z : Sync.Pc V E} {w : Option V}
    (hl : Proof.Calls.Loc fal cl y z w) (hb : Builds z) : ∃ f m todo, y = .wait f m todo := by
  obtain ⟨k, rfl⟩ := hb
  cases hl with
  | dwait => exact ⟨_, _, _, rfl⟩
  | wwait => exact ⟨_, _, _, rfl⟩
  | deref => exact ⟨_, _, _, rfl⟩
  | keeps h => simp [Proof.Calls.isGuard] at h
  | fin _ _ _ h => simp [Proof.Calls.isGuard] at h
  | stop _ h => simp [Proof.Calls.isGuard] at h
  | use h1 h2 h3 =>
    exfalso
    unfold Proof.Calls.Under at h3
    simp [Proof.Sync.phaseAt] at h3
    cases h1 <;> simp_all

/-- The part of the user. -/
theorem calls_user {fal cl : Bool} {code : Kind → Option Body} {v₀ : Option V} {s : Calls.St V E}
    (hi : Proof.Calls.Inv fal cl v₀ s) (p : Nat) :
    (s.pc p = .idle → ∀ k v boom, Can (Calls.step code s p (.call (.helper k v boom))) ↔ ∃ b, code k = some b) ∧
    (s.pc p = .keeps → Keeps (s.c.pc p) ∧ Can (Calls.step code s p .drop) ∧
      ∀ u, Can (Calls.step code s p (.call u)) ↔ MayUse (s.c.pc p) u) ∧
    ∀ o, Can (Calls.step code s p (.finish o)) ↔ Builds (s.c.pc p) := by
  have hl := hi.loc p
  obtain ⟨c1, c2, c3, c4⟩ := C105_sync hi.reach p
  have hg : ∀ {y : Sync.Pc V E}, Proof.Calls.isGuard y = true → Keeps y := by
    intro y hy; unfold Keeps; cases y <;> simp_all [Proof.Calls.isGuard]
  have hu : ∀ {y : Sync.Pc V E} {v : Option V} {op dec f}, Proof.Calls.Under v y op dec f → y ≠ .idle ∧ ¬ Keeps y := by
    intro y v op dec f hy
    unfold Proof.Calls.Under at hy
    unfold Keeps
    cases y <;> simp_all [Proof.Sync.phaseAt]
  refine ⟨fun hp k v boom => ?_, fun hp => ?_, fun o => ?_⟩
  · unfold Can
    simp only [Calls.step, Calls.invoke, hp]
    cases code k <;> simp
  · rw [hp] at hl
    have hk : Keeps (s.c.pc p) := by
      generalize s.c.pc p = y at hl ⊢
      generalize s.c.value = w at hl
      cases hl with
      | keeps h => exact hg h
    refine ⟨hk, ?_, fun u => ?_⟩
    · obtain ⟨c', hc⟩ := c3.2 hk
      exact ⟨_, by simp only [Calls.step, Calls.dropGuard, hp]; rw [show Sync.dropGuard s.c p = some c' from hc]; rfl⟩
    · unfold Can
      simp only [Calls.step, Calls.invoke, hp]
      unfold Keeps at hk
      obtain ⟨g, hk | hk | hk⟩ := hk <;> rw [hk] <;> cases u <;> simp [Calls.useOp, MayUse, Sync.invoke, hk]
  · unfold Can
    simp only [Calls.step, Calls.finish]
    have hb := c2 o
    unfold Can at hb
    simp only [Sync.step] at hb
    constructor
    · intro hh
      split at hh
      · obtain ⟨a, ha⟩ := hh
        obtain ⟨c', hc, _⟩ := Option.map_eq_some_iff.1 ha
        exact hb.1 ⟨c', hc⟩
      · obtain ⟨a, ha⟩ := hh; cases ha
    · intro hh
      obtain ⟨c', hc⟩ := hb.2 hh
      obtain ⟨k, hk⟩ := hh
      obtain ⟨f, m, todo, hw⟩ := builds_waits hl ⟨k, hk⟩
      rw [hw, hc]; exact ⟨_, rfl⟩

/-- **C105.** Helpers of a lazy field: outside of calls every helper there is can be called; a guard can be used as it allows,
and dropped; the builder can end in any way; a helper goes on unless the container it calls waits. -/
theorem C105_calls {x : FCtx} {code : Kind → Option Body} {v₀ : Option V} {s : Calls.St V E}
    (hx : Props.Calls.LazyField x code) (h : Calls.Reach code v₀ s) (p : Nat) :
    (s.pc p = .idle → ∀ k v boom, Can (Calls.step code s p (.call (.helper k v boom))) ↔ ∃ b, code k = some b) ∧
    (s.pc p = .keeps → Keeps (s.c.pc p) ∧ Can (Calls.step code s p .drop) ∧
      ∀ u, Can (Calls.step code s p (.call u)) ↔ MayUse (s.c.pc p) u) ∧
    (∀ o, Can (Calls.step code s p (.finish o)) ↔ Builds (s.c.pc p)) ∧
    (Can (Calls.step code s p .go) ↔ s.pc p ≠ .idle ∧ s.pc p ≠ .keeps ∧ ¬ Builds (s.c.pc p) ∧
      LockSays s.c.lk (s.c.pc p)) := by
  have hi := Proof.Calls.inv_reach (Props.Calls.shapes hx) h
  have hl := hi.loc p
  obtain ⟨c1, c2, c3, c4⟩ := C105_sync hi.reach p
  have hg : ∀ {y : Sync.Pc V E}, Proof.Calls.isGuard y = true → Keeps y := by
    intro y hy; unfold Keeps; cases y <;> simp_all [Proof.Calls.isGuard]
  have hu : ∀ {y : Sync.Pc V E} {v : Option V} {op dec f}, Proof.Calls.Under v y op dec f → y ≠ .idle ∧ ¬ Keeps y := by
    intro y v op dec f hy
    unfold Proof.Calls.Under at hy
    unfold Keeps
    cases y <;> simp_all [Proof.Sync.phaseAt]
  obtain ⟨u1, u2, u3⟩ := calls_user (code := code) hi p
  refine ⟨u1, u2, u3, ?_⟩
  · by_cases hrun : (∃ f todo a, s.pc p = .run f todo a) ∨ ∃ f r, s.pc p = .stop f r
    · have hc := Props.Calls.C96_never_stuck hx h hrun
      refine ⟨fun _ => ?_, fun _ => hc⟩
      have hout : s.c.pc p = .idle ∨ Keeps (s.c.pc p) := by
        generalize s.c.pc p = y at hl ⊢
        generalize s.c.value = w at hl
        rcases hrun with ⟨f, todo, a, hr⟩ | ⟨f, r, hr⟩ <;> rw [hr] at hl <;> cases hl <;>
          first
          | exact .inl rfl
          | exact .inr (hg rfl)
          | (rename_i h1 _; rcases h1 with h1 | h1
             · exact .inl h1
             · exact .inr (hg h1))
          | (rename_i h1; rcases h1 with h1 | h1
             · exact .inl h1
             · exact .inr (hg h1))
      refine ⟨?_, ?_, ?_, ?_⟩
      · rcases hrun with ⟨f, todo, a, hr⟩ | ⟨f, r, hr⟩ <;> rw [hr] <;> simp
      · rcases hrun with ⟨f, todo, a, hr⟩ | ⟨f, r, hr⟩ <;> rw [hr] <;> simp
      · rintro ⟨k, hk⟩
        rw [hk] at hout
        rcases hout with h1 | ⟨g, h1 | h1 | h1⟩ <;> cases h1
      · rcases hout with h1 | ⟨g, h1 | h1 | h1⟩ <;> rw [h1] <;> trivial
    · have hin : s.pc p = .idle ∨ s.pc p = .keeps ∨ (s.c.pc p ≠ .idle ∧ ¬ Keeps (s.c.pc p)) := by
        generalize s.c.pc p = y at hl ⊢
        generalize s.c.value = w at hl
        generalize s.pc p = z at hl hrun ⊢
        cases hl with
        | idle => exact .inl rfl
        | keeps => exact .inr (.inl rfl)
        | dwait _ _ _ _ h => exact .inr (.inr (hu h))
        | wwait _ _ _ _ h =>
          exact .inr (.inr (by unfold Keeps; cases y <;> simp_all [Proof.Sync.phaseAt]))
        | deref _ _ _ _ _ h => exact .inr (.inr (by unfold Keeps; rcases h with rfl | rfl <;> simp))
        | use _ _ h => exact .inr (.inr (hu h))
        | stop => exact absurd (.inr ⟨_, _, rfl⟩) hrun
        | _ => exact absurd (.inl ⟨_, _, _, rfl⟩) hrun
      have hgo : Can (Calls.step code s p .go) ↔ s.pc p ≠ .idle ∧ s.pc p ≠ .keeps ∧ Can (Sync.step s.c p .go) := by
        unfold Can
        simp only [Calls.step, Calls.go, Sync.step]
        cases hz : s.pc p with
        | idle => simp
        | keeps => simp
        | run => exact absurd (.inl ⟨_, _, _, hz⟩) hrun
        | stop => exact absurd (.inr ⟨_, _, hz⟩) hrun
        | wait => cases Sync.go s.c p <;> simp
        | use => cases Sync.go s.c p <;> simp
      rw [hgo, c4]
      constructor
      · rintro ⟨h1, h2, _, h4, _, h6⟩; exact ⟨h1, h2, h4, h6⟩
      · rintro ⟨h1, h2, h3, h4⟩
        rcases hin with h | h | h
        · exact absurd h h1
        · exact absurd h h2
        · exact ⟨h1, h2, h.1, h3, h.2, h4⟩

/-- The part of the user. -/
theorem lock_calls_user {L W : Type} [DecidableEq L] {x : L → FCtx} {code : L → Kind → Option Body}
    {eqv : Option W → Option W → Bool} {dep : L → L → Prop} {w₀ : L → Option W} {s : LockCalls.St L W} {own cl : L → Bool}
    (hx : Props.LockCalls.LockFields x code) (hi : Proof.LockCalls.Inv own cl eqv dep w₀ s) {p : Nat} (hp : s.pc p = .idle) :
    (∀ i k v boom, Can (LockCalls.step code eqv s p (.call (.helper i k v boom))) ↔ ∃ b, code i k = some b) ∧
    (∀ i, Can (LockCalls.step code eqv s p (.call (.clone i)))) ∧
    (∀ i j, Can (LockCalls.step code eqv s p (.call (.eq i j)))) ∧
    (∀ i, Can (LockCalls.step code eqv s p (.call (.deref i))) ↔ (i, false) ∈ s.c.held p ∨ (i, true) ∈ s.c.held p) ∧
    (∀ i o, Can (LockCalls.step code eqv s p (.call (.assign i o))) ↔ (i, true) ∈ s.c.held p) ∧
    ∀ g, Can (LockCalls.step code eqv s p (.drop g)) ↔ g ∈ s.c.held p := by
  have hl := hi.loc p
  have hid : s.c.pc p = .idle := by
    rw [hp] at hl
    generalize s.c.pc p = y at hl ⊢
    generalize s.c.held p = w at hl
    cases hl; rfl
  refine ⟨fun i k v boom => ⟨?_, ?_⟩, fun i => ?_, fun i j => ?_, fun i => ?_, fun i o => ?_, fun g => ?_⟩
  · rintro ⟨a, ha⟩
    simp only [LockCalls.step, LockCalls.invoke, hp] at ha
    cases hb : code i k with
    | none => rw [hb] at ha; cases ha
    | some b => exact ⟨b, rfl⟩
  · rintro ⟨b, hb⟩; exact Props.LockCalls.C97_callable hx s hp hb v boom
  all_goals
    unfold Can
    simp [LockCalls.step, LockCalls.invoke, LockCalls.dropGuard, LockCalls.otherOp, Locks.invoke, Locks.dropGuard, hp, hid]

/-- Who is in the user's code in a call on a lock can panic there. -/
theorem lock_calls_ends {L W : Type} [DecidableEq L] {code : L → Kind → Option Body}
    {eqv : Option W → Option W → Bool} {dep : L → L → Prop} {w₀ : L → Option W} {s : LockCalls.St L W} {own cl : L → Bool}
    (hi : Proof.LockCalls.Inv own cl eqv dep w₀ s) (p : Nat) :
    Can (LockCalls.step code eqv s p .panic) ↔ InUser (s.c.pc p) := by
  have hl := hi.loc p
  have hj : ∀ {ow c : Bool} {i : L} {o k ex m} {op : Memory.Op L (Option W)}, Proof.LockCalls.Job ow c i o k ex m op →
      ∀ {x : Locks.Pc L (Option W)}, (x = Proof.LockCalls.begun op ∨ ∃ r, x = .used op r) → ¬ InUser x := by
    intro ow c i o k ex m op h1 x h2
    rcases h2 with rfl | ⟨r, rfl⟩
    · cases h1 <;> simp [Proof.LockCalls.begun, InUser]
    · simp [InUser]
  obtain ⟨_, _, c3, _⟩ := C105_locks eqv s.c p
  unfold Can at c3 ⊢
  simp only [Locks.step] at c3
  have hm : ∀ {A B : Type} {o : Option A} {f : A → B}, (∃ a, o.map f = some a) ↔ ∃ a, o = some a := by
    intro A B o f; cases o <;> simp
  have hout : ∀ {x : Locks.Pc L (Option W)}, x = .idle → ¬ InUser x := by
    rintro x rfl; simp [InUser]
  simp only [LockCalls.step, LockCalls.panics]
  cases hz : s.pc p with
  | other u dec => simp only; rw [hm]; exact c3
  | wait f m todo =>
    rw [hz] at hl
    simp only [reduceCtorEq, exists_false, false_iff]
    generalize s.c.pc p = y at hl
    generalize s.c.held p = w at hl
    cases hl with
    | @acq _ ex _ _ _ _ _ h =>
      cases ex <;> simp at h
      · rw [h]; simp [InUser]
      · rcases h with h | h <;> rw [h] <;> simp [InUser]
    | call _ h1 _ h =>
      refine hj h1 ?_
      rcases h with ⟨h, _⟩ | ⟨o, h, _⟩
      · exact .inl h
      · exact .inr ⟨_, h⟩
  | idle =>
    rw [hz] at hl
    have : s.c.pc p = .idle := by
      generalize s.c.pc p = y at hl ⊢
      generalize s.c.held p = w at hl
      cases hl; rfl
    simpa using hout this
  | run =>
    rw [hz] at hl
    have : s.c.pc p = .idle := by
      generalize s.c.pc p = y at hl ⊢
      generalize s.c.held p = w at hl
      cases hl <;> rfl
    simpa using hout this
  | stop =>
    rw [hz] at hl
    have : s.c.pc p = .idle := by
      generalize s.c.pc p = y at hl ⊢
      generalize s.c.held p = w at hl
      cases hl <;> rfl
    simpa using hout this

/-- **C105.** Helpers of lock-protected fields: outside of calls every helper there is can be called, every field cloned and
compared, every guard used as it allows, and dropped; a call goes on unless the lock it calls makes it wait;
the user's `clone` and `==` may panic. -/
theorem C105_lock_calls {L W : Type} [DecidableEq L] {x : L → FCtx} {code : L → Kind → Option Body}
    {eqv : Option W → Option W → Bool} {dep : L → L → Prop} {w₀ : L → Option W} {s : LockCalls.St L W}
    (hx : Props.LockCalls.LockFields x code) (h : LockCalls.Reach code eqv dep w₀ s) (p : Nat) :
    (s.pc p = .idle →
      (∀ i k v boom, Can (LockCalls.step code eqv s p (.call (.helper i k v boom))) ↔ ∃ b, code i k = some b) ∧
      (∀ i, Can (LockCalls.step code eqv s p (.call (.clone i)))) ∧
      (∀ i j, Can (LockCalls.step code eqv s p (.call (.eq i j)))) ∧
      (∀ i, Can (LockCalls.step code eqv s p (.call (.deref i))) ↔ (i, false) ∈ s.c.held p ∨ (i, true) ∈ s.c.held p) ∧
      (∀ i o, Can (LockCalls.step code eqv s p (.call (.assign i o))) ↔ (i, true) ∈ s.c.held p) ∧
      ∀ g, Can (LockCalls.step code eqv s p (.drop g)) ↔ g ∈ s.c.held p) ∧
    (Can (LockCalls.step code eqv s p .go) ↔ s.pc p ≠ .idle ∧ LocksSay s.c.lock (s.c.pc p)) ∧
    (Can (LockCalls.step code eqv s p .panic) ↔ InUser (s.c.pc p)) := by
  have hi := Props.LockCalls.inv hx h
  have hl := hi.loc p
  obtain ⟨_, _, _, c4⟩ := C105_locks eqv s.c p
  refine ⟨lock_calls_user hx hi, ?_, lock_calls_ends hi p⟩
  · by_cases hrun : (∃ f todo a, s.pc p = .run f todo a) ∨ ∃ f, s.pc p = .stop f
    · have hc := Props.LockCalls.C97_never_stuck hx h hrun
      refine ⟨fun _ => ?_, fun _ => hc⟩
      have hout : s.c.pc p = .idle := by
        generalize s.c.pc p = y at hl ⊢
        generalize s.c.held p = w at hl
        rcases hrun with ⟨f, todo, a, hr⟩ | ⟨f, hr⟩ <;> rw [hr] at hl <;> cases hl <;> rfl
      refine ⟨?_, by rw [hout]; trivial⟩
      rcases hrun with ⟨f, todo, a, hr⟩ | ⟨f, hr⟩ <;> rw [hr] <;> simp
    · have hin : s.pc p = .idle ∨ s.c.pc p ≠ .idle := by
        generalize s.c.pc p = y at hl ⊢
        generalize s.c.held p = w at hl
        generalize s.pc p = z at hl hrun ⊢
        cases hl with
        | idle => exact .inl rfl
        | @acq f ex rest _ _ _ _ h =>
          right; cases ex <;> simp at h
          · rw [h]; simp
          · rcases h with h | h <;> rw [h] <;> simp
        | @call f _ _ _ _ _ h1 _ h =>
          right
          rcases h with ⟨h, _⟩ | ⟨o, h, _⟩
          · rw [h]; generalize f.field = i at h1; generalize f.kind = k at h1; cases h1 <;> simp [Proof.LockCalls.begun]
          · rw [h]; simp
        | other _ _ h =>
          right; rintro rfl
          simp [Proof.Locks.phaseAt] at h
        | stop => exact absurd (.inr ⟨_, rfl⟩) hrun
        | stopped => exact absurd (.inr ⟨_, rfl⟩) hrun
        | _ => exact absurd (.inl ⟨_, _, _, rfl⟩) hrun
      have hgo : Can (LockCalls.step code eqv s p .go) ↔ s.pc p ≠ .idle ∧ Can (Locks.step eqv s.c p .go) := by
        unfold Can
        simp only [LockCalls.step, LockCalls.go, Locks.step]
        cases hz : s.pc p with
        | idle => simp
        | run => exact absurd (.inl ⟨_, _, _, hz⟩) hrun
        | stop => exact absurd (.inr ⟨_, hz⟩) hrun
        | wait => cases Locks.go eqv s.c p <;> simp
        | other => cases Locks.go eqv s.c p <;> simp
      rw [hgo, c4]
      constructor
      · rintro ⟨h1, _, h3⟩; exact ⟨h1, h3⟩
      · rintro ⟨h1, h3⟩
        rcases hin with h | h
        · exact absurd h h1
        · exact ⟨h1, h, h3⟩

/-! ### Many fields -/

/-- Operations on a container. -/
def OnContainer : Op V → Prop
  | .get _ | .set _ | .clear | .writer | .isSet | .snapshot => True
  | _ => False

/-- **C105.** Threads with lazy fields: outside of everything, and in a builder, every operation on every field can begin, also
while keeping a guard where that is allowed; guards can be used as they allow and dropped; builders can end in any way. -/
theorem C105_multi {F : Type} [DecidableEq F] {dep : F → F → Prop} {keep : Bool} {v₀ : F → Option V} {s : Multi.St F V E}
    (h : Multi.Reach dep keep v₀ s) (t : Nat) :
    (s.stack t = [] → ∀ j op, OnContainer op → Can (Multi.step keep s t (.call j op))) ∧
    ∀ i p rest, s.stack t = (i, p) :: rest →
      (Builds ((s.obj i).pc p) ∨ keep = true ∧ Keeps ((s.obj i).pc p) → ∀ j op, OnContainer op →
        Can (Multi.step keep s t (.call j op))) ∧
      (∀ op, Can (Multi.step keep s t (.use op)) ↔ MayCall ((s.obj i).pc p) op) ∧
      (∀ o, Can (Multi.step keep s t (.finish o)) ↔ Builds ((s.obj i).pc p)) ∧
      (Can (Multi.step keep s t .drop) ↔ Keeps ((s.obj i).pc p)) ∧
      (Can (Multi.step keep s t .go) ↔ (s.obj i).pc p ≠ .idle ∧ ¬ Builds ((s.obj i).pc p) ∧ ¬ Keeps ((s.obj i).pc p) ∧
        LockSays (s.obj i).lk ((s.obj i).pc p)) := by
  have hf := pc_free h
  have hcall : Multi.userTurn keep s t = true → ∀ j op, OnContainer op → Can (Multi.step keep s t (.call j op)) := by
    intro hu j op hop
    unfold Can
    cases op <;> simp [OnContainer] at hop <;> simp [Multi.step, hu, Sync.invoke, hf]
  refine ⟨fun he => hcall (by simp [Multi.userTurn, he]), fun i p rest he => ?_⟩
  obtain ⟨c1, c2, c3, c4⟩ := C105_sync ((Proof.Multi.inv_reach h).obj i) p
  have hm : ∀ {o : Option (Sync.St V E)} {f : Sync.St V E → Multi.St F V E}, Can (o.map f) ↔ Can o := by
    intro o f; unfold Can; cases o <;> simp
  refine ⟨fun hu => hcall ?_, fun op => ?_, fun o => ?_, ?_, ?_⟩
  · simp only [Multi.userTurn, he]
    rcases hu with ⟨k, hk⟩ | ⟨hk, g, hg | hg | hg⟩
    · simp [hk, Multi.building]
    all_goals simp [hk, hg, Multi.holding]
  · rw [← c1]; simp only [Multi.step, he]; exact hm
  · rw [← c2 o]; simp only [Multi.step, he]; exact hm
  · rw [← c3]; simp only [Multi.step, he]; exact hm
  · rw [← c4]; simp only [Multi.step, he]; exact hm

/-- A thread at its own code: each of its calls on lazy fields is in its builder, or returned a guard, or is in `clone`, `==`
or `fmt` of the content, and it is in no call on a lock. -/
def Own {F L W : Type} (s : Mixed.St F L V W E) (t : Nat) : Prop :=
  (∀ f ∈ s.stack t, Builds ((s.obj f.1).pc f.2) ∨ Keeps ((s.obj f.1).pc f.2) ∨ (s.obj f.1).pc f.2 = .sHave) ∧
  s.lk.pc t = .idle

/-- **C105.** Threads with lazy and lock-protected fields: from its own code a thread can begin every operation on every field,
use and drop every guard it has, and end the innermost builder in any way. -/
theorem C105_mixed {F L W : Type} [DecidableEq F] [DecidableEq L] {eqv : W → W → Bool} {dep : F ⊕ L → F ⊕ L → Prop}
    {v₀ : F → Option V} {w₀ : L → W} {s : Mixed.St F L V W E} (h : Mixed.Reach eqv dep v₀ w₀ s) {t : Nat} (ht : Own s t) :
    (∀ j op, OnContainer op → Can (Mixed.step eqv s t (.call j op))) ∧
    (∀ f ∈ s.stack t, ∀ op, Can (Mixed.step eqv s t (.use f op)) ↔ MayCall ((s.obj f.1).pc f.2) op) ∧
    (∀ f ∈ s.stack t, Can (Mixed.step eqv s t (.drop f)) ↔ Keeps ((s.obj f.1).pc f.2)) ∧
    (∀ o, Can (Mixed.step eqv s t (.finish o)) ↔ ∃ f ∈ s.stack t, Builds ((s.obj f.1).pc f.2)) ∧
    (∀ op, Can (Mixed.step eqv s t (.lock (.call op))) ↔ LockMayCall (s.lk.held t) op) ∧
    ∀ g, Can (Mixed.step eqv s t (.lock (.drop g))) ↔ g ∈ s.lk.held t := by
  have hi := Proof.Mixed.inv_reach h
  have hf := Proof.Mixed.fresh hi
  have hrest : Mixed.atRest s t = true := by
    unfold Mixed.atRest
    rw [List.all_eq_true]
    intro f hf
    rcases ht.1 f hf with ⟨k, hk⟩ | ⟨g, hk | hk | hk⟩ | hk <;> rw [hk] <;> rfl
  have hturn : Mixed.turn s t = true := by simp [Mixed.turn, hrest, ht.2, Mixed.idle]
  have hm : ∀ {o : Option (Sync.St V E)} {f : Sync.St V E → Mixed.St F L V W E}, Can (o.map f) ↔ Can o := by
    intro o f; unfold Can; cases o <;> simp
  have hm' : ∀ {o : Option (Locks.St L W)} {f : Locks.St L W → Mixed.St F L V W E}, Can (o.map f) ↔ Can o := by
    intro o f; unfold Can; cases o <;> simp
  obtain ⟨l1, l2, _, _⟩ := C105_locks eqv s.lk t
  refine ⟨fun j op hop => ?_, fun f hs op => ?_, fun f hs => ?_, fun o => ?_, fun op => ?_, fun g => ?_⟩
  · unfold Can
    cases op <;> simp [OnContainer] at hop <;> simp [Mixed.step, hturn, Sync.invoke, hf]
  · rw [← (C105_sync (hi.obj f.1) f.2).1 op]
    simp only [Mixed.step, hs, hturn, true_and, if_true]; exact hm
  · rw [← (C105_sync (hi.obj f.1) f.2).2.2.1]
    simp only [Mixed.step, hs, hturn, true_and, if_true]; exact hm
  · simp only [Mixed.step, hturn, if_true]
    cases hin : Mixed.innermost s t with
    | none =>
      constructor
      · rintro ⟨a, ha⟩; cases ha
      · rintro ⟨f, hs, k, hk⟩
        have := List.find?_eq_none.1 hin f hs
        rw [hk] at this; simp [Multi.building] at this
    | some f =>
      have hb : Builds ((s.obj f.1).pc f.2) := by
        have := List.find?_some hin
        unfold Builds
        revert this
        cases (s.obj f.1).pc f.2 <;> simp [Multi.building]
      refine ⟨fun _ => ⟨f, List.mem_of_find?_eq_some hin, hb⟩, fun _ => ?_⟩
      exact hm.2 (((C105_sync (hi.obj f.1) f.2).2.1 o).2 hb)
  · simp only [Mixed.step, hrest, if_true]
    rw [hm', l1]; simp [ht.2]
  · simp only [Mixed.step, hrest, if_true]
    rw [hm', l2]; simp [ht.2]

/-- A thread at its own code: each helper of a lazy field it has called is in the builder or returned a guard, and it is in no
helper of a lock-protected field. -/
def OwnCode {F L W : Type} (s : Threads.St F L V W E) (t : Nat) : Prop :=
  (∀ f ∈ s.stack t, Builds ((s.obj f.1).c.pc f.2) ∨ (s.obj f.1).pc f.2 = .keeps) ∧ s.lk.pc t = .idle

/-- **C105.** Threads calling the helpers of all fields: from its own code a thread can call every helper there is, use and drop
every guard it has, and end the innermost builder in any way. -/
theorem C105_threads {F L W : Type} [DecidableEq F] [DecidableEq L] {x : F → FCtx} {y : L → FCtx}
    {lazyCode : F → Kind → Option Body} {lockCode : L → Kind → Option Body} {eqv : Option W → Option W → Bool}
    {dep : F ⊕ L → F ⊕ L → Prop} {v₀ : F → Option V} {w₀ : L → Option W} {s : Threads.St F L V W E}
    (hx : Props.Threads.Fields x y lazyCode lockCode) (h : Threads.Reach lazyCode lockCode eqv dep v₀ w₀ s) {t : Nat}
    (ht : OwnCode s t) :
    (∀ j k v boom, Can (Threads.step lazyCode lockCode eqv s t (.call j k v boom)) ↔ ∃ b, lazyCode j k = some b) ∧
    (∀ f ∈ s.stack t, (s.obj f.1).pc f.2 = .keeps →
      (∀ u, Can (Threads.step lazyCode lockCode eqv s t (.use f u)) ↔ MayUse ((s.obj f.1).c.pc f.2) u) ∧
      Can (Threads.step lazyCode lockCode eqv s t (.drop f))) ∧
    (∀ o, Can (Threads.step lazyCode lockCode eqv s t (.finish o)) ↔ ∃ f ∈ s.stack t, Builds ((s.obj f.1).c.pc f.2)) ∧
    (∀ i k v boom, Can (Threads.step lazyCode lockCode eqv s t (.lock (.call (.helper i k v boom)))) ↔
      ∃ b, lockCode i k = some b) ∧
    (∀ i, Can (Threads.step lazyCode lockCode eqv s t (.lock (.call (.clone i))))) ∧
    (∀ i j, Can (Threads.step lazyCode lockCode eqv s t (.lock (.call (.eq i j))))) ∧
    (∀ i, Can (Threads.step lazyCode lockCode eqv s t (.lock (.call (.deref i)))) ↔
      (i, false) ∈ s.lk.c.held t ∨ (i, true) ∈ s.lk.c.held t) ∧
    (∀ i o, Can (Threads.step lazyCode lockCode eqv s t (.lock (.call (.assign i o)))) ↔ (i, true) ∈ s.lk.c.held t) ∧
    ∀ g, Can (Threads.step lazyCode lockCode eqv s t (.lock (.drop g))) ↔ g ∈ s.lk.c.held t := by
  have hi := Proof.Threads.inv_reach (Props.Threads.good hx) h
  have hrest : Threads.atRest s t = true := by
    unfold Threads.atRest
    rw [List.all_eq_true]
    intro f hf
    unfold Threads.atUser
    rcases ht.1 f hf with hk | hk
    · obtain ⟨f1, m, todo, hw⟩ := builds_waits ((hi.obj f.1).loc f.2) hk
      obtain ⟨k, hk⟩ := hk
      rw [hw]; simp only [hk]; rfl
    · rw [hk]
  have hturn : Threads.turn s t = true := by simp [Threads.turn, hrest, ht.2, Threads.idle]
  have hf : ∀ i, (s.obj i).pc s.next = .idle := by
    intro i
    cases hg : Threads.gone (s.obj i) s.next with
    | false =>
      obtain ⟨u, hu⟩ := hi.owner i _ hg
      have := (hi.inside _ _ _ hu).1
      omega
    | true =>
      revert hg
      unfold Threads.gone
      cases (s.obj i).pc s.next <;> simp
  have hm : ∀ {o : Option (Calls.St V E)} {f : Calls.St V E → Threads.St F L V W E}, Can (o.map f) ↔ Can o := by
    intro o f; unfold Can; cases o <;> simp
  have hm' : ∀ {o : Option (LockCalls.St L W)} {f : LockCalls.St L W → Threads.St F L V W E}, Can (o.map f) ↔ Can o := by
    intro o f; unfold Can; cases o <;> simp
  have hlk : ∀ a, Can (Threads.step lazyCode lockCode eqv s t (.lock a)) ↔ Can (LockCalls.step lockCode eqv s.lk t a) := by
    intro a; simp only [Threads.step, hrest, if_true]; exact hm'
  obtain ⟨l1, l2, l3, l4, l5, l6⟩ := lock_calls_user hx.lock hi.lk ht.2
  refine ⟨fun j k v boom => ?_, fun f hs hk => ⟨fun u => ?_, ?_⟩, fun o => ?_, fun i k v boom => (hlk _).trans (l1 i k v boom),
    fun i => (hlk _).2 (l2 i), fun i j => (hlk _).2 (l3 i j), fun i => (hlk _).trans (l4 i), fun i o => (hlk _).trans (l5 i o),
    fun g => (hlk _).trans (l6 g)⟩
  · rw [← (calls_user (code := lazyCode j) (hi.obj j) s.next).1 (hf j) k v boom]
    simp only [Threads.step, hturn, if_true]; exact hm
  · rw [← ((calls_user (code := lazyCode f.1) (hi.obj f.1) f.2).2.1 hk).2.2 u]
    simp only [Threads.step, hs, hturn, true_and, if_true]; exact hm
  · have := ((calls_user (code := lazyCode f.1) (hi.obj f.1) f.2).2.1 hk).2.1
    simp only [Threads.step, hs, hturn, true_and, if_true]; exact hm.2 this
  · simp only [Threads.step, hturn, if_true]
    cases hin : Threads.innermost s t with
    | none =>
      constructor
      · rintro ⟨a, ha⟩; cases ha
      · rintro ⟨f, hs, k, hk⟩
        have := List.find?_eq_none.1 hin f hs
        rw [hk] at this; simp [Multi.building] at this
    | some f =>
      have hb : Builds ((s.obj f.1).c.pc f.2) := by
        have := List.find?_some hin
        unfold Builds
        revert this
        cases (s.obj f.1).c.pc f.2 <;> simp [Multi.building]
      refine ⟨fun _ => ⟨f, List.mem_of_find?_eq_some hin, hb⟩, fun _ => ?_⟩
      exact hm.2 (((calls_user (code := lazyCode f.1) (hi.obj f.1) f.2).2.2 o).2 hb)

end

/-! ### Concrete cases -/

-- process 0 is in its builder and may end it in any way; process 1 waits for the lock; process 2 may begin anything
example : ∃ s : Sync.St Nat Nat, Sync.Reach none s ∧ Builds (s.pc 0) ∧ Can (Sync.step s 0 (.finish .panic)) ∧
    ¬ Can (Sync.step s 0 .go) ∧ ¬ Can (Sync.step s 1 .go) ∧ Can (Sync.step s 2 (.call .writer)) ∧
    ¬ Can (Sync.step s 2 (.call (.store 3))) := by
  have h : ∃ s : Sync.St Nat Nat, Sync.run (Sync.init none) [(0, .call (.get .read)), (0, .go), (0, .go), (0, .go), (0, .go),
      (1, .call (.set 5))] = some s ∧ s.pc 0 = .rBuild .read ∧ s.pc 1 = .xStart (.put (some 5)) ∧ s.pc 2 = .idle ∧
      s.lk = (⟨[], none, some 0⟩ : Lock) := ⟨_, rfl, rfl, rfl, rfl, rfl⟩
  obtain ⟨s, h1, h2, h3, h4, h5⟩ := h
  have hr := Props.Sync.reach_run .init h1
  refine ⟨s, hr, ⟨_, h2⟩, ((C105_sync hr 0).2.1 _).2 ⟨_, h2⟩, ?_, ?_, ((C105_sync hr 2).1 _).2 h4, ?_⟩
  · rw [(C105_sync hr 0).2.2.2]; exact fun h => h.2.1 ⟨_, h2⟩
  · rw [(C105_sync hr 1).2.2.2, h3, h5]; simp [LockSays]
  · rw [(C105_sync hr 2).1, h4]; simp [MayCall]

-- thread 0 has a read guard, thread 1 waits to write, thread 2 is in the `clone` of the content and may panic there
example : ∃ s : Locks.St Unit Nat, ¬ Can (Locks.step (fun a b => a == b) s 1 .go) ∧
    Can (Locks.step (fun a b => a == b) s 2 .panic) ∧ Can (Locks.step (fun a b => a == b) s 0 (.call (.deref ()))) ∧
    ¬ Can (Locks.step (fun a b => a == b) s 0 (.call (.assign () 3))) ∧
    Can (Locks.step (fun a b => a == b) s 0 (.drop ((), false))) := by
  have h : ∃ s, Locks.run (fun a b => a == b) (Locks.init fun _ : Unit => 1) [(0, .call (.read ())), (0, .go), (2, .call (.get ())),
      (2, .go), (1, .call (.write ())), (1, .go)] = some s ∧ s.pc 0 = .idle ∧ s.held 0 = [((), false)] ∧
      s.pc 1 = .wDrain () ∧ s.pc 2 = .gHave () ∧ (s.lock ()).shared = [2, 0] := ⟨_, rfl, rfl, rfl, rfl, rfl, rfl⟩
  obtain ⟨s, _, h1, h2, h3, h4, h5⟩ := h
  have c0 := C105_locks (fun a b => a == b) s 0
  refine ⟨s, ?_, ?_, ?_, ?_, ?_⟩
  · rw [(C105_locks _ s 1).2.2.2, h3]; simp [LocksSay, h5]
  · rw [(C105_locks _ s 2).2.2.1, h4]; trivial
  · rw [c0.1, h2]; exact ⟨h1, by simp [LockMayCall]⟩
  · rw [c0.1, h2]; simp [LockMayCall]
  · rw [c0.2.1, h2]; exact ⟨h1, by simp⟩

-- helpers: process 0 is in the builder which its accessor called, process 1 waits inside its setter, process 3 may call any helper
example : ∃ s : Calls.St Nat Nat, Calls.Reach Calls.fullCode none s ∧ Builds (s.c.pc 0) ∧
    (∀ o, Can (Calls.step Calls.fullCode s 0 (.finish o))) ∧ ¬ Can (Calls.step Calls.fullCode s 1 .go) ∧
    ∀ v boom, Can (Calls.step Calls.fullCode s 3 (.call (.helper .clearer v boom))) := by
  have h : (Calls.run Calls.fullCode (Calls.init none) (Calls.story.take 8)).map (fun s =>
      (s.c.pc 0, s.c.pc 1, s.c.lk, (match s.pc 3 with | .idle => true | _ => false))) =
      some (.rBuild .read, .xStart .writer, ⟨[], none, some 0⟩, true) := by decide +kernel
  simp only [Option.map_eq_some_iff, Prod.mk.injEq] at h
  obtain ⟨s, hs, h1, h2, h3, h4⟩ := h
  have hr := Proof.Calls.reach_run _ .init hs
  have c := C105_calls Calls.fullField hr
  refine ⟨s, hr, ⟨_, h1⟩, fun o => ((c 0).2.2.1 o).2 ⟨_, h1⟩, ?_, fun v boom => ?_⟩
  · rw [(c 1).2.2.2, h2, h3]; simp [LockSays]
  · have hp : s.pc 3 = .idle := by
      cases hp : s.pc 3 <;> rw [hp] at h4 <;> first | rfl | cases h4
    exact ((c 3).1 hp .clearer v boom).2 ⟨_, rfl⟩

-- thread 0 has a guard on field 0 and may use and drop it, thread 1 waits for it inside its setter
example : ∃ s : LockCalls.St (Fin 3) Nat, LockCalls.Reach LockCalls.fldCode LockCalls.eqo LockCalls.order LockCalls.before s ∧
    Can (LockCalls.step LockCalls.fldCode LockCalls.eqo s 0 (.call (.deref 0))) ∧
    ¬ Can (LockCalls.step LockCalls.fldCode LockCalls.eqo s 0 (.call (.deref 1))) ∧
    Can (LockCalls.step LockCalls.fldCode LockCalls.eqo s 0 (.drop (0, false))) ∧
    ¬ Can (LockCalls.step LockCalls.fldCode LockCalls.eqo s 1 .go) := by
  have h : (LockCalls.runOrdered (LockCalls.init LockCalls.before) (LockCalls.story.take 18)).map (fun s =>
      (s.c.held 0, (match s.pc 0 with | .idle => true | _ => false), s.c.pc 1, (s.c.lock 0).shared)) =
      some ([(0, false)], true, .wDrain 0, [0]) := by decide +kernel
  simp only [Option.map_eq_some_iff, Prod.mk.injEq] at h
  obtain ⟨s, hs, h1, h2, h3, h4⟩ := h
  have hr := LockCalls.runOrdered_reach _ _ .init hs
  have hp : s.pc 0 = .idle := by
    cases hp : s.pc 0 <;> rw [hp] at h2 <;> first | rfl | cases h2
  have c := C105_lock_calls LockCalls.fldFields hr
  have c0 := (c 0).1 hp
  refine ⟨s, hr, (c0.2.2.2.1 0).2 (by simp [h1]), ?_, (c0.2.2.2.2.2 _).2 (by simp [h1]), ?_⟩
  · rw [c0.2.2.2.1 1]; simp [h1]
  · rw [(c 1).2.1, h3]; simp [LocksSay, h4]

-- thread 0 is in the builder of field 2, called from that of 1, called from that of 0, and may call every field
example : ∃ s : Multi.St (Fin 3) Nat Nat, Multi.Reach (fun i j => Multi.chain i j = true) false (fun _ => none) s ∧
    s.stack 0 = [(2, 3), (1, 1), (0, 0)] ∧ (∀ j op, OnContainer op → Can (Multi.step false s 0 (.call j op))) ∧
    (∀ o, Can (Multi.step false s 0 (.finish o))) ∧ ¬ Can (Multi.step false s 1 .go) := by
  have h : ∃ s, Multi.runDep Multi.chain false (Multi.init fun _ => none) Multi.nestedRun = some s ∧
      s.stack 0 = [(2, 3), (1, 1), (0, 0)] ∧ s.stack 1 = [(1, 2)] ∧ (s.obj 2).pc 3 = .rBuild .read ∧
      (s.obj 1).pc 2 = .xStart (.put none) ∧ (s.obj 1).lk = (⟨[], none, some 1⟩ : Lock) := ⟨_, rfl, rfl, rfl, rfl, rfl, rfl⟩
  obtain ⟨s, h1, h2, h3, h4, h5, h6⟩ := h
  have hr := Multi.reach_runDep .init h1
  obtain ⟨c1, _, c3, _⟩ := (C105_multi hr 0).2 _ _ _ h2
  refine ⟨s, hr, h2, fun j op hop => c1 (.inl ⟨_, h4⟩) j op hop, fun o => (c3 o).2 ⟨_, h4⟩, ?_⟩
  rw [((C105_multi hr 1).2 _ _ _ h3).2.2.2.2, h5, h6]; simp [LockSays]

-- thread 0 is in the builder of the session with a guard of the configuration in hand; it may clear anything, and begin to read the counter
example : ∃ s : Mixed.St Bool Unit Nat Nat Nat,
    Mixed.Reach (fun a b => a == b) (fun a b => Mixed.layered a b = true) (fun i => if i then none else some 7) (fun _ => 1) s ∧
    s.stack 0 = [(false, 1), (true, 0)] ∧ Own s 0 ∧ Can (Mixed.step (fun a b => a == b) s 0 (.call true .clear)) ∧
    Can (Mixed.step (fun a b => a == b) s 0 (.drop (false, 1))) ∧ ¬ Can (Mixed.step (fun a b => a == b) s 0 (.drop (true, 0))) ∧
    Can (Mixed.step (fun a b => a == b) s 0 (.finish (.err 3))) ∧
    Can (Mixed.step (fun a b => a == b) s 0 (.lock (.call (.read ())))) := by
  have h : ∃ s, Mixed.runDep (fun a b => a == b) Mixed.layered (Mixed.init (fun i => if i then none else some 7) (fun _ => 1))
        (Mixed.layeredRun.take 12) = some s ∧ s.stack 0 = [(false, 1), (true, 0)] ∧ s.lk.pc 0 = .idle ∧
        (s.obj true).pc 0 = .rBuild .read ∧ (∃ g, (s.obj false).pc 1 = .gRead g) := ⟨_, rfl, rfl, rfl, rfl, _, rfl⟩
  obtain ⟨s, h1, h2, h3, h4, g, h5⟩ := h
  have hr := Mixed.reach_runDep .init h1
  have ho : Own s 0 := by
    refine ⟨fun f hf => ?_, h3⟩
    rw [h2] at hf
    simp only [List.mem_cons, List.not_mem_nil, or_false] at hf
    rcases hf with rfl | rfl
    · exact .inr (.inl ⟨g, .inl h5⟩)
    · exact .inl ⟨_, h4⟩
  obtain ⟨c1, _, c3, c4, c5, _⟩ := C105_mixed hr ho
  refine ⟨s, hr, h2, ho, c1 _ _ trivial, (c3 (false, 1) (by simp [h2])).2 ⟨g, .inl h5⟩, ?_,
    (c4 _).2 ⟨(true, 0), by simp [h2], _, h4⟩, (c5 _).2 trivial⟩
  rw [c3 (true, 0) (by simp [h2])]; simp [Keeps, h4]

-- the same with helpers
example : ∃ s : Threads.St Bool Unit Nat Nat Nat,
    Threads.Reach (fun _ => Calls.fullCode) (fun _ => LockCalls.fldCode 0) LockCalls.eqo (fun a b => Mixed.layered a b = true)
      (fun i => if i then none else some 7) (fun _ => some 1) s ∧ OwnCode s 0 ∧ s.stack 0 = [(false, 1), (true, 0)] ∧
    Can (Threads.step (fun _ => Calls.fullCode) (fun _ => LockCalls.fldCode 0) LockCalls.eqo s 0 (.call true .predicate 0 false)) ∧
    Can (Threads.step (fun _ => Calls.fullCode) (fun _ => LockCalls.fldCode 0) LockCalls.eqo s 0 (.drop (false, 1))) ∧
    Can (Threads.step (fun _ => Calls.fullCode) (fun _ => LockCalls.fldCode 0) LockCalls.eqo s 0 (.finish .panic)) ∧
    Can (Threads.step (fun _ => Calls.fullCode) (fun _ => LockCalls.fldCode 0) LockCalls.eqo s 0
      (.lock (.call (.helper () .setter 5 false)))) := by
  have h : ∃ x, Threads.runLayered (Threads.opening.take 17) = some x ∧ x.1.stack 0 = [(false, 1), (true, 0)] ∧
      x.1.lk.pc 0 = .idle ∧ (x.1.obj true).c.pc 0 = .rBuild .read ∧ (x.1.obj false).pc 1 = .keeps := ⟨_, rfl, rfl, rfl, rfl, rfl⟩
  obtain ⟨⟨s, g⟩, h1, h2, h3, h4, h5⟩ := h
  simp only at h2 h3 h4 h5
  have hr := Threads.C101_recorded.2 ⟨g, Threads.trace_runRec .init h1⟩
  have ho : OwnCode s 0 := by
    refine ⟨fun f hf => ?_, h3⟩
    rw [h2] at hf
    simp only [List.mem_cons, List.not_mem_nil, or_false] at hf
    rcases hf with rfl | rfl
    · exact .inr h5
    · exact .inl ⟨_, h4⟩
  obtain ⟨c1, c2, c3, c4, _⟩ := C105_threads Threads.layeredFields hr ho
  exact ⟨s, hr, ho, h2, (c1 true .predicate 0 false).2 ⟨_, rfl⟩, (c2 (false, 1) (by simp [h2]) h5).2,
    (c3 _).2 ⟨(true, 0), by simp [h2], _, h4⟩, (c4 () .setter 5 false).2 ⟨_, rfl⟩⟩

end Verif.Props.Receptive
