import Verif.Props.Tasks
import Verif.Props.AsyncMulti
import Verif.Props.Receptive
/-!
# Nobody is refused: C105, async structs

As `Verif.Props.Receptive`, for tasks, which may also be dropped wherever they await.
-/

namespace Verif.Props.AsyncReceptive
open Verif.Spec Verif.Model Verif.Model.Args Verif.Model.Method
open Verif.Props.Receptive (Can OnContainer LockMayCall)

set_option linter.unusedSectionVars false

/-- What may be called where: operations on the container from outside, operations on a guard with that guard. -/
def MayCall {V E : Type} (c : Async.Pc V E) : Op V → Prop
  | .get _ | .set _ | .clear | .writer | .isSet | .snapshot => c = .idle
  | .store _ | .take => ∃ g, c = .gWrite g
  | .deref g => c = .gRead g ∨ c = .gMut g
  | .assign g _ => c = .gMut g

/-- Keeps a guard. -/
def Keeps {V E : Type} (c : Async.Pc V E) : Prop := ∃ g, c = .gRead g ∨ c = .gMut g ∨ c = .gWrite g

/-- In its builder. -/
def Builds {V E : Type} (c : Async.Pc V E) : Prop := ∃ k, c = .rBuild k

/-- Awaits a lock or its builder: here, and nowhere else, the future may be dropped. -/
def Awaits {V E : Type} (c : Async.Pc V E) : Prop := (∃ k, c = .rStart k ∨ c = .rCb k ∨ c = .rBuild k) ∨ ∃ x, c = .xStart x

/-- What code of the library waits for: the end of all holders, or of exclusive ones. -/
def LockSays {V E : Type} (l : Async.ALock) : Async.Pc V E → Prop
  | .rStart _ | .xStart _ => l.wr = none ∧ l.shared = []
  | .sStart => l.wr = none
  | _ => True

section
variable {V E : Type}

/-- **C105.** One lazy container: what can happen to a process is exactly what its place in the code calls for. -/
theorem C105_async {v₀ : Option V} {s : Async.St V E} (h : Async.Reach v₀ s) (p : Nat) :
    (∀ op, Can (Async.step s p (.call op)) ↔ MayCall (s.pc p) op) ∧
    (∀ o, Can (Async.step s p (.finish o)) ↔ Builds (s.pc p)) ∧
    (Can (Async.step s p .drop) ↔ Keeps (s.pc p)) ∧
    (Can (Async.step s p .go) ↔ s.pc p ≠ .idle ∧ ¬ Builds (s.pc p) ∧ ¬ Keeps (s.pc p) ∧ LockSays s.lk (s.pc p)) ∧
    (Can (Async.step s p .cancel) ↔ Awaits (s.pc p)) := by
  have hub : s.pc p ≠ .ub := by
    intro hu
    have := (Proof.Async.inv_reach h).mem p
    rw [hu] at this; exact this
  refine ⟨fun op => ?_, fun o => ?_, ?_, ?_, ?_⟩
  · unfold Can
    simp only [Async.step, Async.invoke]
    cases hp : s.pc p <;> cases op <;> simp [MayCall, eq_comm]
  · unfold Can Builds
    simp only [Async.step, Async.builderReturns]
    cases hp : s.pc p <;> cases o <;> simp
  · unfold Can Keeps
    simp only [Async.step, Async.dropGuard]
    cases hp : s.pc p <;> simp
  · unfold Can Builds Keeps
    simp only [Async.step, Async.go]
    cases hp : s.pc p with
    | ub => exact absurd hp hub
    | rStart k => simp [LockSays, Async.ALock.tryWrite]
    | xStart k => simp [LockSays, Async.ALock.tryWrite]
    | sStart => simp [LockSays, Async.ALock.tryShared]
    | rReady k r => cases k <;> simp [LockSays]
    | xHave x => cases x <;> simp [LockSays]
    | rHave k => cases s.value <;> simp [LockSays]
    | rMap k r => cases s.value <;> simp [LockSays]
    | gDeref g m => cases s.value <;> simp [LockSays]
    | gAsg g v => cases s.value <;> simp [LockSays]
    | _ => simp [LockSays]
  · unfold Can Awaits
    simp only [Async.step, Async.cancel]
    cases hp : s.pc p <;> simp

/-- A process with the number of nobody is outside. -/
theorem pc_free {keep : Bool} {F : Type} [DecidableEq F] {dep : F → F → Prop} {v₀ : F → Option V} {s : AsyncMulti.St F V E}
    (h : AsyncMulti.Reach dep keep v₀ s) (i : F) : (s.obj i).pc s.next = .idle := by
  have hi := Proof.AsyncMulti.inv_reach h
  cases hg : AsyncMulti.gone ((s.obj i).pc s.next) with
  | false =>
    obtain ⟨t, ht⟩ := hi.owner i _ hg
    have := (hi.inside _ _ _ ht).1
    omega
  | true =>
    revert hg
    cases (s.obj i).pc s.next <;> simp [AsyncMulti.gone]

/-! ### Locks -/

/-- What a call of task `t` waits for: everybody before it in the queue, and those who hold the lock in its way. -/
def LocksSay {L W : Type} (s : AsyncLocks.St L W) (t : Nat) : AsyncLocks.Pc L W → Prop
  | .gWait i | .rWait i | .eWait1 i _ | .eWait2 _ i => (s.queue i).head? = some t ∧ (s.lock i).wr = none
  | .xWait i _ | .wWait i => (s.queue i).head? = some t ∧ (s.lock i).wr = none ∧ (s.lock i).shared = []
  | _ => True

/-- A call awaits a lock: here, and nowhere else, its future may be dropped; the comparison does not await, it blocks. -/
def AwaitsLock {L W : Type} : AsyncLocks.Pc L W → Prop
  | .gWait _ | .xWait _ _ | .rWait _ | .wWait _ => True
  | _ => False

/-- Code of the user runs inside a call: `clone`, `into`, `==`. -/
def InUser {L W : Type} : AsyncLocks.Pc L W → Prop
  | .gHave _ | .xHave _ _ | .eHave _ _ | .eMid _ _ _ => True
  | _ => False

/-- **C105.** Lock-protected containers: what can happen to a task is exactly what its place in the code calls for. -/
theorem C105_async_locks {L W : Type} [DecidableEq L] (eqv : W → W → Bool) (s : AsyncLocks.St L W) (t : Nat) :
    (∀ op, Can (AsyncLocks.step eqv s t (.call op)) ↔ s.pc t = .idle ∧ LockMayCall (s.held t) op) ∧
    (∀ g, Can (AsyncLocks.step eqv s t (.drop g)) ↔ s.pc t = .idle ∧ g ∈ s.held t) ∧
    (Can (AsyncLocks.step eqv s t .panic) ↔ InUser (s.pc t)) ∧
    (Can (AsyncLocks.step eqv s t .go) ↔ s.pc t ≠ .idle ∧ LocksSay s t (s.pc t)) ∧
    (Can (AsyncLocks.step eqv s t .cancel) ↔ AwaitsLock (s.pc t)) := by
  refine ⟨fun op => ?_, fun g => ?_, ?_, ?_, ?_⟩
  · unfold Can
    simp only [AsyncLocks.step, AsyncLocks.invoke]
    cases hp : s.pc t <;> cases op <;> simp [LockMayCall]
  · unfold Can
    simp only [AsyncLocks.step, AsyncLocks.dropGuard]
    cases hp : s.pc t <;> simp
  · unfold Can
    simp only [AsyncLocks.step, AsyncLocks.panics]
    cases hp : s.pc t <;> simp [InUser]
  · unfold Can
    simp only [AsyncLocks.step, AsyncLocks.go]
    cases hp : s.pc t <;> simp [LocksSay, AsyncLocks.St.shared, AsyncLocks.St.exclusive, Async.ALock.tryShared, Async.ALock.tryWrite,
      Option.bind_eq_some_iff, and_assoc]
  · unfold Can
    simp only [AsyncLocks.step, AsyncLocks.cancel]
    cases hp : s.pc t <;> simp [AwaitsLock]

/-! ### Helpers -/

/-- What may be done with the guard which a helper returned. -/
def MayUse {V E : Type} (c : Async.Pc V E) : Spec.Calls.Call V → Prop
  | .deref => ∃ g, c = .gRead g ∨ c = .gMut g
  | .assign _ => ∃ g, c = .gMut g
  | .store _ | .take => ∃ g, c = .gWrite g
  | .helper _ _ _ => False

/-- Who awaits is in a helper. -/
theorem builds_waits {fal cl : Bool} {y : AsyncCalls.Pc V E} {z : Async.Pc V E} {w : Option V}
    (hl : Proof.AsyncCalls.Loc fal cl y z w) (hb : Awaits z) : ∃ f m todo, y = .wait f m todo := by
  obtain ⟨k, rfl | rfl | rfl⟩ | ⟨k, rfl⟩ := hb
  all_goals cases hl with
  | dwait => exact ⟨_, _, _, rfl⟩
  | wwait => exact ⟨_, _, _, rfl⟩
  | deref => exact ⟨_, _, _, rfl⟩
  | keeps h => simp [Proof.AsyncCalls.isGuard] at h
  | fin _ _ _ h => simp [Proof.AsyncCalls.isGuard] at h
  | stop _ h => simp [Proof.AsyncCalls.isGuard] at h
  | use h1 h2 h3 =>
    exfalso
    unfold Proof.AsyncCalls.Under at h3
    simp [Proof.AsyncCalls.phaseAt, Proof.Sync.phaseAt, Proof.Async.emb] at h3
    cases h1 <;> first | (simp_all; done) | (rcases k with _ | (_ | _) <;> simp_all [XKind.op])

/-- The part of the user. -/
theorem calls_user {fal cl : Bool} {code : Kind → Option Body} {v₀ : Option V} {s : AsyncCalls.St V E}
    (hi : Proof.AsyncCalls.Inv fal cl v₀ s) (p : Nat) :
    (s.pc p = .idle → ∀ k v boom, Can (AsyncCalls.step code s p (.call (.helper k v boom))) ↔ ∃ b, code k = some b) ∧
    (s.pc p = .keeps → Keeps (s.c.pc p) ∧ Can (AsyncCalls.step code s p .drop) ∧
      ∀ u, Can (AsyncCalls.step code s p (.call u)) ↔ MayUse (s.c.pc p) u) ∧
    (∀ o, Can (AsyncCalls.step code s p (.finish o)) ↔ Builds (s.c.pc p)) ∧
    (Can (AsyncCalls.step code s p .cancel) ↔ Awaits (s.c.pc p)) := by
  have hl := hi.loc p
  obtain ⟨c1, c2, c3, c4, c5⟩ := C105_async hi.reach p
  have hg : ∀ {y : Async.Pc V E}, Proof.AsyncCalls.isGuard y = true → Keeps y := by
    intro y hy; unfold Keeps; cases y <;> simp_all [Proof.AsyncCalls.isGuard]
  have hu : ∀ {y : Async.Pc V E} {v : Option V} {op dec f}, Proof.AsyncCalls.Under v y op dec f → y ≠ .idle ∧ ¬ Keeps y := by
    intro y v op dec f hy
    unfold Proof.AsyncCalls.Under at hy
    unfold Keeps
    cases y <;> simp_all [Proof.AsyncCalls.phaseAt, Proof.Sync.phaseAt, Proof.Async.emb]
  refine ⟨fun hp k v boom => ?_, fun hp => ?_, fun o => ?_, ?_⟩
  · unfold Can
    simp only [AsyncCalls.step, AsyncCalls.invoke, hp]
    cases code k <;> simp
  · rw [hp] at hl
    have hk : Keeps (s.c.pc p) := by
      generalize s.c.pc p = y at hl ⊢
      generalize s.c.value = w at hl
      cases hl with
      | keeps h => exact hg h
    refine ⟨hk, ?_, fun u => ?_⟩
    · obtain ⟨c', hc⟩ := c3.2 hk
      exact ⟨_, by simp only [AsyncCalls.step, AsyncCalls.dropGuard, hp]; rw [show Async.dropGuard s.c p = some c' from hc]; rfl⟩
    · unfold Can
      simp only [AsyncCalls.step, AsyncCalls.invoke, hp]
      unfold Keeps at hk
      obtain ⟨g, hk | hk | hk⟩ := hk <;> rw [hk] <;> cases u <;> simp [AsyncCalls.useOp, MayUse, Async.invoke, hk]
  · unfold Can
    simp only [AsyncCalls.step, AsyncCalls.finish]
    have hb := c2 o
    unfold Can at hb
    simp only [Async.step] at hb
    constructor
    · intro hh
      split at hh
      · obtain ⟨a, ha⟩ := hh
        obtain ⟨c', hc, _⟩ := Option.map_eq_some_iff.1 ha
        exact hb.1 ⟨c', hc⟩
      · obtain ⟨a, ha⟩ := hh; cases ha
    · intro hh
      obtain ⟨c', hc⟩ := hb.2 hh
      obtain ⟨k, hk⟩ := hh
      obtain ⟨f, m, todo, hw⟩ := builds_waits hl (.inl ⟨k, .inr (.inr hk)⟩)
      rw [hw, hc]; exact ⟨_, rfl⟩
  · unfold Can
    simp only [AsyncCalls.step, AsyncCalls.cancel]
    have hb := c5
    unfold Can at hb
    simp only [Async.step] at hb
    constructor
    · intro hh
      split at hh
      · obtain ⟨a, ha⟩ := hh
        obtain ⟨c', hc, _⟩ := Option.map_eq_some_iff.1 ha
        exact hb.1 ⟨c', hc⟩
      · obtain ⟨a, ha⟩ := hh; cases ha
    · intro hh
      obtain ⟨c', hc⟩ := hb.2 hh
      obtain ⟨f, m, todo, hw⟩ := builds_waits hl hh
      rw [hw, hc]; exact ⟨_, rfl⟩

/-- **C105.** Helpers of a lazy field: outside of calls every helper there is can be called; a guard can be used as it allows,
and dropped; the builder can end in any way; a helper goes on unless the container it calls waits; where it
awaits, and nowhere else, it can be dropped. -/
theorem C105_async_calls {x : FCtx} {code : Kind → Option Body} {v₀ : Option V} {s : AsyncCalls.St V E}
    (hx : Props.AsyncCalls.LazyField x code) (h : AsyncCalls.Reach code v₀ s) (p : Nat) :
    (s.pc p = .idle → ∀ k v boom, Can (AsyncCalls.step code s p (.call (.helper k v boom))) ↔ ∃ b, code k = some b) ∧
    (s.pc p = .keeps → Keeps (s.c.pc p) ∧ Can (AsyncCalls.step code s p .drop) ∧
      ∀ u, Can (AsyncCalls.step code s p (.call u)) ↔ MayUse (s.c.pc p) u) ∧
    (∀ o, Can (AsyncCalls.step code s p (.finish o)) ↔ Builds (s.c.pc p)) ∧
    (Can (AsyncCalls.step code s p .go) ↔ s.pc p ≠ .idle ∧ s.pc p ≠ .keeps ∧ ¬ Builds (s.c.pc p) ∧
      LockSays s.c.lk (s.c.pc p)) ∧
    (Can (AsyncCalls.step code s p .cancel) ↔ Awaits (s.c.pc p)) := by
  have hi := Proof.AsyncCalls.inv_reach (Props.AsyncCalls.shapes hx) h
  have hl := hi.loc p
  obtain ⟨c1, c2, c3, c4, c5⟩ := C105_async hi.reach p
  have hg : ∀ {y : Async.Pc V E}, Proof.AsyncCalls.isGuard y = true → Keeps y := by
    intro y hy; unfold Keeps; cases y <;> simp_all [Proof.AsyncCalls.isGuard]
  have hu : ∀ {y : Async.Pc V E} {v : Option V} {op dec f}, Proof.AsyncCalls.Under v y op dec f → y ≠ .idle ∧ ¬ Keeps y := by
    intro y v op dec f hy
    unfold Proof.AsyncCalls.Under at hy
    unfold Keeps
    cases y <;> simp_all [Proof.AsyncCalls.phaseAt, Proof.Sync.phaseAt, Proof.Async.emb]
  obtain ⟨u1, u2, u3, u4⟩ := calls_user (code := code) hi p
  refine ⟨u1, u2, u3, ?_, u4⟩
  · by_cases hrun : (∃ f todo a, s.pc p = .run f todo a) ∨ ∃ f r, s.pc p = .stop f r
    · have hc := Props.AsyncCalls.C98_never_stuck hx h hrun
      refine ⟨fun _ => ?_, fun _ => hc⟩
      have hout : s.c.pc p = .idle ∨ Keeps (s.c.pc p) := by
        generalize s.c.pc p = y at hl ⊢
        generalize s.c.value = w at hl
        rcases hrun with ⟨f, todo, a, hr⟩ | ⟨f, r, hr⟩ <;> rw [hr] at hl <;> cases hl <;>
          first
          | exact .inl rfl
          | exact .inr (hg rfl)
          | (rename_i h1 _; rcases h1 with h1 | h1
             · exact .inl h1
             · exact .inr (hg h1))
          | (rename_i h1; rcases h1 with h1 | h1
             · exact .inl h1
             · exact .inr (hg h1))
      refine ⟨?_, ?_, ?_, ?_⟩
      · rcases hrun with ⟨f, todo, a, hr⟩ | ⟨f, r, hr⟩ <;> rw [hr] <;> simp
      · rcases hrun with ⟨f, todo, a, hr⟩ | ⟨f, r, hr⟩ <;> rw [hr] <;> simp
      · rintro ⟨k, hk⟩
        rw [hk] at hout
        rcases hout with h1 | ⟨g, h1 | h1 | h1⟩ <;> cases h1
      · rcases hout with h1 | ⟨g, h1 | h1 | h1⟩ <;> rw [h1] <;> trivial
    · have hin : s.pc p = .idle ∨ s.pc p = .keeps ∨ (s.c.pc p ≠ .idle ∧ ¬ Keeps (s.c.pc p)) := by
        generalize s.c.pc p = y at hl ⊢
        generalize s.c.value = w at hl
        generalize s.pc p = z at hl hrun ⊢
        cases hl with
        | idle => exact .inl rfl
        | keeps => exact .inr (.inl rfl)
        | dwait _ _ _ _ h => exact .inr (.inr (hu h))
        | wwait _ _ _ _ h =>
          exact .inr (.inr (by unfold Keeps; cases y <;> simp_all [Proof.AsyncCalls.phaseAt, Proof.Sync.phaseAt, Proof.Async.emb]))
        | deref _ _ _ _ _ h => exact .inr (.inr (by unfold Keeps; rcases h with rfl | rfl <;> simp))
        | use _ _ h => exact .inr (.inr (hu h))
        | stop => exact absurd (.inr ⟨_, _, rfl⟩) hrun
        | _ => exact absurd (.inl ⟨_, _, _, rfl⟩) hrun
      have hgo : Can (AsyncCalls.step code s p .go) ↔ s.pc p ≠ .idle ∧ s.pc p ≠ .keeps ∧ Can (Async.step s.c p .go) := by
        unfold Can
        simp only [AsyncCalls.step, AsyncCalls.go, Async.step]
        cases hz : s.pc p with
        | idle => simp
        | keeps => simp
        | run => exact absurd (.inl ⟨_, _, _, hz⟩) hrun
        | stop => exact absurd (.inr ⟨_, _, hz⟩) hrun
        | wait => cases Async.go s.c p <;> simp
        | use => cases Async.go s.c p <;> simp
      rw [hgo, c4]
      constructor
      · rintro ⟨h1, h2, _, h4, _, h6⟩; exact ⟨h1, h2, h4, h6⟩
      · rintro ⟨h1, h2, h3, h4⟩
        rcases hin with h | h | h
        · exact absurd h h1
        · exact absurd h h2
        · exact ⟨h1, h2, h.1, h3, h.2, h4⟩

/-- The part of the user. -/
theorem lock_calls_user {L W : Type} [DecidableEq L] {x : L → FCtx} {code : L → Kind → Option Body}
    {eqv : Option W → Option W → Bool} {dep : L → L → Prop} {w₀ : L → Option W} {s : AsyncLockCalls.St L W}
    (hx : Props.AsyncLockCalls.LockFields x code) (hi : Proof.AsyncLockCalls.Inv eqv dep w₀ s) {p : Nat} (hp : s.pc p = .idle) :
    (∀ i k v boom, Can (AsyncLockCalls.step code eqv s p (.call (.helper i k v boom))) ↔ ∃ b, code i k = some b) ∧
    (∀ i, Can (AsyncLockCalls.step code eqv s p (.call (.clone i)))) ∧
    (∀ i j, Can (AsyncLockCalls.step code eqv s p (.call (.eq i j)))) ∧
    (∀ i, Can (AsyncLockCalls.step code eqv s p (.call (.deref i))) ↔ (i, false) ∈ s.c.held p ∨ (i, true) ∈ s.c.held p) ∧
    (∀ i o, Can (AsyncLockCalls.step code eqv s p (.call (.assign i o))) ↔ (i, true) ∈ s.c.held p) ∧
    ∀ g, Can (AsyncLockCalls.step code eqv s p (.drop g)) ↔ g ∈ s.c.held p := by
  have hl := hi.loc p
  have hid : s.c.pc p = .idle := by
    rw [hp] at hl
    generalize s.c.pc p = y at hl ⊢
    generalize s.c.held p = w at hl
    cases hl; rfl
  refine ⟨fun i k v boom => ⟨?_, ?_⟩, fun i => ?_, fun i j => ?_, fun i => ?_, fun i o => ?_, fun g => ?_⟩
  · rintro ⟨a, ha⟩
    simp only [AsyncLockCalls.step, AsyncLockCalls.invoke, hp] at ha
    cases hb : code i k with
    | none => rw [hb] at ha; cases ha
    | some b => exact ⟨b, rfl⟩
  · rintro ⟨b, hb⟩; exact Props.AsyncLockCalls.C99_callable hx s hp hb v boom
  all_goals
    unfold Can
    simp [AsyncLockCalls.step, AsyncLockCalls.invoke, AsyncLockCalls.dropGuard, LockCalls.otherOp, AsyncLocks.invoke, AsyncLocks.dropGuard, hp, hid]

/-- The unusual ends of calls. -/
theorem lock_calls_ends {L W : Type} [DecidableEq L] {code : L → Kind → Option Body}
    {eqv : Option W → Option W → Bool} {dep : L → L → Prop} {w₀ : L → Option W} {s : AsyncLockCalls.St L W}
    (hi : Proof.AsyncLockCalls.Inv eqv dep w₀ s) (p : Nat) :
    (Can (AsyncLockCalls.step code eqv s p .panic) ↔ InUser (s.c.pc p)) ∧
    (Can (AsyncLockCalls.step code eqv s p .cancel) ↔ ∃ i, s.c.pc p = .rWait i ∨ s.c.pc p = .wWait i) := by
  have hl := hi.loc p
  have hj : ∀ {i : L} {o k ex m} {op : Memory.Op L (Option W)}, Proof.AsyncLockCalls.Job i o k ex m op →
      ∀ {x : AsyncLocks.Pc L (Option W)}, (x = Proof.AsyncLockCalls.begun op ∨ ∃ r, x = .used op r) →
      ¬ InUser x ∧ ¬ ∃ i, x = .rWait i ∨ x = .wWait i := by
    intro i o k ex m op h1 x h2
    rcases h2 with rfl | ⟨r, rfl⟩
    · cases h1 <;> simp [Proof.AsyncLockCalls.begun, InUser]
    · simp [InUser]
  obtain ⟨_, _, c3, _, c5⟩ := C105_async_locks eqv s.c p
  unfold Can at c3 c5 ⊢
  simp only [AsyncLocks.step] at c3 c5
  have hm : ∀ {A B : Type} {o : Option A} {f : A → B}, (∃ a, o.map f = some a) ↔ ∃ a, o = some a := by
    intro A B o f; cases o <;> simp
  have hout : ∀ {x : AsyncLocks.Pc L (Option W)}, x = .idle → ¬ InUser x ∧ ¬ ∃ i, x = .rWait i ∨ x = .wWait i := by
    rintro x rfl; simp [InUser]
  simp only [AsyncLockCalls.step, AsyncLockCalls.panics, AsyncLockCalls.cancel]
  cases hz : s.pc p with
  | other u dec =>
    refine ⟨by simp only; rw [hm]; exact c3, ?_⟩
    rw [hz] at hl
    simp only [reduceCtorEq, exists_false, false_iff]
    rintro ⟨i, hw⟩
    generalize s.c.pc p = y at hl hw
    generalize s.c.held p = w at hl
    cases hl with
    | other h1 h2 h3 =>
      rcases hw with rfl | rfl <;> simp [Proof.AsyncLocks.phaseAt] at h3
      · exact (h2 i).1 h3.1.symm
      · exact (h2 i).2 h3.1.symm
  | wait f m todo =>
    rw [hz] at hl
    refine ⟨?_, ?_⟩
    · simp only [reduceCtorEq, exists_false, false_iff]
      generalize s.c.pc p = y at hl
      generalize s.c.held p = w at hl
      cases hl with
      | @acq _ ex _ _ _ _ _ h => cases ex <;> simp at h <;> rw [h] <;> simp [InUser]
      | call _ h1 _ h =>
        refine (hj h1 ?_).1
        rcases h with ⟨h, _⟩ | ⟨o, h, _⟩
        · exact .inl h
        · exact .inr ⟨_, h⟩
    · simp only; rw [hm, c5]
      generalize s.c.pc p = y at hl
      generalize s.c.held p = w at hl
      cases hl with
      | @acq _ ex _ _ _ _ _ h => cases ex <;> simp at h <;> rw [h] <;> simp [AwaitsLock]
      | @call _ _ _ op _ _ h1 _ h =>
        have : y = Proof.AsyncLockCalls.begun op ∨ ∃ r, y = .used op r := by
          rcases h with ⟨h, _⟩ | ⟨o, h, _⟩
          · exact .inl h
          · exact .inr ⟨_, h⟩
        refine iff_of_false ?_ (hj h1 this).2
        rcases this with rfl | ⟨r, rfl⟩
        · generalize f.field = i at h1; generalize f.kind = k at h1
          cases h1 <;> simp [Proof.AsyncLockCalls.begun, AwaitsLock]
        · simp [AwaitsLock]
  | idle =>
    rw [hz] at hl
    have : s.c.pc p = .idle := by
      generalize s.c.pc p = y at hl ⊢
      generalize s.c.held p = w at hl
      cases hl; rfl
    simpa using hout this
  | run =>
    rw [hz] at hl
    have : s.c.pc p = .idle := by
      generalize s.c.pc p = y at hl ⊢
      generalize s.c.held p = w at hl
      cases hl <;> rfl
    simpa using hout this
  | stop =>
    rw [hz] at hl
    have : s.c.pc p = .idle := by
      generalize s.c.pc p = y at hl ⊢
      generalize s.c.held p = w at hl
      cases hl <;> rfl
    simpa using hout this

/-- **C105.** Helpers of lock-protected fields: outside of calls every helper there is can be called, every field cloned and
compared, every guard used as it allows, and dropped; a call goes on unless the lock it calls makes it wait; the
user's `clone` and `==` may panic; where a helper awaits its lock, and nowhere else, it can be dropped. -/
theorem C105_async_lock_calls {L W : Type} [DecidableEq L] {x : L → FCtx} {code : L → Kind → Option Body}
    {eqv : Option W → Option W → Bool} {dep : L → L → Prop} {w₀ : L → Option W} {s : AsyncLockCalls.St L W}
    (hx : Props.AsyncLockCalls.LockFields x code) (h : AsyncLockCalls.Reach code eqv dep w₀ s) (p : Nat) :
    (s.pc p = .idle →
      (∀ i k v boom, Can (AsyncLockCalls.step code eqv s p (.call (.helper i k v boom))) ↔ ∃ b, code i k = some b) ∧
      (∀ i, Can (AsyncLockCalls.step code eqv s p (.call (.clone i)))) ∧
      (∀ i j, Can (AsyncLockCalls.step code eqv s p (.call (.eq i j)))) ∧
      (∀ i, Can (AsyncLockCalls.step code eqv s p (.call (.deref i))) ↔ (i, false) ∈ s.c.held p ∨ (i, true) ∈ s.c.held p) ∧
      (∀ i o, Can (AsyncLockCalls.step code eqv s p (.call (.assign i o))) ↔ (i, true) ∈ s.c.held p) ∧
      ∀ g, Can (AsyncLockCalls.step code eqv s p (.drop g)) ↔ g ∈ s.c.held p) ∧
    (Can (AsyncLockCalls.step code eqv s p .go) ↔ s.pc p ≠ .idle ∧ LocksSay s.c p (s.c.pc p)) ∧
    (Can (AsyncLockCalls.step code eqv s p .panic) ↔ InUser (s.c.pc p)) ∧
    (Can (AsyncLockCalls.step code eqv s p .cancel) ↔ ∃ i, s.c.pc p = .rWait i ∨ s.c.pc p = .wWait i) := by
  have hi := Props.AsyncLockCalls.inv hx h
  have hl := hi.loc p
  obtain ⟨_, _, _, c4, c5⟩ := C105_async_locks eqv s.c p
  refine ⟨lock_calls_user hx hi, ?_, (lock_calls_ends hi p).1, (lock_calls_ends hi p).2⟩
  · by_cases hrun : (∃ f todo a, s.pc p = .run f todo a) ∨ ∃ f, s.pc p = .stop f
    · have hc := Props.AsyncLockCalls.C99_never_stuck hx h hrun
      refine ⟨fun _ => ?_, fun _ => hc⟩
      have hout : s.c.pc p = .idle := by
        generalize s.c.pc p = y at hl ⊢
        generalize s.c.held p = w at hl
        rcases hrun with ⟨f, todo, a, hr⟩ | ⟨f, hr⟩ <;> rw [hr] at hl <;> cases hl <;> rfl
      refine ⟨?_, by rw [hout]; trivial⟩
      rcases hrun with ⟨f, todo, a, hr⟩ | ⟨f, hr⟩ <;> rw [hr] <;> simp
    · have hin : s.pc p = .idle ∨ s.c.pc p ≠ .idle := by
        generalize s.c.pc p = y at hl ⊢
        generalize s.c.held p = w at hl
        generalize s.pc p = z at hl hrun ⊢
        cases hl with
        | idle => exact .inl rfl
        | @acq f ex rest _ _ _ _ h =>
          right; cases ex <;> simp at h <;> rw [h] <;> simp
        | @call f _ _ _ _ _ h1 _ h =>
          right
          rcases h with ⟨h, _⟩ | ⟨o, h, _⟩
          · rw [h]; generalize f.field = i at h1; generalize f.kind = k at h1; cases h1 <;> simp [Proof.AsyncLockCalls.begun]
          · rw [h]; simp
        | other _ _ h =>
          right; rintro rfl
          simp [Proof.AsyncLocks.phaseAt] at h
        | stop => exact absurd (.inr ⟨_, rfl⟩) hrun
        | stopped => exact absurd (.inr ⟨_, rfl⟩) hrun
        | _ => exact absurd (.inl ⟨_, _, _, rfl⟩) hrun
      have hgo : Can (AsyncLockCalls.step code eqv s p .go) ↔ s.pc p ≠ .idle ∧ Can (AsyncLocks.step eqv s.c p .go) := by
        unfold Can
        simp only [AsyncLockCalls.step, AsyncLockCalls.go, AsyncLocks.step]
        cases hz : s.pc p with
        | idle => simp
        | run => exact absurd (.inl ⟨_, _, _, hz⟩) hrun
        | stop => exact absurd (.inr ⟨_, hz⟩) hrun
        | wait => cases AsyncLocks.go eqv s.c p <;> simp
        | other => cases AsyncLocks.go eqv s.c p <;> simp
      rw [hgo, c4]
      constructor
      · rintro ⟨h1, _, h3⟩; exact ⟨h1, h3⟩
      · rintro ⟨h1, h3⟩
        rcases hin with h | h
        · exact absurd h h1
        · exact ⟨h1, h, h3⟩

/-! ### Many fields -/

/-- **C105.** Tasks with lazy fields: outside of everything, and in a builder, every operation on every field can begin, also
while keeping a guard where that is allowed; guards can be used as they allow and dropped; builders can end in any way; who
waits goes on as the first of the queue; who awaits can be dropped. -/
theorem C105_async_multi {F : Type} [DecidableEq F] {dep : F → F → Prop} {keep : Bool} {v₀ : F → Option V} {s : AsyncMulti.St F V E}
    (h : AsyncMulti.Reach dep keep v₀ s) (t : Nat) :
    (s.stack t = [] → ∀ j op, OnContainer op → Can (AsyncMulti.step keep s t (.call j op))) ∧
    ∀ i p rest, s.stack t = (i, p) :: rest →
      (Builds ((s.obj i).pc p) ∨ keep = true ∧ Keeps ((s.obj i).pc p) → ∀ j op, OnContainer op →
        Can (AsyncMulti.step keep s t (.call j op))) ∧
      (∀ op, Can (AsyncMulti.step keep s t (.use op)) ↔ MayCall ((s.obj i).pc p) op) ∧
      (∀ o, Can (AsyncMulti.step keep s t (.finish o)) ↔ Builds ((s.obj i).pc p)) ∧
      (Can (AsyncMulti.step keep s t .drop) ↔ Keeps ((s.obj i).pc p)) ∧
      (Can (AsyncMulti.step keep s t .go) ↔ (s.obj i).pc p ≠ .idle ∧ ¬ Builds ((s.obj i).pc p) ∧ ¬ Keeps ((s.obj i).pc p) ∧
        (AsyncMulti.queued ((s.obj i).pc p) = true → (s.queue i).head? = some p) ∧ LockSays (s.obj i).lk ((s.obj i).pc p)) ∧
      (Can (AsyncMulti.step keep s t .cancel) ↔ Awaits ((s.obj i).pc p)) := by
  have hf := pc_free h
  have hcall : AsyncMulti.userTurn keep s t = true → ∀ j op, OnContainer op → Can (AsyncMulti.step keep s t (.call j op)) := by
    intro hu j op hop
    unfold Can
    cases op <;> simp [OnContainer] at hop <;> simp [AsyncMulti.step, hu, Async.invoke, hf]
  refine ⟨fun he => hcall (by simp [AsyncMulti.userTurn, he]), fun i p rest he => ?_⟩
  obtain ⟨c1, c2, c3, c4, c5⟩ := C105_async ((Proof.AsyncMulti.inv_reach h).obj i) p
  have hm : ∀ {o : Option (Async.St V E)} {f : Async.St V E → AsyncMulti.St F V E}, Can (o.map f) ↔ Can o := by
    intro o f; unfold Can; cases o <;> simp
  refine ⟨fun hu => hcall ?_, fun op => ?_, fun o => ?_, ?_, ?_, ?_⟩
  · simp only [AsyncMulti.userTurn, he]
    rcases hu with ⟨k, hk⟩ | ⟨hk, g, hg | hg | hg⟩
    · simp [hk, AsyncMulti.building]
    all_goals simp [hk, hg, AsyncMulti.holding]
  · rw [← c1]; simp only [AsyncMulti.step, he]; exact hm
  · rw [← c2 o]; simp only [AsyncMulti.step, he]; exact hm
  · rw [← c3]; simp only [AsyncMulti.step, he]; exact hm
  · have : Can (AsyncMulti.step keep s t .go) ↔
        (AsyncMulti.queued ((s.obj i).pc p) = true → (s.queue i).head? = some p) ∧ Can (Async.step (s.obj i) p .go) := by
      simp only [AsyncMulti.step, he, AsyncMulti.turn, Async.step]
      by_cases hq : AsyncMulti.queued ((s.obj i).pc p) = true <;> by_cases hh : (s.queue i).head? = some p <;>
        simp [hq, hh, hm] <;> simp [Can]
    rw [this, c4]
    constructor
    · rintro ⟨a, b, c, d, e⟩; exact ⟨b, c, d, a, e⟩
    · rintro ⟨b, c, d, a, e⟩; exact ⟨a, b, c, d, e⟩
  · rw [← c5]; simp only [AsyncMulti.step, he]; exact hm

/-- In the code of the user: a call on a lazy field is in its builder, or returned a guard, or is in `clone`, `==` or `fmt` of the
content; a call on a lock returned its guard, or is in `clone`, `into` or `==` of the content. -/
def AtUser {F L W : Type} (s : AsyncMixed.St F L V W E) : AsyncMixed.Fr F → Prop
  | .lazy i p => Builds ((s.obj i).pc p) ∨ Keeps ((s.obj i).pc p) ∨ (s.obj i).pc p = .sHave
  | .lock p => s.lk.pc p = .idle ∧ s.lk.held p ≠ [] ∨ InUser (s.lk.pc p)

/-- The innermost builder of task `t`: no call made later is in a builder. -/
def Innermost {F L W : Type} (s : AsyncMixed.St F L V W E) (t : Nat) (i : F) (p : Nat) : Prop :=
  Builds ((s.obj i).pc p) ∧ ∃ pre post, s.stack t = pre ++ .lazy i p :: post ∧
    ∀ j q, .lazy j q ∈ pre → ¬ Builds ((s.obj j).pc q)

theorem building_iff {F L W : Type} {s : AsyncMixed.St F L V W E} {i : F} {p : Nat} :
    AsyncMixed.building (AsyncMixed.look s (.lazy i p)) = true ↔ Builds ((s.obj i).pc p) := by
  unfold Builds
  cases hp : (s.obj i).pc p <;> simp [AsyncMixed.building, AsyncMixed.look, hp, AsyncMulti.building]

theorem atUser_iff {F L W : Type} {s : AsyncMixed.St F L V W E} {f : AsyncMixed.Fr F} :
    AsyncMixed.atUser (AsyncMixed.look s f) = true ↔ AtUser s f := by
  cases f with
  | lazy i p => 
    unfold AtUser Builds Keeps
    cases hp : (s.obj i).pc p <;> simp [AsyncMixed.look, hp, AsyncMixed.atUser]
  | lock p =>
    unfold AtUser
    cases hp : s.lk.pc p <;> cases hh : s.lk.held p <;> simp [AsyncMixed.look, hp, hh, AsyncMixed.atUser, InUser]

theorem innermost_iff {F L W : Type} [DecidableEq F] {s : AsyncMixed.St F L V W E} {t : Nat} {i : F} {p : Nat} :
    AsyncMixed.innermost s t = some (.lazy i p) ↔ Innermost s t i p := by
  unfold AsyncMixed.innermost Innermost
  rw [List.find?_eq_some_iff_append, building_iff]
  refine and_congr_right fun _ => ?_
  constructor
  · rintro ⟨pre, post, h1, h2⟩
    refine ⟨pre, post, h1, fun j q hq hb => ?_⟩
    have := h2 _ hq
    rw [building_iff.2 hb] at this; simp at this
  · rintro ⟨pre, post, h1, h2⟩
    refine ⟨pre, post, h1, fun a ha => ?_⟩
    cases a with
    | lock q => rfl
    | lazy j q =>
      have := h2 j q ha
      rw [← building_iff] at this
      simpa using this

/-- **C105.** Tasks with lazy and lock-protected fields, from their own code: a task can begin every operation on every field, use
and drop every guard it has, end or drop the innermost builder, await branches, and return as a branch when only guards are
left. -/
theorem C105_async_mixed {F L W : Type} [DecidableEq F] [DecidableEq L] {eqv : W → W → Bool} {dep : F ⊕ L → F ⊕ L → Prop}
    {v₀ : F → Option V} {w₀ : L → W} {s : AsyncMixed.St F L V W E} (h : AsyncMixed.Reach eqv dep v₀ w₀ s) {t : Nat}
    (ht : ∀ f ∈ s.stack t, AtUser s f) (hk : s.kids t = []) :
    (∀ j op, OnContainer op → Can (AsyncMixed.step eqv s t (.call j op))) ∧
    (∀ op, Can (AsyncMixed.step eqv s t (.lock op)) ↔ LockMayCall [] op) ∧
    (∀ i p, .lazy i p ∈ s.stack t →
      (∀ op, Can (AsyncMixed.step eqv s t (.act (.lazy i p) (.use op))) ↔ MayCall ((s.obj i).pc p) op) ∧
      (Can (AsyncMixed.step eqv s t (.act (.lazy i p) .drop)) ↔ Keeps ((s.obj i).pc p)) ∧
      (∀ o, Can (AsyncMixed.step eqv s t (.act (.lazy i p) (.finish o))) ↔ Innermost s t i p) ∧
      (Can (AsyncMixed.step eqv s t (.act (.lazy i p) .cancel)) ↔ Innermost s t i p)) ∧
    (∀ p, .lock p ∈ s.stack t →
      (∀ k, Can (AsyncMixed.step eqv s t (.act (.lock p) (.useLock (.deref k)))) ↔
        s.lk.pc p = .idle ∧ ((k, false) ∈ s.lk.held p ∨ (k, true) ∈ s.lk.held p)) ∧
      (∀ k v, Can (AsyncMixed.step eqv s t (.act (.lock p) (.useLock (.assign k v)))) ↔
        s.lk.pc p = .idle ∧ (k, true) ∈ s.lk.held p) ∧
      (∀ g, Can (AsyncMixed.step eqv s t (.act (.lock p) (.dropLock g))) ↔ s.lk.pc p = .idle ∧ g ∈ s.lk.held p) ∧
      (Can (AsyncMixed.step eqv s t (.act (.lock p) .panic)) ↔ InUser (s.lk.pc p))) ∧
    (∀ c, Can (AsyncMixed.step eqv s t (.fork c)) ↔ t < c ∧ s.stack c = [] ∧ s.kids c = [] ∧ s.par c = none) ∧
    (Can (AsyncMixed.step eqv s t .ret) ↔ (∃ u, s.par t = some u) ∧ ∀ f ∈ s.stack t, match f with
      | .lazy i p => Keeps ((s.obj i).pc p)
      | .lock p => s.lk.pc p = .idle) := by
  have hi := Proof.AsyncMixed.inv_reach h
  have hrest : AsyncMixed.atRest s t = true := List.all_eq_true.2 fun f hf => atUser_iff.2 (ht f hf)
  have hturn : AsyncMixed.turn s t = true := Proof.AsyncMixed.turn_iff.2 ⟨hrest, hk⟩
  have halone : ∀ f, AsyncMixed.alone s t f = true := fun f =>
    Proof.AsyncMixed.alone_iff.2 ⟨fun g hg => .inr (atUser_iff.2 (ht g hg)), hk⟩
  have hm : ∀ {A B : Type} {o : Option A} {f : A → B}, Can (o.map f) ↔ Can o := by
    intro A B o f; unfold Can; cases o <;> simp
  have hact : ∀ {f} (b), f ∈ s.stack t → (Can (AsyncMixed.step eqv s t (.act f b)) ↔
      AsyncMixed.may s t f = true ∧ Can (AsyncMixed.fstep eqv s f b)) := by
    intro f b hf
    simp only [AsyncMixed.step, hf, halone, true_and]
    by_cases hmay : AsyncMixed.may s t f = true
    · simp only [hmay, if_true, hm, true_and]
    · simp [hmay, Can]
  have hmay : ∀ {f}, AsyncMixed.building (AsyncMixed.look s f) = false → AsyncMixed.may s t f = true := by
    intro f hf; simp [AsyncMixed.may, hf]
  have hmay' : ∀ {i p}, Builds ((s.obj i).pc p) → (AsyncMixed.may s t (.lazy i p) = true ↔ Innermost s t i p) := by
    intro i p hb
    rw [← innermost_iff]
    simp [AsyncMixed.may, building_iff.2 hb]
  have hkb : ∀ {i p}, ¬ Builds ((s.obj i).pc p) → AsyncMixed.may s t (.lazy i p) = true := by
    intro i p hb
    refine hmay ?_
    rw [← building_iff] at hb
    simpa using hb
  obtain ⟨l0, l1⟩ := Proof.AsyncMixed.fresh_lock hi
  refine ⟨fun j op hop => ?_, fun op => ?_, fun i p hs => ⟨fun op => ?_, ?_, fun o => ?_, ?_⟩,
    fun p hs => ⟨fun k => ?_, fun k v => ?_, fun g => ?_, ?_⟩, fun c => ?_, ?_⟩
  · have hf := Proof.AsyncMixed.fresh_lazy hi j
    unfold Can
    cases op <;> simp [OnContainer] at hop <;> simp [AsyncMixed.step, hturn, Async.invoke, hf]
  · have := (C105_async_locks eqv s.lk s.next).1 op
    rw [l0, l1] at this
    simp only [AsyncMixed.step, hturn, if_true, hm]
    simpa [AsyncLocks.step] using this
  · rw [hact _ hs, ← (C105_async (hi.pool.obj i) p).1 op]
    refine ⟨fun hh => hm.1 hh.2, fun hh => ⟨hkb ?_, hm.2 hh⟩⟩
    rw [(C105_async (hi.pool.obj i) p).1 op] at hh
    rintro ⟨k, hb⟩
    rw [hb] at hh
    cases op <;> simp [MayCall] at hh
  · rw [hact _ hs, ← (C105_async (hi.pool.obj i) p).2.2.1]
    refine ⟨fun hh => hm.1 hh.2, fun hh => ⟨hkb ?_, hm.2 hh⟩⟩
    rw [(C105_async (hi.pool.obj i) p).2.2.1] at hh
    rintro ⟨k, hb⟩
    rw [hb] at hh
    simp [Keeps] at hh
  · rw [hact _ hs]
    constructor
    · rintro ⟨h1, h2⟩
      exact (hmay' (((C105_async (hi.pool.obj i) p).2.1 o).1 (hm.1 h2))).1 h1
    · intro h1
      exact ⟨(hmay' h1.1).2 h1, hm.2 (((C105_async (hi.pool.obj i) p).2.1 o).2 h1.1)⟩
  · rw [hact _ hs]
    constructor
    · rintro ⟨h1, h2⟩
      have ha := (C105_async (hi.pool.obj i) p).2.2.2.2.1 (hm.1 h2)
      refine (hmay' ?_).1 h1
      rcases ht _ hs with hu | ⟨g, hu | hu | hu⟩ | hu
      · exact hu
      all_goals rw [hu] at ha; simp [Awaits] at ha
    · intro h1
      obtain ⟨k, hb⟩ := h1.1
      exact ⟨(hmay' h1.1).2 h1, hm.2 ((C105_async (hi.pool.obj i) p).2.2.2.2.2 (.inl ⟨k, .inr (.inr hb)⟩))⟩
  · rw [hact _ hs]
    have := (C105_async_locks eqv s.lk p).1 (.deref k)
    simp only [hmay (f := .lock p) rfl, true_and]
    exact hm.trans this
  · rw [hact _ hs]
    have := (C105_async_locks eqv s.lk p).1 (.assign k v)
    simp only [hmay (f := .lock p) rfl, true_and]
    exact hm.trans this
  · rw [hact _ hs]
    have := (C105_async_locks eqv s.lk p).2.1 g
    simp only [hmay (f := .lock p) rfl, true_and]
    exact hm.trans this
  · rw [hact _ hs]
    have := (C105_async_locks eqv s.lk p).2.2.1
    simp only [hmay (f := .lock p) rfl, true_and]
    exact hm.trans this
  · unfold Can
    simp only [AsyncMixed.step, hrest, true_and]
    by_cases hc : t < c ∧ s.stack c = [] ∧ s.kids c = [] ∧ s.par c = none <;> simp [hc]
  · have hg : ((s.stack t).all (fun f => AsyncMixed.guard (AsyncMixed.look s f)) = true) ↔ ∀ f ∈ s.stack t, (match f with
        | .lazy i p => Keeps ((s.obj i).pc p)
        | .lock p => s.lk.pc p = .idle : Prop) := by
      rw [List.all_eq_true]
      refine forall₂_congr fun f hf => ?_
      have hu := ht f hf
      cases f with
      | lazy i p =>
        simp only [AsyncMixed.look, AsyncMixed.guard, Keeps]
        cases (s.obj i).pc p <;> simp [AsyncMulti.holding]
      | lock p =>
        simp only [AsyncMixed.look]
        unfold AtUser at hu
        cases hp : s.lk.pc p <;> cases hh : s.lk.held p <;> simp [AsyncMixed.guard] <;> simp [hp, hh, InUser] at hu
    rw [← hg]
    unfold Can
    simp only [AsyncMixed.step]
    cases s.par t with
    | none => simp
    | some u => by_cases hc : (s.stack t).all (fun f => AsyncMixed.guard (AsyncMixed.look s f)) = true <;> simp [hk, hc]

/-- **C105.** Tasks with lazy and lock-protected fields, within a call: it goes on as the first of the queue, once the lock allows
it; where it awaits, and nowhere else, it can be dropped. -/
theorem C105_async_mixed_within {F L W : Type} [DecidableEq F] [DecidableEq L] {eqv : W → W → Bool} {dep : F ⊕ L → F ⊕ L → Prop}
    {v₀ : F → Option V} {w₀ : L → W} {s : AsyncMixed.St F L V W E} (h : AsyncMixed.Reach eqv dep v₀ w₀ s) {t : Nat}
    {f : AsyncMixed.Fr F} (hf : f ∈ s.stack t) (hu : ¬ AtUser s f) :
    match f with
    | .lazy i p =>
      (Can (AsyncMixed.step eqv s t (.act (.lazy i p) .go)) ↔
        (AsyncMulti.queued ((s.obj i).pc p) = true → (s.queue i).head? = some p) ∧ LockSays (s.obj i).lk ((s.obj i).pc p)) ∧
      (Can (AsyncMixed.step eqv s t (.act (.lazy i p) .cancel)) ↔ Awaits ((s.obj i).pc p))
    | .lock p =>
      (Can (AsyncMixed.step eqv s t (.act (.lock p) .go)) ↔ LocksSay s.lk p (s.lk.pc p)) ∧
      (Can (AsyncMixed.step eqv s t (.act (.lock p) .cancel)) ↔ AwaitsLock (s.lk.pc p)) := by
  have hi := Proof.AsyncMixed.inv_reach h
  have hu' : AsyncMixed.atUser (AsyncMixed.look s f) = false := by
    rw [← atUser_iff] at hu; simpa using hu
  have halone : AsyncMixed.alone s t f = true := by
    refine Proof.AsyncMixed.alone_iff.2 ⟨fun g hg => ?_, ?_⟩
    · cases hgu : AsyncMixed.atUser (AsyncMixed.look s g) with
      | true => exact .inr rfl
      | false => exact .inl (hi.one t g f hg hf hgu hu')
    · apply Classical.byContradiction
      intro hk
      have := Proof.AsyncMixed.rest_user (hi.rest t hk) hf
      rw [hu'] at this; cases this
  have hmay : AsyncMixed.may s t f = true := by
    cases f with
    | lock p => rfl
    | lazy i p =>
      have : ¬ Builds ((s.obj i).pc p) := fun hb => hu (.inl hb)
      rw [← building_iff] at this
      simp [AsyncMixed.may, this]
  have hm : ∀ {A B : Type} {o : Option A} {f : A → B}, Can (o.map f) ↔ Can o := by
    intro A B o f; unfold Can; cases o <;> simp
  have hact : ∀ b, Can (AsyncMixed.step eqv s t (.act f b)) ↔ Can (AsyncMixed.fstep eqv s f b) := by
    intro b
    simp only [AsyncMixed.step, hf, halone, hmay, true_and, if_true, hm]
  have hin := (hi.inside t f hf).2
  cases f with
  | lazy i p =>
    have c := C105_async (hi.pool.obj i) p
    have hne : (s.obj i).pc p ≠ .idle := by
      intro hp; simp [AsyncMixed.look, hp, AsyncMixed.gone, AsyncMulti.gone] at hin
    refine ⟨?_, (hact _).trans (hm.trans c.2.2.2.2)⟩
    rw [hact]
    have c4 := c.2.2.2.1
    have : LockSays (s.obj i).lk ((s.obj i).pc p) ↔ Can (Async.step (s.obj i) p .go) := by
      rw [c4]
      exact ⟨fun hl => ⟨hne, fun hb => hu (.inl hb), fun hb => hu (.inr (.inl hb)), hl⟩, fun hl => hl.2.2.2⟩
    rw [this]
    simp only [AsyncMixed.fstep, Async.step]
    by_cases hq : AsyncMulti.queued ((s.obj i).pc p) = true <;> by_cases hh : (s.queue i).head? = some p <;>
      simp [hq, hh, hm] <;> simp [Can]
  | lock p =>
    have c := C105_async_locks eqv s.lk p
    have hne : s.lk.pc p ≠ .idle := by
      intro hp
      cases hh : s.lk.held p with
      | nil => simp [AsyncMixed.look, hp, hh, AsyncMixed.gone] at hin
      | cons a b => exact hu (.inl ⟨hp, by simp [hh]⟩)
    refine ⟨?_, (hact _).trans (hm.trans c.2.2.2.2)⟩
    rw [hact]
    refine hm.trans (c.2.2.2.1.trans ?_)
    simp [hne]

/-- In the code of the user: a helper of a lazy field is in the builder or returned a guard; a helper of a lock-protected field
returned its guard. -/
def AtUserCode {F L W : Type} (s : Tasks.St F L V W E) : AsyncMixed.Fr F → Prop
  | .lazy i p => Builds ((s.obj i).c.pc p) ∨ (s.obj i).pc p = .keeps
  | .lock p => s.lk.pc p = .idle ∧ s.lk.c.held p ≠ []

/-- The innermost builder of task `t`: no helper called later is in a builder. -/
def InnermostCode {F L W : Type} (s : Tasks.St F L V W E) (t : Nat) (i : F) (p : Nat) : Prop :=
  Builds ((s.obj i).c.pc p) ∧ ∃ pre post, s.stack t = pre ++ .lazy i p :: post ∧
    ∀ j q, .lazy j q ∈ pre → ¬ Builds ((s.obj j).c.pc q)

section
variable {F L W : Type} [DecidableEq F] [DecidableEq L] {fal cl : F → Bool} {eqv : Option W → Option W → Bool}
  {dep : F ⊕ L → F ⊕ L → Prop} {v₀ : F → Option V} {w₀ : L → Option W} {s : Tasks.St F L V W E}

theorem code_building_iff (hi : Proof.Tasks.Inv fal cl eqv dep v₀ w₀ s) {i : F} {p : Nat} :
    Tasks.building (Tasks.look s (.lazy i p)) = true ↔ Builds ((s.obj i).c.pc p) := by
  have hb : AsyncMulti.building ((s.obj i).c.pc p) = true ↔ Builds ((s.obj i).c.pc p) := by
    unfold Builds
    cases (s.obj i).c.pc p <;> simp [AsyncMulti.building]
  constructor
  · intro h
    rw [← hb]
    simp only [Tasks.look] at h
    cases hp : (s.obj i).pc p <;> rw [hp] at h <;> simp [Tasks.building] at h
    exact h
  · intro h
    obtain ⟨k, hk⟩ := h
    obtain ⟨f, m, todo, hw⟩ := builds_waits ((hi.pool.obj i).loc p) (.inl ⟨k, .inr (.inr hk)⟩)
    simp only [Tasks.look, hw, Tasks.building]
    exact hb.2 ⟨k, hk⟩

theorem code_atUser_iff (hi : Proof.Tasks.Inv fal cl eqv dep v₀ w₀ s) {f : AsyncMixed.Fr F} :
    Tasks.atUser (Tasks.look s f) = true ↔ AtUserCode s f := by
  cases f with
  | lazy i p =>
    unfold Tasks.atUser AtUserCode
    rw [Bool.or_eq_true, code_building_iff hi, or_comm]
    refine or_congr_right ?_
    simp only [Tasks.look]
    cases (s.obj i).pc p <;> simp [Tasks.guard]
  | lock p =>
    unfold AtUserCode
    simp only [Tasks.look, Tasks.atUser]
    cases s.lk.pc p <;> cases s.lk.c.held p <;> simp [Tasks.guard, Tasks.building]

theorem code_innermost_iff (hi : Proof.Tasks.Inv fal cl eqv dep v₀ w₀ s) {t : Nat} {i : F} {p : Nat} :
    Tasks.innermost s t = some (.lazy i p) ↔ InnermostCode s t i p := by
  unfold Tasks.innermost InnermostCode
  rw [List.find?_eq_some_iff_append, code_building_iff hi]
  refine and_congr_right fun _ => ?_
  constructor
  · rintro ⟨pre, post, h1, h2⟩
    refine ⟨pre, post, h1, fun j q hq hb => ?_⟩
    have := h2 _ hq
    rw [(code_building_iff hi).2 hb] at this; simp at this
  · rintro ⟨pre, post, h1, h2⟩
    refine ⟨pre, post, h1, fun a ha => ?_⟩
    cases a with
    | lock q => rfl
    | lazy j q =>
      have := h2 j q ha
      rw [← code_building_iff hi] at this
      simpa using this

end

/-- **C105.** Tasks calling the helpers of all fields, from their own code: a task can call every helper there is, use and drop
every guard it has, end or drop the innermost builder, await branches, and return as a branch when only guards are left. -/
theorem C105_tasks {F L W : Type} [DecidableEq F] [DecidableEq L] {x : F → FCtx} {y : L → FCtx}
    {lazyCode : F → Kind → Option Body} {lockCode : L → Kind → Option Body} {eqv : Option W → Option W → Bool}
    {dep : F ⊕ L → F ⊕ L → Prop} {v₀ : F → Option V} {w₀ : L → Option W} {s : Tasks.St F L V W E}
    (hx : Props.Tasks.Fields x y lazyCode lockCode) (h : Tasks.Reach lazyCode lockCode eqv dep v₀ w₀ s) {t : Nat}
    (ht : ∀ f ∈ s.stack t, AtUserCode s f) (hk : s.kids t = []) :
    (∀ j k v boom, Can (Tasks.step lazyCode lockCode eqv s t (.call j k v boom)) ↔ ∃ b, lazyCode j k = some b) ∧
    (∀ i k v boom, Can (Tasks.step lazyCode lockCode eqv s t (.lock (.helper i k v boom))) ↔ ∃ b, lockCode i k = some b) ∧
    (∀ i, Can (Tasks.step lazyCode lockCode eqv s t (.lock (.clone i)))) ∧
    (∀ i j, Can (Tasks.step lazyCode lockCode eqv s t (.lock (.eq i j)))) ∧
    (∀ i p, .lazy i p ∈ s.stack t →
      ((s.obj i).pc p = .keeps →
        (∀ u, Can (Tasks.step lazyCode lockCode eqv s t (.act (.lazy i p) (.use u))) ↔ MayUse ((s.obj i).c.pc p) u) ∧
        Can (Tasks.step lazyCode lockCode eqv s t (.act (.lazy i p) .drop))) ∧
      (∀ o, Can (Tasks.step lazyCode lockCode eqv s t (.act (.lazy i p) (.finish o))) ↔ InnermostCode s t i p) ∧
      (Can (Tasks.step lazyCode lockCode eqv s t (.act (.lazy i p) .cancel)) ↔ InnermostCode s t i p)) ∧
    (∀ p, .lock p ∈ s.stack t →
      (∀ k, Can (Tasks.step lazyCode lockCode eqv s t (.act (.lock p) (.useLock (.deref k)))) ↔
        (k, false) ∈ s.lk.c.held p ∨ (k, true) ∈ s.lk.c.held p) ∧
      (∀ k o, Can (Tasks.step lazyCode lockCode eqv s t (.act (.lock p) (.useLock (.assign k o)))) ↔
        (k, true) ∈ s.lk.c.held p) ∧
      (∀ g, Can (Tasks.step lazyCode lockCode eqv s t (.act (.lock p) (.dropLock g))) ↔ g ∈ s.lk.c.held p)) ∧
    (∀ c, Can (Tasks.step lazyCode lockCode eqv s t (.fork c)) ↔ t < c ∧ s.stack c = [] ∧ s.kids c = [] ∧ s.par c = none) ∧
    (Can (Tasks.step lazyCode lockCode eqv s t .ret) ↔
      (∃ u, s.par t = some u) ∧ ∀ i p, .lazy i p ∈ s.stack t → (s.obj i).pc p = .keeps) := by
  have hi := Proof.Tasks.inv_reach (Props.Tasks.good hx) h
  have hrest : Tasks.atRest s t = true := List.all_eq_true.2 fun f hf => (code_atUser_iff hi).2 (ht f hf)
  have hturn : Tasks.turn s t = true := by simp [Tasks.turn, hrest, hk]
  have halone : ∀ f, Tasks.alone s t f = true := by
    intro f
    simp only [Tasks.alone, hk, List.isEmpty_nil, Bool.and_true, List.all_eq_true, Bool.or_eq_true]
    exact fun g hg => .inr ((code_atUser_iff hi).2 (ht g hg))
  have hm : ∀ {A B : Type} {o : Option A} {f : A → B}, Can (o.map f) ↔ Can o := by
    intro A B o f; unfold Can; cases o <;> simp
  have hact : ∀ {f} (b), f ∈ s.stack t → (Can (Tasks.step lazyCode lockCode eqv s t (.act f b)) ↔
      Tasks.may s t f = true ∧ Can (Tasks.fstep lazyCode lockCode eqv s f b)) := by
    intro f b hf
    simp only [Tasks.step, hf, halone, true_and]
    by_cases hmay : Tasks.may s t f = true
    · simp only [hmay, if_true, hm, true_and]
    · simp [hmay, Can]
  have hmay' : ∀ {i p}, Builds ((s.obj i).c.pc p) → (Tasks.may s t (.lazy i p) = true ↔ InnermostCode s t i p) := by
    intro i p hb
    rw [← code_innermost_iff hi]
    simp [Tasks.may, (code_building_iff hi).2 hb]
  have hkb : ∀ {i p}, ¬ Builds ((s.obj i).c.pc p) → Tasks.may s t (.lazy i p) = true := by
    intro i p hb
    rw [← code_building_iff hi] at hb
    simp [Tasks.may, hb]
  have hml : ∀ p, Tasks.may s t (.lock p) = true := fun p => rfl
  have cu := fun i p => calls_user (code := lazyCode i) (hi.pool.obj i) p
  have lu := fun {p} (hp : s.lk.pc p = .idle) => lock_calls_user (code := lockCode) hx.lock hi.pool.lk hp
  obtain ⟨l0, _⟩ := Proof.Tasks.fresh_lock hi
  have hlk : ∀ c, Can (Tasks.step lazyCode lockCode eqv s t (.lock c)) ↔
      Can (AsyncLockCalls.step lockCode eqv s.lk s.next (.call c)) := by
    intro c; simp only [Tasks.step, hturn, if_true]; exact hm
  refine ⟨fun j k v boom => ?_, fun i k v boom => (hlk _).trans ((lu l0).1 i k v boom), fun i => (hlk _).2 ((lu l0).2.1 i),
    fun i j => (hlk _).2 ((lu l0).2.2.1 i j), fun i p hs => ⟨fun hp => ⟨fun u => ?_, ?_⟩, fun o => ?_, ?_⟩,
    fun p hs => ⟨fun k => ?_, fun k v => ?_, fun g => ?_⟩, fun c => ?_, ?_⟩
  · rw [← (cu j s.next).1 (Proof.Tasks.fresh_lazy hi j) k v boom]
    simp only [Tasks.step, hturn, if_true]; exact hm
  · have c := (cu i p).2.1 hp
    rw [hact _ hs, ← c.2.2 u]
    refine ⟨fun hh => hm.1 hh.2, fun hh => ⟨hkb ?_, hm.2 hh⟩⟩
    obtain ⟨g, hg⟩ := c.1
    rintro ⟨k, hb⟩
    rw [hb] at hg; simp at hg
  · have c := (cu i p).2.1 hp
    rw [hact _ hs]
    refine ⟨hkb ?_, hm.2 c.2.1⟩
    obtain ⟨g, hg⟩ := c.1
    rintro ⟨k, hb⟩
    rw [hb] at hg; simp at hg
  · rw [hact _ hs]
    constructor
    · rintro ⟨h1, h2⟩
      exact (hmay' (((cu i p).2.2.1 o).1 (hm.1 h2))).1 h1
    · intro h1
      exact ⟨(hmay' h1.1).2 h1, hm.2 (((cu i p).2.2.1 o).2 h1.1)⟩
  · rw [hact _ hs]
    constructor
    · rintro ⟨h1, h2⟩
      have ha := (cu i p).2.2.2.1 (hm.1 h2)
      refine (hmay' ?_).1 h1
      rcases ht _ hs with hu | hu
      · exact hu
      · obtain ⟨g, hg⟩ := ((cu i p).2.1 hu).1
        rcases hg with hg | hg | hg <;> rw [hg] at ha <;> simp [Awaits] at ha
    · intro h1
      obtain ⟨k, hb⟩ := h1.1
      exact ⟨(hmay' h1.1).2 h1, hm.2 ((cu i p).2.2.2.2 (.inl ⟨k, .inr (.inr hb)⟩))⟩
  · rw [hact _ hs]
    simp only [hml, true_and]
    exact hm.trans ((lu (ht _ hs).1).2.2.2.1 k)
  · rw [hact _ hs]
    simp only [hml, true_and]
    exact hm.trans ((lu (ht _ hs).1).2.2.2.2.1 k v)
  · rw [hact _ hs]
    simp only [hml, true_and]
    exact hm.trans ((lu (ht _ hs).1).2.2.2.2.2 g)
  · unfold Can
    simp only [Tasks.step, hrest, true_and]
    by_cases hc : t < c ∧ s.stack c = [] ∧ s.kids c = [] ∧ s.par c = none <;> simp [hc]
  · have hg : ((s.stack t).all (fun f => Tasks.guard (Tasks.look s f)) = true) ↔
        ∀ i p, .lazy i p ∈ s.stack t → (s.obj i).pc p = .keeps := by
      rw [List.all_eq_true]
      constructor
      · intro h1 i p hf
        have := h1 _ hf
        revert this
        simp only [Tasks.look]
        cases (s.obj i).pc p <;> simp [Tasks.guard]
      · intro h1 f hf
        cases f with
        | lazy i p => simp only [Tasks.look, h1 i p hf]; rfl
        | lock p =>
          obtain ⟨h2, h3⟩ := ht _ hf
          simp only [Tasks.look, h2]
          cases hh : s.lk.c.held p with
          | nil => exact absurd hh h3
          | cons => rfl
    rw [← hg]
    unfold Can
    simp only [Tasks.step]
    cases s.par t with
    | none => simp
    | some u => by_cases hc : (s.stack t).all (fun f => Tasks.guard (Tasks.look s f)) = true <;> simp [hk, hc]

/-- **C105.** Tasks calling the helpers of all fields, within a helper: where it awaits, and nowhere else, it can be dropped. -/
theorem C105_tasks_within {F L W : Type} [DecidableEq F] [DecidableEq L] {x : F → FCtx} {y : L → FCtx}
    {lazyCode : F → Kind → Option Body} {lockCode : L → Kind → Option Body} {eqv : Option W → Option W → Bool}
    {dep : F ⊕ L → F ⊕ L → Prop} {v₀ : F → Option V} {w₀ : L → Option W} {s : Tasks.St F L V W E}
    (hx : Props.Tasks.Fields x y lazyCode lockCode) (h : Tasks.Reach lazyCode lockCode eqv dep v₀ w₀ s) {t : Nat}
    {f : AsyncMixed.Fr F} (hf : f ∈ s.stack t) (hu : ¬ AtUserCode s f) :
    match f with
    | .lazy i p => Can (Tasks.step lazyCode lockCode eqv s t (.act (.lazy i p) .cancel)) ↔ Awaits ((s.obj i).c.pc p)
    | .lock p =>
      (Can (Tasks.step lazyCode lockCode eqv s t (.act (.lock p) .cancel)) ↔
        ∃ i, s.lk.c.pc p = .rWait i ∨ s.lk.c.pc p = .wWait i) ∧
      (Can (Tasks.step lazyCode lockCode eqv s t (.act (.lock p) .panic)) ↔ InUser (s.lk.c.pc p)) := by
  have hi := Proof.Tasks.inv_reach (Props.Tasks.good hx) h
  have hu' : Tasks.atUser (Tasks.look s f) = false := by
    rw [← code_atUser_iff hi] at hu; simpa using hu
  have halone : Tasks.alone s t f = true := by
    simp only [Tasks.alone, Bool.and_eq_true, List.all_eq_true, Bool.or_eq_true, beq_iff_eq, List.isEmpty_iff]
    refine ⟨fun g hg => ?_, ?_⟩
    · cases hgu : Tasks.atUser (Tasks.look s g) with
      | true => exact .inr rfl
      | false => exact .inl (hi.one t g f hg hf hgu hu')
    · apply Classical.byContradiction
      intro hk
      have := List.all_eq_true.1 (hi.rest t hk) f hf
      rw [hu'] at this; cases this
  have hmay : Tasks.may s t f = true := by
    cases f with
    | lock p => rfl
    | lazy i p =>
      have : ¬ Builds ((s.obj i).c.pc p) := fun hb => hu (.inl hb)
      rw [← code_building_iff hi] at this
      simp [Tasks.may, this]
  have hm : ∀ {A B : Type} {o : Option A} {f : A → B}, Can (o.map f) ↔ Can o := by
    intro A B o f; unfold Can; cases o <;> simp
  have hact : ∀ b, Can (Tasks.step lazyCode lockCode eqv s t (.act f b)) ↔ Can (Tasks.fstep lazyCode lockCode eqv s f b) := by
    intro b
    simp only [Tasks.step, hf, halone, hmay, true_and, if_true, hm]
  cases f with
  | lazy i p =>
    exact (hact _).trans (hm.trans (calls_user (code := lazyCode i) (hi.pool.obj i) p).2.2.2)
  | lock p =>
    obtain ⟨h1, h2⟩ := lock_calls_ends (code := lockCode) hi.pool.lk p
    exact ⟨(hact _).trans (hm.trans h2), (hact _).trans (hm.trans h1)⟩


end

/-! ### Concrete cases -/

-- process 0 is in its builder, which may end in any way or be dropped; process 1 awaits the lock and may be dropped
example : ∃ s : Async.St Nat Nat, Async.Reach none s ∧ Can (Async.step s 0 (.finish .panic)) ∧ Can (Async.step s 0 .cancel) ∧
    ¬ Can (Async.step s 1 .go) ∧ Can (Async.step s 1 .cancel) ∧ Can (Async.step s 2 (.call .writer)) ∧
    ¬ Can (Async.step s 2 .cancel) := by
  have h : ∃ s : Async.St Nat Nat, Async.run (Async.init none) [(0, .call (.get .read)), (0, .go), (0, .go), (0, .go),
      (1, .call (.set 5))] = some s ∧ s.pc 0 = .rBuild .read ∧ s.pc 1 = .xStart (.put (some 5)) ∧ s.pc 2 = .idle ∧
      s.lk = (⟨[], some 0⟩ : Async.ALock) := ⟨_, rfl, rfl, rfl, rfl, rfl⟩
  obtain ⟨s, h1, h2, h3, h4, h5⟩ := h
  have hr := Proof.Async.reach_run .init h1
  have c := C105_async hr
  refine ⟨s, hr, ((c 0).2.1 _).2 ⟨_, h2⟩, (c 0).2.2.2.2.2 (.inl ⟨_, .inr (.inr h2)⟩), ?_, (c 1).2.2.2.2.2 (.inr ⟨_, h3⟩),
    ((c 2).1 _).2 h4, ?_⟩
  · rw [(c 1).2.2.2.1, h3, h5]; simp [LockSays]
  · rw [(c 2).2.2.2.2, h4]; simp [Awaits]

-- task 0 has a read guard, task 1 awaits the write guard, task 2 awaits a read guard behind it
example : ∃ s : AsyncLocks.St Unit Nat, ¬ Can (AsyncLocks.step (fun a b => a == b) s 1 .go) ∧
    ¬ Can (AsyncLocks.step (fun a b => a == b) s 2 .go) ∧ Can (AsyncLocks.step (fun a b => a == b) s 1 .cancel) ∧
    Can (AsyncLocks.step (fun a b => a == b) s 0 (.call (.deref ()))) ∧
    ¬ Can (AsyncLocks.step (fun a b => a == b) s 0 (.call (.assign () 3))) := by
  have h : ∃ s, AsyncLocks.run (fun a b => a == b) (AsyncLocks.init fun _ : Unit => 1) [(0, .call (.read ())), (0, .go),
      (1, .call (.write ())), (2, .call (.read ()))] = some s ∧ s.pc 0 = .idle ∧ s.held 0 = [((), false)] ∧
      s.pc 1 = .wWait () ∧ s.pc 2 = .rWait () ∧ (s.lock ()).shared = [0] ∧ s.queue () = [1, 2] := ⟨_, rfl, rfl, rfl, rfl, rfl, rfl, rfl⟩
  obtain ⟨s, _, h1, h2, h3, h4, h5, h6⟩ := h
  have c := C105_async_locks (fun a b => a == b) s
  refine ⟨s, ?_, ?_, ?_, ?_, ?_⟩
  · rw [(c 1).2.2.2.1, h3]; simp [LocksSay, h5]
  · rw [(c 2).2.2.2.1, h4]; simp [LocksSay, h6]
  · rw [(c 1).2.2.2.2, h3]; trivial
  · rw [(c 0).1, h2]; exact ⟨h1, by simp [LockMayCall]⟩
  · rw [(c 0).1, h2]; simp [LockMayCall]

-- helpers: process 0 is in the builder, processes 1 and 3 await the container, process 4 may call any helper
example : ∃ s : AsyncCalls.St Nat Nat, AsyncCalls.Reach AsyncCalls.fullCode none s ∧
    (∀ o, Can (AsyncCalls.step AsyncCalls.fullCode s 0 (.finish o))) ∧
    (∀ p ∈ [0, 1, 3], Can (AsyncCalls.step AsyncCalls.fullCode s p .cancel)) ∧
    ¬ Can (AsyncCalls.step AsyncCalls.fullCode s 4 .cancel) ∧
    ∀ v boom, Can (AsyncCalls.step AsyncCalls.fullCode s 4 (.call (.helper .clearer v boom))) := by
  have h : (AsyncCalls.run AsyncCalls.fullCode (AsyncCalls.init none) (AsyncCalls.story.take 12)).map (fun s =>
      (s.c.pc 0, s.c.pc 1, s.c.pc 3, s.c.pc 4, (match s.pc 4 with | .idle => true | _ => false))) =
      some (.rBuild .read, .xStart .writer, .xStart (.put none), .idle, true) := by decide +kernel
  simp only [Option.map_eq_some_iff, Prod.mk.injEq] at h
  obtain ⟨s, hs, h1, h2, h3, h4, h5⟩ := h
  have hr := Proof.AsyncCalls.reach_run _ .init hs
  have c := C105_async_calls AsyncCalls.fullField hr
  refine ⟨s, hr, fun o => ((c 0).2.2.1 o).2 ⟨_, h1⟩, fun p hp => ?_, ?_, fun v boom => ?_⟩
  · rw [(c p).2.2.2.2]
    simp only [List.mem_cons, List.not_mem_nil, or_false] at hp
    rcases hp with rfl | rfl | rfl
    · exact .inl ⟨_, .inr (.inr h1)⟩
    · exact .inr ⟨_, h2⟩
    · exact .inr ⟨_, h3⟩
  · rw [(c 4).2.2.2.2, h4]; simp [Awaits]
  · have hp : s.pc 4 = .idle := by
      cases hp : s.pc 4 <;> rw [hp] at h5 <;> first | rfl | cases h5
    exact ((c 4).1 hp .clearer v boom).2 ⟨_, rfl⟩

-- task 0 has a guard on field 0 and may use and drop it; task 1 awaits it inside its setter and may be dropped
example : ∃ s : AsyncLockCalls.St (Fin 3) Nat,
    AsyncLockCalls.Reach AsyncLockCalls.fldCode AsyncLockCalls.eqo AsyncLockCalls.order AsyncLockCalls.before s ∧
    Can (AsyncLockCalls.step AsyncLockCalls.fldCode AsyncLockCalls.eqo s 0 (.call (.deref 0))) ∧
    ¬ Can (AsyncLockCalls.step AsyncLockCalls.fldCode AsyncLockCalls.eqo s 0 (.call (.assign 0 none))) ∧
    Can (AsyncLockCalls.step AsyncLockCalls.fldCode AsyncLockCalls.eqo s 0 (.drop (0, false))) ∧
    ¬ Can (AsyncLockCalls.step AsyncLockCalls.fldCode AsyncLockCalls.eqo s 1 .go) ∧
    Can (AsyncLockCalls.step AsyncLockCalls.fldCode AsyncLockCalls.eqo s 1 .cancel) := by
  have h : (AsyncLockCalls.runOrdered (AsyncLockCalls.init AsyncLockCalls.before) (AsyncLockCalls.story.take 25)).map (fun s =>
      (s.c.held 0, (match s.pc 0 with | .idle => true | _ => false), s.c.pc 1, (s.c.lock 0).shared)) =
      some ([(0, false)], true, .wWait 0, [0]) := by decide +kernel
  simp only [Option.map_eq_some_iff, Prod.mk.injEq] at h
  obtain ⟨s, hs, h1, h2, h3, h4⟩ := h
  have hr := AsyncLockCalls.runOrdered_reach _ _ .init hs
  have hp : s.pc 0 = .idle := by
    cases hp : s.pc 0 <;> rw [hp] at h2 <;> first | rfl | cases h2
  have c := C105_async_lock_calls AsyncLockCalls.fldFields hr
  have c0 := (c 0).1 hp
  refine ⟨s, hr, (c0.2.2.2.1 0).2 (by simp [h1]), ?_, (c0.2.2.2.2.2 _).2 (by simp [h1]), ?_, (c 1).2.2.2.2 ⟨0, .inr h3⟩⟩
  · rw [c0.2.2.2.2.1 0 none]; simp [h1]
  · rw [(c 1).2.1, h3]; simp [LocksSay, h4]

-- task 0 is in nested builders; tasks 2 and 3 wait for field 0, 3 behind 2
example : ∃ s : AsyncMulti.St (Fin 3) Nat Nat, AsyncMulti.Reach (fun i j => AsyncMulti.chain i j = true) false (fun _ => none) s ∧
    (∀ j op, OnContainer op → Can (AsyncMulti.step false s 0 (.call j op))) ∧
    (∀ o, Can (AsyncMulti.step false s 0 (.finish o))) ∧ Can (AsyncMulti.step false s 0 .cancel) ∧
    ¬ Can (AsyncMulti.step false s 3 .go) ∧ Can (AsyncMulti.step false s 3 .cancel) := by
  have h : ∃ s, AsyncMulti.runDep AsyncMulti.chain false (AsyncMulti.init fun _ => none) AsyncMulti.nestedRun = some s ∧
      s.stack 0 = [(2, 3), (1, 1), (0, 0)] ∧ s.stack 3 = [(0, 5)] ∧ (s.obj 2).pc 3 = .rBuild .read ∧
      (s.obj 0).pc 5 = .rStart .read ∧ s.queue 0 = [4, 5] := ⟨_, rfl, rfl, rfl, rfl, rfl, rfl⟩
  obtain ⟨s, h1, h2, h3, h4, h5, h6⟩ := h
  have hr := AsyncMulti.reach_runDep .init h1
  obtain ⟨c1, _, c3, _, _, c6⟩ := (C105_async_multi hr 0).2 _ _ _ h2
  obtain ⟨_, _, _, _, d5, d6⟩ := (C105_async_multi hr 3).2 _ _ _ h3
  refine ⟨s, hr, fun j op hop => c1 (.inl ⟨_, h4⟩) j op hop, fun o => (c3 o).2 ⟨_, h4⟩, c6.2 (.inl ⟨_, .inr (.inr h4)⟩), ?_,
    d6.2 (.inl ⟨_, .inl h5⟩)⟩
  rw [d5, h5, h6]; simp [AsyncMulti.queued]

-- in the middle of the run of `Verif.Props.AsyncMixed`: branch 3 keeps a guard and may return; task 1 awaits the session
example : ∃ s : AsyncMixed.St Bool Unit Nat Nat Nat,
    AsyncMixed.Reach (fun a b => a == b) (fun a b => Mixed.layered a b = true) (fun i => if i then none else some 7) (fun _ => 1) s ∧
    Can (AsyncMixed.step (fun a b => a == b) s 3 .ret) ∧ Can (AsyncMixed.step (fun a b => a == b) s 3 (.call true .clear)) ∧
    Can (AsyncMixed.step (fun a b => a == b) s 3 (.fork 9)) ∧
    ¬ Can (AsyncMixed.step (fun a b => a == b) s 1 (.act (.lazy true 4) .go)) ∧
    Can (AsyncMixed.step (fun a b => a == b) s 1 (.act (.lazy true 4) .cancel)) := by
  have h : ∃ s, AsyncMixed.runDep (fun a b => a == b) 2 Mixed.layered
        (AsyncMixed.init (fun i => if i then none else some 7) (fun _ => 1)) (AsyncMixed.layeredRun.take 15) = some s ∧
        s.stack 3 = [.lazy false 2] ∧ s.kids 3 = [] ∧ s.par 3 = some 0 ∧ (∃ g, (s.obj false).pc 2 = .gRead g) ∧
        s.stack 1 = [.lazy true 4] ∧ (s.obj true).pc 4 = .rStart .read ∧ (s.obj true).lk = ⟨[], some 1⟩ ∧
        s.stack 9 = [] ∧ s.kids 9 = [] ∧ s.par 9 = none := ⟨_, rfl, rfl, rfl, rfl, ⟨_, rfl⟩, rfl, rfl, rfl, rfl, rfl, rfl⟩
  obtain ⟨s, h1, h2, h3, h4, ⟨g, h5⟩, h6, h7, h8, h9, h10, h11⟩ := h
  have hr := AsyncMixed.reach_runDep .init h1
  have ho : ∀ f ∈ s.stack 3, AtUser s f := by
    intro f hf
    rw [h2] at hf
    simp only [List.mem_cons, List.not_mem_nil, or_false] at hf
    subst hf
    exact .inr (.inl ⟨g, .inl h5⟩)
  obtain ⟨c1, _, _, _, c5, c6⟩ := C105_async_mixed hr ho h3
  have hw : ¬ AtUser s (.lazy true 4) := by simp [AtUser, Builds, Keeps, h7]
  obtain ⟨d1, d2⟩ := C105_async_mixed_within hr (f := .lazy true 4) (t := 1) (by simp [h6]) hw
  refine ⟨s, hr, c6.2 ⟨⟨0, h4⟩, fun f hf => ?_⟩, c1 _ _ trivial, (c5 9).2 ⟨by decide, h9, h10, h11⟩, ?_,
    d2.2 (.inl ⟨_, .inl h7⟩)⟩
  · rw [h2] at hf
    simp only [List.mem_cons, List.not_mem_nil, or_false] at hf
    subst hf
    exact ⟨g, .inl h5⟩
  · rw [d1, h7, h8]; simp [LockSays]

-- the same with helpers: branch 3 keeps a guard and may return, call helpers, drop it; task 1 awaits in its setter
example : ∃ s : Tasks.St Bool Unit Nat Nat Nat,
    Tasks.Reach (fun _ => AsyncCalls.fullCode) (fun _ => AsyncLockCalls.fldCode 0) AsyncLockCalls.eqo
      (fun a b => Mixed.layered a b = true) Tasks.before (fun _ => some 1) s ∧
    Can (Tasks.step (fun _ => AsyncCalls.fullCode) (fun _ => AsyncLockCalls.fldCode 0) AsyncLockCalls.eqo s 3 .ret) ∧
    Can (Tasks.step (fun _ => AsyncCalls.fullCode) (fun _ => AsyncLockCalls.fldCode 0) AsyncLockCalls.eqo s 3
      (.call true .predicate 0 false)) ∧
    Can (Tasks.step (fun _ => AsyncCalls.fullCode) (fun _ => AsyncLockCalls.fldCode 0) AsyncLockCalls.eqo s 3
      (.act (.lazy false 2) .drop)) ∧
    ¬ Can (Tasks.step (fun _ => AsyncCalls.fullCode) (fun _ => AsyncLockCalls.fldCode 0) AsyncLockCalls.eqo s 3
      (.act (.lazy false 2) .cancel)) ∧
    Can (Tasks.step (fun _ => AsyncCalls.fullCode) (fun _ => AsyncLockCalls.fldCode 0) AsyncLockCalls.eqo s 1
      (.act (.lazy true 4) .cancel)) := by
  have h : ∃ x, Tasks.runFields 2 Mixed.layered Tasks.before (fun _ => some 1) (Tasks.opening.take 28) = some x ∧
        x.1.stack 3 = [.lazy false 2] ∧ x.1.kids 3 = [] ∧ x.1.par 3 = some 0 ∧ (x.1.obj false).pc 2 = .keeps ∧
        (∃ g, (x.1.obj false).c.pc 2 = .gRead g) ∧ x.1.stack 1 = [.lazy true 4] ∧ (x.1.obj true).c.pc 4 = .xStart .writer ∧
        (match (x.1.obj true).pc 4 with | .keeps => false | _ => true) = true :=
    ⟨_, rfl, rfl, rfl, rfl, rfl, ⟨_, rfl⟩, rfl, rfl, rfl⟩
  obtain ⟨⟨s, g⟩, h1, h2, h3, h4, h5, ⟨i, h6⟩, h7, h8, h9⟩ := h
  simp only at h2 h3 h4 h5 h6 h7 h8 h9
  have hr := Tasks.C103_recorded.2 ⟨g, Tasks.trace_runRec Tasks.fields .init h1⟩
  have ho : ∀ f ∈ s.stack 3, AtUserCode s f := by
    intro f hf
    rw [h2] at hf
    simp only [List.mem_cons, List.not_mem_nil, or_false] at hf
    subst hf
    exact .inr h5
  obtain ⟨c1, _, _, _, c5, _, _, c8⟩ := C105_tasks Tasks.fields hr ho h3
  have hw : ¬ AtUserCode s (.lazy true 4) := by
    rintro (⟨k, hk⟩ | hk)
    · rw [h8] at hk; cases hk
    · rw [hk] at h9; cases h9
  have d := C105_tasks_within Tasks.fields hr (f := .lazy true 4) (t := 1) (by simp [h7]) hw
  refine ⟨s, hr, c8.2 ⟨⟨0, h4⟩, fun j p hf => ?_⟩, (c1 true .predicate 0 false).2 ⟨_, rfl⟩,
    ((c5 false 2 (by simp [h2])).1 h5).2, ?_, d.2 (.inr ⟨_, h8⟩)⟩
  · rw [h2] at hf
    simp only [List.mem_cons, List.not_mem_nil, or_false] at hf
    cases hf; exact h5
  · rw [(c5 false 2 (by simp [h2])).2.2]
    rintro ⟨⟨k, hk⟩, _⟩
    rw [h6] at hk; cases hk

end Verif.Props.AsyncReceptive
