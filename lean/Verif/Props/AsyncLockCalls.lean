import Verif.Proof.AsyncLockCallsLive
import Verif.Proof.Cancel
import Verif.Props.Method
/-
C99: the helpers generated for lock-protected fields of an async struct, used by any number of tasks, any of which may be
cancelled.

Model: `Verif.Model.AsyncLockCalls` (the bodies of `Verif.Model.Method` run on the locks of `Verif.Model.AsyncLocks`).
Specification: `Verif.Spec.LockCalls`, `Verif.Spec.Cancel`. The fields `L` are any fields with any arguments which are
async, not lazy and have a lock; `code` holds any of the helpers written for them which the compiler accepts (`Helper`, see
C24).
-/
namespace Verif.Props.AsyncLockCalls
open Verif.Spec Verif.Spec.Memory Verif.Spec.LockCalls Verif.Spec.InitTy Verif.Model Verif.Model.Args Verif.Model.Init
open Verif.Model.Method Verif.Model.AsyncLockCalls Verif.Proof Verif.Proof.AsyncLockCalls Verif.Props.Method Verif.Props.MethodTy
open Verif.Props.Mixed (Acyclic)
open Verif.Proof.LockCalls (Keep lockOp)

variable {L V : Type}

/-- The helpers `code` of the lock-protected async fields `x`. -/
structure LockFields (x : L → FCtx) (code : L → Kind → Option Body) : Prop where
  sync : ∀ i, (x i).isSync = true
  plain : ∀ i, (x i).isLazy = false
  task : ∀ i, (x i).isAsync = true
  lock : ∀ i, (x i).needsLock = true
  helpers : ∀ i k b, code i k = some b → ∃ τ, Helper (x i) k τ b

theorem shapes {x : L → FCtx} {code : L → Kind → Option Body} (h : LockFields x code) :
    Shapes (V := V) code := by
  intro i k b hb
  obtain ⟨τ, hh⟩ := h.helpers i k b hb
  have hok := hh.ok
  have hc := hh.code
  have hk := hh.kind
  have h1 := h.sync i
  have h2 := h.plain i
  have h3 := h.task i
  have h4 := h.lock i
  have hread : ((x i).isOptional && (x i).isFallible) = false → syncReader (x i) = .ok b → ∀ {k}, Keep false k false →
      b.pre = none ∧ ∃ ex rest, b.main = lockOp ex :: .await :: rest ∧ ∀ v : V, Plan i v k ex rest .guard := by
    intro hof hc k hkp
    simp only [syncReader, h2, awaitCall, h3, Bool.false_eq_true, if_false, if_true] at hc
    cases hopt : (x i).isOptional
    · simp only [hopt, Bool.false_eq_true, if_false] at hc
      cases hc
      exact ⟨rfl, false, [], rfl, fun v => .keep hkp⟩
    · have hf : (x i).isFallible = false := by simpa [hopt] using hof
      simp only [hopt, if_true, hf, Bool.false_eq_true, if_false] at hc
      cases hc
      exact ⟨rfl, false, [], rfl, fun v => .keep hkp⟩
  cases k with
  | accessor =>
    simp only [body, h1, if_true, syncAccessor, h2, h4, Bool.false_eq_true, if_false, Bool.or_true] at hc
    by_cases hcc : ((x i).isClone || (x i).isCopy) = true
    · simp [refused, refusedAccessor, h1, hcc, h2, h3, h4] at hok
    · have hof : ((x i).isOptional && (x i).isFallible) = false := by
        simpa [refused, refusedAccessor, h1, hcc, h2, h4] using hok
      simp only [hcc, Bool.false_eq_true, if_false, if_true] at hc
      exact hread hof hc (.acc rfl)
  | accessorMut => simp [refused, refusedAccessorMut, h1, h2, h3, h4] at hok
  | reader =>
    have hof : ((x i).isOptional && (x i).isFallible) = false := by
      simpa [refused, refusedReader, h2, h4] using hok
    simp only [body, h1, if_true] at hc
    exact hread hof hc .reader
  | writer =>
    simp only [body, h1, if_true, syncWriter, h2, awaitCall, h3, Bool.false_eq_true, if_false] at hc
    cases hc
    exact ⟨rfl, true, [], rfl, fun v => .keep .writer⟩
  | setter =>
    simp only [body, h1, if_true, syncSetter, h2, h4, awaitCall, h3, Bool.false_eq_true, if_false] at hc
    cases hopt : (x i).isOptional
    · simp only [hopt, Bool.false_eq_true, if_false] at hc
      cases hc
      exact ⟨rfl, true, [.star, .ampMut, .memReplaceV], rfl, fun v => .now (b := .place) rfl rfl (by simp)
        (.now (b := .place) rfl rfl (by simp) (.call rfl (.set (.inr rfl))))⟩
    · simp only [hopt, if_true] at hc
      cases hc
      exact ⟨rfl, true, [.replaceV], rfl, fun v => .call rfl (.set (.inl rfl))⟩
  | clearer =>
    simp only [body, h1, if_true, syncClearer, h2, awaitCall, h3, Bool.false_eq_true, if_false] at hc
    cases hc
    exact ⟨rfl, true, [.take], rfl, fun v => .call rfl .clear⟩
  | predicate =>
    have hf : (x i).isFallible = false := by
      cases hf : (x i).isFallible with
      | false => rfl
      | true => simp [refused, refusedPredicate, h1, h2, h3, h4, hf] at hok
    simp only [body, h1, if_true, syncPredicate, h2, h4, awaitCall, h3, hf, Bool.false_eq_true, if_false] at hc
    cases hc
    exact ⟨rfl, false, [.isSome], rfl, fun v => .call rfl .ask⟩
  | builder => cases hk
  | lazy => cases hk

variable [DecidableEq L] {x : L → FCtx} {code : L → Kind → Option Body} {eqv : Option V → Option V → Bool}
variable {dep : L → L → Prop} {v₀ : L → Option V} {s s₁ s₂ : St L V}

theorem inv (hx : LockFields x code) (h : Reach code eqv dep v₀ s) : Inv eqv dep v₀ s := inv_reach (shapes hx) h

/-! ## C99 -/

/-- The calls of the users, helpers and uses of guards, are linearizable, with any of the helpers cancelled anywhere: each
which was not cancelled takes effect at one moment between its begin and its end, as the one operation on plain memory which
it stands for, and everything is as if those which were cancelled had never been made. -/
theorem C99_linearizable (hx : LockFields x code) (h : Reach code eqv dep v₀ s) :
    WellFormed (without (abandoned s.log) (hist s.log)) ∧
      Linearizable (CallStep (fun _ => false) (fun _ => false) eqv) v₀ (without (abandoned s.log) (hist s.log)) := by
  have hi := inv hx h
  exact ⟨keys_without hi.disc.wellFormed, hi.disc.linearizable_without hi.legal⟩

/-- A cancelled call gives no answer, and the step which drops it changes no content and no guard, answers to nobody, and
leaves the task outside and in no queue. -/
theorem C99_cancel (hx : LockFields x code) (h : Reach code eqv dep v₀ s) {p : Nat} (hs : step code eqv s p .cancel = some s₁) :
    s₁.c.val = s.c.val ∧ s₁.c.held = s.c.held ∧ hist s₁.log = hist s.log ∧ abandoned s₁.log = abandoned s.log ++ [s.me p] ∧
      (∀ r, .res (s.me p) r ∉ hist s.log) ∧ s₁.pc p = .idle ∧ s₁.c.pc p = .idle ∧ ∀ i, p ∉ s₁.c.queue i := by
  have hi := inv_step (shapes hx) (inv hx h) (a := .cancel) trivial hs
  simp only [step, AsyncLockCalls.cancel] at hs
  split at hs
  · simp only [Option.map_eq_some_iff] at hs
    obtain ⟨c', hc, rfl⟩ := hs
    obtain ⟨h1, h2, _, h3⟩ := cancel_some hc
    have hq := hi.disc.cancelled (i := s.me p) (by simp [St.quit, St.me])
    refine ⟨h1, h3, by simp [St.quit, hist], by simp [St.quit, abandoned, St.me], fun r hr => ?_, by simp [St.quit], h2, ?_⟩
    · apply hq.2.2 r
      have := mem_hist_res.1 hr
      simp [St.quit, this]
    · intro i hp
      have := (AsyncLocks.queued (AsyncLocks.core_reach hi.reach)).1 hp
      simp [St.quit, h2, Verif.Model.AsyncLocks.wants] at this
  · cases hs

/-- What the helpers do to the locks is a run of the locks: C90 and C91 hold of it. -/
theorem C99_locks (hx : LockFields x code) (h : Reach code eqv dep v₀ s) : Verif.Model.AsyncLocks.Reach eqv dep v₀ s.c := (inv hx h).reach

/-- From `s` to `s'`, task `p` being inside a call until then. -/
inductive Within (code : L → Kind → Option Body) (eqv : Option V → Option V → Bool) (dep : L → L → Prop) (p : Nat)
    (s : St L V) : St L V → Prop where
  | refl : Within code eqv dep p s s
  | step {m s' q a} : Within code eqv dep p s m → m.pc p ≠ .idle → Allowed dep m q a → step code eqv m q a = some s' →
      Within code eqv dep p s s'

/-- A helper which returned, or panicked, has left the caller with the guards from before, and the one it gives; one which
was cancelled, with the guards from before. -/
theorem C99_guards (hx : LockFields x code) (h : Reach code eqv dep v₀ s) {p : Nat} {i : L} {k : Kind} {v : V} {boom : Bool}
    (ha : Allowed dep s p (.call (.helper i k v boom))) (hs : step code eqv s p (.call (.helper i k v boom)) = some s₁)
    (hw : Within code eqv dep p s₁ s₂) (hp : s₂.pc p = .idle) :
    ((∃ r, .res (s.me p) r ∈ s₂.log) ∧ s₂.c.held p = match gives false k with
      | some ex => (i, ex) :: s.c.held p
      | none => s.c.held p) ∨
    (.cancel (s.me p) ∈ s₂.log ∧ s₂.c.held p = s.c.held p) := by
  have key : ∀ {s₂}, Within code eqv dep p s₁ s₂ → Reach code eqv dep v₀ s₂ ∧
      (About i k (s.c.held p) (s₂.pc p) ∧ s₂.seq p = s.seq p ∨
      s₂.pc p = .idle ∧ ((∃ r, .res (s.me p) r ∈ s₂.log) ∧ s₂.c.held p = after i k (s.c.held p) ∨
        .cancel (s.me p) ∈ s₂.log ∧ s₂.c.held p = s.c.held p)) := by
    intro s₂ hw
    induction hw with
    | refl =>
      refine ⟨.step h ha hs, .inl ?_⟩
      simp only [step, invoke] at hs
      split at hs
      · split at hs
        · split at hs
          · cases hs; simp [St.begin, About]
          · cases hs
        · cases hs
      · cases hs
    | @step m s' q a hw hne hal hst ih =>
      obtain ⟨hm, hab⟩ := ih
      refine ⟨.step hm hal hst, ?_⟩
      rcases hab with ⟨hab, hsq⟩ | ⟨hid, _⟩
      · have hme : m.me p = s.me p := by simp [St.me, hsq]
        by_cases hq : p = q
        · subst hq
          have := about_step (inv hx hm) hab hst
          rwa [hme, hsq] at this
        · rw [(others_stay hq hst).1, others_seq hq hst]; exact .inl ⟨hab, hsq⟩
      · exact absurd hid hne
  obtain ⟨_, ⟨hab, _⟩ | ⟨_, hh⟩⟩ := key hw
  · rw [hp] at hab; exact hab.elim
  · exact hh

/-- Between two operations of its body, and when it unwinds, a helper can always go on: it waits only for a lock. -/
theorem C99_never_stuck (hx : LockFields x code) (h : Reach code eqv dep v₀ s) {p : Nat}
    (hp : (∃ f todo a, s.pc p = .run f todo a) ∨ ∃ f, s.pc p = .stop f) : ∃ s', step code eqv s p .go = some s' := by
  rcases hp with ⟨f, todo, a, hp⟩ | ⟨f, hp⟩
  · exact run_enabled (inv hx h) hp
  · exact stop_enabled (inv hx h) hp

/-- A task outside of calls can call every helper which a field has. -/
theorem C99_callable (hx : LockFields x code) (s : St L V) {p : Nat} (hp : s.pc p = .idle) {i : L} {k : Kind} {b : Body}
    (hb : code i k = some b) (v : V) (boom : Bool) : ∃ s', step code eqv s p (.call (.helper i k v boom)) = some s' := by
  have h := (shapes (V := V) hx i k b hb).1
  simp [step, invoke, hp, hb, h]

/-- If tasks keep to an order without cycles when they call helpers with guards in hand, and anybody is inside a call or
keeps a guard, somebody can go on or drop a guard. -/
theorem C99_progress (hx : LockFields x code) (hac : Acyclic dep) (h : Reach code eqv dep v₀ s) {p : Nat}
    (hp : s.pc p ≠ .idle ∨ s.c.held p ≠ []) :
    ∃ q a s', (a = .go ∨ ∃ g, a = .drop g) ∧ step code eqv s q a = some s' :=
  helpers_progress hac (inv hx h) hp

/-- Every run without new calls, cancelled or not, is over after at most 33 steps per task, and one per guard kept; if it cannot be extended,
other than by cancelling, and the tasks kept to an order without cycles, nobody is inside and nobody has a guard. `ts` lists the tasks which are
inside or keep guards. -/
theorem C99_cannot_wedge (hx : LockFields x code) (h : Reach code eqv dep v₀ s) {ts : List Nat} (hts : ts.Nodup)
    (hid : ∀ p, p ∉ ts → s.pc p = .idle ∧ s.c.held p = []) {sch : List (Nat × Act L V)}
    (hc : ∀ y ∈ sch, ∀ c, y.2 ≠ .call c) {s' : St L V} (hr : run code eqv s sch = some s') :
    sch.length ≤ (ts.map fun p => 33 + (s.c.held p).length).sum ∧
      ((Acyclic dep) → (∀ q a, (a = .go ∨ ∃ g, a = .drop g) → step code eqv s' q a = none) →
        ∀ p, s'.pc p = .idle ∧ s'.c.held p = []) := by
  have hi := inv hx h
  have hq : ∀ y ∈ sch, hquiet y.2 = true := by
    intro y hy
    have := hc y hy
    cases hy2 : y.2 with
    | call c => exact absurd hy2 (this c)
    | _ => rfl
  refine ⟨Nat.le_trans (run_bounded hts sch s ?_ hq hr) (htotal_le hi ts), ?_⟩
  · intro p hp
    obtain ⟨h1, h2⟩ := hid p hp
    have h3 : s.c.pc p = .idle := by
      apply Classical.byContradiction
      intro hb
      rcases (busy_iff hi p).1 hb with ⟨f, m, todo, h4⟩ | ⟨u, d, h4⟩ <;> rw [h1] at h4 <;> cases h4
    simp [hload, Verif.Proof.AsyncLocks.load, h1, h2, h3, hleft, Verif.Proof.AsyncLocks.left]
  · intro hac hmax p
    have hr' := reach_quiet_run sch s h hq hr
    apply Classical.byContradiction
    intro hp
    have hp' : s'.pc p ≠ .idle ∨ s'.c.held p ≠ [] := by
      by_cases h1 : s'.pc p = .idle
      · exact .inr fun h2 => hp ⟨h1, h2⟩
      · exact .inl h1
    obtain ⟨q, a, s₃, ha, h2⟩ := C99_progress hx hac hr' hp'
    rw [hmax q a ha] at h2
    cases h2

/-! ## Concrete fields and runs -/

/-- Three fields of `#[fxstruct(r#async)]`: `#[fieldx(optional, lock, get, set, clearer, predicate, reader, writer)]`,
`#[fieldx(lock, get, set)]` and `#[fieldx(lock, set, writer)]`. -/
def flds : Fin 3 → FCtx
  | 0 => { ctx := { args := { modeAsync := some true } }
           field := { optional := some true, lock := some true, accessor := some {}, setter := some {}, clearer := some {}
                      predicate := some {}, reader := some {}, writer := some {} } }
  | 1 => { ctx := { args := { modeAsync := some true } }
           field := { lock := some true, accessor := some {}, setter := some {} } }
  | 2 => { ctx := { args := { modeAsync := some true } }
           field := { lock := some true, setter := some {}, writer := some {} } }

/-- Their types. -/
def fldTy : Fin 3 → Ty
  | 0 => .lock true (.opt .t)
  | _ => .lock true .t

/-- All their helpers. -/
def fldCode (i : Fin 3) (k : Kind) : Option Body :=
  if Emit.emits (flds i) k then
    match body (flds i) k with
    | .ok b => some b
    | _ => none
  else none

/-- All kinds of helpers. -/
def kinds : List Kind := [.accessor, .accessorMut, .reader, .writer, .setter, .clearer, .predicate, .builder, .lazy]

theorem fldFields : LockFields flds fldCode where
  sync := by decide +kernel
  plain := by decide +kernel
  task := by decide +kernel
  lock := by decide +kernel
  helpers := by
    intro i k b hb
    refine ⟨fldTy i, helper_of ?_⟩
    have key : ∀ k ∈ kinds, ∀ i, (match fldCode i k with
        | none => true
        | some b => isHelper k && Emit.emits (flds i) k && (declType (flds i) == .ok (fldTy i)) && (body (flds i) k == .ok b)
          && Verif.Proof.MethodTy.checkBody (fldTy i) (wantsCopy (flds i)) b) = true := by decide +kernel
    have := key k (by cases k <;> decide) i
    rw [hb] at this
    exact this

-- the helpers they have
example : (kinds.filter fun k => (fldCode 0 k).isSome) = [.accessor, .reader, .writer, .setter, .clearer, .predicate] ∧
    (kinds.filter fun k => (fldCode 1 k).isSome) = [.accessor, .setter] ∧
    (kinds.filter fun k => (fldCode 2 k).isSome) = [.writer, .setter] := by decide +kernel

/-- Equality of the contents. -/
def eqo (a b : Option Nat) : Bool := a == b

/-- The fields are taken in the order of their numbers. -/
def order (i j : Fin 3) : Prop := i < j

instance (i j : Fin 3) : Decidable (order i j) := inferInstanceAs (Decidable (i < j))

theorem order_acyclic : Acyclic order := by
  intro r hr
  have key : ∀ a b, Relation.TransGen order a b → a < b := by
    intro a b h
    induction h with
    | single h => exact h
    | tail _ h ih => exact Fin.lt_trans ih h
  exact Fin.lt_irrefl r (key r r hr)

/-- Task 0 reads field 0 and keeps the guard; task 1 sets field 0 and waits, task 2 clears it and waits behind, task 3 asks
it and waits behind that; task 0 sets field 1 meanwhile, its guard in hand; the setter of task 1 is cancelled; task 0 drops
its guard; the clearer of task 2 is let in, then the predicate of task 3; task 3 sets field 2, the conversion of its argument
panics, and writes field 2 by a guard. -/
def story : List (Nat × Act (Fin 3) Nat) :=
  (0, .call (.helper 0 .reader 0 false)) :: List.replicate 4 (0, .go) ++
  (1, .call (.helper 0 .setter 7 false)) :: List.replicate 2 (1, .go) ++
  (2, .call (.helper 0 .clearer 0 false)) :: List.replicate 2 (2, .go) ++
  (3, .call (.helper 0 .predicate 0 false)) :: List.replicate 2 (3, .go) ++
  (0, .call (.helper 1 .setter 4 false)) :: List.replicate 10 (0, .go) ++
  (1, .cancel) :: (0, .drop (0, false)) :: List.replicate 6 (2, .go) ++ List.replicate 6 (3, .go) ++
  (3, .call (.helper 2 .setter 9 true)) :: List.replicate 8 (3, .go) ++
  (3, .call (.helper 2 .writer 0 false)) :: List.replicate 4 (3, .go)

/-- The contents before. -/
def before : Fin 3 → Option Nat
  | 0 => some 5
  | 1 => some 1
  | 2 => some 2

/-- The calls of the story which were not cancelled. -/
def storyCalls : List (HEv (Call (Fin 3) Nat) (Ret (Option Nat))) :=
  [.inv ⟨0, 0⟩ (.helper 0 .reader 0 false), .res ⟨0, 0⟩ .unit, .inv ⟨2, 0⟩ (.helper 0 .clearer 0 false),
   .inv ⟨3, 0⟩ (.helper 0 .predicate 0 false),
   .inv ⟨0, 1⟩ (.helper 1 .setter 4 false), .res ⟨0, 1⟩ (.value (some 1)), .res ⟨2, 0⟩ (.value (some 5)),
   .res ⟨3, 0⟩ (.bool false), .inv ⟨3, 1⟩ (.helper 2 .setter 9 true), .res ⟨3, 1⟩ .panicked,
   .inv ⟨3, 2⟩ (.helper 2 .writer 0 false), .res ⟨3, 2⟩ .unit]

/-- Does the action keep to the order? -/
def ordered (s : St (Fin 3) Nat) (p : Nat) : Act (Fin 3) Nat → Bool
  | .call (.helper j _ _ _) => (s.c.held p).all fun g => decide (order g.1 j)
  | .call _ => false
  | _ => true

theorem ordered_allowed {s : St (Fin 3) Nat} {p : Nat} {a} (h : ordered s p a = true) : Allowed order s p a := by
  cases a with
  | call c =>
    cases c with
    | helper j _ _ _ => simpa [ordered, Allowed] using h
    | _ => cases h
  | _ => trivial

/-- Run a schedule which keeps to the order. -/
def runOrdered (s : St (Fin 3) Nat) : List (Nat × Act (Fin 3) Nat) → Option (St (Fin 3) Nat)
  | [] => some s
  | (p, a) :: rest => if ordered s p a then (step fldCode eqo s p a).bind fun s' => runOrdered s' rest else none

theorem runOrdered_reach : ∀ (sch) (s : St (Fin 3) Nat) {s'}, Reach fldCode eqo order before s → runOrdered s sch = some s' →
    Reach fldCode eqo order before s'
  | [], s, s', h, hr => by simp only [runOrdered, Option.some.injEq] at hr; exact hr ▸ h
  | (p, a) :: sch, s, s', h, hr => by
    simp only [runOrdered] at hr
    split at hr
    · rename_i ho
      simp only [Option.bind_eq_some_iff] at hr
      obtain ⟨s₁, h1, h2⟩ := hr
      exact runOrdered_reach sch s₁ (.step h (ordered_allowed ho) h1) h2
    · cases hr

theorem story_reach : ∃ s : St (Fin 3) Nat, Reach fldCode eqo order before s ∧
    without (abandoned s.log) (hist s.log) = storyCalls ∧ abandoned s.log = [⟨1, 0⟩] ∧
    s.c.held 3 = [(2, true)] ∧ s.c.held 0 = [] ∧ s.c.val 0 = none ∧ s.c.val 1 = some 4 ∧ s.c.val 2 = some 2 := by
  have h : (runOrdered (init before) story).map (fun s => decide (without (abandoned s.log) (hist s.log) = storyCalls) &&
      decide (abandoned s.log = [⟨1, 0⟩]) && decide (s.c.held 3 = [(2, true)])
      && decide (s.c.held 0 = []) && decide (s.c.val 0 = none) && decide (s.c.val 1 = some 4) && decide (s.c.val 2 = some 2)) =
      some true := by decide +kernel
  simp only [Option.map_eq_some_iff, Bool.and_eq_true, decide_eq_true_eq] at h
  obtain ⟨s, hs, ⟨⟨⟨⟨⟨h1, h2⟩, h3⟩, h4⟩, h5⟩, h6⟩, h7⟩ := h
  exact ⟨s, runOrdered_reach story _ .init hs, h1, h2, h3, h4, h5, h6, h7⟩

-- the setter which was cancelled and the conversion which panicked left no trace
example : Linearizable (CallStep (fun _ => false) (fun _ => false) eqo) before storyCalls := by
  obtain ⟨s, h, hl, _⟩ := story_reach
  rw [← hl]
  exact (C99_linearizable fldFields h).2

-- task 3 keeps a guard: somebody can go on or drop one
example : ∃ s : St (Fin 3) Nat, Reach fldCode eqo order before s ∧
    ∃ q a s', (a = .go ∨ ∃ g, a = .drop g) ∧ step fldCode eqo s q a = some s' := by
  obtain ⟨s, h, _, _, h3, _⟩ := story_reach
  exact ⟨s, h, C99_progress fldFields order_acyclic h (p := 3) (.inr (by rw [h3]; simp))⟩

-- after 25 steps task 0 set field 1, its guard on field 0 still in hand, and three tasks wait for it in their helpers, in
-- the order in which they came; each of them can be cancelled
example : (runOrdered (init before) (story.take 25)).map (fun s =>
    (s.c.held 0, s.c.queue 0, [0, 1, 2, 3].map fun p => (step fldCode eqo s p .cancel).isSome,
     [0, 1, 2, 3].map fun p => (step fldCode eqo s p .go).isSome)) =
    some ([(0, false)], [1, 2, 3], [false, true, true, true], [false, false, false, false]) := by decide +kernel

theorem run_only {p : Nat} : ∀ (sch : List (Nat × Act L V)) (s : St L V), (∀ y ∈ sch, y.1 = p) →
    run code eqv s sch = some s₂ → ∀ q, q ≠ p → s₂.pc q = s.pc q ∧ s₂.c.held q = s.c.held q
  | [], s, _, hr, q, _ => by simp only [run, Option.some.injEq] at hr; subst hr; exact ⟨rfl, rfl⟩
  | (p', a) :: sch, s, hp, hr, q, hq => by
    simp only [run, Option.bind_eq_some_iff] at hr
    obtain ⟨s₁, h1, h2⟩ := hr
    have e : p' = p := hp (p', a) (.head _)
    subst e
    have h3 := others_stay hq h1
    have h4 := run_only sch s₁ (fun y hy => hp y (.tail _ hy)) h2 q hq
    exact ⟨h4.1.trans h3.1, h4.2.trans h3.2⟩

theorem run_reach : ∀ (sch : List (Nat × Act L V)) (s : St L V), Reach code eqv (fun _ _ => True) v₀ s →
    (∀ y ∈ sch, ∀ i j, y.2 ≠ .call (.eq i j)) → run code eqv s sch = some s₂ → Reach code eqv (fun _ _ => True) v₀ s₂
  | [], s, h, _, hr => by simp only [run, Option.some.injEq] at hr; exact hr ▸ h
  | (p, a) :: sch, s, h, hq, hr => by
    simp only [run, Option.bind_eq_some_iff] at hr
    obtain ⟨s₁, h1, h2⟩ := hr
    refine run_reach sch s₁ (.step h ?_ h1) (fun y hy => hq y (.tail _ hy)) h2
    have := hq (p, a) (.head _)
    cases a with
    | call c =>
      cases c with
      | eq i j => exact absurd rfl (this i j)
      | helper => exact fun _ _ => trivial
      | clone => exact fun _ _ => trivial
      | _ => trivial
    | _ => trivial

/-- Task `p` goes `n` steps without coming back from its call before. -/
def goes (p : Nat) (s : St (Fin 3) Nat) : Nat → Option (St (Fin 3) Nat)
  | 0 => some s
  | n + 1 => (goes p s n).bind fun m => if (match m.pc p with | .idle => true | _ => false) then none else step fldCode eqo m p .go

theorem goes_within {p : Nat} {s : St (Fin 3) Nat} : ∀ (n) {s'}, goes p s n = some s' → Within fldCode eqo order p s s'
  | 0, s', h => by simp only [goes, Option.some.injEq] at h; exact h ▸ .refl
  | n + 1, s', h => by
    simp only [goes, Option.bind_eq_some_iff] at h
    obtain ⟨m, h1, h2⟩ := h
    split at h2
    · cases h2
    · rename_i hm
      exact .step (a := .go) (goes_within n h1) (fun hp => hm (by rw [hp])) trivial h2

-- task 0, which keeps a guard on field 0, gets another one from the accessor of field 1
example : ∃ s s₁ s₂ : St (Fin 3) Nat, Reach fldCode eqo order before s ∧ s.c.held 0 = [(0, false)] ∧
    Allowed order s 0 (.call (.helper 1 .accessor 0 false)) ∧
    step fldCode eqo s 0 (.call (.helper 1 .accessor 0 false)) = some s₁ ∧ Within fldCode eqo order 0 s₁ s₂ ∧ s₂.pc 0 = .idle ∧
    s₂.c.held 0 = [(1, false), (0, false)] := by
  have h : (runOrdered (init before) (story.take 5)).map (fun s => decide (s.c.held 0 = [(0, false)]) &&
      ordered s 0 (.call (.helper 1 .accessor 0 false)) &&
      (match step fldCode eqo s 0 (.call (.helper 1 .accessor 0 false)) with
        | some s₁ => (match goes 0 s₁ 4 with
          | some s₂ => (match s₂.pc 0 with | .idle => true | _ => false) && decide (abandoned s₂.log = [])
          | none => false)
        | none => false)) = some true := by decide +kernel
  simp only [Option.map_eq_some_iff, Bool.and_eq_true, decide_eq_true_eq] at h
  obtain ⟨s, hs, ⟨h1, h2⟩, h3⟩ := h
  cases hc : step fldCode eqo s 0 (.call (.helper 1 .accessor 0 false)) with
  | none => simp [hc] at h3
  | some s₁ =>
    simp only [hc] at h3
    cases hg : goes 0 s₁ 4 with
    | none => simp [hg] at h3
    | some s₂ =>
      simp only [hg, Bool.and_eq_true, decide_eq_true_eq] at h3
      have hid : s₂.pc 0 = .idle := by cases hx : s₂.pc 0 <;> simp [hx] at h3; rfl
      have hr := runOrdered_reach _ _ .init hs
      refine ⟨s, s₁, s₂, hr, h1, ordered_allowed h2, hc, goes_within 4 hg, hid, ?_⟩
      rcases C99_guards fldFields hr (ordered_allowed h2) hc (goes_within 4 hg) hid with ⟨_, this⟩ | ⟨this, _⟩
      · rw [h1] at this
        exact this
      · have := mem_abandoned.2 this
        rw [h3.2] at this
        cases this

-- task 1, cancelled while it waited in the setter, has the guards from before
example : ∃ s s₁ : St (Fin 3) Nat, Reach fldCode eqo order before s ∧ step fldCode eqo s 1 .cancel = some s₁ ∧
    s₁.c.val = s.c.val ∧ s₁.c.held = s.c.held ∧ ∀ i, 1 ∉ s₁.c.queue i := by
  have h : (runOrdered (init before) (story.take 25)).map (fun s => (step fldCode eqo s 1 .cancel).isSome) = some true := by
    decide +kernel
  simp only [Option.map_eq_some_iff, Option.isSome_iff_exists] at h
  obtain ⟨s, hs, s₁, h1⟩ := h
  have hr := runOrdered_reach _ _ .init hs
  obtain ⟨e1, e2, _, _, _, _, _, e3⟩ := C99_cancel fldFields hr h1
  exact ⟨s, s₁, hr, h1, e1, e2, e3⟩

-- task 0 keeps a guard and drops it: one step, at most 34
example : ∃ s s' : St (Fin 3) Nat, run fldCode eqo s [(0, .drop (0, false))] = some s' ∧ s.c.held 0 = [(0, false)] ∧
    [(0, (Act.drop (0, false) : Act (Fin 3) Nat))].length ≤ ([0].map fun p => 33 + (s.c.held p).length).sum := by
  have h : (run fldCode eqo (init before) (story.take 5)).map (fun s => decide (s.c.held 0 = [(0, false)]) &&
      (run fldCode eqo s [(0, .drop (0, false))]).isSome) = some true := by decide +kernel
  simp only [Option.map_eq_some_iff, Bool.and_eq_true, decide_eq_true_eq, Option.isSome_iff_exists] at h
  obtain ⟨s, hs, h1, s', h2⟩ := h
  have hr : Reach fldCode eqo (fun _ _ => True) before s := run_reach _ _ .init (by simp [story]) hs
  refine ⟨s, s', h2, h1, (C99_cannot_wedge fldFields hr (by simp) ?_ (by simp) h2).1⟩
  intro p hp
  have h3 := run_only (p := 0) _ _ (by simp [story]) hs p (by simpa using hp)
  exact ⟨h3.1, h3.2⟩

-- every helper can be called at the beginning
example (v : Nat) : ∃ s', step fldCode eqo (init before) 5 (.call (.helper 0 .clearer v false)) = some s' :=
  C99_callable fldFields _ rfl (b := { isAsync := true, ret := .own (.opt .t), main := [.write, .await, .take] })
    (by decide +kernel) v false

/-- The order is needed: a task which calls the setter of a field, the guard its accessor gave it in hand, never comes
back from it, unless it is cancelled. -/
theorem C99_order_needed : ∃ s : St (Fin 3) Nat, Reach fldCode eqo (fun _ _ => True) before s ∧ s.pc 0 ≠ .idle ∧
    ∀ q a, (∀ c, a ≠ .call c) → a ≠ .cancel → step fldCode eqo s q a = none := by
  have h : (run fldCode eqo (init before) ((0, .call (.helper 1 .accessor 0 false)) :: List.replicate 4 (0, .go) ++
      (0, .call (.helper 1 .setter 5 false)) :: List.replicate 2 (0, .go))).map (fun s =>
      ((match s.pc 0 with | .wait _ _ _ => true | _ => false), (step fldCode eqo s 0 .go).isNone)) =
      some (true, true) := by decide +kernel
  simp only [Option.map_eq_some_iff, Prod.mk.injEq] at h
  obtain ⟨s, hs, h1, h2⟩ := h
  have hw : ∃ f m todo, s.pc 0 = .wait f m todo := by
    cases hpc : s.pc 0 <;> simp [hpc] at h1
    exact ⟨_, _, _, rfl⟩
  obtain ⟨f, m, todo, hpc⟩ := hw
  refine ⟨s, run_reach _ _ .init (by simp) hs, by rw [hpc]; simp, ?_⟩
  intro q a ha hac
  by_cases hq : q = 0
  · subst hq
    cases a with
    | call c => exact absurd rfl (ha c)
    | go => simpa using h2
    | panic => simp [step, panics, hpc]
    | cancel => exact absurd rfl hac
    | drop g => simp [step, AsyncLockCalls.dropGuard, hpc]
  · have h3 := run_only _ _ (by simp) hs q hq
    have e1 : s.pc q = .idle := h3.1
    have e2 : s.c.held q = [] := h3.2
    cases a with
    | call c => exact absurd rfl (ha c)
    | go => simp [step, go, e1]
    | panic => simp [step, panics, e1]
    | cancel => exact absurd rfl hac
    | drop g =>
      simp only [step, AsyncLockCalls.dropGuard, e1]
      simp only [Verif.Model.AsyncLocks.dropGuard, e2, List.not_mem_nil, if_false]
      cases s.c.pc q <;> rfl

end Verif.Props.AsyncLockCalls
