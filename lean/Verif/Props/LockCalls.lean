import Verif.Proof.LockCallsLive
import Verif.Props.Method
/-
C97: the helpers generated for lock-protected fields of a sync struct, used by any number of threads.

Model: `Verif.Model.LockCalls` (the bodies of `Verif.Model.Method` run on the locks of `Verif.Model.Locks`). Specification:
`Verif.Spec.LockCalls`. The fields `L` are any fields with any arguments which are sync, not lazy, not async and have a
lock; `code` holds any of the helpers written for them which the compiler accepts (`Helper`, see C24). Left out is the
predicate of a fallible field, which does not look at the content (C25).
-/
namespace Verif.Props.LockCalls
open Verif.Spec Verif.Spec.Memory Verif.Spec.LockCalls Verif.Spec.InitTy Verif.Model Verif.Model.Args Verif.Model.Init
open Verif.Model.Method Verif.Model.LockCalls Verif.Proof Verif.Proof.LockCalls Verif.Props.Method Verif.Props.MethodTy

variable {L V : Type}

/-- The helpers `code` of the lock-protected sync fields `x`. -/
structure LockFields (x : L → FCtx) (code : L → Kind → Option Body) : Prop where
  sync : ∀ i, (x i).isSync = true
  plain : ∀ i, (x i).isLazy = false
  block : ∀ i, (x i).isAsync = false
  lock : ∀ i, (x i).needsLock = true
  helpers : ∀ i k b, code i k = some b → ∃ τ, Helper (x i) k τ b
  ask : ∀ i b, code i .predicate = some b → (x i).isFallible = false

/-- Does the accessor return a value of its own? -/
def owning (x : L → FCtx) (i : L) : Bool := (x i).isClone || (x i).isCopy

/-- Does the accessor return a clone? -/
def cloning (x : L → FCtx) (i : L) : Bool := !(x i).isCopy && (x i).isClone

theorem shapes {x : L → FCtx} {code : L → Kind → Option Body} (h : LockFields x code) :
    Shapes (V := V) (owning x) (cloning x) code := by
  intro i k b hb
  obtain ⟨τ, hh⟩ := h.helpers i k b hb
  have hok := hh.ok
  have hc := hh.code
  have hk := hh.kind
  have h1 := h.sync i
  have h2 := h.plain i
  have h3 := h.block i
  have h4 := h.lock i
  cases k with
  | accessor =>
    simp only [body, h1, if_true, syncAccessor, h2, h4, Bool.false_eq_true, if_false, Bool.or_true] at hc
    by_cases hcc : ((x i).isClone || (x i).isCopy) = true
    · have hf : (x i).isFallible = false := by
        simpa [refused, refusedAccessor, h1, hcc, h2, h3, h4] using hok
      simp only [hcc, if_true, shortcut, hf, Bool.false_eq_true, if_false, List.append_nil] at hc
      cases hc
      refine ⟨rfl, false, .star :: syncCMethod (x i), rfl, fun v => ?_⟩
      have ho : owning x i = true := hcc
      unfold syncCMethod
      cases hcp : (x i).isCopy with
      | true =>
        have hcl : cloning x i = false := by simp [cloning, hcp]
        cases (x i).isOptional
        · exact .now (b := .place) rfl rfl (by simp) (.call rfl (.copy ho hcl (.inl rfl)))
        · exact .now (b := .place) rfl rfl (by simp)
            (.now (b := .opt) rfl rfl (by simp) (.call rfl (.copy ho hcl (.inr rfl))))
      | false =>
        have hcl : cloning x i = true := by simpa [cloning, hcp] using hcc
        cases (x i).isOptional
        · exact .now (b := .place) rfl rfl (by simp) (.call rfl (.clone ho hcl (.inl rfl)))
        · exact .now (b := .place) rfl rfl (by simp)
            (.now (b := .opt) rfl rfl (by simp) (.call rfl (.clone ho hcl (.inr rfl))))
    · have hof : ((x i).isOptional && (x i).isFallible) = false := by
        simpa [refused, refusedAccessor, h1, hcc, h2, h4] using hok
      have ho : owning x i = false := by simpa [owning] using hcc
      simp only [hcc, Bool.false_eq_true, if_false, if_true, syncReader, h2, awaitCall, h3, List.append_nil] at hc
      cases hopt : (x i).isOptional
      · simp only [hopt, Bool.false_eq_true, if_false] at hc
        cases hc
        exact ⟨rfl, false, [], rfl, fun v => .keep (.acc ho)⟩
      · have hf : (x i).isFallible = false := by simpa [hopt] using hof
        simp only [hopt, if_true, hf, Bool.false_eq_true, if_false] at hc
        cases hc
        exact ⟨rfl, false, [], rfl, fun v => .keep (.acc ho)⟩
  | accessorMut =>
    simp only [body, h1, if_true, syncAccessorMut, h2, h4, Bool.false_eq_true, if_false] at hc
    cases hc
    exact ⟨rfl, true, [], rfl, fun v => .keep .getMut⟩
  | reader =>
    have hof : ((x i).isOptional && (x i).isFallible) = false := by
      simpa [refused, refusedReader, h2, h4] using hok
    simp only [body, h1, if_true, syncReader, h2, awaitCall, h3, Bool.false_eq_true, if_false, List.append_nil] at hc
    cases hopt : (x i).isOptional
    · simp only [hopt, Bool.false_eq_true, if_false] at hc
      cases hc
      exact ⟨rfl, false, [], rfl, fun v => .keep .reader⟩
    · have hf : (x i).isFallible = false := by simpa [hopt] using hof
      simp only [hopt, if_true, hf, Bool.false_eq_true, if_false] at hc
      cases hc
      exact ⟨rfl, false, [], rfl, fun v => .keep .reader⟩
  | writer =>
    simp only [body, h1, if_true, syncWriter, h2, awaitCall, h3, Bool.false_eq_true, if_false, List.append_nil] at hc
    cases hc
    exact ⟨rfl, true, [], rfl, fun v => .keep .writer⟩
  | setter =>
    simp only [body, h1, if_true, syncSetter, h2, h4, awaitCall, h3, Bool.false_eq_true, if_false, List.append_nil] at hc
    cases hopt : (x i).isOptional
    · simp only [hopt, Bool.false_eq_true, if_false] at hc
      cases hc
      exact ⟨rfl, true, [.star, .ampMut, .memReplaceV], rfl, fun v => .now (b := .place) rfl rfl (by simp)
        (.now (b := .place) rfl rfl (by simp) (.call rfl (.set (.inr rfl))))⟩
    · simp only [hopt, if_true] at hc
      cases hc
      exact ⟨rfl, true, [.replaceV], rfl, fun v => .call rfl (.set (.inl rfl))⟩
  | clearer =>
    simp only [body, h1, if_true, syncClearer, h2, awaitCall, h3, Bool.false_eq_true, if_false, List.append_nil] at hc
    cases hc
    exact ⟨rfl, true, [.take], rfl, fun v => .call rfl .clear⟩
  | predicate =>
    have hf := h.ask i b hb
    simp only [body, h1, if_true, syncPredicate, h2, h4, awaitCall, h3, hf, Bool.false_eq_true, if_false, List.append_nil] at hc
    cases hc
    exact ⟨rfl, false, [.isSome], rfl, fun v => .call rfl .ask⟩
  | builder => cases hk
  | lazy => cases hk

variable [DecidableEq L] {x : L → FCtx} {code : L → Kind → Option Body} {eqv : Option V → Option V → Bool}
variable {dep : L → L → Prop} {v₀ : L → Option V} {s s₁ s₂ : St L V}

theorem inv (hx : LockFields x code) (h : Reach code eqv dep v₀ s) : Inv (owning x) (cloning x) eqv dep v₀ s := by
  refine inv_reach (shapes hx) (fun i hi => ?_) h
  simp only [owning, Bool.or_eq_false_iff] at hi
  simp [cloning, hi.1]

/-! ## C97 -/

/-- The calls of the users, helpers and uses of guards, are linearizable: each takes effect at one moment between its begin
and its end, as the one operation on plain memory which it stands for. -/
theorem C97_linearizable (hx : LockFields x code) (h : Reach code eqv dep v₀ s) :
    WellFormed (hist s.log) ∧ Linearizable (CallStep (owning x) (cloning x) eqv) v₀ (hist s.log) := by
  have hi := inv hx h
  exact ⟨hi.disc.wellFormed, hi.disc.linearizable hi.legal⟩

/-- What the helpers do to the locks is a run of the locks: C59 to C61 hold of it. -/
theorem C97_locks (hx : LockFields x code) (h : Reach code eqv dep v₀ s) : Locks.Reach eqv dep v₀ s.c := (inv hx h).reach

/-- From `s` to `s'`, thread `p` being inside a call until then. -/
inductive Within (code : L → Kind → Option Body) (eqv : Option V → Option V → Bool) (dep : L → L → Prop) (p : Nat)
    (s : St L V) : St L V → Prop where
  | refl : Within code eqv dep p s s
  | step {m s' q a} : Within code eqv dep p s m → m.pc p ≠ .idle → Allowed dep m q a → step code eqv m q a = some s' →
      Within code eqv dep p s s'

/-- A helper which returned, or panicked, has left the caller with the guards from before, and the one it gives. -/
theorem C97_guards (hx : LockFields x code) (h : Reach code eqv dep v₀ s) {p : Nat} {i : L} {k : Kind} {v : V} {boom : Bool}
    (ha : Allowed dep s p (.call (.helper i k v boom))) (hs : step code eqv s p (.call (.helper i k v boom)) = some s₁)
    (hw : Within code eqv dep p s₁ s₂) (hp : s₂.pc p = .idle) :
    s₂.c.held p = match gives (owning x i) k with
      | some ex => (i, ex) :: s.c.held p
      | none => s.c.held p := by
  have key : ∀ {s₂}, Within code eqv dep p s₁ s₂ → Reach code eqv dep v₀ s₂ ∧ (About i k (s.c.held p) (s₂.pc p) ∨
      s₂.pc p = .idle ∧ s₂.c.held p = after (owning x) i k (s.c.held p)) := by
    intro s₂ hw
    induction hw with
    | refl =>
      refine ⟨.step h ha hs, .inl ?_⟩
      simp only [step, invoke] at hs
      split at hs
      · split at hs
        · split at hs
          · cases hs; simp [St.begin, About]
          · cases hs
        · cases hs
      · cases hs
    | @step m s' q a hw hne hal hst ih =>
      obtain ⟨hm, hab⟩ := ih
      refine ⟨.step hm hal hst, ?_⟩
      rcases hab with hab | ⟨hid, _⟩
      · by_cases hq : p = q
        · subst hq; exact about_step (inv hx hm) hab hst
        · rw [(others_stay hq hst).1]; exact .inl hab
      · exact absurd hid hne
  obtain ⟨_, hab | ⟨_, hh⟩⟩ := key hw
  · rw [hp] at hab; exact hab.elim
  · exact hh

/-- Between two operations of its body, and when it unwinds, a helper can always go on: it waits only for a lock. -/
theorem C97_never_stuck (hx : LockFields x code) (h : Reach code eqv dep v₀ s) {p : Nat}
    (hp : (∃ f todo a, s.pc p = .run f todo a) ∨ ∃ f, s.pc p = .stop f) : ∃ s', step code eqv s p .go = some s' := by
  rcases hp with ⟨f, todo, a, hp⟩ | ⟨f, hp⟩
  · exact run_enabled (inv hx h) hp
  · exact stop_enabled (inv hx h) hp

/-- A thread outside of calls can call every helper which a field has. -/
theorem C97_callable (hx : LockFields x code) (s : St L V) {p : Nat} (hp : s.pc p = .idle) {i : L} {k : Kind} {b : Body}
    (hb : code i k = some b) (v : V) (boom : Bool) : ∃ s', step code eqv s p (.call (.helper i k v boom)) = some s' := by
  have h := (shapes (V := V) hx i k b hb).1
  simp [step, invoke, hp, hb, h]

/-- If threads keep to an order without cycles when they call helpers with guards in hand, and anybody is inside a call or
keeps a guard, somebody can go on or drop a guard. -/
theorem C97_progress (hx : LockFields x code) (hwf : WellFounded fun j i => dep i j) (h : Reach code eqv dep v₀ s) {p : Nat}
    (hp : s.pc p ≠ .idle ∨ s.c.held p ≠ []) :
    ∃ q a s', (a = .go ∨ ∃ g, a = .drop g) ∧ step code eqv s q a = some s' :=
  helpers_progress hwf (inv hx h) hp

/-- Every run without new calls is over after at most 27 steps per thread, and one per guard kept; if it cannot be extended
and the threads kept to an order without cycles, nobody is inside and nobody has a guard. `ts` lists the threads which are
inside or keep guards. -/
theorem C97_cannot_wedge (hx : LockFields x code) (h : Reach code eqv dep v₀ s) {ts : List Nat} (hts : ts.Nodup)
    (hid : ∀ p, p ∉ ts → s.pc p = .idle ∧ s.c.held p = []) {sch : List (Nat × Act L V)}
    (hc : ∀ y ∈ sch, ∀ c, y.2 ≠ .call c) {s' : St L V} (hr : run code eqv s sch = some s') :
    sch.length ≤ (ts.map fun p => 27 + (s.c.held p).length).sum ∧
      ((WellFounded fun j i => dep i j) → (∀ q a, (∀ c, a ≠ .call c) → step code eqv s' q a = none) →
        ∀ p, s'.pc p = .idle ∧ s'.c.held p = []) := by
  have hi := inv hx h
  have hq : ∀ y ∈ sch, hquiet y.2 = true := by
    intro y hy
    have := hc y hy
    cases hy2 : y.2 with
    | call c => exact absurd hy2 (this c)
    | _ => rfl
  refine ⟨Nat.le_trans (run_bounded hts sch s ?_ hq hr) (htotal_le hi ts), ?_⟩
  · intro p hp
    obtain ⟨h1, h2⟩ := hid p hp
    have h3 : s.c.pc p = .idle := by
      apply Classical.byContradiction
      intro hb
      rcases (busy_iff hi p).1 hb with ⟨f, m, todo, h4⟩ | ⟨u, d, h4⟩ <;> rw [h1] at h4 <;> cases h4
    simp [hload, Verif.Proof.Locks.load, h1, h2, h3, hleft, Verif.Proof.Locks.left]
  · intro hwf hmax p
    have hr' := reach_quiet_run sch s h hq hr
    apply Classical.byContradiction
    intro hp
    have hp' : s'.pc p ≠ .idle ∨ s'.c.held p ≠ [] := by
      by_cases h1 : s'.pc p = .idle
      · exact .inr fun h2 => hp ⟨h1, h2⟩
      · exact .inl h1
    obtain ⟨q, a, s₃, ha, h2⟩ := C97_progress hx hwf hr' hp'
    rw [hmax q a (by intro c; rcases ha with rfl | ⟨g, rfl⟩ <;> simp)] at h2
    cases h2

/-! ## Concrete fields and runs -/

/-- Three fields of `#[fxstruct(sync)]`: `#[fieldx(optional, lock, get(clone), get_mut, set, clearer, predicate, reader,
writer)]`, `#[fieldx(lock, get(copy), get_mut, set)]` and `#[fieldx(lock, get, set, writer)]`. -/
def flds : Fin 3 → FCtx
  | 0 => { ctx := { args := { modeSync := some true } }
           field := { optional := some true, lock := some true, accessor := some { clone := true }, accessorMut := some {}
                      setter := some {}, clearer := some {}, predicate := some {}, reader := some {}, writer := some {} } }
  | 1 => { ctx := { args := { modeSync := some true } }
           field := { lock := some true, accessor := some { copy := true }, accessorMut := some {}, setter := some {} } }
  | 2 => { ctx := { args := { modeSync := some true } }
           field := { lock := some true, accessor := some {}, setter := some {}, writer := some {} } }

/-- Their types. -/
def fldTy : Fin 3 → Ty
  | 0 => .lock false (.opt .t)
  | _ => .lock false .t

/-- All their helpers. -/
def fldCode (i : Fin 3) (k : Kind) : Option Body :=
  if Emit.emits (flds i) k then
    match body (flds i) k with
    | .ok b => some b
    | _ => none
  else none

/-- All kinds of helpers. -/
def kinds : List Kind := [.accessor, .accessorMut, .reader, .writer, .setter, .clearer, .predicate, .builder, .lazy]

theorem fldFields : LockFields flds fldCode where
  sync := by decide +kernel
  plain := by decide +kernel
  block := by decide +kernel
  lock := by decide +kernel
  helpers := by
    intro i k b hb
    refine ⟨fldTy i, helper_of ?_⟩
    have key : ∀ k ∈ kinds, ∀ i, (match fldCode i k with
        | none => true
        | some b => isHelper k && Emit.emits (flds i) k && (declType (flds i) == .ok (fldTy i)) && (body (flds i) k == .ok b)
          && Verif.Proof.MethodTy.checkBody (fldTy i) (wantsCopy (flds i)) b) = true := by decide +kernel
    have := key k (by cases k <;> decide) i
    rw [hb] at this
    exact this
  ask := by
    have key : ∀ i, (flds i).isFallible = false := by decide +kernel
    intro i b _
    exact key i

-- the helpers they have
example : (kinds.filter fun k => (fldCode 0 k).isSome) = [.accessor, .accessorMut, .reader, .writer, .setter, .clearer, .predicate] ∧
    (kinds.filter fun k => (fldCode 1 k).isSome) = [.accessor, .accessorMut, .setter] ∧
    (kinds.filter fun k => (fldCode 2 k).isSome) = [.accessor, .writer, .setter] := by decide +kernel

/-- Equality of the contents. -/
def eqo (a b : Option Nat) : Bool := a == b

/-- The fields are taken in the order of their numbers. -/
def order (i j : Fin 3) : Prop := i < j

instance (i j : Fin 3) : Decidable (order i j) := inferInstanceAs (Decidable (i < j))

theorem order_wf : WellFounded fun j i => order i j := by
  have : WellFounded fun j i : Nat => i < j ∧ j < 3 := by
    refine ⟨fun n => ?_⟩
    have h3 : ∀ m, 3 ≤ m → Acc (fun j i : Nat => i < j ∧ j < 3) m := fun m hm => ⟨_, fun j hj => by omega⟩
    have h2 : Acc (fun j i : Nat => i < j ∧ j < 3) 2 := ⟨_, fun j hj => by omega⟩
    have h1 : Acc (fun j i : Nat => i < j ∧ j < 3) 1 := ⟨_, fun j hj => by
      have : j = 2 := by omega
      exact this ▸ h2⟩
    have h0 : Acc (fun j i : Nat => i < j ∧ j < 3) 0 := ⟨_, fun j hj => by
      have : j = 1 ∨ j = 2 := by omega
      rcases this with rfl | rfl
      · exact h1
      · exact h2⟩
    match n with
    | 0 => exact h0
    | 1 => exact h1
    | 2 => exact h2
    | n + 3 => exact h3 _ (by omega)
  exact Subrelation.wf (h₁ := fun {j i} h => ⟨h, j.2⟩) (InvImage.wf (fun i : Fin 3 => i.val) this)

/-- Thread 0 reads field 0 and keeps the guard; thread 1 sets field 0 and waits; thread 0 sets field 1 meanwhile, its guard
in hand, and drops the guard; the setter of thread 1 is let in; thread 2 clones field 0, which panics, asks whether it has
a value, and clears it; thread 3 sets field 2, the conversion of its argument panics, and writes field 2 by a guard. -/
def story : List (Nat × Act (Fin 3) Nat) :=
  (0, .call (.helper 0 .reader 0 false)) :: List.replicate 3 (0, .go) ++
  (1, .call (.helper 0 .setter 7 false)) :: List.replicate 2 (1, .go) ++
  (0, .call (.helper 1 .setter 4 false)) :: List.replicate 10 (0, .go) ++
  (0, .drop (0, false)) :: List.replicate 6 (1, .go) ++
  (2, .call (.helper 0 .accessor 0 true)) :: List.replicate 9 (2, .go) ++
  (2, .call (.helper 0 .predicate 0 false)) :: List.replicate 7 (2, .go) ++
  (2, .call (.helper 0 .clearer 0 false)) :: List.replicate 8 (2, .go) ++
  (3, .call (.helper 2 .setter 9 true)) :: List.replicate 8 (3, .go) ++
  (3, .call (.helper 2 .writer 0 false)) :: List.replicate 4 (3, .go)

/-- The contents before. -/
def before : Fin 3 → Option Nat
  | 0 => none
  | 1 => some 1
  | 2 => some 2

/-- The calls of the story as the users see them. -/
def storyCalls : List (HEv (Call (Fin 3) Nat) (Ret (Option Nat))) :=
  [.inv ⟨0, 0⟩ (.helper 0 .reader 0 false), .res ⟨0, 0⟩ .unit, .inv ⟨1, 0⟩ (.helper 0 .setter 7 false),
   .inv ⟨0, 1⟩ (.helper 1 .setter 4 false), .res ⟨0, 1⟩ (.value (some 1)), .res ⟨1, 0⟩ (.value none),
   .inv ⟨2, 0⟩ (.helper 0 .accessor 0 true), .res ⟨2, 0⟩ .panicked,
   .inv ⟨2, 1⟩ (.helper 0 .predicate 0 false), .res ⟨2, 1⟩ (.bool true),
   .inv ⟨2, 2⟩ (.helper 0 .clearer 0 false), .res ⟨2, 2⟩ (.value (some 7)),
   .inv ⟨3, 0⟩ (.helper 2 .setter 9 true), .res ⟨3, 0⟩ .panicked,
   .inv ⟨3, 1⟩ (.helper 2 .writer 0 false), .res ⟨3, 1⟩ .unit]

/-- Does the action keep to the order? -/
def ordered (s : St (Fin 3) Nat) (p : Nat) : Act (Fin 3) Nat → Bool
  | .call (.helper j _ _ _) => (s.c.held p).all fun g => decide (order g.1 j)
  | .call _ => false
  | _ => true

theorem ordered_allowed {s : St (Fin 3) Nat} {p : Nat} {a} (h : ordered s p a = true) : Allowed order s p a := by
  cases a with
  | call c =>
    cases c with
    | helper j _ _ _ => simpa [ordered, Allowed] using h
    | _ => cases h
  | _ => trivial

/-- Run a schedule which keeps to the order. -/
def runOrdered (s : St (Fin 3) Nat) : List (Nat × Act (Fin 3) Nat) → Option (St (Fin 3) Nat)
  | [] => some s
  | (p, a) :: rest => if ordered s p a then (step fldCode eqo s p a).bind fun s' => runOrdered s' rest else none

theorem runOrdered_reach : ∀ (sch) (s : St (Fin 3) Nat) {s'}, Reach fldCode eqo order before s → runOrdered s sch = some s' →
    Reach fldCode eqo order before s'
  | [], s, s', h, hr => by simp only [runOrdered, Option.some.injEq] at hr; exact hr ▸ h
  | (p, a) :: sch, s, s', h, hr => by
    simp only [runOrdered] at hr
    split at hr
    · rename_i ho
      simp only [Option.bind_eq_some_iff] at hr
      obtain ⟨s₁, h1, h2⟩ := hr
      exact runOrdered_reach sch s₁ (.step h (ordered_allowed ho) h1) h2
    · cases hr

theorem story_reach : ∃ s : St (Fin 3) Nat, Reach fldCode eqo order before s ∧ hist s.log = storyCalls ∧
    s.c.held 3 = [(2, true)] ∧ s.c.held 0 = [] ∧ s.c.val 0 = none ∧ s.c.val 1 = some 4 ∧ s.c.val 2 = some 2 := by
  have h : (runOrdered (init before) story).map (fun s => decide (hist s.log = storyCalls) && decide (s.c.held 3 = [(2, true)])
      && decide (s.c.held 0 = []) && decide (s.c.val 0 = none) && decide (s.c.val 1 = some 4) && decide (s.c.val 2 = some 2)) =
      some true := by decide +kernel
  simp only [Option.map_eq_some_iff, Bool.and_eq_true, decide_eq_true_eq] at h
  obtain ⟨s, hs, ⟨⟨⟨⟨h1, h2⟩, h3⟩, h4⟩, h5⟩, h6⟩ := h
  exact ⟨s, runOrdered_reach story _ .init hs, h1, h2, h3, h4, h5, h6⟩

-- the clone and the conversion which panicked left no trace
example : Linearizable (CallStep (owning flds) (cloning flds) eqo) before storyCalls := by
  obtain ⟨s, h, hl, _⟩ := story_reach
  rw [← hl]
  exact (C97_linearizable fldFields h).2

-- thread 3 keeps a guard: somebody can go on or drop one
example : ∃ s : St (Fin 3) Nat, Reach fldCode eqo order before s ∧
    ∃ q a s', (a = .go ∨ ∃ g, a = .drop g) ∧ step fldCode eqo s q a = some s' := by
  obtain ⟨s, h, _, h3, _⟩ := story_reach
  exact ⟨s, h, C97_progress fldFields order_wf h (p := 3) (.inr (by rw [h3]; simp))⟩

-- after 18 steps thread 0 set field 1, its guard on field 0 still in hand, and thread 1 waits for it inside its setter
example : (runOrdered (init before) (story.take 18)).map (fun s =>
    (s.c.held 0, (match s.pc 0 with | .idle => true | _ => false),
     match s.pc 1 with | .wait _ .write [.replaceV] => (s.c.pc 1, (step fldCode eqo s 1 .go).isNone) | _ => (.idle, false))) =
    some ([(0, false)], true, .wDrain 0, true) := by decide +kernel

theorem run_only {p : Nat} : ∀ (sch : List (Nat × Act L V)) (s : St L V), (∀ y ∈ sch, y.1 = p) →
    run code eqv s sch = some s₂ → ∀ q, q ≠ p → s₂.pc q = s.pc q ∧ s₂.c.held q = s.c.held q
  | [], s, _, hr, q, _ => by simp only [run, Option.some.injEq] at hr; subst hr; exact ⟨rfl, rfl⟩
  | (p', a) :: sch, s, hp, hr, q, hq => by
    simp only [run, Option.bind_eq_some_iff] at hr
    obtain ⟨s₁, h1, h2⟩ := hr
    have e : p' = p := hp (p', a) (.head _)
    subst e
    have h3 := others_stay hq h1
    have h4 := run_only sch s₁ (fun y hy => hp y (.tail _ hy)) h2 q hq
    exact ⟨h4.1.trans h3.1, h4.2.trans h3.2⟩

theorem run_reach : ∀ (sch : List (Nat × Act L V)) (s : St L V), Reach code eqv (fun _ _ => True) v₀ s →
    (∀ y ∈ sch, ∀ i j, y.2 ≠ .call (.eq i j)) → run code eqv s sch = some s₂ → Reach code eqv (fun _ _ => True) v₀ s₂
  | [], s, h, _, hr => by simp only [run, Option.some.injEq] at hr; exact hr ▸ h
  | (p, a) :: sch, s, h, hq, hr => by
    simp only [run, Option.bind_eq_some_iff] at hr
    obtain ⟨s₁, h1, h2⟩ := hr
    refine run_reach sch s₁ (.step h ?_ h1) (fun y hy => hq y (.tail _ hy)) h2
    have := hq (p, a) (.head _)
    cases a with
    | call c =>
      cases c with
      | eq i j => exact absurd rfl (this i j)
      | helper => exact fun _ _ => trivial
      | clone => exact fun _ _ => trivial
      | _ => trivial
    | _ => trivial

/-- Thread `p` goes `n` steps without coming back from its call before. -/
def goes (p : Nat) (s : St (Fin 3) Nat) : Nat → Option (St (Fin 3) Nat)
  | 0 => some s
  | n + 1 => (goes p s n).bind fun m => if (match m.pc p with | .idle => true | _ => false) then none else step fldCode eqo m p .go

theorem goes_within {p : Nat} {s : St (Fin 3) Nat} : ∀ (n) {s'}, goes p s n = some s' → Within fldCode eqo order p s s'
  | 0, s', h => by simp only [goes, Option.some.injEq] at h; exact h ▸ .refl
  | n + 1, s', h => by
    simp only [goes, Option.bind_eq_some_iff] at h
    obtain ⟨m, h1, h2⟩ := h
    split at h2
    · cases h2
    · rename_i hm
      exact .step (a := .go) (goes_within n h1) (fun hp => hm (by rw [hp])) trivial h2

-- thread 0, which keeps a guard on field 0, gets another one from the accessor of field 2
example : ∃ s s₁ s₂ : St (Fin 3) Nat, Reach fldCode eqo order before s ∧ s.c.held 0 = [(0, false)] ∧
    Allowed order s 0 (.call (.helper 2 .accessor 0 false)) ∧
    step fldCode eqo s 0 (.call (.helper 2 .accessor 0 false)) = some s₁ ∧ Within fldCode eqo order 0 s₁ s₂ ∧ s₂.pc 0 = .idle ∧
    s₂.c.held 0 = [(2, false), (0, false)] := by
  have h : (runOrdered (init before) (story.take 4)).map (fun s => decide (s.c.held 0 = [(0, false)]) &&
      ordered s 0 (.call (.helper 2 .accessor 0 false)) &&
      (match step fldCode eqo s 0 (.call (.helper 2 .accessor 0 false)) with
        | some s₁ => (match goes 0 s₁ 3 with
          | some s₂ => (match s₂.pc 0 with | .idle => true | _ => false)
          | none => false)
        | none => false)) = some true := by decide +kernel
  simp only [Option.map_eq_some_iff, Bool.and_eq_true, decide_eq_true_eq] at h
  obtain ⟨s, hs, ⟨h1, h2⟩, h3⟩ := h
  cases hc : step fldCode eqo s 0 (.call (.helper 2 .accessor 0 false)) with
  | none => simp [hc] at h3
  | some s₁ =>
    simp only [hc] at h3
    cases hg : goes 0 s₁ 3 with
    | none => simp [hg] at h3
    | some s₂ =>
      simp only [hg] at h3
      have hid : s₂.pc 0 = .idle := by cases hx : s₂.pc 0 <;> simp [hx] at h3; rfl
      have hr := runOrdered_reach _ _ .init hs
      refine ⟨s, s₁, s₂, hr, h1, ordered_allowed h2, hc, goes_within 3 hg, hid, ?_⟩
      have := C97_guards fldFields hr (ordered_allowed h2) hc (goes_within 3 hg) hid
      have ho : gives (owning flds 2) .accessor = some false := by decide +kernel
      rw [ho, h1] at this
      exact this

-- thread 0 keeps a guard and drops it: one step, at most 28
example : ∃ s s' : St (Fin 3) Nat, run fldCode eqo s [(0, .drop (0, false))] = some s' ∧ s.c.held 0 = [(0, false)] ∧
    [(0, (Act.drop (0, false) : Act (Fin 3) Nat))].length ≤ ([0].map fun p => 27 + (s.c.held p).length).sum := by
  have h : (run fldCode eqo (init before) (story.take 4)).map (fun s => decide (s.c.held 0 = [(0, false)]) &&
      (run fldCode eqo s [(0, .drop (0, false))]).isSome) = some true := by decide +kernel
  simp only [Option.map_eq_some_iff, Bool.and_eq_true, decide_eq_true_eq, Option.isSome_iff_exists] at h
  obtain ⟨s, hs, h1, s', h2⟩ := h
  have hr : Reach fldCode eqo (fun _ _ => True) before s := run_reach _ _ .init (by simp [story]) hs
  refine ⟨s, s', h2, h1, (C97_cannot_wedge fldFields hr (by simp) ?_ (by simp) h2).1⟩
  intro p hp
  have h3 := run_only (p := 0) _ _ (by simp [story]) hs p (by simpa using hp)
  exact ⟨h3.1, h3.2⟩

-- every helper can be called at the beginning
example (v : Nat) : ∃ s', step fldCode eqo (init before) 5 (.call (.helper 0 .clearer v false)) = some s' :=
  C97_callable fldFields _ rfl (b := { ret := .own (.opt .t), main := [.write, .take] }) (by decide +kernel) v false

/-- The order is needed: a thread which calls the setter of a field, the guard its accessor gave it in hand, never comes
back from it. -/
theorem C97_order_needed : ∃ s : St (Fin 3) Nat, Reach fldCode eqo (fun _ _ => True) before s ∧ s.pc 0 ≠ .idle ∧
    ∀ q a, (∀ c, a ≠ .call c) → step fldCode eqo s q a = none := by
  have h : (run fldCode eqo (init before) ((0, .call (.helper 2 .accessor 0 false)) :: List.replicate 3 (0, .go) ++
      (0, .call (.helper 2 .setter 5 false)) :: List.replicate 2 (0, .go))).map (fun s =>
      ((match s.pc 0 with | .wait _ _ _ => true | _ => false), (step fldCode eqo s 0 .go).isNone)) =
      some (true, true) := by decide +kernel
  simp only [Option.map_eq_some_iff, Prod.mk.injEq] at h
  obtain ⟨s, hs, h1, h2⟩ := h
  have hw : ∃ f m todo, s.pc 0 = .wait f m todo := by
    cases hpc : s.pc 0 <;> simp [hpc] at h1
    exact ⟨_, _, _, rfl⟩
  obtain ⟨f, m, todo, hpc⟩ := hw
  refine ⟨s, run_reach _ _ .init (by simp) hs, by rw [hpc]; simp, ?_⟩
  intro q a ha
  by_cases hq : q = 0
  · subst hq
    cases a with
    | call c => exact absurd rfl (ha c)
    | go => simpa using h2
    | panic => simp [step, panics, hpc]
    | drop g => simp [step, LockCalls.dropGuard, hpc]
  · have h3 := run_only _ _ (by simp) hs q hq
    have e1 : s.pc q = .idle := h3.1
    have e2 : s.c.held q = [] := h3.2
    cases a with
    | call c => exact absurd rfl (ha c)
    | go => simp [step, go, e1]
    | panic => simp [step, panics, e1]
    | drop g =>
      simp only [step, LockCalls.dropGuard, e1]
      simp only [Locks.dropGuard, e2, List.not_mem_nil, if_false]
      cases s.c.pc q <;> rfl

end Verif.Props.LockCalls
