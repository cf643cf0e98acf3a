import Verif.Proof.AsyncCallsLive
import Verif.Proof.Cancel
import Verif.Props.Method
import Verif.Props.Async
/-
C98: the helpers generated for a lazy field of an async struct, used by any number of tasks, any of which may be cancelled
wherever a helper awaits.

Model: `Verif.Model.AsyncCalls` (the bodies of `Verif.Model.Method` run on the container of `Verif.Model.Async`).
Specification: `Verif.Spec.Calls`, `Verif.Spec.Cancel`. The field is any field with any arguments which is lazy and async;
`code` holds any of the helpers written for it which the compiler accepts (`Helper`, see C24). `cloning x`: its accessor
clones.
-/
namespace Verif.Props.AsyncCalls
open Verif.Spec Verif.Spec.Calls Verif.Spec.InitTy Verif.Model Verif.Model.Args Verif.Model.Init Verif.Model.Method
open Verif.Model.AsyncCalls Verif.Proof Verif.Proof.AsyncCalls Verif.Props.Method Verif.Props.MethodTy

open Verif.Proof.Calls (tail CopyOp)

variable {V E : Type}

/-- The helpers `code` of the lazy async field `x`. -/
structure LazyField (x : FCtx) (code : Kind → Option Body) : Prop where
  sync  : x.isSync = true
  lzy   : x.isLazy = true
  task  : x.isAsync = true
  code  : ∀ k b, code k = some b → ∃ τ, Helper x k τ b

/-- Does the accessor return a clone? -/
def cloning (x : FCtx) : Bool := !x.isCopy && x.isClone

theorem shapes {x : FCtx} {code : Kind → Option Body} (h : LazyField x code) :
    Shapes x.isFallible (cloning x) code := by
  intro k b hb
  obtain ⟨τ, hh⟩ := h.code k b hb
  have hok := hh.ok
  have hc := hh.code
  have hk := hh.kind
  have h1 := h.sync
  have h2 := h.lzy
  have h3 := h.task
  have hread : syncReader x = .ok b → b.pre = none ∧ b.retPre = false ∧ b.main = [.lazyRead (rc x) false x.isFallible, .await] := by
    intro hc
    simp only [syncReader, h2, if_true, awaitCall, h3] at hc
    cases hf : fallibleRet x (.guard (mappedRead x) .t) with
    | ok r => rw [hf] at hc; cases hc; exact ⟨rfl, rfl, rfl⟩
    | error => rw [hf] at hc; cases hc
    | panic => rw [hf] at hc; cases hc
  cases k with
  | accessor =>
    simp only [body, h1, if_true, syncAccessor] at hc
    by_cases hcc : (x.isClone || x.isCopy) = true
    · simp only [hcc, if_true, h2] at hc
      have hopt : x.isOptional = false := by
        simpa [refused, refusedAccessor, h1, hcc, h2] using hok
      cases hf : fallibleRet x (.own .t) with
      | ok r =>
        rw [hf] at hc
        cases hc
        refine ⟨rfl, rfl, ?_⟩
        have : ([MOp.lazyRead (rc x) false x.isFallible] ++ awaitCall x ++ shortcut x ++ [.star] ++ syncCMethod x ++ okReturn x)
            = .lazyRead (rc x) false x.isFallible :: .await :: tail x.isFallible (if x.isCopy then .copyVal else .clone) := by
          simp only [awaitCall, h3, shortcut, syncCMethod, okReturn, hopt, tail]
          cases x.isFallible <;> cases x.isCopy <;> rfl
        show Shape _ _ _ ([MOp.lazyRead (rc x) false x.isFallible] ++ awaitCall x ++ shortcut x ++ [.star] ++ syncCMethod x ++ okReturn x)
        rw [this]
        refine .own _ ?_
        unfold CopyOp cloning
        cases hcp : x.isCopy with
        | true => exact .inl ⟨rfl, by simp⟩
        | false => rw [hcp] at hcc; simp at hcc; exact .inr ⟨rfl, by simp [hcc]⟩
      | error => rw [hf] at hc; cases hc
      | panic => rw [hf] at hc; cases hc
    · simp only [hcc, Bool.false_eq_true, if_false, h2, Bool.true_or, if_true] at hc
      obtain ⟨r1, r2, r3⟩ := hread hc
      refine ⟨r1, r2, ?_⟩
      rw [r3]
      refine .acc _ ?_
      simp only [Bool.not_eq_true, Bool.or_eq_false_iff] at hcc
      simp [cloning, hcc.1]
  | accessorMut =>
    simp only [body, h1, if_true, syncAccessorMut, h2, awaitCall, h3, if_true] at hc
    cases hf : fallibleRet x (.guard (.mapWrite true) .t) with
    | ok r => rw [hf] at hc; cases hc; exact ⟨rfl, rfl, .getMut _⟩
    | error => rw [hf] at hc; cases hc
    | panic => rw [hf] at hc; cases hc
  | reader =>
    simp only [body, h1, if_true] at hc
    obtain ⟨r1, r2, r3⟩ := hread hc
    exact ⟨r1, r2, by rw [r3]; exact .reader _⟩
  | writer =>
    simp only [body, h1, if_true, syncWriter, h2, awaitCall, h3, if_true] at hc
    cases hf : builderWrapper x with
    | ok r => rw [hf] at hc; cases hc; exact ⟨rfl, rfl, .writer⟩
    | error => rw [hf] at hc; cases hc
    | panic => rw [hf] at hc; cases hc
  | setter =>
    simp only [body, h1, if_true, syncSetter, h2, awaitCall, h3, if_true] at hc
    cases hc; exact ⟨rfl, rfl, .setter⟩
  | clearer =>
    simp only [body, h1, if_true, syncClearer, h2, awaitCall, h3, if_true] at hc
    cases hc; exact ⟨rfl, rfl, .clear⟩
  | predicate =>
    simp only [body, h1, if_true, syncPredicate, h2] at hc
    cases hc; exact ⟨rfl, rfl, .isSet⟩
  | builder => cases hk
  | lazy => cases hk

variable {x : FCtx} {code : Kind → Option Body} {v₀ : Option V} {s : St V E}

/-! ## C98 -/

/-- The calls of the users, helpers and uses of guards, are linearizable, with any of them cancelled anywhere: each which
was not cancelled takes effect at one moment between its begin and its end, as the one operation of the cell which it
stands for, and everything is as if those which were cancelled had never been made. -/
theorem C98_linearizable (hx : LazyField x code) (h : Reach code v₀ s) :
    WellFormed (without (abandoned s.log) (hist s.log)) ∧
      Linearizable (CallStep x.isFallible (cloning x)) v₀ (without (abandoned s.log) (hist s.log)) := by
  have hi := inv_reach (shapes hx) h
  obtain ⟨c, _, h2⟩ := hi.legal
  exact ⟨keys_without hi.disc.wellFormed, hi.disc.linearizable_without h2⟩

/-- A cancelled call gives no answer, and the step which drops it changes neither the value nor the predicate, answers to
nobody, and leaves the process outside, holding nothing. -/
theorem C98_cancel (hx : LazyField x code) (h : Reach code v₀ s) {p : Nat} {s' : St V E}
    (hs : step code s p .cancel = some s') :
    s'.c.value = s.c.value ∧ s'.c.flag = s.c.flag ∧ hist s'.log = hist s.log ∧ abandoned s'.log = abandoned s.log ++ [s.me p] ∧
      (∀ r, .res (s.me p) r ∉ hist s.log) ∧ s'.pc p = .idle ∧ s'.c.pc p = .idle ∧ s'.c.lk.wr ≠ some p ∧
      p ∉ s'.c.lk.shared := by
  have hi := inv_reach (shapes hx) h
  have hs' := hs
  simp only [step, AsyncCalls.cancel] at hs
  split at hs
  · simp only [Option.map_eq_some_iff] at hs
    obtain ⟨c', hc, rfl⟩ := hs
    obtain ⟨h1, h2, _⟩ := Async.C12_cancel_changes_nothing (s := s.c) (p := p) hc
    obtain ⟨h4, h5, h6⟩ := Async.C13_cancelled_holds_no_lock hi.reach (p := p) hc
    have hq := (inv_step (shapes hx) hi hs').disc.cancelled (i := s.me p) (by simp [St.quit, St.me])
    refine ⟨h1, h2, by simp [St.quit, hist], by simp [St.quit, abandoned, St.me], fun r hr => ?_, by simp [St.quit], h4, h5, h6⟩
    apply hq.2.2 r
    have := mem_hist_res.1 hr
    simp [St.quit, this]
  · cases hs

/-- What the helpers do to the container is a run of the container: C11 to C14 and C45 to C51 hold of it. -/
theorem C98_container (hx : LazyField x code) (h : Reach code v₀ s) : Async.Reach v₀ s.c :=
  (inv_reach (shapes hx) h).reach

/-- A helper which is over, or was cancelled, leaves no guard and no unfinished call, unless its value is a guard. -/
theorem C98_nothing_left (hx : LazyField x code) (h : Reach code v₀ s) {p : Nat} (hp : s.pc p = .idle) :
    s.c.pc p = .idle ∧ p ∉ s.c.lk.shared ∧ s.c.lk.wr ≠ some p := by
  have hi := inv_reach (shapes hx) h
  have hl := hi.loc p
  rw [hp] at hl
  have hid : s.c.pc p = .idle := by
    generalize s.c.pc p = x at hl
    generalize s.c.value = v at hl
    cases hl; rfl
  have hc := Verif.Proof.Async.inv_reach hi.reach
  refine ⟨hid, ?_, ?_⟩
  · intro hs; have := (hc.sh p).1 hs; rw [hid] at this; cases this
  · intro hs; have := (hc.wr p).1 hs; rw [hid] at this; cases this

/-- Between two operations of its body, and when it is left early, a helper can always go on: it waits only inside calls
on the container. -/
theorem C98_never_stuck (hx : LazyField x code) (h : Reach code v₀ s) {p : Nat}
    (hp : (∃ f todo a, s.pc p = .run f todo a) ∨ ∃ f r, s.pc p = .stop f r) : ∃ s', step code s p .go = some s' := by
  rcases hp with ⟨f, todo, a, hp⟩ | ⟨f, r, hp⟩
  · exact run_enabled (inv_reach (shapes hx) h) hp
  · exact stop_enabled hp

/-- As long as anybody is inside a helper or keeps a guard, somebody can go on, drop a guard or end a builder. -/
theorem C98_progress (hx : LazyField x code) (h : Reach code v₀ s) {p : Nat} (hp : s.pc p ≠ .idle) (o : Outcome V E) :
    ∃ q a s', (a = .go ∨ a = .drop ∨ a = .finish o) ∧ step code s q a = some s' :=
  helpers_progress (inv_reach (shapes hx) h) hp o

/-- From any reachable state every run without new calls, cancelled or not, is over after at most 64 steps per process, and
if it cannot be extended, other than by cancelling, nobody is inside and nobody holds anything. `ps` lists the processes which are inside. -/
theorem C98_cannot_wedge (hx : LazyField x code) (h : Reach code v₀ s) {ps : List Nat} (hps : ps.Nodup)
    (hid : ∀ p, p ∉ ps → s.pc p = .idle) {sch : List (Nat × Act V E)} (hc : ∀ y ∈ sch, ∀ c, y.2 ≠ .call c)
    {s' : St V E} (hr : run code s sch = some s') :
    sch.length ≤ 64 * ps.length ∧
      ((∀ q a, (a = .go ∨ a = .drop ∨ ∃ o, a = .finish o) → step code s' q a = none) →
        ∀ (_ : Outcome V E) p, s'.pc p = .idle ∧ s'.c.pc p = .idle) := by
  have hi := inv_reach (shapes hx) h
  refine ⟨Nat.le_trans (run_bounded (shapes hx) hps sch s hi hid hc hr) (toDo_le hi ps), ?_⟩
  intro hmax o p
  have hr' := reach_run sch h hr
  have : s'.pc p = .idle := by
    apply Classical.byContradiction
    intro hp
    obtain ⟨q, a, s₂, ha, h2⟩ := C98_progress hx hr' hp o
    rw [hmax q a (ha.imp_right (Or.imp_right fun h => ⟨o, h⟩))] at h2
    cases h2
  exact ⟨this, (C98_nothing_left hx hr' this).1⟩

/-! ## A concrete run -/

/-- An async struct with a lazy field having all helpers. -/
def fullAsync : FCtx :=
  { ctx := { args := { modeAsync := some true } }
    field := { lazy := some {}, accessor := some { clone := true }, accessorMut := some {}, setter := some {}
               clearer := some {}, predicate := some {}, reader := some {}, writer := some {} } }

/-- All helpers of `fullAsync`. -/
def fullCode (k : Kind) : Option Body :=
  match body fullAsync k with
  | .ok b => some b
  | _ => none

theorem fullField : LazyField fullAsync fullCode where
  sync := by decide +kernel
  lzy := by decide +kernel
  task := by decide +kernel
  code := by
    intro k b hb
    have hb' : body fullAsync k = .ok b := by
      unfold fullCode at hb
      split at hb
      · cases hb; assumption
      · cases hb
    refine ⟨.proxy true false, helper_of ?_⟩
    have key : ∀ k b, body fullAsync k = .ok b → (isHelper k && Emit.emits fullAsync k && (declType fullAsync == .ok (.proxy true false))
        && Verif.Proof.MethodTy.checkBody (.proxy true false) (wantsCopy fullAsync) b) = true := by
      intro k b h
      cases k <;> first | (cases h; done) | (cases h; decide +kernel)
    have := key k b hb'
    simp only [Bool.and_eq_true, beq_iff_eq] at this ⊢
    exact ⟨⟨this.1, hb'⟩, this.2⟩

/-- Process 0 calls the accessor and is cancelled while the builder runs; process 1 waits in the setter meanwhile, process 3
in the clearer and is cancelled there; process 2 asks the predicate. The setter of process 1 then finds nothing, and
process 0 reads what it stored and keeps the guard. -/
def story : List (Nat × Act Nat Nat) :=
  [(0, .call (.helper .accessor 0 false)), (0, .go), (0, .go), (0, .go), (0, .go), (0, .go),
   (1, .call (.helper .setter 7 false)), (1, .go), (1, .go),
   (3, .call (.helper .clearer 0 false)), (3, .go), (3, .go), (3, .cancel),
   (2, .call (.helper .predicate 0 false)), (2, .go), (2, .go), (2, .go), (2, .go),
   (0, .cancel)] ++ List.replicate 8 (1, .go) ++
  [(0, .call (.helper .reader 0 false))] ++ List.replicate 7 (0, .go) ++ [(0, .call .deref), (0, .go), (0, .go)]

/-- The calls of the story which were not cancelled. -/
def storyCalls : List (HEv (Call Nat) (Res Nat Nat)) :=
  [.inv ⟨1, 0⟩ (.helper .setter 7 false), .inv ⟨2, 0⟩ (.helper .predicate 0 false), .res ⟨2, 0⟩ ⟨none, .bool false⟩,
   .res ⟨1, 0⟩ ⟨none, .old none⟩, .inv ⟨0, 1⟩ (.helper .reader 0 false), .res ⟨0, 1⟩ ⟨none, .value 7⟩, .inv ⟨0, 2⟩ .deref,
   .res ⟨0, 2⟩ ⟨none, .value 7⟩]

theorem story_reach : ∃ s : St Nat Nat, Reach fullCode none s ∧ without (abandoned s.log) (hist s.log) = storyCalls ∧
    abandoned s.log = [⟨3, 0⟩, ⟨0, 0⟩] ∧ (match s.pc 0 with | .keeps => true | _ => false) = true := by
  have h : (run fullCode (init none) story).map (fun s => (without (abandoned s.log) (hist s.log), abandoned s.log,
      match s.pc 0 with | .keeps => true | _ => false)) = some (storyCalls, [⟨3, 0⟩, ⟨0, 0⟩], true) := by decide +kernel
  simp only [Option.map_eq_some_iff, Prod.mk.injEq] at h
  obtain ⟨s, hs, h1, h2, h3⟩ := h
  exact ⟨s, reach_run story .init hs, h1, h2, h3⟩

-- two calls were cancelled, the others fit together as if these had never been made
example : Linearizable (CallStep false true) none storyCalls := by
  obtain ⟨s, h, hl, _⟩ := story_reach
  rw [← hl]
  have := (C98_linearizable fullField h).2
  have e1 : fullAsync.isFallible = false := by decide +kernel
  have e2 : cloning fullAsync = true := by decide +kernel
  rwa [e1, e2] at this

-- after the first 12 steps three processes await the container, process 0 with its builder running: each can be cancelled
example : (run fullCode (init none) (story.take 12)).map (fun s =>
    (match s.c.pc 0 with | .rBuild _ => true | _ => false, match s.pc 1 with | .wait _ .write [.storeV] => true | _ => false,
     match s.pc 3 with | .wait _ .clear [] => true | _ => false,
     [0, 1, 2, 3].map fun p => (step fullCode s p .cancel).isSome)) = some (true, true, true, [true, true, false, true]) := by
  decide +kernel

-- between two operations of its body: the setter has the guard and is about to store
example : (run fullCode (init none) (story.take 21)).map (fun s =>
    (match s.pc 1 with | .run _ [.storeV] .wguard => true | _ => false, (step fullCode s 1 .cancel).isSome)) = some (true, false) := by
  decide +kernel

end Verif.Props.AsyncCalls
