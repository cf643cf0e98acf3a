import Verif.Proof.CallsLive
import Verif.Props.Method
/-
C96: the helpers generated for a lazy field of a sync struct, used by any number of threads.

Model: `Verif.Model.Calls` (the bodies of `Verif.Model.Method` run on the container of `Verif.Model.Sync`). Specification:
`Verif.Spec.Calls`. The field is any field with any arguments which is lazy, sync and not async; `code` holds any of the
helpers written for it which the compiler accepts (`Helper`, see C24). `cloning x`: its accessor clones.
-/
namespace Verif.Props.Calls
open Verif.Spec Verif.Spec.Calls Verif.Spec.InitTy Verif.Model Verif.Model.Args Verif.Model.Init Verif.Model.Method
open Verif.Model.Calls Verif.Proof Verif.Proof.Calls Verif.Props.Method Verif.Props.MethodTy

variable {V E : Type}

/-- The helpers `code` of the lazy sync field `x`. -/
structure LazyField (x : FCtx) (code : Kind → Option Body) : Prop where
  sync  : x.isSync = true
  lzy   : x.isLazy = true
  block : x.isAsync = false
  code  : ∀ k b, code k = some b → ∃ τ, Helper x k τ b

/-- Does the accessor return a clone? -/
def cloning (x : FCtx) : Bool := !x.isCopy && x.isClone

theorem shapes {x : FCtx} {code : Kind → Option Body} (h : LazyField x code) :
    Shapes x.isFallible (cloning x) code := by
  intro k b hb
  obtain ⟨τ, hh⟩ := h.code k b hb
  have hok := hh.ok
  have hc := hh.code
  have hk := hh.kind
  have h1 := h.sync
  have h2 := h.lzy
  have h3 := h.block
  have hread : syncReader x = .ok b → b.pre = none ∧ b.retPre = false ∧ b.main = [.lazyRead (rc x) false x.isFallible] := by
    intro hc
    simp only [syncReader, h2, if_true, awaitCall, h3, Bool.false_eq_true, if_false, List.append_nil] at hc
    cases hf : fallibleRet x (.guard (mappedRead x) .t) with
    | ok r => rw [hf] at hc; cases hc; exact ⟨rfl, rfl, rfl⟩
    | error => rw [hf] at hc; cases hc
    | panic => rw [hf] at hc; cases hc
  cases k with
  | accessor =>
    simp only [body, h1, if_true, syncAccessor] at hc
    by_cases hcc : (x.isClone || x.isCopy) = true
    · simp only [hcc, if_true, h2] at hc
      have hopt : x.isOptional = false := by
        simpa [refused, refusedAccessor, h1, hcc, h2] using hok
      cases hf : fallibleRet x (.own .t) with
      | ok r =>
        rw [hf] at hc
        cases hc
        refine ⟨rfl, rfl, ?_⟩
        have : ([MOp.lazyRead (rc x) false x.isFallible] ++ awaitCall x ++ shortcut x ++ [.star] ++ syncCMethod x ++ okReturn x)
            = .lazyRead (rc x) false x.isFallible :: tail x.isFallible (if x.isCopy then .copyVal else .clone) := by
          simp only [awaitCall, h3, shortcut, syncCMethod, okReturn, hopt, tail]
          cases x.isFallible <;> cases x.isCopy <;> rfl
        show Shape _ _ _ ([MOp.lazyRead (rc x) false x.isFallible] ++ awaitCall x ++ shortcut x ++ [.star] ++ syncCMethod x ++ okReturn x)
        rw [this]
        refine .own _ ?_
        unfold CopyOp cloning
        cases hcp : x.isCopy with
        | true => exact .inl ⟨rfl, by simp⟩
        | false => rw [hcp] at hcc; simp at hcc; exact .inr ⟨rfl, by simp [hcc]⟩
      | error => rw [hf] at hc; cases hc
      | panic => rw [hf] at hc; cases hc
    · simp only [hcc, Bool.false_eq_true, if_false, h2, Bool.true_or, if_true] at hc
      obtain ⟨r1, r2, r3⟩ := hread hc
      refine ⟨r1, r2, ?_⟩
      rw [r3]
      refine .acc _ ?_
      simp only [Bool.not_eq_true, Bool.or_eq_false_iff] at hcc
      simp [cloning, hcc.1]
  | accessorMut =>
    simp only [body, h1, if_true, syncAccessorMut, h2, awaitCall, h3, Bool.false_eq_true, if_false, List.append_nil] at hc
    cases hf : fallibleRet x (.guard (.mapWrite false) .t) with
    | ok r => rw [hf] at hc; cases hc; exact ⟨rfl, rfl, .getMut _⟩
    | error => rw [hf] at hc; cases hc
    | panic => rw [hf] at hc; cases hc
  | reader =>
    simp only [body, h1, if_true] at hc
    obtain ⟨r1, r2, r3⟩ := hread hc
    exact ⟨r1, r2, by rw [r3]; exact .reader _⟩
  | writer =>
    simp only [body, h1, if_true, syncWriter, h2, awaitCall, h3, Bool.false_eq_true, if_false, List.append_nil] at hc
    cases hf : builderWrapper x with
    | ok r => rw [hf] at hc; cases hc; exact ⟨rfl, rfl, .writer⟩
    | error => rw [hf] at hc; cases hc
    | panic => rw [hf] at hc; cases hc
  | setter =>
    simp only [body, h1, if_true, syncSetter, h2, awaitCall, h3, Bool.false_eq_true, if_false, List.append_nil] at hc
    cases hc; exact ⟨rfl, rfl, .setter⟩
  | clearer =>
    simp only [body, h1, if_true, syncClearer, h2, awaitCall, h3, Bool.false_eq_true, if_false, List.append_nil] at hc
    cases hc; exact ⟨rfl, rfl, .clear⟩
  | predicate =>
    simp only [body, h1, if_true, syncPredicate, h2] at hc
    cases hc; exact ⟨rfl, rfl, .isSet⟩
  | builder => cases hk
  | lazy => cases hk

variable {x : FCtx} {code : Kind → Option Body} {v₀ : Option V} {s : St V E}

/-! ## C96 -/

/-- The calls of the users, helpers and uses of guards, are linearizable: each takes effect at one moment between its begin
and its end, as the one operation of the cell which it stands for. -/
theorem C96_linearizable (hx : LazyField x code) (h : Reach code v₀ s) :
    WellFormed (hist s.log) ∧ Linearizable (CallStep x.isFallible (cloning x)) v₀ (hist s.log) := by
  have hi := inv_reach (shapes hx) h
  obtain ⟨c, _, h2⟩ := hi.legal
  exact ⟨hi.disc.wellFormed, hi.disc.linearizable h2⟩

/-- What the helpers do to the container is a run of the container: C01 to C10 hold of it. -/
theorem C96_container (hx : LazyField x code) (h : Reach code v₀ s) : Sync.Reach v₀ s.c :=
  (inv_reach (shapes hx) h).reach

/-- A helper which is over leaves no guard and no unfinished call, unless its value is a guard. -/
theorem C96_nothing_left (hx : LazyField x code) (h : Reach code v₀ s) {p : Nat} (hp : s.pc p = .idle) :
    s.c.pc p = .idle ∧ p ∉ s.c.lk.shared ∧ s.c.lk.wr ≠ some p ∧ s.c.lk.upg ≠ some p := by
  have hi := inv_reach (shapes hx) h
  have hl := hi.loc p
  rw [hp] at hl
  have hid : s.c.pc p = .idle := by
    generalize s.c.pc p = x at hl
    generalize s.c.value = v at hl
    cases hl; rfl
  have hc := Verif.Proof.Sync.core_reach hi.reach
  refine ⟨hid, ?_, ?_, ?_⟩
  · intro hs; have := (hc.sh p).1 hs; rw [hid] at this; cases this
  · intro hs; have := (hc.wr p).1 hs; rw [hid] at this; cases this
  · intro hs; have := (hc.upg p).1 hs; rw [hid] at this; cases this

/-- Between two operations of its body, and when it is left early, a helper can always go on: it waits only inside calls
on the container. -/
theorem C96_never_stuck (hx : LazyField x code) (h : Reach code v₀ s) {p : Nat}
    (hp : (∃ f todo a, s.pc p = .run f todo a) ∨ ∃ f r, s.pc p = .stop f r) : ∃ s', step code s p .go = some s' := by
  rcases hp with ⟨f, todo, a, hp⟩ | ⟨f, r, hp⟩
  · exact run_enabled (inv_reach (shapes hx) h) hp
  · exact stop_enabled hp

/-- As long as anybody is inside a helper or keeps a guard, somebody can go on, drop a guard or end a builder. -/
theorem C96_progress (hx : LazyField x code) (h : Reach code v₀ s) {p : Nat} (hp : s.pc p ≠ .idle) (o : Outcome V E) :
    ∃ q a s', (a = .go ∨ a = .drop ∨ a = .finish o) ∧ step code s q a = some s' :=
  helpers_progress (inv_reach (shapes hx) h) hp o

/-- From any reachable state every run without new calls is over after at most 79 steps per process, and if it cannot be
extended nobody is inside and nobody holds anything. `ps` lists the processes which are inside. -/
theorem C96_cannot_wedge (hx : LazyField x code) (h : Reach code v₀ s) {ps : List Nat} (hps : ps.Nodup)
    (hid : ∀ p, p ∉ ps → s.pc p = .idle) {sch : List (Nat × Act V E)} (hc : ∀ y ∈ sch, ∀ c, y.2 ≠ .call c)
    {s' : St V E} (hr : run code s sch = some s') :
    sch.length ≤ 79 * ps.length ∧
      ((∀ q a, (∀ c, a ≠ .call c) → step code s' q a = none) → ∀ (_ : Outcome V E) p, s'.pc p = .idle ∧ s'.c.pc p = .idle) := by
  have hi := inv_reach (shapes hx) h
  refine ⟨Nat.le_trans (run_bounded (shapes hx) hps sch s hi hid hc hr) (toDo_le hi ps), ?_⟩
  intro hmax o p
  have hr' := reach_run sch h hr
  have : s'.pc p = .idle := by
    apply Classical.byContradiction
    intro hp
    obtain ⟨q, a, s₂, ha, h2⟩ := C96_progress hx hr' hp o
    rw [hmax q a (by intro c; rcases ha with rfl | rfl | rfl <;> simp)] at h2
    cases h2
  exact ⟨this, (C96_nothing_left hx hr' this).1⟩

/-! ## A concrete run -/

/-- All helpers of `fullSync`: a lazy field of a sync struct with a cloning accessor. -/
def fullCode (k : Kind) : Option Body :=
  match body fullSync k with
  | .ok b => some b
  | _ => none

theorem fullField : LazyField fullSync fullCode where
  sync := by decide +kernel
  lzy := by decide +kernel
  block := by decide +kernel
  code := by
    intro k b hb
    have hb' : body fullSync k = .ok b := by
      unfold fullCode at hb
      split at hb
      · cases hb; assumption
      · cases hb
    refine ⟨.proxy false false, helper_of ?_⟩
    have key : ∀ k b, body fullSync k = .ok b → (isHelper k && Emit.emits fullSync k && (declType fullSync == .ok (.proxy false false))
        && Verif.Proof.MethodTy.checkBody (.proxy false false) (wantsCopy fullSync) b) = true := by
      intro k b h
      cases k <;> first | (cases h; done) | (cases h; decide +kernel)
    have := key k b hb'
    simp only [Bool.and_eq_true, beq_iff_eq] at this ⊢
    exact ⟨⟨this.1, hb'⟩, this.2⟩

/-- Process 0 calls the accessor, builds 5, and its `clone` panics; process 1 calls the setter meanwhile; process 2 asks the
predicate; then process 1 reads and keeps the guard. -/
def story : List (Nat × Act Nat Nat) :=
  [(0, .call (.helper .accessor 0 true)), (0, .go), (0, .go), (0, .go), (0, .go), (0, .go),
   (1, .call (.helper .setter 7 false)), (1, .go),
   (2, .call (.helper .predicate 0 false)), (2, .go), (2, .go), (2, .go), (2, .go),
   (0, .finish (.ok 5)), (0, .go), (0, .go), (0, .go), (0, .go), (0, .go),
   (0, .go), (0, .go), (0, .go), (0, .go)] ++ List.replicate 9 (1, .go) ++
  [(1, .call (.helper .reader 0 false))] ++ List.replicate 6 (1, .go) ++ [(1, .call .deref), (1, .go), (1, .go)]

/-- The calls of the story as the users see them. -/
def storyCalls : List (HEv (Call Nat) (Res Nat Nat)) :=
  [.inv ⟨0, 0⟩ (.helper .accessor 0 true), .inv ⟨1, 0⟩ (.helper .setter 7 false), .inv ⟨2, 0⟩ (.helper .predicate 0 false),
   .res ⟨2, 0⟩ ⟨none, .bool false⟩, .res ⟨0, 0⟩ ⟨some (.ok 5), .panicked⟩, .res ⟨1, 0⟩ ⟨none, .old (some 5)⟩,
   .inv ⟨1, 1⟩ (.helper .reader 0 false), .res ⟨1, 1⟩ ⟨none, .value 7⟩, .inv ⟨1, 2⟩ .deref, .res ⟨1, 2⟩ ⟨none, .value 7⟩]

theorem story_reach : ∃ s : St Nat Nat, Reach fullCode none s ∧ hist s.log = storyCalls ∧
    (match s.pc 1 with | .keeps => true | _ => false) = true := by
  have h : (run fullCode (init none) story).map (fun s => (hist s.log, match s.pc 1 with | .keeps => true | _ => false)) =
      some (storyCalls, true) := by decide +kernel
  simp only [Option.map_eq_some_iff, Prod.mk.injEq] at h
  obtain ⟨s, hs, h1, h2⟩ := h
  exact ⟨s, reach_run story .init hs, h1, h2⟩

-- the panicking clone of process 0 built 5, which the setter of process 1 handed back
example : Linearizable (CallStep false true) none storyCalls := by
  obtain ⟨s, h, hl, _⟩ := story_reach
  rw [← hl]
  have := (C96_linearizable fullField h).2
  have e1 : fullSync.isFallible = false := by decide +kernel
  have e2 : cloning fullSync = true := by decide +kernel
  rwa [e1, e2] at this

-- after the first 19 steps process 0 is between two operations of its body, process 1 waits inside the setter
example : (run fullCode (init none) (story.take 19)).map (fun s =>
    (match s.pc 0 with | .run _ [.star, .clone] _ => true | _ => false,
     match s.pc 1 with | .wait _ .write [.storeV] => true | _ => false,
     match s.pc 2 with | .idle => true | _ => false)) = some (true, true, true) := by decide +kernel

end Verif.Props.Calls
