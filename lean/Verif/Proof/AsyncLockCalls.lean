import Verif.Model.AsyncLockCalls
import Verif.Proof.AsyncLocks
import Verif.Proof.LockCalls
/-!
# The helpers of lock-protected fields of async structs under concurrency (helper lemmas)
-/

namespace Verif.Proof.AsyncLockCalls
open Verif.Spec Verif.Spec.Memory Verif.Spec.LockCalls Verif.Model Verif.Model.Args Verif.Model.Method
open Verif.Model.LockCalls (converts decisive guardOf otherOp)
open Verif.Proof.LockCalls (Keep lockOp keep_step write_self otherOp_means)
open Verif.Model.AsyncLockCalls Verif.Proof Verif.Proof.AsyncLocks

variable {L V : Type}

/-! ### What a body comes to -/

/-- The deciding operations of the other helpers. -/
inductive Job (i : L) (v : V) : Kind → Bool → MOp → Op L (Option V) → Prop where
  | ask : Job i v .predicate false .isSome (.deref i)
  | set {m} : (m = .replaceV ∨ m = .memReplaceV) → Job i v .setter true m (.assign i (some v))
  | clear : Job i v .clearer true .take (.assign i none)

theorem Job.gives {i : L} {v : V} {k : Kind} {ex : Bool} {m : MOp} {op : Op L (Option V)}
    (h : Job i v k ex m op) : gives false k = none := by
  cases h <;> rfl

/-- A body, after the lock was taken, comes to the guard or to one operation on the content. -/
inductive Plan (i : L) (v : V) (k : Kind) (ex : Bool) : List MOp → Cur V → Prop where
  | now {m todo a b} : next i v m a = .now b → converts m = false → todo.length ≤ 2 → Plan i v k ex todo b →
      Plan i v k ex (m :: todo) a
  | call {m a op} : next i v m a = .call m op → Job i v k ex m op → Plan i v k ex [m] a
  | keep : Keep false k ex → Plan i v k ex [] .guard

/-- The bodies of the helpers. -/
def Shapes (code : L → Kind → Option Body) : Prop :=
  ∀ i k b, code i k = some b → b.pre = none ∧
    ∃ ex rest, b.main = lockOp ex :: .await :: rest ∧ ∀ v : V, Plan i v k ex rest .guard

/-! ### Steps of the locks -/

/-- Begin of an operation on the content. -/
def begun : Op L (Option V) → AsyncLocks.Pc L (Option V)
  | .deref i => .use i
  | .assign i o => .asg i o
  | _ => .idle

/-- Where the locks have task `p`, and what the step told it. -/
structure Eff (c c' : AsyncLocks.St L (Option V)) (p : Nat) (x : AsyncLocks.Pc L (Option V)) (h : List (L × Bool))
    (d a : Option (Ret (Option V))) : Prop where
  pc : c'.pc p = x
  held : c'.held p = h
  dec : decided c c' = d
  ans : answered c c' p = a

theorem decided_nil {c c' : AsyncLocks.St L (Option V)} (h : c'.log = c.log) : decided c c' = none := by
  simp [decided, h]

theorem decided_append {c c' : AsyncLocks.St L (Option V)} {l} (h : c'.log = c.log ++ l) :
    decided c c' = l.findSome? linRes := by
  simp [decided, h]

theorem answered_none {c c' : AsyncLocks.St L (Option V)} {p : Nat} (h : c'.seq = c.seq) : answered c c' p = none := by
  simp [answered, h]

theorem answered_some {c c' : AsyncLocks.St L (Option V)} {p : Nat} {l i r} (h : c'.seq p ≠ c.seq p)
    (hl : c'.log = l ++ [.res i r]) : answered c c' p = some r := by
  simp [answered, h, hl]

variable [DecidableEq L] {eqv : Option V → Option V → Bool} {dep : L → L → Prop} {v₀ : L → Option V}

theorem go_read {c c' : AsyncLocks.St L (Option V)} {p : Nat} {i : L} (hpc : c.pc p = .rWait i)
    (h : AsyncLocks.go eqv c p = some c') :
    Eff c c' p .idle ((i, false) :: c.held p) (some .unit) (some .unit) ∧ c'.val = c.val := by
  simp only [AsyncLocks.go, hpc, Option.map_eq_some_iff] at h
  obtain ⟨m, hm, rfl⟩ := h
  obtain ⟨_, _, rfl⟩ := shared_some hm
  refine ⟨⟨by simp [AsyncLocks.St.ret], by simp [AsyncLocks.St.ret, AsyncLocks.St.lin, AsyncLocks.St.keep], ?_, ?_⟩, rfl⟩
  · rw [decided_append (l := [.lin (c.me p) (.read i) .unit, .res (c.me p) .unit])]
    · rfl
    · simp [AsyncLocks.St.ret, AsyncLocks.St.lin, AsyncLocks.St.keep, AsyncLocks.St.me]
  · exact answered_some (by simp [AsyncLocks.St.ret, AsyncLocks.St.lin, AsyncLocks.St.keep]) rfl

theorem go_write {c c' : AsyncLocks.St L (Option V)} {p : Nat} {i : L} (hpc : c.pc p = .wWait i)
    (h : AsyncLocks.go eqv c p = some c') :
    Eff c c' p .idle ((i, true) :: c.held p) (some .unit) (some .unit) ∧ c'.val = c.val := by
  simp only [AsyncLocks.go, hpc, Option.map_eq_some_iff] at h
  obtain ⟨m, hm, rfl⟩ := h
  obtain ⟨_, _, _, rfl⟩ := exclusive_some hm
  refine ⟨⟨by simp [AsyncLocks.St.ret], by simp [AsyncLocks.St.ret, AsyncLocks.St.lin, AsyncLocks.St.keep], ?_, ?_⟩, rfl⟩
  · rw [decided_append (l := [.lin (c.me p) (.write i) .unit, .res (c.me p) .unit])]
    · rfl
    · simp [AsyncLocks.St.ret, AsyncLocks.St.lin, AsyncLocks.St.keep, AsyncLocks.St.me]
  · exact answered_some (by simp [AsyncLocks.St.ret, AsyncLocks.St.lin, AsyncLocks.St.keep]) rfl

theorem go_use {c c' : AsyncLocks.St L (Option V)} {p : Nat} {i : L} (hpc : c.pc p = .use i)
    (h : AsyncLocks.go eqv c p = some c') :
    Eff c c' p (.used (.deref i) (.value (c.val i))) (c.held p) (some (.value (c.val i))) none ∧ c'.val = c.val := by
  simp only [AsyncLocks.go, hpc, Option.some.injEq] at h
  subst h
  refine ⟨⟨by simp [AsyncLocks.St.to], rfl, ?_, answered_none rfl⟩, rfl⟩
  rw [decided_append (l := [.lin (c.me p) (.deref i) (.value (c.val i))]) rfl]; rfl

theorem go_asg {c c' : AsyncLocks.St L (Option V)} {p : Nat} {i : L} {o : Option V} (hpc : c.pc p = .asg i o)
    (h : AsyncLocks.go eqv c p = some c') :
    Eff c c' p (.used (.assign i o) (.value (c.val i))) (c.held p) (some (.value (c.val i))) none ∧
      c'.val = write c.val i o := by
  simp only [AsyncLocks.go, hpc, Option.some.injEq] at h
  subst h
  refine ⟨⟨by simp [AsyncLocks.St.to], rfl, ?_, answered_none rfl⟩, rfl⟩
  rw [decided_append (l := [.lin (c.me p) (.assign i o) (.value (c.val i))]) rfl]; rfl

theorem go_used {c c' : AsyncLocks.St L (Option V)} {p : Nat} {op r} (hpc : c.pc p = .used op r)
    (h : AsyncLocks.go eqv c p = some c') : Eff c c' p .idle (c.held p) none (some r) ∧ c'.val = c.val := by
  simp only [AsyncLocks.go, hpc, Option.some.injEq] at h
  subst h
  refine ⟨⟨by simp [AsyncLocks.St.ret], rfl, ?_, ?_⟩, rfl⟩
  · rw [decided_append (l := [.res (c.me p) r]) rfl]; rfl
  · exact answered_some (by simp [AsyncLocks.St.ret]) rfl

/-- A step of one task leaves the others where they are. -/
theorem step_other {c c' : AsyncLocks.St L (Option V)} {p q : Nat} {a : AsyncLocks.Act L (Option V)}
    (h : AsyncLocks.step eqv c p a = some c') (hq : q ≠ p) : c'.pc q = c.pc q ∧ c'.held q = c.held q := by
  cases a with
  | call op =>
    simp only [AsyncLocks.step, AsyncLocks.invoke] at h
    split at h
    · cases op <;> simp at h
      case deref | assign => obtain ⟨_, rfl⟩ := h; simp [AsyncLocks.St.begin, upd, hq]
      all_goals subst h; simp [AsyncLocks.St.begin, AsyncLocks.St.enter, upd, hq]
    · cases h
  | go => exact (load_step (a := .go) rfl h).2 q hq
  | panic => exact (load_step (a := .panic) rfl h).2 q hq
  | cancel => exact (load_step (a := .cancel) rfl h).2 q hq
  | drop g => exact (load_step (a := .drop g) rfl h).2 q hq

/-- What the step of the locks in another call tells, and does to the memory. -/
theorem go_other {c c' : AsyncLocks.St L (Option V)} {p : Nat} {a : AsyncLocks.Act L (Option V)} (hc : Core c)
    (ha : a = .go ∨ a = .panic) (h : AsyncLocks.step eqv c p a = some c') {op : Op L (Option V)} :
    (phaseAt (c.pc p) = .invoked op → (∀ i, op ≠ .read i ∧ op ≠ .write i) →
      (decided c c' = none ∧ answered c c' p = none ∧ c'.val = c.val ∧ phaseAt (c'.pc p) = .invoked op) ∨
      ∃ r, decided c c' = some r ∧ answered c c' p = none ∧ Step eqv c.val op r c'.val ∧
        phaseAt (c'.pc p) = .linearized op r) ∧
    (∀ r, phaseAt (c.pc p) = .linearized op r → decided c c' = none ∧ c'.val = c.val ∧
      ((answered c c' p = none ∧ phaseAt (c'.pc p) = .linearized op r) ∨
        (answered c c' p = some r ∧ c'.pc p = .idle))) := by
  have tau : ∀ {x : AsyncLocks.Pc L (Option V)}, c'.log = c.log → c'.seq = c.seq → c'.val = c.val → c'.pc p = x →
      phaseAt x = phaseAt (c.pc p) →
      (phaseAt (c.pc p) = .invoked op → (∀ i, op ≠ .read i ∧ op ≠ .write i) →
        (decided c c' = none ∧ answered c c' p = none ∧ c'.val = c.val ∧ phaseAt (c'.pc p) = .invoked op) ∨
        ∃ r, decided c c' = some r ∧ answered c c' p = none ∧ Step eqv c.val op r c'.val ∧
          phaseAt (c'.pc p) = .linearized op r) ∧
      (∀ r, phaseAt (c.pc p) = .linearized op r → decided c c' = none ∧ c'.val = c.val ∧
        ((answered c c' p = none ∧ phaseAt (c'.pc p) = .linearized op r) ∨
          (answered c c' p = some r ∧ c'.pc p = .idle))) := by
    intro x h1 h2 h3 h4 h5
    refine ⟨fun h6 _ => .inl ⟨decided_nil h1, answered_none h2, h3, by rw [h4, h5, h6]⟩, fun r h6 => ?_⟩
    exact ⟨decided_nil h1, h3, .inl ⟨answered_none h2, by rw [h4, h5, h6]⟩⟩
  have lin : ∀ {x : AsyncLocks.Pc L (Option V)} {o r}, c'.log = c.log ++ [.lin (c.me p) o r] → c'.seq = c.seq →
      c'.pc p = x → phaseAt (c.pc p) = .invoked o → phaseAt x = .linearized o r → Step eqv c.val o r c'.val →
      (phaseAt (c.pc p) = .invoked op → (∀ i, op ≠ .read i ∧ op ≠ .write i) →
        (decided c c' = none ∧ answered c c' p = none ∧ c'.val = c.val ∧ phaseAt (c'.pc p) = .invoked op) ∨
        ∃ r, decided c c' = some r ∧ answered c c' p = none ∧ Step eqv c.val op r c'.val ∧
          phaseAt (c'.pc p) = .linearized op r) ∧
      (∀ r, phaseAt (c.pc p) = .linearized op r → decided c c' = none ∧ c'.val = c.val ∧
        ((answered c c' p = none ∧ phaseAt (c'.pc p) = .linearized op r) ∨
          (answered c c' p = some r ∧ c'.pc p = .idle))) := by
    intro x o r h1 h2 h3 h4 h5 h6
    rw [h4]
    refine ⟨fun h7 _ => ?_, fun r h7 => by cases h7⟩
    cases h7
    exact .inr ⟨r, by rw [decided_append h1]; rfl, answered_none h2, h6, by rw [h3, h5]⟩
  have res : ∀ {o r}, c'.log = c.log ++ [.res (c.me p) r] → c'.seq p ≠ c.seq p → c'.val = c.val →
      c'.pc p = .idle → phaseAt (c.pc p) = .linearized o r →
      (phaseAt (c.pc p) = .invoked op → (∀ i, op ≠ .read i ∧ op ≠ .write i) →
        (decided c c' = none ∧ answered c c' p = none ∧ c'.val = c.val ∧ phaseAt (c'.pc p) = .invoked op) ∨
        ∃ r, decided c c' = some r ∧ answered c c' p = none ∧ Step eqv c.val op r c'.val ∧
          phaseAt (c'.pc p) = .linearized op r) ∧
      (∀ r, phaseAt (c.pc p) = .linearized op r → decided c c' = none ∧ c'.val = c.val ∧
        ((answered c c' p = none ∧ phaseAt (c'.pc p) = .linearized op r) ∨
          (answered c c' p = some r ∧ c'.pc p = .idle))) := by
    intro o r h1 h2 h3 h4 h5
    rw [h5]
    refine ⟨fun h7 _ => (by cases h7), fun r' h7 => ?_⟩
    cases h7
    exact ⟨by rw [decided_append h1]; rfl, h3, .inr ⟨answered_some h2 h1, h4⟩⟩
  rcases ha with rfl | rfl
  · simp only [AsyncLocks.step, AsyncLocks.go] at h
    split at h <;> rename_i hpc
    case h_1 => cases h
    case h_2 i | h_8 i j | h_9 i j =>
      simp only [Option.map_eq_some_iff] at h
      obtain ⟨m, hm, rfl⟩ := h
      obtain ⟨_, _, rfl⟩ := shared_some hm
      exact tau rfl rfl rfl (upd_same _ _ _) (by rw [hpc]; rfl)
    case h_5 i v =>
      simp only [Option.map_eq_some_iff] at h
      obtain ⟨m, hm, rfl⟩ := h
      obtain ⟨_, _, _, rfl⟩ := exclusive_some hm
      exact tau rfl rfl rfl (upd_same _ _ _) (by rw [hpc]; rfl)
    case h_14 i =>
      rw [hpc]
      refine ⟨fun h6 h7 => ?_, fun r h6 => by cases h6⟩
      cases h6
      exact absurd rfl (h7 i).1
    case h_15 i =>
      rw [hpc]
      refine ⟨fun h6 h7 => ?_, fun r h6 => by cases h6⟩
      cases h6
      exact absurd rfl (h7 i).2
    case h_3 i =>
      simp at h; subst h
      exact lin rfl rfl (upd_same _ _ _) (by rw [hpc]; rfl) rfl .get
    case h_6 i v =>
      simp at h; subst h
      exact lin rfl rfl (upd_same _ _ _) (by rw [hpc]; rfl) rfl .swap
    case h_11 i j x =>
      simp at h; subst h
      have := hc.mid p i j x hpc
      subst this
      exact lin rfl rfl (upd_same _ _ _) (by rw [hpc]; rfl) rfl .eq
    case h_16 i =>
      simp at h; subst h
      exact lin rfl rfl (upd_same _ _ _) (by rw [hpc]; rfl) rfl .deref
    case h_17 i v =>
      simp at h; subst h
      exact lin rfl rfl (upd_same _ _ _) (by rw [hpc]; rfl) rfl .assign
    case h_10 i j | h_12 i j r =>
      simp at h; subst h
      exact tau rfl rfl rfl (upd_same _ _ _) (by rw [hpc]; rfl)
    case h_4 i r | h_7 i v r | h_13 i j r | h_18 o r =>
      simp at h; subst h
      exact res rfl (by simp [AsyncLocks.St.ret, AsyncLocks.St.setLock]) rfl (upd_same _ _ _) (by rw [hpc]; rfl)
  · simp only [AsyncLocks.step, AsyncLocks.panics] at h
    split at h <;> rename_i hpc
    case h_5 => cases h
    all_goals
      simp at h; subst h
      exact lin rfl rfl (upd_same _ _ _) (by rw [hpc]; rfl) rfl (.panicked trivial)

/-- Running another call does not change the guards. -/
theorem go_other_held {c c' : AsyncLocks.St L (Option V)} {p : Nat} {a : AsyncLocks.Act L (Option V)}
    (ha : a = .go ∨ a = .panic) (h : AsyncLocks.step eqv c p a = some c')
    (hn : ∀ i, phaseAt (c.pc p) ≠ .invoked (.read i) ∧ phaseAt (c.pc p) ≠ .invoked (.write i)) :
    c'.held p = c.held p := by
  rcases ha with rfl | rfl
  · simp only [AsyncLocks.step, AsyncLocks.go] at h
    split at h <;> rename_i hpc
    case h_1 => cases h
    case h_14 i => exact absurd (by rw [hpc]; rfl) (hn i).1
    case h_15 i => exact absurd (by rw [hpc]; rfl) (hn i).2
    case h_2 | h_8 | h_9 =>
      simp only [Option.map_eq_some_iff] at h
      obtain ⟨m, hm, rfl⟩ := h
      obtain ⟨_, _, rfl⟩ := shared_some hm
      rfl
    case h_5 =>
      simp only [Option.map_eq_some_iff] at h
      obtain ⟨m, hm, rfl⟩ := h
      obtain ⟨_, _, _, rfl⟩ := exclusive_some hm
      rfl
    all_goals
      simp at h; subst h; rfl
  · simp only [AsyncLocks.step, AsyncLocks.panics] at h
    split at h <;> simp at h <;> subst h <;> rfl

/-! ### Where a task is -/

/-- Where a task is in its call, where in the locks, and the guards it has. -/
inductive Loc (dep : L → L → Prop) : Pc L V → AsyncLocks.Pc L (Option V) → List (L × Bool) → Prop where
  | idle {h} : Loc dep .idle .idle h
  | start {f ex rest} : f.guard = none → f.dec = none → (∀ g ∈ f.base, dep g.1 f.field) →
      Plan f.field f.arg f.kind ex rest .guard →
      Loc dep (.run f (lockOp ex :: .await :: rest) .self) .idle f.base
  | ready {f ex rest} : f.guard = none → f.dec = none → (∀ g ∈ f.base, dep g.1 f.field) →
      Plan f.field f.arg f.kind ex rest .guard → Loc dep (.run f (.await :: rest) (.fut ex)) .idle f.base
  | acq {f ex rest x} : f.guard = none → f.dec = none →
      Plan f.field f.arg f.kind ex rest .guard →
      x = (if ex then .wWait f.field else .rWait f.field) →
      Loc dep (.wait f (lockOp ex) rest) x f.base
  | mid {f ex todo a} : f.guard = some ex → f.dec = none → todo ≠ [] →
      Plan f.field f.arg f.kind ex todo a →
      Loc dep (.run f todo a) .idle ((f.field, ex) :: f.base)
  | call {f ex m op x} : f.guard = some ex → Job f.field f.arg f.kind ex m op →
      (f.kind = .setter → f.boom = false) →
      ((x = begun op ∧ f.dec = none) ∨ ∃ o, x = .used op (.value o) ∧ f.dec = some (outcome (got m (.value o)))) →
      Loc dep (.wait f m []) x ((f.field, ex) :: f.base)
  | have {f ex a} : f.guard = some ex → f.dec = some a.seen →
      gives false f.kind = (if a.keeps then some ex else none) →
      Loc dep (.run f [] a) .idle ((f.field, ex) :: f.base)
  | fin {f a} : f.guard = none → f.dec = some a.seen → a.keeps = false → gives false f.kind = none →
      Loc dep (.run f [] a) .idle f.base
  | stop {f ex} : f.guard = some ex → f.dec = some .panicked → gives false f.kind = none →
      Loc dep (.stop f) .idle ((f.field, ex) :: f.base)
  | stopped {f} : f.guard = none → f.dec = some .panicked → gives false f.kind = none →
      Loc dep (.stop f) .idle f.base
  | other {u op dec x h} : Means u op → (∀ i, op ≠ .read i ∧ op ≠ .write i) →
      ((phaseAt x = .invoked op ∧ dec = none) ∨ ∃ r, phaseAt x = .linearized op r ∧ dec = some r) →
      Loc dep (.other u dec) x h

/-! ### The log -/

omit [DecidableEq L] in
/-- Progress of the call a task is in. -/
def hphase : Pc L V → Phase (Call L V) (Ret (Option V))
  | .idle => .fresh
  | .run f _ _ | .wait f _ _ | .stop f =>
    match f.dec with
    | none => .invoked f.call
    | some r => .linearized f.call r
  | .other u dec =>
    match dec with
    | none => .invoked u
    | some r => .linearized u r

/-- Progress of every call. -/
def htbl (s : St L V) : CallId → Phase (Call L V) (Ret (Option V)) := fun i =>
  if i.seq < s.seq i.proc then .done
  else if i.seq = s.seq i.proc then hphase (s.pc i.proc)
  else .fresh

omit [DecidableEq L] in
@[simp] theorem htbl_me (s : St L V) (p : Nat) : htbl s (s.me p) = hphase (s.pc p) := by
  simp [htbl, St.me]

omit [DecidableEq L] in
theorem htbl_within {s s' : St L V} {p : Nat} {c : Pc L V} (hseq : s'.seq = s.seq) (hpc : s'.pc = upd s.pc p c) :
    htbl s' = upd (htbl s) (s.me p) (hphase c) := by
  funext ⟨q, n⟩
  by_cases hq : q = p
  · subst hq
    by_cases hn : n = s.seq q
    · subst hn; simp [htbl, upd, St.me, hseq, hpc]
    · simp [htbl, upd, St.me, hseq, hn]
  · simp [htbl, upd, St.me, hseq, hpc, hq]

omit [DecidableEq L] in
theorem htbl_same {s s' : St L V} {p : Nat} {c : Pc L V} (hseq : s'.seq = s.seq) (hpc : s'.pc = upd s.pc p c)
    (hp : hphase c = hphase (s.pc p)) : htbl s' = htbl s := by
  rw [htbl_within hseq hpc, hp]
  funext i
  by_cases hi : i = s.me p
  · subst hi; simp
  · rw [upd_other _ _ hi]

omit [DecidableEq L] in
theorem htbl_end {s s' : St L V} {p : Nat} {c : Pc L V} (hseq : s'.seq = upd s.seq p (s.seq p + 1))
    (hpc : s'.pc = upd s.pc p c) (hc : hphase c = .fresh) : htbl s' = upd (htbl s) (s.me p) .done := by
  funext ⟨q, n⟩
  by_cases hq : q = p
  · subst hq
    simp only [htbl, upd, St.me, hseq, hpc, if_true, hc, CallId.mk.injEq, true_and]
    grind
  · simp [htbl, upd, St.me, hseq, hpc, hq]

/-- The invariant. -/
structure Inv (eqv : Option V → Option V → Bool) (dep : L → L → Prop) (v₀ : L → Option V)
    (s : St L V) : Prop where
  reach : AsyncLocks.Reach eqv dep v₀ s.c
  loc : ∀ p, Loc dep (s.pc p) (s.c.pc p) (s.c.held p)
  disc : Disc s.log (htbl s)
  legal : Legal (CallStep (fun _ => false) (fun _ => false) eqv) v₀ (lins s.log) s.c.val

theorem inv_init (v₀ : L → Option V) : Inv eqv dep v₀ (init v₀ : St L V) where
  reach := .init
  loc := fun _ => .idle
  disc := by
    have : htbl (init v₀ : St L V) = fun _ => .fresh := by
      funext i; simp only [htbl, init, hphase]; grind
    rw [this]; exact .nil
  legal := .nil

/-- The tasks after a step of the locks. -/
theorem loc_others {s : St L V} (h : Inv eqv dep v₀ s) {p : Nat} {a : AsyncLocks.Act L (Option V)}
    {c' : AsyncLocks.St L (Option V)} (hs : AsyncLocks.step eqv s.c p a = some c') {pc' : Pc L V}
    (hp : Loc dep pc' (c'.pc p) (c'.held p)) :
    ∀ q, Loc dep (upd s.pc p pc' q) (c'.pc q) (c'.held q) := by
  intro q
  by_cases hq : q = p
  · subst hq; rw [upd_same]; exact hp
  · rw [upd_other _ _ hq, (step_other hs hq).1, (step_other hs hq).2]; exact h.loc q

/-- The locks are not touched. -/
theorem loc_same {s : St L V} (h : Inv eqv dep v₀ s) {p : Nat} {pc' : Pc L V}
    (hp : Loc dep pc' (s.c.pc p) (s.c.held p)) :
    ∀ q, Loc dep (upd s.pc p pc' q) (s.c.pc q) (s.c.held q) := by
  intro q
  by_cases hq : q = p
  · subst hq; rw [upd_same]; exact hp
  · rw [upd_other _ _ hq]; exact h.loc q

/-- A step inside a call which does not touch the locks and decides nothing. -/
theorem inv_local {s : St L V} (h : Inv eqv dep v₀ s) {p : Nat} {pc' : Pc L V}
    (hl : Loc dep pc' (s.c.pc p) (s.c.held p)) (hp : hphase pc' = hphase (s.pc p)) :
    Inv eqv dep v₀ (s.to p pc') where
  reach := h.reach
  loc := loc_same h hl
  disc := by
    have := htbl_same (p := p) (s := s) (s' := s.to p pc') rfl rfl hp
    rw [this]; exact h.disc
  legal := h.legal

/-- A step of the locks which decides nothing. -/
theorem inv_quiet {s : St L V} (h : Inv eqv dep v₀ s) {p : Nat} {pc' : Pc L V} {a : AsyncLocks.Act L (Option V)}
    {c' : AsyncLocks.St L (Option V)} (ha : AsyncLocks.Allowed dep s.c p a) (hs : AsyncLocks.step eqv s.c p a = some c')
    (hv : c'.val = s.c.val) (hl : Loc dep pc' (c'.pc p) (c'.held p)) (hp : hphase pc' = hphase (s.pc p)) :
    Inv eqv dep v₀ ({ s with c := c' }.to p pc') where
  reach := .step h.reach ha hs
  loc := loc_others h hs hl
  disc := by
    have := htbl_same (p := p) (s := s) (s' := { s with c := c' }.to p pc') rfl rfl hp
    rw [this]; exact h.disc
  legal := by show Legal _ _ _ c'.val; rw [hv]; exact h.legal

/-- A step of the locks which decides the call. -/
theorem inv_lin {s : St L V} (h : Inv eqv dep v₀ s) {p : Nat} {pc' : Pc L V} {a : AsyncLocks.Act L (Option V)}
    {c' : AsyncLocks.St L (Option V)} {call r} (ha : AsyncLocks.Allowed dep s.c p a) (hs : AsyncLocks.step eqv s.c p a = some c')
    (hst : CallStep (fun _ => false) (fun _ => false) eqv s.c.val call r c'.val) (hl : Loc dep pc' (c'.pc p) (c'.held p))
    (h0 : hphase (s.pc p) = .invoked call) (hp : hphase pc' = .linearized call r) :
    Inv eqv dep v₀ ({ s.lin p call r with c := c' }.to p pc') where
  reach := .step h.reach ha hs
  loc := loc_others h hs hl
  disc := by
    have := @Disc.lin _ _ _ _ _ (s.me p) call r h.disc (by rw [htbl_me, h0])
    rw [← hp, ← htbl_within (s := s) (s' := { s.lin p call r with c := c' }.to p pc') rfl rfl] at this
    exact this
  legal := by
    show Legal _ _ (lins (s.log ++ [.lin (s.me p) call r])) c'.val
    rw [lins_snoc_lin]; exact Legal.snoc h.legal hst

/-- The call is decided without a step of the locks. -/
theorem inv_lin_local {s : St L V} (h : Inv eqv dep v₀ s) {p : Nat} {pc' : Pc L V} {call r}
    (hst : CallStep (fun _ => false) (fun _ => false) eqv s.c.val call r s.c.val) (hl : Loc dep pc' (s.c.pc p) (s.c.held p))
    (h0 : hphase (s.pc p) = .invoked call) (hp : hphase pc' = .linearized call r) :
    Inv eqv dep v₀ ((s.lin p call r).to p pc') where
  reach := h.reach
  loc := loc_same h hl
  disc := by
    have := @Disc.lin _ _ _ _ _ (s.me p) call r h.disc (by rw [htbl_me, h0])
    rw [← hp, ← htbl_within (s := s) (s' := (s.lin p call r).to p pc') rfl rfl] at this
    exact this
  legal := by
    show Legal _ _ (lins (s.log ++ [.lin (s.me p) call r])) s.c.val
    rw [lins_snoc_lin]; exact Legal.snoc h.legal hst

/-- The call returns. -/
theorem inv_ret {s : St L V} (h : Inv eqv dep v₀ s) {p : Nat} {call r} (h1 : s.c.pc p = .idle)
    (h0 : hphase (s.pc p) = .linearized call r) : Inv eqv dep v₀ (s.ret p r) where
  reach := h.reach
  loc := loc_same h (by rw [h1]; exact .idle)
  disc := by
    have := @Disc.res _ _ _ _ _ (s.me p) call r h.disc (by rw [htbl_me, h0])
    rw [← htbl_end (s := s) (s' := s.ret p r) rfl rfl rfl] at this
    exact this
  legal := by
    show Legal _ _ (lins (s.log ++ [.res (s.me p) r])) s.c.val
    rw [lins_snoc_res]; exact h.legal

/-- The call returns with a step of the locks. -/
theorem inv_ret_step {s : St L V} (h : Inv eqv dep v₀ s) {p : Nat} {a : AsyncLocks.Act L (Option V)}
    {c' : AsyncLocks.St L (Option V)} {call r} (ha : AsyncLocks.Allowed dep s.c p a) (hs : AsyncLocks.step eqv s.c p a = some c')
    (hv : c'.val = s.c.val) (h1 : c'.pc p = .idle) (h0 : hphase (s.pc p) = .linearized call r) :
    Inv eqv dep v₀ ({ s with c := c' }.ret p r) where
  reach := .step h.reach ha hs
  loc := loc_others h hs (by rw [h1]; exact .idle)
  disc := by
    have := @Disc.res _ _ _ _ _ (s.me p) call r h.disc (by rw [htbl_me, h0])
    rw [← htbl_end (s := s) (s' := { s with c := c' }.ret p r) rfl rfl rfl] at this
    exact this
  legal := by
    show Legal _ _ (lins (s.log ++ [.res (s.me p) r])) c'.val
    rw [lins_snoc_res, hv]; exact h.legal

/-- A call begins. -/
theorem inv_begin {s : St L V} (h : Inv eqv dep v₀ s) {p : Nat} {pc' : Pc L V} {call}
    (hl : Loc dep pc' (s.c.pc p) (s.c.held p)) (h0 : hphase (s.pc p) = .fresh)
    (hp : hphase pc' = .invoked call) : Inv eqv dep v₀ (s.begin p call pc') where
  reach := h.reach
  loc := loc_same h hl
  disc := by
    have := @Disc.inv _ _ _ _ _ (s.me p) call h.disc (by rw [htbl_me, h0])
    rw [← hp, ← htbl_within (s := s) (s' := s.begin p call pc') rfl rfl] at this
    exact this
  legal := by
    show Legal _ _ (lins (s.log ++ [.inv (s.me p) call])) s.c.val
    rw [lins_snoc_inv]; exact h.legal

/-- A call begins with a step of the locks. -/
theorem inv_begin_step {s : St L V} (h : Inv eqv dep v₀ s) {p : Nat} {pc' : Pc L V}
    {a : AsyncLocks.Act L (Option V)} {c' : AsyncLocks.St L (Option V)} {call} (ha : AsyncLocks.Allowed dep s.c p a)
    (hs : AsyncLocks.step eqv s.c p a = some c') (hv : c'.val = s.c.val) (hl : Loc dep pc' (c'.pc p) (c'.held p))
    (h0 : hphase (s.pc p) = .fresh) (hp : hphase pc' = .invoked call) :
    Inv eqv dep v₀ ({ s with c := c' }.begin p call pc') where
  reach := .step h.reach ha hs
  loc := loc_others h hs hl
  disc := by
    have := @Disc.inv _ _ _ _ _ (s.me p) call h.disc (by rw [htbl_me, h0])
    rw [← hp, ← htbl_within (s := s) (s' := { s with c := c' }.begin p call pc') rfl rfl] at this
    exact this
  legal := by
    show Legal _ _ (lins (s.log ++ [.inv (s.me p) call])) c'.val
    rw [lins_snoc_inv, hv]; exact h.legal

/-- A future is dropped. -/
theorem inv_quit {s : St L V} (h : Inv eqv dep v₀ s) {p : Nat} {c' : AsyncLocks.St L (Option V)} {call}
    (hs : AsyncLocks.step eqv s.c p .cancel = some c') (hv : c'.val = s.c.val) (h1 : c'.pc p = .idle)
    (h0 : hphase (s.pc p) = .invoked call) : Inv eqv dep v₀ ({ s with c := c' }.quit p) where
  reach := .step (a := .cancel) h.reach trivial hs
  loc := loc_others h hs (by rw [h1]; exact .idle)
  disc := by
    have := @Disc.cancel _ _ _ _ _ (s.me p) call h.disc (by rw [htbl_me, h0])
    rw [← htbl_end (s := s) (s' := { s with c := c' }.quit p) rfl rfl rfl] at this
    exact this
  legal := by
    show Legal _ _ (lins (s.log ++ [.cancel (s.me p)])) c'.val
    rw [lins_snoc_cancel, hv]; exact h.legal

/-! ### Steps -/

/-- The deciding operation does what the helper promises. -/
theorem job_step {k : Kind} {ex : Bool} {i : L} {v : V} {m : MOp} {op : Op L (Option V)} (h : Job i v k ex m op)
    {b : Bool} (hb : k = .setter → b = false) {σ σ' : L → Option V} {r : Ret (Option V)}
    (hs : (∃ j, op = .deref j ∧ r = .value (σ j) ∧ σ' = σ) ∨ ∃ j o, op = .assign j o ∧ r = .value (σ j) ∧ σ' = write σ j o) :
    CallStep (fun _ => false) (fun _ => false) eqv σ (.helper i k v b) (outcome (got m r)) σ' := by
  cases h with
  | ask =>
    obtain ⟨j, h4, rfl, rfl⟩ | ⟨j, o, h4, _⟩ := hs
    · cases h4
      have := CallStep.helper (eqv := eqv) (own := fun _ => false) (clones := fun _ => false) (σ := σ') (i := i) (b := b)
        (by rintro ⟨_, ⟨h4, _⟩ | h4⟩ <;> cases h4) (.ask (own := false) (v := v) (c := σ' i))
      rwa [write_self] at this
    · cases h4
  | set h3 =>
    obtain ⟨j, h4, _⟩ | ⟨j, o, h4, rfl, rfl⟩ := hs
    · cases h4
    · cases h4
      have : outcome (got m (.value (σ i))) = .value (σ i) := by
        rcases h3 with rfl | rfl <;> simp [got, outcome, Cur.seen]
      rw [this]
      exact .helper (by rintro ⟨h5, _⟩; rw [hb rfl] at h5; cases h5) .set
  | clear =>
    obtain ⟨j, h4, _⟩ | ⟨j, o, h4, rfl, rfl⟩ := hs
    · cases h4
    · cases h4
      have : outcome (got .take (.value (σ i))) = .value (σ i) := by
        simp [got, outcome, Cur.seen]
      rw [this]
      exact .helper (by rintro ⟨_, ⟨h4, _⟩ | h4⟩ <;> cases h4) .clear

omit [DecidableEq L] in
theorem job_decisive {k : Kind} {ex : Bool} {i : L} {v : V} {m : MOp} {op : Op L (Option V)}
    (h : Job i v k ex m op) (todo : List MOp) (g : Option Bool) :
    decisive m todo = true ∧ guardOf m g = g := by
  cases h with
  | ask => simp [decisive, guardOf]
  | set h => rcases h with rfl | rfl <;> simp [decisive, guardOf]
  | clear => simp [decisive, guardOf]

omit [DecidableEq L] in
theorem job_op {k : Kind} {ex : Bool} {i : L} {v : V} {m : MOp} {op : Op L (Option V)}
    (h : Job i v k ex m op) : op = .deref i ∨ (ex = true ∧ ∃ w, op = .assign i w) := by
  cases h <;> simp

omit [DecidableEq L] in
theorem job_converts {k : Kind} {ex : Bool} {i : L} {v : V} {m : MOp} {op : Op L (Option V)}
    (h : Job i v k ex m op) : converts m = true ↔ k = .setter := by
  cases h with
  | ask => simp [converts]
  | set h => rcases h with rfl | rfl <;> simp [converts]
  | clear => simp [converts]

omit [DecidableEq L] in
theorem got_value (m : MOp) (o : Option V) :
    ∃ a, got m (.value o) = some a ∧ a.keeps = false := by
  cases m <;> exact ⟨_, rfl, rfl⟩

/-- The step of the locks inside an operation of a body. -/
theorem inv_wait {s s' : St L V} (h : Inv eqv dep v₀ s) {p : Nat}
    {f : Frame L V} {m : MOp} {todo : List MOp} (hpc : s.pc p = .wait f m todo) {c' : AsyncLocks.St L (Option V)}
    (hs : AsyncLocks.go eqv s.c p = some c') (he : s' = settle s p f m todo c') : Inv eqv dep v₀ s' := by
  have hl := h.loc p
  rw [hpc] at hl
  have hph : hphase (s.pc p) = hphase (.wait f m todo) := by rw [hpc]
  have hst : AsyncLocks.step eqv s.c p .go = some c' := hs
  generalize hx : s.c.pc p = x at hl
  generalize hh : s.c.held p = hd at hl
  subst he
  cases hl with
  | @acq _ ex _ _ h1 h2 h3 h4 =>
    cases ex with
    | true =>
      simp only [if_true] at h4
      subst h4
      obtain ⟨e, hv⟩ := go_write hx hs
      have hfin : ∀ {g : Frame L V}, g.field = f.field → g.base = f.base → c'.held p = ((g.field, true) :: g.base) := by
        intro g hg hb; rw [e.held, hh, hg, hb]
      cases h3 with
      | keep hk =>
        have : settle s p f (lockOp true) [] c' = { s.lin p f.call .unit with c := c' }.to p
            (.run { f with dec := some .unit, guard := some true } [] .guard) := by
          simp [settle, note, e.dec, e.ans, lockOp, decisive, got, outcome, Cur.seen, guardOf]
        rw [this]
        refine inv_lin h (a := .go) trivial hst ?_ ?_ (by rw [hph]; simp [hphase, h2]) rfl
        · rw [hv]; exact keep_step (own := fun _ => false) (cl := fun _ => false) (i := f.field) hk _ _ _ (fun _ => rfl)
        · rw [e.pc, hfin rfl rfl]
          exact .have rfl rfl hk.gives
      | @now m' todo' _ b hn hc hlen hp =>
        have : settle s p f (lockOp true) (m' :: todo') c' = { s with c := c' }.to p
            (.run { f with guard := some true } (m' :: todo') .guard) := by
          simp [settle, note, e.dec, e.ans, lockOp, decisive, got, guardOf]
        rw [this]
        refine inv_quiet h (a := .go) trivial hst hv ?_ (by rw [hph]; rfl)
        rw [e.pc, hfin rfl rfl]
        exact .mid rfl h2 (by simp) (.now hn hc hlen hp)
      | @call m' _ op hn hj =>
        have : settle s p f (lockOp true) [m'] c' = { s with c := c' }.to p
            (.run { f with guard := some true } [m'] .guard) := by
          simp [settle, note, e.dec, e.ans, lockOp, decisive, got, guardOf]
        rw [this]
        refine inv_quiet h (a := .go) trivial hst hv ?_ (by rw [hph]; rfl)
        rw [e.pc, hfin rfl rfl]
        exact .mid rfl h2 (by simp) (.call hn hj)
    | false =>
      simp only [Bool.false_eq_true, if_false] at h4
      subst h4
      obtain ⟨e, hv⟩ := go_read hx hs
      have hfin : ∀ {g : Frame L V}, g.field = f.field → g.base = f.base → c'.held p = ((g.field, false) :: g.base) := by
        intro g hg hb; rw [e.held, hh, hg, hb]
      cases h3 with
      | keep hk =>
        have : settle s p f (lockOp false) [] c' = { s.lin p f.call .unit with c := c' }.to p
            (.run { f with dec := some .unit, guard := some false } [] .guard) := by
          simp [settle, note, e.dec, e.ans, lockOp, decisive, got, outcome, Cur.seen, guardOf]
        rw [this]
        refine inv_lin h (a := .go) trivial hst ?_ ?_ (by rw [hph]; simp [hphase, h2]) rfl
        · rw [hv]; exact keep_step (own := fun _ => false) (cl := fun _ => false) (i := f.field) hk _ _ _ (fun _ => rfl)
        · rw [e.pc, hfin rfl rfl]
          exact .have rfl rfl hk.gives
      | @now m' todo' _ b hn hc hlen hp =>
        have : settle s p f (lockOp false) (m' :: todo') c' = { s with c := c' }.to p
            (.run { f with guard := some false } (m' :: todo') .guard) := by
          simp [settle, note, e.dec, e.ans, lockOp, decisive, got, guardOf]
        rw [this]
        refine inv_quiet h (a := .go) trivial hst hv ?_ (by rw [hph]; rfl)
        rw [e.pc, hfin rfl rfl]
        exact .mid rfl h2 (by simp) (.now hn hc hlen hp)
      | @call m' _ op hn hj =>
        have : settle s p f (lockOp false) [m'] c' = { s with c := c' }.to p
            (.run { f with guard := some false } [m'] .guard) := by
          simp [settle, note, e.dec, e.ans, lockOp, decisive, got, guardOf]
        rw [this]
        refine inv_quiet h (a := .go) trivial hst hv ?_ (by rw [hph]; rfl)
        rw [e.pc, hfin rfl rfl]
        exact .mid rfl h2 (by simp) (.call hn hj)
  | @call _ ex _ op _ h1 hj hb h4 =>
    obtain ⟨hd1, hg1⟩ := job_decisive hj [] f.guard
    have begin' : ∀ {r : Ret (Option V)} {o : Option V}, r = .value o →
        Eff s.c c' p (.used op r) (s.c.held p) (some r) none → f.dec = none →
        ((∃ j, op = .deref j ∧ r = .value (s.c.val j) ∧ c'.val = s.c.val) ∨
          ∃ j o, op = .assign j o ∧ r = .value (s.c.val j) ∧ c'.val = write s.c.val j o) →
        Inv eqv dep v₀ (settle s p f m [] c') := by
      intro r o hr e hdn hst'
      subst hr
      have : settle s p f m [] c' = { s.lin p f.call (outcome (got m (.value o))) with c := c' }.to p
          (.wait { f with dec := some (outcome (got m (.value o))) } m []) := by
        simp [settle, note, e.dec, e.ans, hd1]
      rw [this]
      refine inv_lin h (a := .go) trivial hst (job_step hj hb hst') ?_ (by rw [hph]; simp [hphase, hdn]) rfl
      rw [e.pc, e.held, hh]
      exact .call (f := { f with dec := some (outcome (got m (.value o))) }) h1 hj hb (.inr ⟨o, rfl, rfl⟩)
    rcases h4 with ⟨rfl, hdn⟩ | ⟨o, rfl, hdn⟩
    · rcases job_op hj with rfl | ⟨_, w, rfl⟩
      · obtain ⟨e, hv⟩ := go_use hx hs
        exact begin' rfl e hdn (.inl ⟨_, rfl, rfl, hv⟩)
      · obtain ⟨e, hv⟩ := go_asg hx hs
        exact begin' rfl e hdn (.inr ⟨_, _, rfl, rfl, hv⟩)
    · obtain ⟨e, hv⟩ := go_used hx hs
      obtain ⟨a, hgot, hk⟩ := got_value m o
      have : settle s p f m [] c' = { s with c := c' }.to p (.run f [] a) := by
        simp [settle, note, e.dec, e.ans, hgot, hg1]
      rw [this]
      refine inv_quiet h (a := .go) trivial hst hv ?_ (by rw [hph]; rfl)
      rw [e.pc, e.held, hh]
      exact .have h1 (by rw [hdn, hgot]; rfl) (by rw [hk]; exact hj.gives)

/-- Dropping the guard taken last. -/
theorem drop_head {c c' : AsyncLocks.St L (Option V)} {p : Nat} {g : L × Bool} {h : List (L × Bool)} (hh : c.held p = g :: h)
    (hs : AsyncLocks.dropGuard c p g = some c') : c'.pc p = c.pc p ∧ c'.held p = h ∧ c'.val = c.val := by
  unfold AsyncLocks.dropGuard at hs
  split at hs
  · split at hs
    · cases hs
      refine ⟨rfl, ?_, rfl⟩
      simp [hh]
    · cases hs
  · cases hs

/-- The begin of an operation on the content. -/
theorem invoke_job {k : Kind} {ex : Bool} {i : L} {v : V} {m : MOp} {op : Op L (Option V)}
    (h : Job i v k ex m op) {c c' : AsyncLocks.St L (Option V)} {p : Nat} (hs : AsyncLocks.invoke c p op = some c') :
    c'.pc p = begun op ∧ c'.held p = c.held p ∧ c'.val = c.val := by
  unfold AsyncLocks.invoke at hs
  split at hs
  · rcases job_op h with rfl | ⟨_, w, rfl⟩
    · simp only at hs
      split at hs
      · cases hs; exact ⟨upd_same _ _ _, rfl, rfl⟩
      · cases hs
    · simp only at hs
      split at hs
      · cases hs; exact ⟨upd_same _ _ _, rfl, rfl⟩
      · cases hs
  · cases hs

theorem inv_run {s s' : St L V} (h : Inv eqv dep v₀ s) {p : Nat} {f : Frame L V} {todo : List MOp} {a : Cur V}
    (hpc : s.pc p = .run f todo a) (hs : goRun s p f todo a = some s') : Inv eqv dep v₀ s' := by
  have hl := h.loc p
  rw [hpc] at hl
  have hph : hphase (s.pc p) = hphase (.run f todo a) := by rw [hpc]
  generalize hx : s.c.pc p = x at hl
  generalize hh : s.c.held p = hd at hl
  cases hl with
  | @start _ ex rest h1 h2 h3 h4 =>
    have : goRun s p f (lockOp ex :: .await :: rest) .self = some (s.to p (.run f (.await :: rest) (.fut ex))) := by
      cases ex <;> simp [goRun, lockOp, converts, next]
    rw [this] at hs
    cases hs
    refine inv_local h ?_ (by rw [hph]; rfl)
    rw [hx, hh]
    exact .ready h1 h2 h3 h4
  | @ready _ ex rest h1 h2 h3 h4 =>
    cases ex with
    | true =>
      simp only [goRun, converts, Bool.and_false, Bool.false_eq_true, if_false, next, Option.map_eq_some_iff] at hs
      obtain ⟨c', hi, rfl⟩ := hs
      have hst : AsyncLocks.step eqv s.c p (.call (.write f.field)) = some c' := hi
      simp only [AsyncLocks.invoke, hx, Option.some.injEq] at hi
      subst hi
      refine inv_quiet h (a := .call (.write f.field)) (by show ∀ g ∈ s.c.held p, _; rw [hh]; exact h3) hst rfl ?_
        (by rw [hph]; rfl)
      show Loc _ _ _ (s.c.held p)
      rw [show (((s.c.enter f.field p).begin p (.write f.field) (.wWait f.field)).pc p) = .wWait f.field from upd_same _ _ _, hh]
      exact .acq (ex := true) h1 h2 h4 rfl
    | false =>
      simp only [goRun, converts, Bool.and_false, Bool.false_eq_true, if_false, next, Option.map_eq_some_iff] at hs
      obtain ⟨c', hi, rfl⟩ := hs
      have hst : AsyncLocks.step eqv s.c p (.call (.read f.field)) = some c' := hi
      simp only [AsyncLocks.invoke, hx, Option.some.injEq] at hi
      subst hi
      refine inv_quiet h (a := .call (.read f.field)) (by show ∀ g ∈ s.c.held p, _; rw [hh]; exact h3) hst rfl ?_
        (by rw [hph]; rfl)
      show Loc _ _ _ (s.c.held p)
      rw [show (((s.c.enter f.field p).begin p (.read f.field) (.rWait f.field)).pc p) = .rWait f.field from upd_same _ _ _, hh]
      exact .acq (ex := false) h1 h2 h4 rfl
  | @mid _ ex _ _ h1 h2 h3 h4 =>
    cases h4 with
    | @now m todo' _ b hn hc _ hp =>
      simp only [goRun, hc, Bool.and_false, Bool.false_eq_true, if_false, hn, Option.some.injEq] at hs
      subst hs
      refine inv_local h ?_ (by rw [hph]; rfl)
      rw [hx, hh]
      by_cases ht : todo' = []
      · subst ht
        -- only the guard itself ends a body here, and it is there from the start
        cases hp
        cases m <;> cases a <;> first | (cases hn; done) | (rename_i b; cases b <;> cases hn)
      · exact .mid h1 h2 ht hp
    | @call m _ op hn hj =>
      by_cases hb : f.boom = true ∧ converts m = true
      · simp only [goRun, hb.1, hb.2, Bool.and_self, if_true, Option.some.injEq] at hs
        subst hs
        have hk := (job_converts hj).1 hb.2
        refine inv_lin_local h ?_ ?_ (by rw [hph]; simp [hphase, h2]) (by simp [hphase, Frame.call, hb.1])
        · exact .panics ⟨hb.1, .inr hk⟩
        · rw [hx, hh]; exact .stop h1 rfl hj.gives
      · have hb' : (f.boom && converts m) = false := by simpa using hb
        simp only [goRun, hb', Bool.false_eq_true, if_false, hn, Option.map_eq_some_iff] at hs
        obtain ⟨c', hi, rfl⟩ := hs
        have hst : AsyncLocks.step eqv s.c p (.call op) = some c' := hi
        obtain ⟨e1, e2, e3⟩ := invoke_job hj hi
        refine inv_quiet h (a := .call op) ?_ hst e3 ?_ (by rw [hph]; rfl)
        · rcases job_op hj with rfl | ⟨_, w, rfl⟩ <;> trivial
        · rw [e1, e2, hh]
          refine .call h1 hj ?_ (.inl ⟨rfl, h2⟩)
          intro hk
          rw [(job_converts hj).2 hk] at hb'
          simpa using hb'
    | keep => exact absurd rfl h3
  | @«have» _ ex _ h1 h2 h3 =>
    by_cases hk : a.keeps = true
    · simp only [goRun, hk, if_true, Option.some.injEq] at hs
      subst hs
      exact inv_ret (call := f.call) h hx (by rw [hph]; simp [hphase, h2])
    · simp only [goRun, hk, Bool.false_eq_true, if_false, h1, Option.map_eq_some_iff] at hs
      obtain ⟨c', hi, rfl⟩ := hs
      obtain ⟨e1, e2, e3⟩ := drop_head hh hi
      refine inv_quiet h (a := .drop (f.field, ex)) trivial hi e3 ?_ (by rw [hph]; rfl)
      rw [e1, e2, hx]
      exact .fin (f := { f with guard := none }) rfl h2 (by simpa using hk) (by simpa [hk] using h3)
  | fin h1 h2 h3 =>
    simp only [goRun, h3, Bool.false_eq_true, if_false, h1, Option.some.injEq] at hs
    subst hs
    exact inv_ret (call := f.call) h hx (by rw [hph]; simp [hphase, h2])

theorem inv_stop {s s' : St L V} (h : Inv eqv dep v₀ s) {p : Nat} {f : Frame L V} (hpc : s.pc p = .stop f)
    (hs : go eqv s p = some s') : Inv eqv dep v₀ s' := by
  have hl := h.loc p
  rw [hpc] at hl
  have hph : hphase (s.pc p) = hphase (.stop f) := by rw [hpc]
  simp only [go, hpc] at hs
  generalize hx : s.c.pc p = x at hl
  generalize hh : s.c.held p = hd at hl
  cases hl with
  | @stop _ ex h1 h2 h3 =>
    simp only [h1, Option.map_eq_some_iff] at hs
    obtain ⟨c', hi, rfl⟩ := hs
    obtain ⟨e1, e2, e3⟩ := drop_head hh hi
    refine inv_quiet h (a := .drop (f.field, ex)) trivial hi e3 ?_ (by rw [hph]; rfl)
    rw [e1, e2, hx]
    exact .stopped (f := { f with guard := none }) rfl h2 h3
  | stopped h1 h2 =>
    simp only [h1, Option.some.injEq] at hs
    subst hs
    exact inv_ret (call := f.call) h hx (by rw [hph]; simp [hphase, h2])

theorem inv_other {s s' : St L V} (h : Inv eqv dep v₀ s) {p : Nat} {u : Call L V} {dec}
    (hpc : s.pc p = .other u dec) {a : AsyncLocks.Act L (Option V)} (ha : a = .go ∨ a = .panic) {c' : AsyncLocks.St L (Option V)}
    (hs : AsyncLocks.step eqv s.c p a = some c') (he : s' = settleOther s p u dec c') : Inv eqv dep v₀ s' := by
  have hl := h.loc p
  rw [hpc] at hl
  have hph : hphase (s.pc p) = hphase (.other u dec) := by rw [hpc]
  have hal : AsyncLocks.Allowed dep s.c p a := by rcases ha with rfl | rfl <;> trivial
  generalize hx : s.c.pc p = x at hl
  generalize s.c.held p = hd at hl
  cases hl with
  | @other _ op _ _ _ h1 h2 h3 =>
    have hg := go_other (core_reach h.reach) ha hs (op := op)
    rw [hx] at hg
    subst he
    rcases h3 with ⟨h3, rfl⟩ | ⟨r, h3, rfl⟩
    · rcases hg.1 h3 h2 with ⟨e1, e2, e3, e4⟩ | ⟨r, e1, e2, e3, e4⟩
      · have : settleOther s p u none c' = { s with c := c' }.to p (.other u none) := by simp [settleOther, e1, e2]
        rw [this]
        exact inv_quiet h hal hs e3 (.other h1 h2 (.inl ⟨e4, rfl⟩)) (by rw [hph])
      · have : settleOther s p u none c' = { s.lin p u r with c := c' }.to p (.other u (some r)) := by
          simp [settleOther, e1, e2]
        rw [this]
        exact inv_lin h hal hs (.other h1 e3) (.other h1 h2 (.inr ⟨r, e4, rfl⟩)) (by rw [hph]; rfl) rfl
    · obtain ⟨e1, e2, ⟨e3, e4⟩ | ⟨e3, e4⟩⟩ := hg.2 r h3
      · have : settleOther s p u (some r) c' = { s with c := c' }.to p (.other u (some r)) := by
          simp [settleOther, e1, e3]
        rw [this]
        exact inv_quiet h hal hs e2 (.other h1 h2 (.inr ⟨r, e4, rfl⟩)) (by rw [hph])
      · have : settleOther s p u (some r) c' = { s with c := c' }.ret p r := by simp [settleOther, e1, e3]
        rw [this]
        exact inv_ret_step (call := u) h hal hs e2 e4 (by rw [hph]; rfl)

theorem invoke_other {c c' : AsyncLocks.St L (Option V)} {p : Nat} {op} (h : AsyncLocks.invoke c p op = some c') :
    phaseAt (c'.pc p) = .invoked op ∧ c'.held p = c.held p ∧ c'.val = c.val := by
  unfold AsyncLocks.invoke at h
  split at h
  · cases op <;> simp at h
    case deref | assign => obtain ⟨_, rfl⟩ := h; simp [AsyncLocks.St.begin, phaseAt]
    all_goals subst h; simp [AsyncLocks.St.begin, AsyncLocks.St.enter, phaseAt]
  · cases h

theorem inv_invoke {code : L → Kind → Option Body} (hsh : Shapes (V := V) code) {s s' : St L V}
    (h : Inv eqv dep v₀ s) {p : Nat} {call : Call L V} (ha : Allowed dep s p (.call call))
    (hs : invoke code s p call = some s') : Inv eqv dep v₀ s' := by
  unfold invoke at hs
  split at hs
  · rename_i hpc
    have hl := h.loc p
    rw [hpc] at hl
    have hidle : s.c.pc p = .idle := by
      generalize s.c.pc p = x at hl
      generalize s.c.held p = y at hl
      cases hl; rfl
    split at hs
    · rename_i i k v boom
      split at hs
      · rename_i b hb
        obtain ⟨h1, ex, rest, h2, h3⟩ := hsh i k b hb
        simp only [h1, h2, Option.some.injEq] at hs
        subst hs
        refine inv_begin h ?_ (by rw [hpc]; rfl) rfl
        rw [hidle]
        exact .start (f := { field := i, kind := k, arg := v, boom := boom, base := s.c.held p }) rfl rfl ha (h3 v)
      · cases hs
    · rename_i hne
      simp only [Option.bind_eq_some_iff, Option.map_eq_some_iff] at hs
      obtain ⟨op, ho, c', hi, rfl⟩ := hs
      obtain ⟨hm, hrw, _⟩ := otherOp_means ho
      obtain ⟨e1, e2, e3⟩ := invoke_other hi
      refine inv_begin_step h (a := .call op) ?_ hi e3 ?_ (by rw [hpc]; rfl) rfl
      · cases hm with
        | deref => trivial
        | assign => trivial
        | clone => exact ha
        | eq => exact ha
      · exact .other hm hrw (.inl ⟨e1, rfl⟩)
  · cases hs

/-- The future of a call of the locks is dropped while it waits. -/
theorem cancel_some {c c' : AsyncLocks.St L (Option V)} {p : Nat} (h : AsyncLocks.cancel c p = some c') :
    c'.val = c.val ∧ c'.pc p = .idle ∧ (AsyncLocks.wants (c.pc p)).isSome = true ∧ c'.held = c.held := by
  unfold AsyncLocks.cancel at h
  split at h <;> rename_i hpc
  case h_5 => cases h
  all_goals
    cases h
    exact ⟨rfl, upd_same _ _ _, by rw [hpc]; rfl, rfl⟩

theorem inv_step {code : L → Kind → Option Body} (hsh : Shapes (V := V) code) {s s' : St L V} (h : Inv eqv dep v₀ s) {p : Nat} {a : Act L V}
    (ha : Allowed dep s p a) (hs : step code eqv s p a = some s') : Inv eqv dep v₀ s' := by
  cases a with
  | call c => exact inv_invoke hsh h ha hs
  | go =>
    simp only [step] at hs
    cases hpc : s.pc p with
    | idle => simp [go, hpc] at hs
    | run f todo a => exact inv_run h hpc (by simpa [go, hpc] using hs)
    | wait f m todo =>
      simp only [go, hpc, Option.map_eq_some_iff] at hs
      obtain ⟨c', h1, h2⟩ := hs
      exact inv_wait h hpc h1 h2.symm
    | stop f => exact inv_stop h hpc hs
    | other u dec =>
      simp only [go, hpc, Option.map_eq_some_iff] at hs
      obtain ⟨c', h1, h2⟩ := hs
      exact inv_other h hpc (.inl rfl) h1 h2.symm
  | panic =>
    simp only [step, panics] at hs
    split at hs
    · rename_i u dec hpc
      simp only [Option.map_eq_some_iff] at hs
      obtain ⟨c', h1, h2⟩ := hs
      exact inv_other (a := .panic) h hpc (.inr rfl) h1 h2.symm
    · cases hs
  | cancel =>
    simp only [step, AsyncLockCalls.cancel] at hs
    split at hs
    · rename_i f m todo hpc
      simp only [Option.map_eq_some_iff] at hs
      obtain ⟨c', h1, rfl⟩ := hs
      obtain ⟨e1, e2, e3⟩ := cancel_some h1
      have hl := h.loc p
      rw [hpc] at hl
      have hd : f.dec = none := by
        generalize s.c.pc p = x at hl e3
        generalize s.c.held p = y at hl
        cases hl with
        | acq _ h2 => exact h2
        | call _ hj _ h4 =>
          rcases h4 with ⟨_, h5⟩ | ⟨o, rfl, _⟩
          · exact h5
          · cases e3.1
      exact inv_quit (call := f.call) h h1 e1 e2 (by rw [hpc]; simp [hphase, hd])
    · cases hs
  | drop g =>
    simp only [step, AsyncLockCalls.dropGuard] at hs
    split at hs
    · rename_i hpc
      simp only [Option.map_eq_some_iff] at hs
      obtain ⟨c', h1, rfl⟩ := hs
      have hst : AsyncLocks.step eqv s.c p (.drop g) = some c' := h1
      have hv : c'.val = s.c.val := by
        unfold AsyncLocks.dropGuard at h1
        split at h1
        · split at h1 <;> cases h1; rfl
        · cases h1
      have hp' : c'.pc p = s.c.pc p := by
        unfold AsyncLocks.dropGuard at h1
        split at h1
        · split at h1 <;> cases h1; rfl
        · cases h1
      have hl := h.loc p
      rw [hpc] at hl
      have hidle : s.c.pc p = .idle := by
        generalize s.c.pc p = x at hl
        generalize s.c.held p = y at hl
        cases hl; rfl
      have := inv_quiet (pc' := .idle) h (a := .drop g) trivial hst hv (by rw [hp', hidle]; exact .idle) (by rw [hpc])
      have e : ({ s with c := c' } : St L V).to p .idle = { s with c := c' } := by
        have : upd s.pc p .idle = s.pc := by
          funext q; simp only [upd]; split
          · rename_i hq; rw [hq, hpc]
          · rfl
        simp [St.to, this]
      rwa [e] at this
    · cases hs

theorem inv_reach {code : L → Kind → Option Body} (hsh : Shapes (V := V) code) {s : St L V} (h : Reach code eqv dep v₀ s) : Inv eqv dep v₀ s := by
  induction h with
  | init => exact inv_init v₀
  | step _ ha hs ih => exact inv_step hsh ih ha hs

end Verif.Proof.AsyncLockCalls
