import Verif.Props.Method
import Verif.Spec.Borrow
/-
C19: an `inner_mut` field of a plain struct behaves as a cell with guards; helpers panic exactly on conflicting guards.
-/
namespace Verif.Props.Borrow
open Verif.Model.Args Verif.Model.Init Verif.Model.Method Verif.Spec.InitTy Verif.Spec.MethodTy Verif.Spec.Helper
open Verif.Proof.Method Verif.Proof.MethodLaws Verif.Props.MethodTy Verif.Props.Method
open Verif.Model.Emit (emits)
open Verif.Spec.Borrow (Ev Obs)

variable {V : Type}

/-- The field and the guards the user keeps, in order of creation. -/
structure World (V : Type) where
  f : Field V
  guards : List (CV V Unit)

/-- What the user sees of the result of a helper. -/
def observe (f : Field V) (k : Kind) : CV V Unit → Obs V
  | .bool b => .bool b
  | a => match k with
    | .setter | .clearer => match a with | .own b => .old (content b) | _ => .nothing
    | _ => .sees (seen f a)

/-- Calls of generated helpers (`T::default()` is `dflt`; there are no lazy builders here) and handling of guards. -/
def wstep (x : FCtx) (dflt : V) (s : World V) : Ev V → Obs V × World V
  | .call k arg =>
    match body x k with
    | .ok b =>
      match call b { arg := arg, bld := .panic, dflt := dflt } s.f with
      | (.value a, f', _) => (observe f' k a, { f := f', guards := if a.keeps then s.guards ++ [a] else s.guards })
      | (.panicked, f', _) => (.panicked, { s with f := f' })
      | _ => (.nothing, s)
    | _ => (.nothing, s)
  | .drop i =>
    match s.guards[i]? with
    | some a => (.nothing, { f := dropped s.f a, guards := s.guards.eraseIdx i })
    | none => (.nothing, s)
  | .look i =>
    match s.guards[i]? with
    | some a => (.sees (seen s.f a), s)
    | none => (.nothing, s)
  | .assign i v =>
    match s.guards[i]? with
    | some a => (.nothing, { s with f := overwrite s.f v a })
    | none => (.nothing, s)

/-- A history. -/
def wrun (x : FCtx) (dflt : V) : World V → List (Ev V) → List (Obs V) × World V
  | s, [] => ([], s)
  | s, e :: es =>
    let (o, s₁) := wstep x dflt s e
    let (os, s₂) := wrun x dflt s₁ es
    (o :: os, s₂)

/-- A plain `inner_mut` field. -/
structure InnerMut (x : FCtx) (τ : Ty) : Prop where
  plain : x.isSync = false
  eager : x.isLazy = false
  inner : x.isInnerMut = true
  type : declType x = .ok τ
  kept : x.field.isSkipped = false

/-- What is in the `RefCell`. -/
def inside (op : Bool) (c : Option V) : Val V :=
  match op, c with
  | true, some v => .some (.val v)
  | false, some v => .val v
  | _, none => .none

theorem content_inside (op : Bool) (c : Option V) : content (inside op c) = c := by
  cases op <;> cases c <;> rfl

/-- The field with content `c` and guards. -/
def fieldAt (op : Bool) (c : Option V) (rd : Nat) (wr : Bool) : Field V := { val := .cell (inside op c), rd := rd, wr := wr }

theorem fieldAt_eq (x : FCtx) {τ : Ty} (h : InnerMut x τ) {f : Field V} (hf : ValTy f.val τ) :
    ∃ c, (x.isOptional = false → c ≠ none) ∧ f = fieldAt x.isOptional c f.rd f.wr := by
  rw [declType_typeOf x τ h.kept h.type] at hf
  obtain ⟨c, hc, hv⟩ := exists_valOf hf
  rw [h.plain, h.eager, h.inner] at hv
  refine ⟨c, hc h.eager, ?_⟩
  obtain ⟨v, rd, wr⟩ := f
  simp only at hv
  subst hv
  simp only [fieldAt, valOf, Field.mk.injEq, and_true]
  generalize x.isOptional = op
  cases op <;> cases c <;> rfl

/-- Does the accessor return a `Ref`? -/
def bare (x : FCtx) : Bool := !(x.isClone || x.isCopy)

/-- A body without preparation. -/
abbrev Straight (b : Body) (ops : List MOp) : Prop := b.pre = none ∧ b.main = ops

section
variable {x : FCtx} {b : Body} (hs : x.isSync = false) (hl : x.isLazy = false) (hi : x.isInnerMut = true)
include hs hl hi

theorem accessor_form (hb : body x .accessor = .ok b) (hr : refusedAccessor x = false) :
    if bare x then Straight b [.borrow] else Straight b [.borrow, .star, .copyVal] ∨ Straight b [.borrow, .star, .clone] := by
  simp only [body, plainAccessor, plainMeth, maybeOpt] at hb
  unfold refusedAccessor at hr
  unfold bare
  rw [hs, hl, hi] at hr hb
  revert hb hr
  flags x
  cases cp <;> cases cl <;> cases md <;> simp <;> rintro rfl <;>
    first | exact ⟨rfl, rfl⟩ | exact .inl ⟨rfl, rfl⟩ | exact .inr ⟨rfl, rfl⟩

theorem accessorMut_form (hb : body x .accessorMut = .ok b) : Straight b [.borrowMut] := by
  simp only [body, plainAccessorMut] at hb
  rw [hs, hl, hi] at hb
  simp at hb; subst hb; exact ⟨rfl, rfl⟩

theorem setter_form (hb : body x .setter = .ok b) :
    Straight b [if x.isOptional then .replaceSomeV else .replaceV] := by
  simp only [body, plainSetter] at hb
  rw [hs, hl, hi] at hb
  simp at hb; subst hb; exact ⟨rfl, rfl⟩

omit hl in
theorem clearer_form (hb : body x .clearer = .ok b) : Straight b [.take] := by
  simp only [body, plainClearer] at hb
  rw [hs, hi] at hb
  simp at hb; subst hb; exact ⟨rfl, rfl⟩

theorem predicate_form (hb : body x .predicate = .ok b) : Straight b [.borrow, .isSome] := by
  simp only [body, plainPredicate] at hb
  rw [hs, hl, hi] at hb
  simp at hb; subst hb; exact ⟨rfl, rfl⟩

end

section
variable {E : Type} {b : Body} (env : CallEnv V E) (op : Bool) (c : Option V) (rd : Nat) (wr : Bool)

theorem run_borrow (h : Straight b [.borrow]) : call b env (fieldAt op c rd wr) =
    if wr then (.panicked, fieldAt op c rd wr, none) else (.value (.guard false 1), fieldAt op c (rd + 1) wr, none) := by
  obtain ⟨_, _, _, pre, main, _⟩ := b
  obtain ⟨rfl, rfl⟩ := h
  cases wr <;> rfl

theorem run_copy (h : Straight b [.borrow, .star, .copyVal] ∨ Straight b [.borrow, .star, .clone])
    (hc : op = false → c ≠ none) : call b env (fieldAt op c rd wr) =
    if wr then (.panicked, fieldAt op c rd wr, none) else (.value (.own (inside op c)), fieldAt op c rd wr, none) := by
  obtain ⟨_, _, _, pre, main, _⟩ := b
  rcases h with ⟨rfl, rfl⟩ | ⟨rfl, rfl⟩ <;> cases wr <;> cases op <;> cases c <;> simp at hc <;> rfl

theorem run_borrowMut (h : Straight b [.borrowMut]) : call b env (fieldAt op c rd wr) =
    if wr || rd != 0 then (.panicked, fieldAt op c rd wr, none)
    else (.value (.guard true 1), fieldAt op c rd true, none) := by
  obtain ⟨_, _, _, pre, main, _⟩ := b
  obtain ⟨rfl, rfl⟩ := h
  cases wr <;> cases rd <;> rfl

theorem run_replace (h : Straight b [if op then .replaceSomeV else .replaceV]) (hc : op = false → c ≠ none) :
    call b env (fieldAt op c rd wr) =
    if wr || rd != 0 then (.panicked, fieldAt op c rd wr, none)
    else (.value (.own (inside op c)), fieldAt op (some env.arg) rd wr, none) := by
  obtain ⟨_, _, _, pre, main, _⟩ := b
  obtain ⟨rfl, rfl⟩ := h
  cases wr <;> cases rd <;> cases op <;> cases c <;> simp at hc <;> rfl

theorem run_take (h : Straight b [.take]) (hc : op = false → c ≠ none) :
    call b env (fieldAt op c rd wr) =
    if wr || rd != 0 then (.panicked, fieldAt op c rd wr, none)
    else (.value (.own (inside op c)), fieldAt op (if op then none else some env.dflt) rd wr, none) := by
  obtain ⟨_, _, _, pre, main, _⟩ := b
  obtain ⟨rfl, rfl⟩ := h
  cases wr <;> cases rd <;> cases op <;> cases c <;> simp at hc <;> rfl

theorem run_isSome (h : Straight b [.borrow, .isSome]) (ho : op = true) : call b env (fieldAt op c rd wr) =
    if wr then (.panicked, fieldAt op c rd wr, none) else (.value (.bool c.isSome), fieldAt op c rd wr, none) := by
  obtain ⟨_, _, _, pre, main, _⟩ := b
  obtain ⟨rfl, rfl⟩ := h
  subst ho
  cases wr <;> cases c <;> rfl

end

/-! ## Refinement -/

theorem map_eraseIdx {α β : Type} (g : α → β) (l : List α) (i : Nat) : (l.map g).eraseIdx i = (l.eraseIdx i).map g := by
  induction l generalizing i with
  | nil => rfl
  | cons a l ih => cases i <;> simp [List.eraseIdx, ih]

theorem count_eraseIdx (l : List Bool) (i : Nat) (g : Bool) (h : l[i]? = some g) :
    l.count g = (l.eraseIdx i).count g + 1 := by
  induction l generalizing i with
  | nil => simp at h
  | cons a l ih =>
    cases i with
    | zero => simp at h; subst h; simp
    | succ i =>
      simp at h
      have := ih i h
      simp only [List.eraseIdx, List.count_cons]
      omega

theorem contains_eraseIdx (l : List Bool) (i : Nat) (h : l.contains true = false) : (l.eraseIdx i).contains true = false := by
  rcases hc : (l.eraseIdx i).contains true with _ | _
  · rfl
  · have : true ∈ l := List.mem_of_mem_eraseIdx (by simpa using hc)
    simp_all

/-- The field with the guards kept, and the cell it stands for. The guards of the field are counted right, and an exclusive
one is alone. -/
structure Rel (op : Bool) (w : World V) (s : Verif.Spec.Borrow.Cell V) : Prop where
  field : w.f = fieldAt op s.c (s.guards.count false) (s.guards.contains true)
  some : op = false → s.c ≠ none
  guards : w.guards = s.guards.map (fun g => CV.guard g 1)
  alone : s.guards.contains true = true → s.guards = [true]

theorem busy_iff (l : List Bool) : (l.contains true || l.count false != 0) = (l != []) := by
  rcases l with _ | ⟨g, l⟩
  · rfl
  · cases g <;> simp

theorem seen_at (op : Bool) (c : Option V) (rd : Nat) (wr g : Bool) (hc : op = false → c ≠ none) :
    seen (fieldAt op c rd wr) (.guard (E := Unit) g 1) = c := by
  cases op <;> cases c <;> simp at hc <;> rfl

theorem overwrite_at (op : Bool) (c : Option V) (rd : Nat) (wr : Bool) (v : V) (hc : op = false → c ≠ none) :
    overwrite (fieldAt op c rd wr) v (.guard (E := Unit) true 1) = fieldAt op (some v) rd wr := by
  cases op <;> cases c <;> simp at hc <;> rfl

/-- Does a helper see the guards the way `conflict` says? -/
theorem conflict_eq (s : Verif.Spec.Borrow.Cell V) (k : Kind) : Verif.Spec.Borrow.conflict s k =
    if Verif.Spec.Borrow.exclusive k then (s.guards.contains true || s.guards.count false != 0) else s.guards.contains true := by
  unfold Verif.Spec.Borrow.conflict; rw [busy_iff]

/-- What the clearer leaves: nothing in an optional field, `T::default()` in one that was made not optional. -/
def left (x : FCtx) (dflt : V) : Option V := if x.isOptional then none else some dflt

set_option maxHeartbeats 1000000 in
theorem step_rel {x : FCtx} {τ : Ty} (h : InnerMut x τ) (dflt : V) (e : Ev V)
    (he : ∀ k arg, e = .call k arg → ∃ b, Helper x k τ b) {w : World V} {s : Verif.Spec.Borrow.Cell V}
    (hr : Rel x.isOptional w s) :
    (wstep x dflt w e).1 = (Verif.Spec.Borrow.step (bare x) (left x dflt) s e).1 ∧
      Rel x.isOptional (wstep x dflt w e).2 (Verif.Spec.Borrow.step (bare x) (left x dflt) s e).2 := by
  obtain ⟨hfl, hsm, hgd, hal⟩ := hr
  obtain ⟨f, gs⟩ := w
  obtain ⟨c, l⟩ := s
  simp only at hfl hsm hgd hal
  subst hfl hgd
  cases e with
  | call k arg =>
    obtain ⟨b, hb⟩ := he k arg rfl
    have hcode := hb.code
    have hok := hb.ok
    simp only [wstep, hcode, Verif.Spec.Borrow.step, conflict_eq]
    let env : CallEnv V Unit := { arg := arg, bld := .panic, dflt := dflt }
    cases k with
    | accessor =>
      have hform := accessor_form h.plain h.eager h.inner hcode hok
      rcases hbare : bare x with _ | _
      · rw [hbare] at hform
        have hrun := run_copy env x.isOptional c (l.count false) (l.contains true) (by simpa using hform) hsm
        rw [hrun]
        rcases hw : l.contains true with _ | _
        · simp only [Verif.Spec.Borrow.exclusive, Bool.false_eq_true, if_false]
          refine ⟨by simp [observe, seen, content_inside], ⟨by rw [hw], hsm, by simp [CV.keeps], hal⟩⟩
        · simp only [Verif.Spec.Borrow.exclusive, Bool.false_eq_true, if_false, if_true]
          exact ⟨by first | rfl | trivial, ⟨by rw [hw], hsm, rfl, hal⟩⟩
      · rw [hbare] at hform
        have hrun := run_borrow env x.isOptional c (l.count false) (l.contains true) (by simpa using hform)
        rw [hrun]
        rcases hw : l.contains true with _ | _
        · simp only [Verif.Spec.Borrow.exclusive, Bool.false_eq_true, if_false]
          refine ⟨by simp [observe, seen_at _ _ _ _ _ hsm], ⟨?_, hsm, by simp [CV.keeps], by simp_all⟩⟩
          simp_all
        · simp only [Verif.Spec.Borrow.exclusive, Bool.false_eq_true, if_false, if_true]
          exact ⟨by first | rfl | trivial, ⟨by rw [hw], hsm, rfl, hal⟩⟩
    | accessorMut =>
      have hrun := run_borrowMut env x.isOptional c (l.count false) (l.contains true)
        (accessorMut_form h.plain h.eager h.inner hcode)
      rw [hrun, busy_iff]
      rcases hl : l with _ | ⟨g, l'⟩
      · simp only [Verif.Spec.Borrow.exclusive]
        refine ⟨by simp [observe, seen_at _ _ _ _ _ hsm], ⟨by simp, hsm, by simp [CV.keeps], by simp⟩⟩
      · simp only [Verif.Spec.Borrow.exclusive, if_true]
        subst hl
        exact ⟨by simp, ⟨by simp, by simpa using hsm, by simp, by simpa using hal⟩⟩
    | setter =>
      have hrun := run_replace env x.isOptional c (l.count false) (l.contains true)
        (setter_form h.plain h.eager h.inner hcode) hsm
      rw [hrun, busy_iff]
      rcases hl : l with _ | ⟨g, l'⟩
      · simp only [Verif.Spec.Borrow.exclusive]
        refine ⟨by simp [observe, content_inside], ⟨by simp; rfl, by simp, by simp [CV.keeps], by simp⟩⟩
      · simp only [Verif.Spec.Borrow.exclusive, if_true]
        subst hl
        exact ⟨by simp, ⟨by simp, by simpa using hsm, by simp, by simpa using hal⟩⟩
    | clearer =>
      have hrun := run_take env x.isOptional c (l.count false) (l.contains true)
        (clearer_form h.plain h.inner hcode) hsm
      rw [hrun, busy_iff]
      rcases hl : l with _ | ⟨g, l'⟩
      · simp only [Verif.Spec.Borrow.exclusive]
        refine ⟨by simp [observe, content_inside], ⟨by simp [left]; rfl, by simp [left], by simp [CV.keeps], by simp⟩⟩
      · simp only [Verif.Spec.Borrow.exclusive, if_true]
        subst hl
        exact ⟨by simp, ⟨by simp, by simpa using hsm, by simp, by simpa using hal⟩⟩
    | predicate =>
      have ho : x.isOptional = true := by
        have he := hb.emit
        simp only [emits, h.kept, h.plain, h.eager] at he
        revert he; cases x.isOptional <;> simp
      have hrun := run_isSome env x.isOptional c (l.count false) (l.contains true)
        (predicate_form h.plain h.eager h.inner hcode) ho
      rw [hrun]
      rcases hw : l.contains true with _ | _
      · simp only [Verif.Spec.Borrow.exclusive, Bool.false_eq_true, if_false]
        exact ⟨by simp [observe], ⟨by rw [hw], hsm, by simp [CV.keeps], hal⟩⟩
      · simp only [Verif.Spec.Borrow.exclusive, Bool.false_eq_true, if_false, if_true]
        exact ⟨by first | rfl | trivial, ⟨by rw [hw], hsm, rfl, hal⟩⟩
    | reader => exact absurd hcode (by simp [body, h.plain])
    | writer => exact absurd hcode (by simp [body, h.plain])
    | builder => exact absurd hb.kind (by simp [isHelper])
    | lazy => exact absurd hb.kind (by simp [isHelper])
  | drop i =>
    simp only [wstep, Verif.Spec.Borrow.step, List.getElem?_map]
    rcases hi : l[i]? with _ | g
    · refine ⟨rfl, ⟨?_, hsm, ?_, ?_⟩⟩ <;> simp only [Option.map] <;>
        rw [List.eraseIdx_of_length_le (by simpa using hi)] <;> first | rfl | exact hal
    · refine ⟨rfl, ?_⟩
      cases g
      · have hn : l.contains true = false := by
          rcases hc : l.contains true with _ | _
          · rfl
          · rw [hal hc] at hi
            cases i <;> simp at hi
        refine ⟨?_, hsm, map_eraseIdx _ l i, fun hc => ?_⟩
        · simp only [Option.map, dropped, keptGuard, fieldAt, Field.mk.injEq, true_and]
          have := count_eraseIdx l i false hi
          exact ⟨by omega, by rw [contains_eraseIdx l i hn]; exact hn⟩
        · rw [contains_eraseIdx l i hn] at hc; cases hc
      · have hl : l = [true] := hal (by simpa using List.mem_of_getElem? hi)
        subst hl
        obtain rfl : i = 0 := by cases i <;> simp at hi ⊢
        exact ⟨rfl, hsm, rfl, by simp⟩
  | look i =>
    simp only [wstep, Verif.Spec.Borrow.step, List.getElem?_map]
    rcases hi : l[i]? with _ | g
    · exact ⟨rfl, rfl, hsm, rfl, hal⟩
    · simp only [Option.map, seen_at _ _ _ _ _ hsm]
      exact ⟨trivial, rfl, hsm, rfl, hal⟩
  | assign i v =>
    simp only [wstep, Verif.Spec.Borrow.step, List.getElem?_map]
    rcases hi : l[i]? with _ | g
    · exact ⟨rfl, rfl, hsm, rfl, hal⟩
    · cases g
      · exact ⟨rfl, rfl, hsm, rfl, hal⟩
      · simp only [Option.map, overwrite_at _ _ _ _ _ hsm]
        exact ⟨trivial, rfl, by simp, rfl, hal⟩

/-- C19: whatever the user does with the helpers and the guards, the observations are those of a cell with guards; a helper
panics exactly on conflict (`Verif.Spec.Borrow.conflict`), and a panic changes nothing. -/
theorem C19_cell {x : FCtx} {τ : Ty} (h : InnerMut x τ) (dflt : V) (es : List (Ev V))
    (he : ∀ k arg, .call k arg ∈ es → ∃ b, Helper x k τ b) {w : World V} {s : Verif.Spec.Borrow.Cell V}
    (hr : Rel x.isOptional w s) :
    (wrun x dflt w es).1 = (Verif.Spec.Borrow.run (bare x) (left x dflt) s es).1 ∧
      Rel x.isOptional (wrun x dflt w es).2 (Verif.Spec.Borrow.run (bare x) (left x dflt) s es).2 := by
  induction es generalizing w s with
  | nil => exact ⟨rfl, hr⟩
  | cons e es ih =>
    obtain ⟨h1, h2⟩ := step_rel h dflt e (fun k arg hk => he k arg (by simp [hk])) hr
    obtain ⟨h3, h4⟩ := ih (fun k arg hk => he k arg (by simp [hk])) h2
    exact ⟨by simp only [wrun, Verif.Spec.Borrow.run, h1, h3], h4⟩

/-- C19, starting from any value of the field without guards. -/
theorem C19_from_idle {x : FCtx} {τ : Ty} (h : InnerMut x τ) (dflt : V) (es : List (Ev V))
    (he : ∀ k arg, .call k arg ∈ es → ∃ b, Helper x k τ b) {f : Field V} (hf : Idle τ f) :
    (wrun x dflt ⟨f, []⟩ es).1 = (Verif.Spec.Borrow.run (bare x) (left x dflt) ⟨content f.val, []⟩ es).1 := by
  obtain ⟨c, hc, hv⟩ := fieldAt_eq x h hf.typed
  refine (C19_cell h dflt es he ⟨?_, ?_, rfl, by simp⟩).1
  · simp only
    rw [hv]
    simp only [fieldAt, content, content_inside, hf.free.1, hf.free.2]
    rfl
  · simp only
    rw [hv]
    simpa [fieldAt, content, content_inside] using hc

/-- The panic condition spelt out for one call, in any reachable situation: exclusive helpers panic exactly if a guard is
alive, the others exactly if an exclusive one is; the field and the guards are untouched. -/
theorem C19_panics_iff {x : FCtx} {τ : Ty} (h : InnerMut x τ) (dflt : V) {k : Kind} {b : Body} (hb : Helper x k τ b) (arg : V)
    {w : World V} {s : Verif.Spec.Borrow.Cell V} (hr : Rel x.isOptional w s) :
    ((wstep x dflt w (.call k arg)).1 = .panicked ↔
      if k = .accessorMut ∨ k = .setter ∨ k = .clearer then w.guards ≠ [] else CV.guard true 1 ∈ w.guards) ∧
    ((wstep x dflt w (.call k arg)).1 = .panicked →
      Rel x.isOptional (wstep x dflt w (.call k arg)).2 s) := by
  obtain ⟨h1, h2⟩ := step_rel h dflt (.call k arg) (fun k' a hk => by cases hk; exact ⟨b, hb⟩) hr
  have hp : (Verif.Spec.Borrow.step (bare x) (left x dflt) s (.call k arg)).1 = .panicked ↔
      Verif.Spec.Borrow.conflict s k = true := by
    simp only [Verif.Spec.Borrow.step]
    rcases Verif.Spec.Borrow.conflict s k with _ | _
    · cases k <;> simp
    · simp
  refine ⟨?_, fun hh => ?_⟩
  · rw [h1, hp, hr.guards]
    unfold Verif.Spec.Borrow.conflict Verif.Spec.Borrow.exclusive
    cases k <;> simp
  · have hc := hp.mp (h1 ▸ hh)
    simp only [Verif.Spec.Borrow.step, hc, if_true] at h2
    exact h2

/-! ## Concrete cases -/

/-- A plain struct with a field `#[fieldx(inner_mut, optional, get, get_mut, set, clearer, predicate)]`. -/
def innerMutField : FCtx :=
  { ctx := {}
    field := { innerMut := some true, optional := some true, modeSync := some false, accessor := some {}, accessorMut := some {}
               setter := some {}, clearer := some {}, predicate := some {} } }

example : InnerMut innerMutField (.cell (.opt .t)) ∧
    ∀ k ∈ [Kind.accessor, .accessorMut, .setter, .clearer, .predicate], ∃ b, Helper innerMutField k (.cell (.opt .t)) b := by
  refine ⟨⟨by decide +kernel, by decide +kernel, by decide +kernel, by decide +kernel, by decide +kernel⟩, ?_⟩
  intro k hk
  simp at hk
  rcases hk with rfl | rfl | rfl | rfl | rfl
  · exact ⟨_, helper_of (b := { ret := .guard .ref (.opt .t), main := [.borrow] }) (by decide +kernel)⟩
  · exact ⟨_, helper_of (b := { ret := .guard .refMut (.opt .t), main := [.borrowMut] }) (by decide +kernel)⟩
  · exact ⟨_, helper_of (b := { ret := .own (.opt .t), main := [.replaceSomeV] }) (by decide +kernel)⟩
  · exact ⟨_, helper_of (b := { ret := .own (.opt .t), main := [.take] }) (by decide +kernel)⟩
  · exact ⟨_, helper_of (b := { ret := .bool, main := [.borrow, .isSome] }) (by decide +kernel)⟩

/-- Two shared guards; the setter panics until both are gone; then an exclusive guard makes the accessor panic. -/
example : (wrun innerMutField 0 ⟨{ val := .cell (.some (.val 5)) }, []⟩
    [.call .accessor 0, .call .accessor 0, .call .setter 7, .drop 0, .call .setter 7, .drop 0, .call .setter 7,
     .call .accessorMut 0, .call .predicate 0, .assign 0 8, .drop 0, .call .clearer 0, .call .predicate 0]).1 =
    [.sees (some 5), .sees (some 5), .panicked, .nothing, .panicked, .nothing, .old (some 5),
     .sees (some 7), .panicked, .nothing, .nothing, .old (some 8), .bool false] := by decide +kernel

end Verif.Props.Borrow
