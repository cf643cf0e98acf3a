import Verif.Props.Method
import Verif.Spec.Program
/-
C17, C18: single-threaded programs on one lazy field of a plain, sync or async struct.
-/
namespace Verif.Props.Program
open Verif.Model.Args Verif.Model.Init Verif.Model.Method Verif.Spec.InitTy Verif.Spec.MethodTy Verif.Spec.Helper
open Verif.Proof.Method Verif.Proof.MethodLaws Verif.Props.MethodTy Verif.Props.Method Verif.Spec.Program
open Verif.Spec (Outcome Op Res Ret CellStep GetKind getRet)

variable {V E : Type}

/-- The helper behind a use. -/
def kindOf : Use V → Kind
  | .get => .accessor
  | .read => .reader
  | .getMut _ => .accessorMut
  | .write _ => .writer
  | .set => .setter
  | .clear => .clearer
  | .isSet => .predicate

/-- Call the generated helper `k` of the field, if there is one. -/
def callHelper (x : FCtx) (k : Kind) (env : CallEnv V E) (f : Field V) :
    Option (Got V E × Field V × Option (Outcome V E)) :=
  match body x k with
  | .ok b => some (call b env f)
  | _ => none

/-- One use of the field by generated code; `dflt` is `T::default()`. For an `rc` object a live reference is in the hands
of the caller, so the self reference can be upgraded. `none` if the calls block, or do not give what the use expects. -/
def perform (x : FCtx) (dflt : V) (u : Use V) (w : World V E) (f : Field V) : Option (Seen V E × Field V) :=
  let env : CallEnv V E := { arg := w.arg, bld := w.bld, dflt := dflt }
  match u with
  | .get | .read =>
    let k := getOp x.isFallible false
    match callHelper x (kindOf u) env f with
    | some (.value a, f', ran) => (seen f' a).map fun v => ([(.get k, ⟨ran, .value v⟩)], dropped f' a)
    | some (.error e, f', ran) => some ([(.get k, ⟨ran, .error e⟩)], f')
    | some (.panicked, f', ran) => some ([(.get k, ⟨ran, .panicked⟩)], f')
    | _ => none
  | .getMut o =>
    let k := getOp x.isFallible true
    match callHelper x (kindOf u) env f with
    | some (.value a, f', ran) =>
      (seen f' a).bind fun v =>
        match o with
        | none => some ([(.get k, ⟨ran, .value v⟩)], dropped f' a)
        | some n => some ([(.get k, ⟨ran, .value v⟩), (.assign here n, ⟨none, .value v⟩)], dropped (overwrite f' n a) a)
    | some (.error e, f', ran) => some ([(.get k, ⟨ran, .error e⟩)], f')
    | some (.panicked, f', ran) => some ([(.get k, ⟨ran, .panicked⟩)], f')
    | _ => none
  | .write n =>
    match callHelper x (kindOf u) env f with
    | some (.value a, f', ran) =>
      match stepOp { env with arg := n } { f := f' } a .storeV with
      | .next c (.own b) => some ([(.writer, ⟨ran, .unit⟩), (.store n, ⟨c.ran, .old (content b)⟩)], dropped c.f a)
      | _ => none
    | _ => none
  | .set =>
    match callHelper x (kindOf u) env f with
    | some (.value (.own a), f', ran) => some ([(.set w.arg, ⟨ran, .old (content a)⟩)], f')
    | _ => none
  | .clear =>
    match callHelper x (kindOf u) env f with
    | some (.value (.own a), f', ran) => some ([(.clear, ⟨ran, .old (content a)⟩)], f')
    | _ => none
  | .isSet =>
    match callHelper x (kindOf u) env f with
    | some (.value (.bool b), f', ran) => some ([(.isSet, ⟨ran, .bool b⟩)], f')
    | _ => none

/-- A program. -/
def runProg (x : FCtx) (dflt : V) : List (Use V × World V E) → Field V → Option (List (Seen V E) × Field V)
  | [], f => some ([], f)
  | (u, w) :: p, f =>
    match perform x dflt u w f with
    | some (t, f₁) =>
      match runProg x dflt p f₁ with
      | some (ts, f₂) => some (t :: ts, f₂)
      | none => none
    | none => none

/-- A builder of a field that is not `fallible` returns no `Result`. -/
def Sane (x : FCtx) (w : World V E) : Prop := x.isFallible = false → ∀ e, w.bld ≠ .err e

theorem callHelper_eq {x : FCtx} {k : Kind} {τ : Ty} {b : Body} (h : Helper x k τ b) (env : CallEnv V E) (f : Field V) :
    callHelper x k env f = some (call b env f) := by
  unfold callHelper; rw [h.code]

theorem getRet_value (fa m : Bool) (v : V) : getRet (E := E) (getOp fa m) (.ok v) = .value v := by
  cases fa <;> cases m <;> rfl

theorem getRet_panic (fa m : Bool) : getRet (V := V) (E := E) (getOp fa m) .panic = .panicked := by
  cases fa <;> cases m <;> rfl

theorem getRet_err (m : Bool) (e : E) : getRet (V := V) (getOp true m) (.err e) = .error e := by
  cases m <;> rfl

/-- The three initialising helpers, seen as one cell operation. -/
theorem get_cases {x : FCtx} {k : Kind} (hk : k = .accessor ∨ k = .reader ∨ k = .accessorMut) {τ : Ty} {b : Body}
    (h : Helper x k τ b) (hl : x.isLazy = true) {f : Field V} (hf : Idle τ f) (dflt : V) (w : World V E) (hw : Sane x w)
    (m : Bool) :
    (∃ v a f' ran, call b { arg := w.arg, bld := w.bld, dflt := dflt } f = (.value a, f', ran) ∧ seen f' a = some v ∧
      CellStepIn w (content f.val) (.get (getOp x.isFallible m)) ⟨ran, .value v⟩ (some v) ∧
      content (dropped f' a).val = some v ∧ Idle τ (dropped f' a) ∧
      (k = .accessorMut → ∀ n, content (dropped (overwrite f' n a) a).val = some n ∧ Idle τ (dropped (overwrite f' n a) a))) ∨
    (∃ e, call b { arg := w.arg, bld := w.bld, dflt := dflt } f = (.error e, f, some (.err e)) ∧
      CellStepIn w (content f.val) (.get (getOp x.isFallible m)) ⟨some (.err e), .error e⟩ (content f.val)) ∨
    (call b { arg := w.arg, bld := w.bld, dflt := dflt } f = (.panicked, f, some .panic) ∧
      CellStepIn w (content f.val) (.get (getOp x.isFallible m)) ⟨some .panic, .panicked⟩ (content f.val)) := by
  obtain ⟨arg, bld⟩ := w
  let env : CallEnv V E := { arg := arg, bld := bld, dflt := dflt }
  rcases hc : content f.val with _ | v
  · rcases bld with v | e | _
    · left
      obtain ⟨a, f', h1, h2, h3, h4, h5⟩ := C24_lazy_build (env := env) hk h hf (fun _ => rfl) hl hc rfl
      refine ⟨v, a, f', _, h1, h2, ⟨?_, fun o ho => by cases ho; rfl⟩, h3, h4, h5⟩
      have := CellStep.build (V := V) (E := E) (getOp x.isFallible m) (.ok v)
      rwa [getRet_value] at this
    · right; left
      have hfa : x.isFallible = true := by
        rcases hfa : x.isFallible with _ | _
        · exact absurd rfl (hw hfa e)
        · rfl
      refine ⟨e, (C24_lazy_fail (env := env) hk h hf (fun _ => rfl) hl hc).1 e rfl hfa, ?_, fun o ho => by cases ho; rfl⟩
      have := CellStep.build (V := V) (E := E) (getOp x.isFallible m) (.err e)
      rw [hfa] at this ⊢
      rwa [getRet_err] at this
    · right; right
      refine ⟨(C24_lazy_fail (env := env) hk h hf (fun _ => rfl) hl hc).2 rfl, ?_, fun o ho => by cases ho; rfl⟩
      have := CellStep.build (V := V) (E := E) (getOp x.isFallible m) .panic
      rwa [getRet_panic] at this
  · left
    have hit : CellStepIn ⟨arg, bld⟩ (some v) (.get (getOp x.isFallible m)) ⟨none, .value v⟩ (some v) := by
      refine ⟨?_, by simp⟩
      have := CellStep.hit (V := V) (E := E) (getOp x.isFallible m) v
      rwa [getRet_value] at this
    rcases hk with rfl | rfl | rfl
    · obtain ⟨a, f', h1, h2, h3⟩ := C24_accessor h hf env (fun _ => rfl) (by simp [hc])
      exact ⟨v, a, f', _, h1, h2.trans hc, hit, by rw [h3, hc], by rw [h3]; exact hf, by simp⟩
    · obtain ⟨a, f', h1, h2, h3⟩ := C24_reader h hf env (fun _ => rfl) (by simp [hc])
      exact ⟨v, a, f', _, h1, h2.trans hc, hit, by rw [h3, hc], by rw [h3]; exact hf, by simp⟩
    · obtain ⟨a, f', h1, h2, h3, h4⟩ := C24_accessorMut h hf env (fun _ => rfl) (by simp [hc])
      exact ⟨v, a, f', _, h1, h2.trans hc, hit, by rw [h3, hc], by rw [h3]; exact hf, fun _ => h4⟩

/-- The writer followed by `store`. -/
theorem write_store {x : FCtx} {τ : Ty} {b : Body} (h : Helper x .writer τ b) (hl : x.isLazy = true) {f : Field V}
    (hf : Idle τ f) (env : CallEnv V E) (n : V) :
    ∃ a f' cf o, call b env f = (.value a, f', none) ∧ stepOp { env with arg := n } { f := f' } a .storeV = .next cf (.own o) ∧
      cf.ran = none ∧ content o = content f.val ∧ content (dropped cf.f a).val = some n ∧ Idle τ (dropped cf.f a) := by
  obtain ⟨hc, hv⟩ := h.form hf
  have hb := h.code
  simp only [body, syncWriter, awaitCall, maybeOpt, builderWrapper] at hb
  have hid := h.idle (V := V) (c := some n) (by simp)
  have hfc := content_fieldOf (V := V) x (some n)
  rw [hv]
  rw [content_fieldOf]
  generalize content f.val = c at *
  clear hv hc
  rw [hl] at hb
  have hl' := hl
  revert hb hid hfc hl'
  unfold fieldOf
  flags x
  cases sy
  · simp
  · cases lz
    · simp
    · cases fa <;> cases he <;> cases ay <;> cases c <;> intro hb hid hfc _ <;> simp [Bind.bind, Gen.bind, pure] at hb <;>
        subst hb <;> exact ⟨_, _, _, _, rfl, rfl, rfl, rfl, hfc, hid⟩

/-- One use is one use of the cell. -/
theorem perform_spec {x : FCtx} {τ : Ty} {b : Body} (u : Use V) (h : Helper x (kindOf u) τ b) (hl : x.isLazy = true)
    {f : Field V} (hf : Idle τ f) (dflt : V) (w : World V E) (hw : Sane x w) :
    ∃ t f', perform x dflt u w f = some (t, f') ∧ UseStep x.isFallible w (content f.val) u t (content f'.val) ∧ Idle τ f' := by
  cases u with
  | get =>
    unfold perform
    simp only [callHelper_eq h]
    rcases get_cases (.inl rfl) h hl hf dflt w hw false with ⟨v, a, f', ran, h1, h2, h3, h4, h5, -⟩ | ⟨e, h1, h3⟩ | ⟨h1, h3⟩
    · simp only [h1, h2, Option.map]
      exact ⟨_, _, rfl, h4 ▸ .get h3, h5⟩
    · simp only [h1]; exact ⟨_, _, rfl, .get h3, hf⟩
    · simp only [h1]; exact ⟨_, _, rfl, .get h3, hf⟩
  | read =>
    unfold perform
    simp only [callHelper_eq h]
    rcases get_cases (.inr (.inl rfl)) h hl hf dflt w hw false with
      ⟨v, a, f', ran, h1, h2, h3, h4, h5, -⟩ | ⟨e, h1, h3⟩ | ⟨h1, h3⟩
    · simp only [h1, h2, Option.map]
      exact ⟨_, _, rfl, h4 ▸ .read h3, h5⟩
    · simp only [h1]; exact ⟨_, _, rfl, .read h3, hf⟩
    · simp only [h1]; exact ⟨_, _, rfl, .read h3, hf⟩
  | getMut o =>
    unfold perform
    simp only [callHelper_eq h]
    rcases get_cases (.inr (.inr rfl)) h hl hf dflt w hw true with
      ⟨v, a, f', ran, h1, h2, h3, h4, h5, h6⟩ | ⟨e, h1, h3⟩ | ⟨h1, h3⟩
    · simp only [h1, h2, Option.bind]
      rcases o with _ | n
      · exact ⟨_, _, rfl, h4 ▸ .look h3, h5⟩
      · obtain ⟨h7, h8⟩ := h6 rfl n
        exact ⟨_, _, rfl, h7 ▸ .change h3 rfl ⟨.assign .., by simp⟩, h8⟩
    · simp only [h1]
      rcases o with _ | n
      · exact ⟨_, _, rfl, .look h3, hf⟩
      · exact ⟨_, _, rfl, .noChange h3 (by simp), hf⟩
    · simp only [h1]
      rcases o with _ | n
      · exact ⟨_, _, rfl, .look h3, hf⟩
      · exact ⟨_, _, rfl, .noChange h3 (by simp), hf⟩
  | write n =>
    obtain ⟨a, f', cf, o, h1, h2, h3, h4, h5, h6⟩ := write_store h hl hf { arg := w.arg, bld := w.bld, dflt := dflt } n
    unfold perform
    simp only [callHelper_eq h, h1, h2]
    refine ⟨_, _, rfl, ?_, h6⟩
    rw [h5, h4, h3]
    exact .write ⟨.writer _, by simp⟩ ⟨.store _ _, by simp⟩
  | set =>
    obtain ⟨a, f', h1, h2, h3, h4⟩ := C24_setter h hf { arg := w.arg, bld := w.bld, dflt := dflt }
    unfold perform
    simp only [callHelper_eq h, h1]
    refine ⟨_, _, rfl, ?_, h4⟩
    rw [h2, h3]
    exact .set ⟨.set _ _, by simp⟩
  | clear =>
    obtain ⟨a, f', h1, h2, h3, h4⟩ := C24_clearer_partial h hf { arg := w.arg, bld := w.bld, dflt := dflt } (.inl hl)
    unfold perform
    simp only [callHelper_eq h, h1]
    refine ⟨_, _, rfl, ?_, h4⟩
    rw [h2, h3]
    exact .clear ⟨.clear _, by simp⟩
  | isSet =>
    have h1 := C25_predicate_partial h hf { arg := w.arg, bld := w.bld, dflt := dflt } (by simp [hl])
    unfold perform
    simp only [callHelper_eq h, h1]
    exact ⟨_, _, rfl, .isSet ⟨.isSet _, by simp⟩, hf⟩

/-- The field has every helper the program uses, and they type-check. -/
def Has (x : FCtx) (τ : Ty) (p : List (Use V × World V E)) : Prop := ∀ q ∈ p, ∃ b, Helper x (kindOf q.1) τ b

/-- C17, and the same for sync and async structs: a program on a lazy field observes what it would observe of an optional
cell with build-on-read. It never blocks; `runProg` is `some`. -/
theorem C17_lazy_is_cell {x : FCtx} {τ : Ty} (hl : x.isLazy = true) (p : List (Use V × World V E)) (hp : Has x τ p)
    (hw : ∀ q ∈ p, Sane x q.2) {f : Field V} (hf : Idle τ f) (dflt : V) :
    ∃ ts f', runProg x dflt p f = some (ts, f') ∧ ProgStep x.isFallible (content f.val) p ts (content f'.val) ∧ Idle τ f' := by
  induction p generalizing f with
  | nil => exact ⟨[], f, rfl, .nil, hf⟩
  | cons q p ih =>
    obtain ⟨u, w⟩ := q
    obtain ⟨b, hb⟩ := hp (u, w) (by simp)
    obtain ⟨t, f₁, h1, h2, h3⟩ := perform_spec u hb hl hf dflt w (hw (u, w) (by simp))
    obtain ⟨ts, f₂, h4, h5, h6⟩ := ih (fun q hq => hp q (by simp [hq])) (fun q hq => hw q (by simp [hq])) h3
    refine ⟨t :: ts, f₂, ?_, .cons h2 h5, h6⟩
    simp only [runProg, h1, h4]

/-- C18: two declarations of a lazy field (plain, sync or async, with any further arguments), both `fallible` or both not,
having the helpers the program uses: the program observes the same and leaves the same content. -/
theorem C18_modes_agree {x y : FCtx} {τ σ : Ty} (hx : x.isLazy = true) (hy : y.isLazy = true)
    (hfa : x.isFallible = y.isFallible) (p : List (Use V × World V E)) (hpx : Has x τ p) (hpy : Has y σ p)
    (hw : ∀ q ∈ p, Sane x q.2) {f g : Field V} (hf : Idle τ f) (hg : Idle σ g) (hc : content f.val = content g.val)
    (dflt dflt' : V) :
    ∃ ts f' g', runProg x dflt p f = some (ts, f') ∧ runProg y dflt' p g = some (ts, g') ∧
      content f'.val = content g'.val := by
  obtain ⟨ts, f', h1, h2, -⟩ := C17_lazy_is_cell hx p hpx hw hf dflt
  obtain ⟨ts', g', h3, h4, -⟩ := C17_lazy_is_cell hy p hpy (fun q hq => by unfold Sane; rw [← hfa]; exact hw q hq) hg dflt'
  rw [hfa, hc] at h2
  obtain ⟨rfl, h5⟩ := h2.det h4
  exact ⟨ts, f', g', h1, h3, h5⟩

/-! ## Concrete cases -/

/-- A lazy field with the helpers plain structs have too, in a struct that is plain, sync or async. -/
def lazyIn (sy ay : Option Bool) : FCtx :=
  { ctx := { args := { modeSync := sy, modeAsync := ay } }
    field := { lazy := some {}, accessor := some { clone := true }, accessorMut := some {}, setter := some {}
               clearer := some {}, predicate := some {} } }

/-- Read, overwrite, clear, read again with another builder, with a builder that panics in between. -/
def someProgram : List (Use Nat × World Nat Nat) :=
  [(.isSet, ⟨0, .ok 1⟩), (.get, ⟨0, .panic⟩), (.get, ⟨0, .ok 1⟩), (.getMut (some 7), ⟨0, .ok 2⟩), (.get, ⟨0, .ok 3⟩),
   (.clear, ⟨0, .ok 4⟩), (.getMut (some 8), ⟨0, .ok 5⟩), (.set, ⟨9, .ok 6⟩), (.isSet, ⟨0, .ok 6⟩)]

/-- What it observes. -/
def someProgramSeen : List (Seen Nat Nat) :=
  [[(.isSet, ⟨none, .bool false⟩)], [(.get .read, ⟨some .panic, .panicked⟩)], [(.get .read, ⟨some (.ok 1), .value 1⟩)],
   [(.get .readMut, ⟨none, .value 1⟩), (.assign here 7, ⟨none, .value 1⟩)], [(.get .read, ⟨none, .value 7⟩)],
   [(.clear, ⟨none, .old (some 7)⟩)], [(.get .readMut, ⟨some (.ok 5), .value 5⟩), (.assign here 8, ⟨none, .value 5⟩)],
   [(.set 9, ⟨none, .old (some 8)⟩)], [(.isSet, ⟨none, .bool true⟩)]]

theorem has_of {x : FCtx} {τ : Ty} {p : List (Use V × World V E)}
    (h : ∀ k ∈ [Kind.accessor, .accessorMut, .setter, .clearer, .predicate],
      (isHelper k && Verif.Model.Emit.emits x k && (declType x == .ok τ) &&
        (match body x k with | .ok b => Verif.Proof.MethodTy.checkBody τ (wantsCopy x) b | _ => false)) = true)
    (hp : ∀ q ∈ p, kindOf q.1 ∈ [Kind.accessor, .accessorMut, .setter, .clearer, .predicate]) : Has x τ p := by
  intro q hq
  have := h _ (hp q hq)
  rcases hb : body x (kindOf q.1) with b | _ | _ <;> simp [hb] at this
  obtain ⟨⟨⟨h1, h2⟩, h3⟩, h4⟩ := this
  exact ⟨b, h1, h2, h3, hb, (Verif.Proof.MethodTy.checkBody_iff _ _ _).mp h4⟩

example : Has (lazyIn none none) (.once .t) someProgram ∧ Has (lazyIn (some true) none) (.proxy false false) someProgram ∧
    Has (lazyIn none (some true)) (.proxy true false) someProgram := by
  refine ⟨has_of ?_ ?_, has_of ?_ ?_, has_of ?_ ?_⟩ <;> decide +kernel

example : (∀ q ∈ someProgram, Sane (lazyIn none none) q.2) ∧ (lazyIn none none).isLazy = true ∧
    (lazyIn none none).isSync = false ∧ (lazyIn (some true) none).isSync = true ∧ (lazyIn none (some true)).isAsync = true ∧
    (lazyIn none none).isFallible = false := by
  refine ⟨?_, by decide +kernel⟩
  intro q hq _ e
  simp [someProgram] at hq
  rcases hq with rfl | rfl | rfl | rfl | rfl | rfl | rfl | rfl | rfl <;> simp

example : runProg (lazyIn none none) 0 someProgram { val := .once .none } =
      some (someProgramSeen, { val := .once (.some (.val 9)) }) ∧
    runProg (lazyIn (some true) none) 0 someProgram { val := .proxy false .none } =
      some (someProgramSeen, { val := .proxy false (.some (.val 9)) }) ∧
    runProg (lazyIn none (some true)) 0 someProgram { val := .proxy true .none } =
      some (someProgramSeen, { val := .proxy true (.some (.val 9)) }) := ⟨rfl, rfl, rfl⟩

end Verif.Props.Program
