import Verif.Spec.BuildTy
import Verif.Props.Builder
/-!
C76-C78: `build()` with `post_build` and an error type.
-/

namespace Verif.Props.Build
open Verif.Model.Args Verif.Model.Init Verif.Model.Builder Verif.Model.Build Verif.Spec.BuildTy Verif.Props.Builder
open Verif.Proof.Builder

variable {V X : Type}

/-! ### Helper lemmas -/

theorem postNamed_iff {c : Ctx} {m : String} : PostNamed c.args m ↔ postBuildIdent c = some m := by
  unfold PostNamed postBuildIdent
  cases hb : c.args.builder with
  | none => simp
  | some b => rcases hp : b.postBuild with _ | (_ | n) <;> simp [hp, eq_comm]

theorem errorNamed_iff {c : Ctx} {e : String} : ErrorNamed c.args e ↔ errorType c = some e := by
  unfold ErrorNamed errorType
  cases hb : c.args.builder with
  | none => simp
  | some b => rcases hp : b.error with _ | ⟨e', v⟩ <;> simp [hp]

theorem variantNamed_iff {c : Ctx} {v : String} : VariantNamed c.args v ↔ errorVariant c = some v := by
  unfold VariantNamed errorVariant
  cases hb : c.args.builder with
  | none => simp
  | some b => rcases hp : b.error with _ | ⟨e', _ | v'⟩ <;> simp [hp]

theorem variant_error {c : Ctx} {v : String} (h : errorVariant c = some v) : ∃ e, errorType c = some e := by
  unfold errorVariant at h
  unfold errorType
  cases hb : c.args.builder with
  | none => simp [hb] at h
  | some b => rcases hp : b.error with _ | ⟨e', v'⟩ <;> simp_all

theorem counted_iff {c : Ctx} : Counted c.args ↔ c.args.isRefCounted = true := by
  unfold Counted StructArgs.isRefCounted
  cases c.args.rc <;> simp

theorem not_error {c : Ctx} : (∀ e, ¬ ErrorNamed c.args e) ↔ errorType c = none := by
  simp only [errorNamed_iff]
  cases errorType c <;> simp

theorem not_variant {c : Ctx} : (∀ e, ¬ VariantNamed c.args e) ↔ errorVariant c = none := by
  simp only [variantNamed_iff]
  cases errorVariant c <;> simp

theorem reported_iff {c : Ctx} {e : ErrExpr} : Reported c.args e ↔ e = errExpr c := by
  unfold errExpr
  constructor
  · intro h
    cases h with
    | variant h => rw [variantNamed_iff] at h; simp [h]
    | into h h' => rw [errorNamed_iff] at h; rw [not_variant] at h'; simp [h, h']
    | plain h =>
      rw [not_error] at h
      cases hv : errorVariant c with
      | none => simp [h]
      | some v => obtain ⟨e, he⟩ := variant_error hv; rw [h] at he; cases he
  · rintro rfl
    cases hv : errorVariant c with
    | some v => exact .variant (variantNamed_iff.mpr hv)
    | none =>
      cases he : errorType c with
      | none => simp only [Option.isSome_none, Bool.false_eq_true, if_false]; exact .plain (not_error.mpr he)
      | some e =>
        simp only [Option.isSome_some, if_true]
        exact .into (errorNamed_iff.mpr he) (not_variant.mpr hv)

theorem checks_run (c : Ctx) (e : ErrExpr) (s : Slots V) (fs : List FieldArgs) :
    runChecks s ((fs.filter fun f => hasChecker ⟨c, f⟩).map fun f => (f.ident, e)) =
      (runCheckers c s fs).map fun n => (e, n) := by
  induction fs with
  | nil => rfl
  | cons f fs ih =>
    cases hk : hasChecker ⟨c, f⟩ with
    | false => simp [hk, runCheckers, ih]
    | true => cases hs : s f.ident <;> simp [hk, hs, runCheckers, runChecks, ih]

theorem run_missing {c : Ctx} {w : String → Env V} {meth : String → Obj V → Ret V X} {s : Slots V} {n : String}
    (h : runCheckers c s (builderFields c) = some n) :
    (buildFn c).run c w meth s = ⟨.err (.missing (errExpr c) n), s, []⟩ := by
  unfold BuildFn.run
  simp only [buildFn, checks_run, h, Option.map_some]

theorem run_built {c : Ctx} {w : String → Env V} {meth : String → Obj V → Ret V X} {s : Slots V}
    (h : runCheckers c s (builderFields c) = none) :
    (buildFn c).run c w meth s =
      ⟨finish ((construction c).eval meth (litValue (build c w s).1)).1, (build c w s).2,
        ((construction c).eval meth (litValue (build c w s).1)).2⟩ := by
  unfold BuildFn.run build
  simp only [buildFn, checks_run, h, Option.map_none]

theorem finish_not_missing {v : Value V X} {e : ErrExpr} {n : String} : finish v ≠ .err (.missing e n) := by
  rcases v with (_ | _ | _ | _) | _ | _ | _ <;> simp [finish]

theorem build_err {c : Ctx} {w : String → Env V} {s : Slots V} {n : String} :
    (build c w s).1 = .err n ↔ runCheckers c s (builderFields c) = some n := by
  unfold build
  cases h : runCheckers c s (builderFields c) with
  | some m => simp
  | none => simp only [reduceCtorEq, iff_false]; exact construct_not_err

theorem docSig_use {c : Ctx} {sig : String → Option BTy} (hs : DocSig c.args sig) {m : String}
    (hp : postBuildIdent c = some m) :
    (∀ e, errorType c = some e → sig m = some (.res .self (some e))) ∧ (errorType c = none → sig m = some .self) :=
  ⟨fun e h => (hs m (postNamed_iff.mpr hp)).1 e (errorNamed_iff.mpr h),
   fun h => (hs m (postNamed_iff.mpr hp)).2 (not_error.mpr h)⟩

/-! ### C76 -/

/-- Values of a type. -/
def ValueTy : Value V X → BTy → BTy → Prop
  | .ret r, τ, _ => RetTy r τ
  | .rc _, τ, _ => τ = .rc
  | .early _, _, ret => ∃ σ y, ret = .res σ y
  | .ill, _, _ => False

/-- Code that compiles does not get stuck: its value is of its type, or it panics, or it returns early from a function which
returns a `Result`. -/
theorem C76_sound {sig : String → Option BTy} {conv : Option String → Option String → Prop}
    {meth : String → Obj V → Ret V X} (hm : Respects sig meth) {lit : Value V X}
    (hl : (∃ o, lit = .ret (.self o)) ∨ lit = .ret .panic) {ret τ : BTy} {e : Expr}
    (h : HasTy sig conv ret e τ) : ValueTy (e.eval meth lit).1 τ ret := by
  induction h with
  | lit => rcases hl with ⟨o, rfl⟩ | rfl <;> simp [Expr.eval, ValueTy, RetTy]
  | @call ret e m τ _ hs ih =>
    unfold Expr.eval
    generalize e.eval meth lit = v at ih ⊢
    rcases v with ⟨(_ | _ | _ | _) | _ | _ | _, l⟩ <;> simp_all [ValueTy, RetTy]
    exact hm m _ τ hs
  | @question e τ x σ y _ hc ih =>
    unfold Expr.eval
    generalize e.eval meth lit = v at ih ⊢
    rcases v with ⟨(_ | _ | _ | _) | _ | _ | _, l⟩ <;> simp_all [ValueTy, RetTy]
  | @cyclic ret e _ ih =>
    unfold Expr.eval
    generalize e.eval meth lit = v at ih ⊢
    rcases v with ⟨(_ | _ | _ | _) | _ | _ | _, l⟩ <;> simp_all [ValueTy, RetTy]

/-- With a method and error conversions as documented, `build()` compiles exactly unless the struct is reference counted and
has both `post_build` and an error type. -/
theorem C76_typed_iff (c : Ctx) {sig : String → Option BTy} {variants : String → Option String}
    {conv : Option String → Option String → Prop} (hs : DocSig c.args sig) (he : DocErr c.args variants conv) :
    Typed sig variants conv (buildFn c) ↔
      ¬ (Counted c.args ∧ (∃ m, PostNamed c.args m) ∧ ∃ e, ErrorNamed c.args e) := by
  have hchk : ∀ p ∈ (buildFn c).checks, ErrTyped variants conv (buildFn c).error p.2 := by
    intro p hp
    obtain ⟨f, -, rfl⟩ := List.mem_map.mp hp
    have hr : Reported c.args (errExpr c) := reported_iff.mpr rfl
    show ErrTyped variants conv (errorType c) (errExpr c)
    generalize errExpr c = x at hr
    cases hr with
    | @variant v h =>
      obtain ⟨e, hee⟩ := variant_error (variantNamed_iff.mp h)
      exact ⟨by rw [hee]; exact (he.2 e (errorNamed_iff.mpr hee)).1 v h, by simp [hee]⟩
    | into h h' => rw [errorNamed_iff.mp h]; exact (he.2 _ h).2 h'
    | plain h => exact not_error.mp h
  unfold Typed
  rw [and_iff_left hchk]
  simp only [counted_iff, postNamed_iff, errorNamed_iff]
  have hs := fun m => docSig_use (m := m) hs
  simp only [buildFn, construction, postConstruct]
  cases hc : c.args.isRefCounted <;> cases hp : postBuildIdent c <;> cases hx : errorType c <;> simp
  · exact .lit
  · exact .lit
  · rename_i m
    exact .call .lit ((hs m hp).2 hx)
  · rename_i m e
    exact .question (.call .lit ((hs m hp).1 e hx)) (he.1 _)
  · exact .cyclic .lit
  · exact .cyclic .lit
  · rename_i m
    exact .cyclic (.call .lit ((hs m hp).2 hx))
  · intro h
    cases h with
    | cyclic h => cases h

/-- In that case `build()` compiles for no method at all. -/
theorem C76_rc_error_never (c : Ctx) (sig : String → Option BTy) (variants : String → Option String)
    (conv : Option String → Option String → Prop) {m e : String} (hc : Counted c.args) (hp : PostNamed c.args m)
    (he : ErrorNamed c.args e) : ¬ Typed sig variants conv (buildFn c) := by
  rintro ⟨h, -⟩
  rw [counted_iff] at hc
  rw [postNamed_iff] at hp
  rw [errorNamed_iff] at he
  simp only [buildFn, construction, postConstruct, hc, hp, he, if_true, Option.isSome_some] at h
  cases h with
  | cyclic h => cases h

/-- `#[fxstruct(rc, builder(post_build, error(E)))] struct S { a: T }` -/
def rcCtx : Ctx :=
  { args := { rc := some {}, builder := some { postBuild := some none, error := some ("E", none) } }
    fields := [{ ident := "a" }] }

/-- The full claim, that `build()` compiles whenever the user's method is as documented, is false: the struct above, with
`fn post_build(self) -> Result<Self, E>`. -/
theorem C76_full_false : ¬ ∀ (c : Ctx) (sig : String → Option BTy) (variants : String → Option String)
    (conv : Option String → Option String → Prop), DocSig c.args sig → DocErr c.args variants conv →
    Typed sig variants conv (buildFn c) := by
  intro h
  refine C76_rc_error_never rcCtx (fun _ => some (.res .self (some "E"))) (fun _ => none) (fun _ _ => True)
    (m := "post_build") (e := "E") ⟨_, rfl, by decide⟩ ⟨_, rfl, .inr ⟨rfl, rfl⟩⟩ ⟨_, _, rfl, rfl⟩ (h _ _ _ _ ?_ ?_)
  · intro m _
    refine ⟨?_, fun h => absurd ⟨_, _, rfl, rfl⟩ (h "E")⟩
    rintro e ⟨b, v, hb, he⟩
    cases hb; cases he; rfl
  · refine ⟨fun _ => trivial, ?_⟩
    rintro e -
    refine ⟨?_, fun _ => trivial⟩
    rintro v ⟨b, e', hb, he⟩
    cases hb; cases he

/-- Without reference counting, or without `post_build`, or without an error type, it compiles. -/
theorem C76_compiles_partial (c : Ctx) {sig : String → Option BTy} {variants : String → Option String}
    {conv : Option String → Option String → Prop} (hs : DocSig c.args sig) (he : DocErr c.args variants conv)
    (h : ¬ Counted c.args ∨ (∀ m, ¬ PostNamed c.args m) ∨ ∀ e, ¬ ErrorNamed c.args e) :
    Typed sig variants conv (buildFn c) := by
  rw [C76_typed_iff c hs he]
  rintro ⟨h1, ⟨m, h2⟩, e, h3⟩
  rcases h with h | h | h
  · exact h h1
  · exact h m h2
  · exact h e h3

/-- `#[fxstruct(builder(post_build(check_in), error(E)))] struct S { a: T, #[fieldx(default(1))] b: T }` -/
def okCtx : Ctx :=
  { args := { builder := some { postBuild := some (some "check_in"), error := some ("E", some "E::Missing") } }
    fields := [{ ident := "a" }, { ident := "b", default := some { value := some "1" } }] }

example : buildFn okCtx = ⟨false, some "E", [("a", .variant "E::Missing")], .question (.call .lit "check_in")⟩ := by
  decide +kernel
example : buildFn rcCtx = ⟨true, some "E", [("a", .into)], .cyclic (.question (.call .lit "post_build"))⟩ := by
  decide +kernel

example : DocSig okCtx.args fun m => if m = "check_in" then some (.res .self (some "E")) else none := by
  rintro m ⟨b, hb, h⟩
  cases hb
  rcases h with h | ⟨h, -⟩
  · cases h
    refine ⟨?_, fun h => absurd ⟨_, _, rfl, rfl⟩ (h "E")⟩
    rintro e ⟨b, v, hb, he⟩
    cases hb; cases he; rfl
  · cases h

/-! ### C77 -/

/-- `build()` fails for want of a value exactly if a mandatory field has none. It names the first one, in the error the
arguments ask for, it keeps the builder as it is, and it calls no method. -/
theorem C77_missing (c : Ctx) (w : String → Env V) (meth : String → Obj V → Ret V X) (s : Slots V) (how : ErrExpr)
    (n : String) :
    (((buildFn c).run c w meth s).out = .err (.missing how n) ↔ Reported c.args how ∧
      ∃ pre f post, builderFields c = pre ++ f :: post ∧ f.ident = n ∧ Mandatory ⟨c, f⟩ ∧ s n = none ∧
        ∀ g ∈ pre, Mandatory ⟨c, g⟩ → s g.ident ≠ none) ∧
    (((buildFn c).run c w meth s).out = .err (.missing how n) →
      ((buildFn c).run c w meth s).slots = s ∧ ((buildFn c).run c w meth s).calls = []) := by
  rw [← C27_err_iff c w s n, build_err, reported_iff]
  cases h : runCheckers c s (builderFields c) with
  | some k => rw [run_missing h]; simp [eq_comm]
  | none => rw [run_built h]; simp [finish_not_missing]

/-- Otherwise the object is made as without `post_build`; the method is called once, on the finished object, and what it
returns is what `build()` returns, wrapped in the counting pointer if there is one. Without `post_build` no method is
called. -/
theorem C77_post (c : Ctx) (w : String → Env V) (meth : String → Obj V → Ret V X) (s : Slots V)
    {sig : String → Option BTy} {variants : String → Option String} {conv : Option String → Option String → Prop}
    (hs : DocSig c.args sig) (ht : Typed sig variants conv (buildFn c)) (hm : Respects sig meth) (o : Obj V)
    (h : (build c w s).1 = .ok o) :
    (∀ m, PostNamed c.args m → ((buildFn c).run c w meth s).out = Final (buildFn c).rc (meth m o) ∧
      ((buildFn c).run c w meth s).calls = [(m, o)]) ∧
    ((∀ m, ¬ PostNamed c.args m) → ((buildFn c).run c w meth s).out = .ok (buildFn c).rc o ∧
      ((buildFn c).run c w meth s).calls = []) ∧
    ((buildFn c).run c w meth s).slots = (build c w s).2 := by
  have hr : runCheckers c s (builderFields c) = none := by
    cases hr : runCheckers c s (builderFields c) with
    | none => rfl
    | some n => rw [build_err.mpr hr] at h; cases h
  rw [run_built hr]
  rw [h]
  simp only [litValue, and_true]
  have hs := fun m => docSig_use (m := m) hs
  simp only [postNamed_iff]
  simp only [buildFn, construction, postConstruct]
  cases hp : postBuildIdent c with
  | none =>
    cases hc : c.args.isRefCounted <;> simp [Expr.eval, finish]
  | some m =>
    simp only [Option.some.injEq, forall_eq', false_implies, and_true, forall_eq]
    cases hx : errorType c with
    | none =>
      have hmm := hm m o _ ((hs m hp).2 hx)
      cases hc : c.args.isRefCounted <;>
        (simp only [Option.isSome_none, Bool.false_eq_true, if_false, if_true, Expr.eval, List.nil_append]
         cases hmo : meth m o <;> simp_all [RetTy, finish, Final])
    | some e =>
      have hmm := hm m o _ ((hs m hp).1 e hx)
      cases hc : c.args.isRefCounted with
      | false =>
        simp only [Option.isSome_some, Bool.false_eq_true, if_false, if_true, Expr.eval, List.nil_append]
        cases hmo : meth m o <;> simp_all [RetTy, finish, Final]
      | true =>
        exact absurd ht (C76_rc_error_never c _ _ _ (counted_iff.mpr hc) (postNamed_iff.mpr hp)
          (errorNamed_iff.mpr hx))

/-- If the struct expression panics so does `build()`, and no method is called. -/
theorem C77_panic (c : Ctx) (w : String → Env V) (meth : String → Obj V → Ret V X) (s : Slots V)
    (h : (build c w s).1 = .panic) :
    ((buildFn c).run c w meth s).out = .panic ∧ ((buildFn c).run c w meth s).calls = [] := by
  have hr : runCheckers c s (builderFields c) = none := by
    cases hr : runCheckers c s (builderFields c) with
    | none => rfl
    | some n => rw [build_err.mpr hr] at h; cases h
  rw [run_built hr, h]
  simp only [litValue, construction, postConstruct]
  cases c.args.isRefCounted <;> cases postBuildIdent c <;> cases errorType c <;> simp [Expr.eval, finish]

example : (build exOff exEnv Slots.new).1 = .panic := (C30_full_false exEnv).2.2.2.2

/-- The signatures for the examples. -/
def exSig : String → Option BTy := fun m => if m = "check_in" then some (.res .self (some "E")) else none

/-- A method for the examples: it fails on an object whose `a` is 0, and otherwise adds a field. -/
def exMeth : String → Obj Nat → Ret Nat String := fun _ o =>
  if ("a", Val.val 0) ∈ o then .err "zero" else .ok (("checked", .val 1) :: o)

example : Typed exSig (fun _ => some "E") (fun _ _ => True) (buildFn okCtx) := by
  have h : buildFn okCtx = ⟨false, some "E", [("a", .variant "E::Missing")], .question (.call .lit "check_in")⟩ := by
    decide +kernel
  rw [h]
  refine ⟨.question (x := some "E") (.call .lit (by decide)) trivial, ?_⟩
  intro p hp
  cases hp with
  | head => exact ⟨rfl, by simp⟩
  | tail _ h => cases h
example : Respects exSig exMeth := by
  intro m o τ h
  unfold exSig at h
  split at h
  · cases h
    unfold exMeth
    split
    · exact ⟨_, _, rfl⟩
    · exact ⟨_, rfl⟩
  · cases h
example : ((buildFn okCtx).run okCtx exEnv exMeth Slots.new).out = .err (.missing (.variant "E::Missing") "a") := by
  decide +kernel
example : ((buildFn okCtx).run okCtx exEnv exMeth (after Slots.new [("a", 5)])).out =
    .ok false [("checked", .val 1), ("a", .val 5), ("b", .val 1)] := by decide +kernel
example : ((buildFn okCtx).run okCtx exEnv exMeth (after Slots.new [("a", 5)])).calls =
    [("check_in", [("a", .val 5), ("b", .val 1)])] := by decide +kernel
example : ((buildFn okCtx).run okCtx exEnv exMeth (after Slots.new [("a", 0)])).out = .err (.user "zero") := by
  decide +kernel

/-! ### C78 -/

/-- What a `build()` that returned an error leaves in the builder: everything if a value was missing, nothing if the user's
method failed. -/
theorem C78_after_error (c : Ctx) (w : String → Env V) (meth : String → Obj V → Ret V X) (s : Slots V) (hd : Distinct c)
    (hc : Compiles c) (hs : Settable c s) (e : Err X) (h : ((buildFn c).run c w meth s).out = .err e) :
    (∀ how n, e = .missing how n → ((buildFn c).run c w meth s).slots = s) ∧
    (∀ x, e = .user x → ((buildFn c).run c w meth s).slots = Slots.new) := by
  refine ⟨?_, ?_⟩
  · rintro how n rfl
    exact ((C77_missing c w meth s how n).2 h).1
  · rintro x rfl
    cases hr : runCheckers c s (builderFields c) with
    | some n => rw [run_missing hr] at h; cases h
    | none =>
      rw [run_built hr] at h ⊢
      cases hb : (build c w s).1 with
      | ok o => exact C29_emptied c w s hd hc hs o hb
      | err n => rw [build_err] at hb; rw [hr] at hb; cases hb
      | panic =>
        have := (C77_panic c w meth s hb).1
        rw [run_built hr] at this
        rw [h] at this; cases this
      | ill =>
        rw [hb] at h
        simp only [litValue, construction, postConstruct] at h
        cases hh : c.args.isRefCounted <;> cases h2 : postBuildIdent c <;> cases h3 : errorType c <;>
          simp [hh, h2, h3, Expr.eval, finish] at h

/-- Without `post_build` a `build()` that returns an error leaves the builder as it was. -/
theorem C78_keeps_partial (c : Ctx) (w : String → Env V) (meth : String → Obj V → Ret V X) (s : Slots V)
    (hp : ∀ m, ¬ PostNamed c.args m) (e : Err X) (h : ((buildFn c).run c w meth s).out = .err e) :
    ((buildFn c).run c w meth s).slots = s := by
  have hp' : postBuildIdent c = none := by
    cases hh : postBuildIdent c with
    | none => rfl
    | some m => exact absurd (postNamed_iff.mpr hh) (hp m)
  cases hr : runCheckers c s (builderFields c) with
  | some n => rw [run_missing hr]
  | none =>
    rw [run_built hr] at h
    simp only [construction, postConstruct, hp'] at h
    cases hh : c.args.isRefCounted <;> cases hb : (build c w s).1 <;>
      simp [hh, hb, Expr.eval, finish, litValue] at h

/-- The full claim, that a `build()` which returns an error leaves the builder as it was, is false. -/
theorem C78_keeps_full_false : ¬ ∀ (c : Ctx) (w : String → Env Nat) (meth : String → Obj Nat → Ret Nat String)
    (s : Slots Nat) (e : Err String), ((buildFn c).run c w meth s).out = .err e →
    ((buildFn c).run c w meth s).slots = s := by
  intro h
  have := h okCtx exEnv exMeth (after Slots.new [("a", 0)]) (.user "zero") (by decide +kernel)
  exact absurd (congrFun this "a") (by decide +kernel)

/-- So a further `build()` after a failed method reports the first mandatory field as missing, though it had been given a
value. -/
theorem C78_second_build (c : Ctx) (w : String → Env V) (meth : String → Obj V → Ret V X) (s : Slots V) (hd : Distinct c)
    (hc : Compiles c) (hs : Settable c s) (x : X) (h : ((buildFn c).run c w meth s).out = .err (.user x))
    {f : FieldArgs} {pre post : List FieldArgs} (hf : builderFields c = pre ++ f :: post) (hm : Mandatory ⟨c, f⟩)
    (hpre : ∀ g ∈ pre, ¬ Mandatory ⟨c, g⟩) :
    ∃ how, Reported c.args how ∧
      ((buildFn c).run c w meth ((buildFn c).run c w meth s).slots).out = .err (.missing how f.ident) := by
  rw [(C78_after_error c w meth s hd hc hs _ h).2 x rfl]
  refine ⟨errExpr c, reported_iff.mpr rfl, (C77_missing c w meth Slots.new _ _).1.mpr ⟨reported_iff.mpr rfl, pre, f, post,
    hf, rfl, hm, rfl, fun g hg hgm => absurd hgm (hpre g hg)⟩⟩

example : Distinct okCtx ∧ Compiles okCtx ∧ Settable okCtx (after Slots.new [("a", 0)]) :=
  ⟨by unfold Distinct; decide +kernel, compiles_of (by decide +kernel), after_settable (settable_new _) (by
    intro p hp
    cases hp with
    | head => exact ⟨{ ident := "a" }, by decide +kernel, rfl, by decide +kernel⟩
    | tail _ h => cases h)⟩
example : ((buildFn okCtx).run okCtx exEnv exMeth
    ((buildFn okCtx).run okCtx exEnv exMeth (after Slots.new [("a", 0)])).slots).out =
    .err (.missing (.variant "E::Missing") "a") := by decide +kernel

end Verif.Props.Build
