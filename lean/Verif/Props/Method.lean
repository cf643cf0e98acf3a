import Verif.Proof.MethodLaws
/-
C24, C25: the generated helpers of one field obey the laws of a cell.

Model: `Verif.Model.Method`. For every field with any arguments (`x`), of declared type `τ`, with a helper written for it
(`emits`), whose body type-checks (`BodyTy`, see C54), and for every value of the field of that type, with nobody keeping a
guard. `content` is the user's value inside the field, `seen` the one reached through a result, `dropped` the field once the
result is gone.
-/
namespace Verif.Props.Method
open Verif.Model.Args Verif.Model.Init Verif.Model.Method Verif.Spec.InitTy Verif.Spec.MethodTy Verif.Spec.Helper
open Verif.Proof.Method Verif.Proof.MethodLaws Verif.Props.MethodTy
open Verif.Model.Emit (emits)
open Verif.Spec (Outcome)

variable {V E : Type}

/-- The helper of kind `k` of the field, which has type `τ`: it is written and the compiler accepts it. -/
structure Helper (x : FCtx) (k : Kind) (τ : Ty) (b : Body) : Prop where
  kind  : isHelper k = true
  emit  : emits x k = true
  type  : declType x = .ok τ
  code  : body x k = .ok b
  typed : BodyTy τ (wantsCopy x) b

/-- A field value of the type, on which no guard is kept. -/
structure Idle (τ : Ty) (f : Field V) : Prop where
  typed : ValTy f.val τ
  free  : Free f

theorem content_fieldOf (x : FCtx) (c : Option V) : content (fieldOf x c).val = c := by exact content_valOf ..

theorem Helper.ok {x : FCtx} {k : Kind} {τ : Ty} {b : Body} (h : Helper x k τ b) : refused x k = false :=
  (helper_typechecks_partial x k τ b h.kind h.emit h.type h.code).mp h.typed

theorem Helper.form {x : FCtx} {k : Kind} {τ : Ty} {b : Body} (h : Helper x k τ b) {f : Field V} (hf : Idle τ f) :
    (x.isLazy = false → x.isOptional = false → content f.val ≠ none) ∧ f = fieldOf x (content f.val) := by
  obtain ⟨c, hc, hv⟩ := field_form x τ k h.emit h.type hf.typed hf.free
  have : content f.val = c := by rw [hv]; exact content_valOf ..
  rw [this]
  exact ⟨hc, hv⟩

theorem Helper.idle {x : FCtx} {k : Kind} {τ : Ty} {b : Body} (h : Helper x k τ b) {c : Option V}
    (hc : x.isLazy = false → x.isOptional = false → c ≠ none) : Idle τ (fieldOf x c) := by
  refine ⟨?_, rfl, rfl⟩
  rw [declType_typeOf x τ (notSkipped h.emit) h.type]
  exact valTy_valOf _ _ _ _ _ _ _ _ hc

/-! ## C24 -/

/-- The setter returns the previous content and stores its argument; no builder is run, no guard is left. This holds of
every setter in every configuration. -/
theorem C24_setter {x : FCtx} {τ : Ty} {b : Body} (h : Helper x .setter τ b) {f : Field V} (hf : Idle τ f)
    (env : CallEnv V E) :
    ∃ a f', call b env f = (.value (.own a), f', none) ∧ content a = content f.val ∧ content f'.val = some env.arg ∧
      Idle τ f' := by
  obtain ⟨hc, hv⟩ := h.form hf
  obtain ⟨a, h1, h2⟩ := setter_run x b h.code env (content f.val) hc
  rw [hv]
  refine ⟨a, _, h1, ?_, content_fieldOf x _, h.idle (by simp)⟩
  rw [h2]; exact (content_fieldOf x _).symm

/-- The accessor of a field with content, and of an optional field in any state, shows the content and changes nothing. -/
theorem C24_accessor {x : FCtx} {τ : Ty} {b : Body} (h : Helper x .accessor τ b) {f : Field V} (hf : Idle τ f)
    (env : CallEnv V E) (hal : x.ctx.args.isRefCounted = true → env.alive = true)
    (hp : x.isLazy = true → content f.val ≠ none) :
    ∃ a f', call b env f = (.value a, f', none) ∧ seen f' a = content f.val ∧ dropped f' a = f := by
  obtain ⟨hc, hv⟩ := h.form hf
  have hr : refusedAccessor x = false := h.ok
  have := accessor_hit x b h.code env (content f.val)
    (fun hh => by rcases hl : x.isLazy with _ | _; exact hc hl (hh.resolve_left (by simp [hl])); exact hp hl) hr hal
  obtain ⟨a, f', h1, h2, h3⟩ := this
  rw [← hv] at h1 h3
  exact ⟨a, f', h1, h2, h3⟩

/-- After the setter stored a value the accessor yields it. -/
theorem C24_set_then_get {x : FCtx} {τ : Ty} {bs ba : Body} (hs : Helper x .setter τ bs) (ha : Helper x .accessor τ ba)
    {f : Field V} (hf : Idle τ f) (env env' : CallEnv V E) (hal : x.ctx.args.isRefCounted = true → env'.alive = true) :
    ∃ a f₁ g f₂, call bs env f = (.value a, f₁, none) ∧ call ba env' f₁ = (.value g, f₂, none) ∧
      seen f₂ g = some env.arg ∧ dropped f₂ g = f₁ := by
  obtain ⟨a, f₁, h1, _, h3, h4⟩ := C24_setter hs hf env
  obtain ⟨g, f₂, h5, h6, h7⟩ := C24_accessor ha h4 env' hal (fun _ => by rw [h3]; simp)
  exact ⟨_, f₁, g, f₂, h1, h5, h6.trans h3, h7⟩

/-- `get_mut` gives access to the content; what is written through it is the new content. -/
theorem C24_accessorMut {x : FCtx} {τ : Ty} {b : Body} (h : Helper x .accessorMut τ b) {f : Field V} (hf : Idle τ f)
    (env : CallEnv V E) (hal : x.ctx.args.isRefCounted = true → env.alive = true)
    (hp : x.isLazy = true → content f.val ≠ none) :
    ∃ a f', call b env f = (.value a, f', none) ∧ seen f' a = content f.val ∧ dropped f' a = f ∧
      ∀ v, content (dropped (overwrite f' v a) a).val = some v ∧ Idle τ (dropped (overwrite f' v a) a) := by
  obtain ⟨hc, hv⟩ := h.form hf
  have hr : refusedAccessorMut x = false := h.ok
  obtain ⟨a, f', h1, h2, h4, h3⟩ := accessorMut_hit x b h.code env (content f.val)
    (fun hh => by rcases hl : x.isLazy with _ | _; exact hc hl (hh.resolve_left (by simp [hl])); exact hp hl) hr hal
  rw [← hv] at h1 h4
  refine ⟨a, f', h1, h2, h4, fun v => ?_⟩
  rw [h3 v]
  exact ⟨content_fieldOf x _, h.idle (by simp)⟩

/-- The reader shows the content. -/
theorem C24_reader {x : FCtx} {τ : Ty} {b : Body} (h : Helper x .reader τ b) {f : Field V} (hf : Idle τ f)
    (env : CallEnv V E) (hal : x.ctx.args.isRefCounted = true → env.alive = true)
    (hp : x.isLazy = true → content f.val ≠ none) :
    ∃ a f', call b env f = (.value a, f', none) ∧ seen f' a = content f.val ∧ dropped f' a = f := by
  obtain ⟨hc, hv⟩ := h.form hf
  have hr : refusedReader x = false := h.ok
  obtain ⟨a, f', h1, h2, h3⟩ := reader_hit x b h.code env (content f.val)
    (fun hh => by rcases hl : x.isLazy with _ | _; exact hc hl (hh.resolve_left (by simp [hl])); exact hp hl) hr hal
  rw [← hv] at h1 h3
  exact ⟨a, f', h1, h2, h3⟩

/-- The writer gives access to the content, present or not, without running a builder; what is stored through it is the new
content. -/
theorem C24_writer {x : FCtx} {τ : Ty} {b : Body} (h : Helper x .writer τ b) {f : Field V} (hf : Idle τ f)
    (env : CallEnv V E) :
    ∃ a f', call b env f = (.value a, f', none) ∧ seen f' a = content f.val ∧ dropped f' a = f ∧
      ∀ v, content (dropped (overwrite f' v a) a).val = some v ∧ Idle τ (dropped (overwrite f' v a) a) := by
  obtain ⟨hc, hv⟩ := h.form hf
  have hr : refusedWriter x = false := h.ok
  obtain ⟨a, f', h1, h2, h4, h3⟩ := writer_run x b h.code env (content f.val) hc hr
  rw [← hv] at h1 h4
  refine ⟨a, f', h1, h2, h4, fun v => ?_⟩
  rw [h3 v]
  exact ⟨content_fieldOf x _, h.idle (by simp)⟩

/-- The accessors and the reader of an empty lazy field run the builder once. If it gives a value, the value is shown and
stays. -/
theorem C24_lazy_build {x : FCtx} {k : Kind} (hk : k = .accessor ∨ k = .reader ∨ k = .accessorMut) {τ : Ty} {b : Body}
    (h : Helper x k τ b) {f : Field V} (hf : Idle τ f) (env : CallEnv V E)
    (hal : x.ctx.args.isRefCounted = true → env.alive = true) (hl : x.isLazy = true) (he : content f.val = none)
    {v : V} (hv : env.bld = .ok v) :
    ∃ a f', call b env f = (.value a, f', some (.ok v)) ∧ seen f' a = some v ∧
      content (dropped f' a).val = some v ∧ Idle τ (dropped f' a) ∧
      (k = .accessorMut → ∀ w, content (dropped (overwrite f' w a) a).val = some w ∧
        Idle τ (dropped (overwrite f' w a) a)) := by
  obtain ⟨hc, hfv⟩ := h.form hf
  rw [he] at hfv
  have hr := h.ok
  rcases hk with rfl | rfl | rfl
  · obtain ⟨a, f', h1, h2, h3⟩ := accessor_build x b h.code env v hv hl hr hal
    rw [← hfv] at h1
    exact ⟨a, f', h1, h2, by rw [h3]; exact content_fieldOf x _, by rw [h3]; exact h.idle (by simp), by simp⟩
  · obtain ⟨a, f', h1, h2, h3⟩ := reader_build x b h.code env v hv hl hr hal
    rw [← hfv] at h1
    exact ⟨a, f', h1, h2, by rw [h3]; exact content_fieldOf x _, by rw [h3]; exact h.idle (by simp), by simp⟩
  · obtain ⟨a, f', h1, h2, h4, h3⟩ := accessorMut_build x b h.code env v hv hl hr hal
    rw [← hfv] at h1
    exact ⟨a, f', h1, h2, by rw [h4]; exact content_fieldOf x _, by rw [h4]; exact h.idle (by simp), fun _ w => by rw [h3 w]; exact ⟨content_fieldOf x _, h.idle (by simp)⟩⟩

/-- If the builder fails or panics, so does the access, and the field is as before. -/
theorem C24_lazy_fail {x : FCtx} {k : Kind} (hk : k = .accessor ∨ k = .reader ∨ k = .accessorMut) {τ : Ty} {b : Body}
    (h : Helper x k τ b) {f : Field V} (hf : Idle τ f) (env : CallEnv V E)
    (hal : x.ctx.args.isRefCounted = true → env.alive = true) (hl : x.isLazy = true) (he : content f.val = none) :
    (∀ e, env.bld = .err e → x.isFallible = true → call b env f = (.error e, f, some (.err e))) ∧
    (env.bld = .panic → call b env f = (.panicked, f, some .panic)) := by
  obtain ⟨hc, hfv⟩ := h.form hf
  rw [he] at hfv
  have hr := h.ok
  rw [hfv]
  rcases hk with rfl | rfl | rfl
  · exact ⟨fun e h1 h2 => accessor_fail x b h.code env e h1 hl h2 hr hal, fun h1 => accessor_panic x b h.code env h1 hl hr hal⟩
  · exact ⟨fun e h1 h2 => reader_fail x b h.code env e h1 hl h2 hr hal, fun h1 => reader_panic x b h.code env h1 hl hr hal⟩
  · exact ⟨fun e h1 h2 => accessorMut_fail x b h.code env e h1 hl h2 hr hal,
      fun h1 => accessorMut_panic x b h.code env h1 hl hr hal⟩

/-- The clearer of a lazy or optional field returns the content and empties the field. -/
theorem C24_clearer_partial {x : FCtx} {τ : Ty} {b : Body} (h : Helper x .clearer τ b) {f : Field V} (hf : Idle τ f)
    (env : CallEnv V E) (hx : x.isLazy = true ∨ x.isOptional = true) :
    ∃ a f', call b env f = (.value (.own a), f', none) ∧ content a = content f.val ∧ content f'.val = none ∧ Idle τ f' := by
  obtain ⟨hc, hv⟩ := h.form hf
  obtain ⟨a, h1, h2⟩ := clearer_run x b h.code env (content f.val) hc h.ok (by simpa using hx)
  rw [← hv] at h1
  exact ⟨a, _, h1, h2, content_fieldOf x _, h.idle (by rcases hx with hx | hx <;> simp [hx])⟩

/-- Without the restriction this fails: the clearer written for a plain `inner_mut` field with `optional(off)` leaves
`T::default()` in the field. -/
theorem C24_clearer_leaves_default {x : FCtx} {τ : Ty} {b : Body} (h : Helper x .clearer τ b) {f : Field V} (hf : Idle τ f)
    (env : CallEnv V E) (hx : x.isLazy = false ∧ x.isOptional = false) :
    ∃ f', call b env f = (.value (.own (.val ((content f.val).getD env.dflt))), f', none) ∧ content f'.val = some env.dflt := by
  obtain ⟨hc, hv⟩ := h.form hf
  have := hc hx.1 hx.2
  rcases hw : content f.val with _ | w
  · exact absurd hw this
  rw [hw] at hv
  have h1 := clearer_run_cell x b h.code env w h.ok (by simp [hx])
  rw [← hv] at h1
  exact ⟨_, h1, content_fieldOf x _⟩

/-! ## C25 -/

/-- The predicate is true exactly if there is content, and does nothing; except for `fallible` optional fields behind a
lock. -/
theorem C25_predicate_partial {x : FCtx} {τ : Ty} {b : Body} (h : Helper x .predicate τ b) {f : Field V} (hf : Idle τ f)
    (env : CallEnv V E)
    (hx : ¬ (x.isSync = true ∧ x.isLazy = false ∧ x.needsLock = true ∧ x.isFallible = true)) :
    call b env f = (.value (.bool (content f.val).isSome), f, none) := by
  obtain ⟨hc, hv⟩ := h.form hf
  have hp : (!x.isSync && !(x.isLazy || x.isOptional)) = false := by
    have he := h.emit
    simp only [emits, notSkipped h.emit, Bool.false_eq_true, if_false] at he
    revert he
    generalize x.isSync = a; generalize x.needsPredicate = b; generalize x.isLazy = c; generalize x.isOptional = d
    revert a b c d; decide
  have h1 := predicate_run x b h.code env (content f.val) hp h.ok
    (by revert hx; generalize x.isSync = a; generalize x.isLazy = b; generalize x.needsLock = c
        generalize x.isFallible = d; revert a b c d; decide)
  rw [← hv] at h1
  exact h1

/-- In the excepted configurations the predicate tells whether nobody writes: `try_read().is_some()`. -/
theorem C25_predicate_tries_lock {x : FCtx} {τ : Ty} {b : Body} (h : Helper x .predicate τ b) {f : Field V}
    (hf : ValTy f.val τ) (env : CallEnv V E)
    (hx : x.isSync = true ∧ x.isLazy = false ∧ x.needsLock = true ∧ x.isFallible = true) :
    call b env f = (.value (.bool !f.wr), f, none) := by
  rw [declType_typeOf x τ (notSkipped h.emit) h.type] at hf
  obtain ⟨c, hc, hv⟩ := exists_valOf hf
  exact predicate_run_try x b h.code env f c hv h.ok (by simp [hx])

/-! ## Concrete cases -/

/-- A `Helper` by evaluation. -/
theorem helper_of {x : FCtx} {k : Kind} {τ : Ty} {b : Body}
    (h : (isHelper k && emits x k && (declType x == .ok τ) && (body x k == .ok b) &&
      Verif.Proof.MethodTy.checkBody τ (wantsCopy x) b) = true) : Helper x k τ b := by
  simp only [Bool.and_eq_true, beq_iff_eq] at h
  obtain ⟨⟨⟨⟨h1, h2⟩, h3⟩, h4⟩, h5⟩ := h
  exact ⟨h1, h2, h3, h4, (Verif.Proof.MethodTy.checkBody_iff _ _ _).mp h5⟩

/-- `#[fxstruct(sync, fallible(error(E)))]` with a field `#[fieldx(optional, lock, predicate, set)]`. The exclusive
argument check at field level does not see the struct-level `fallible`. -/
def fallibleOptional : FCtx :=
  { ctx := { args := { modeSync := some true, fallible := some { error := some "E" } } }
    field := { optional := some true, predicate := some {}, setter := some {} } }

theorem fallibleOptional_predicate : Helper fallibleOptional .predicate (.lock false (.opt .t))
    { ret := .bool, main := [.tryRead, .isSome] } := helper_of (by decide +kernel)

/-- C25 is false of the code: an empty field for which the predicate says yes. -/
theorem C25_fails : ∃ (x : FCtx) (τ : Ty) (b : Body) (f : Field Nat) (env : CallEnv Nat Nat),
    Verif.Model.Exclusive.acceptFieldFull x.field = true ∧ Verif.Model.Exclusive.acceptStructFull x.ctx.args = true ∧
    Helper x .predicate τ b ∧ Idle τ f ∧ content f.val = none ∧ call b env f = (.value (.bool true), f, none) := by
  refine ⟨fallibleOptional, _, _, { val := .lock false .none }, { arg := 0, bld := .panic, dflt := 0 }, by decide +kernel,
    by decide +kernel, fallibleOptional_predicate, ⟨.lock .none, rfl, rfl⟩, rfl, rfl⟩

/-- A plain struct with a field `#[fieldx(inner_mut, optional(off), clearer)]`. -/
def innerMutClearer : FCtx :=
  { ctx := { }, field := { innerMut := some true, optional := some false, clearer := some {}, modeSync := some false } }

theorem innerMutClearer_clearer : Helper innerMutClearer .clearer (.cell .t) { ret := .own .t, main := [.take] } :=
  helper_of (by decide +kernel)

/-- The clearer law is false of the code for that field: it does not end up empty. -/
theorem C24_clearer_fails : ∃ (x : FCtx) (τ : Ty) (b : Body) (f f' : Field Nat) (env : CallEnv Nat Nat) (a : CV Nat Nat),
    Verif.Model.Exclusive.acceptFieldFull x.field = true ∧ Verif.Model.Exclusive.acceptStructFull x.ctx.args = true ∧
    Helper x .clearer τ b ∧ Idle τ f ∧ call b env f = (.value a, f', none) ∧ content f'.val ≠ none := by
  refine ⟨innerMutClearer, _, _, { val := .cell (.val 5) }, { val := .cell (.val 0) }, { arg := 0, bld := .panic, dflt := 0 },
    .own (.val 5), by decide +kernel, by decide +kernel, innerMutClearer_clearer, ⟨.cell (.val 5), rfl, rfl⟩, rfl, ?_⟩
  simp [content]

/-- `fullSync` with its declared type: a lazy field of a sync struct with all helpers. -/
example : Helper fullSync .setter (.proxy false false) { ret := .own (.opt .t), main := [.write, .storeV] } ∧
    Helper fullSync .accessor (.proxy false false) { ret := .own .t, main := [.lazyRead false false false, .star, .clone] } ∧
    Helper fullSync .clearer (.proxy false false) { ret := .own (.opt .t), main := [.clear] } ∧
    Helper fullSync .predicate (.proxy false false) { ret := .bool, main := [.isSet] } ∧
    Helper fullSync .reader (.proxy false false) { ret := .guard .mapRead .t, main := [.lazyRead false false false] } ∧
    Helper fullSync .writer (.proxy false false) { ret := .guard (.fx false) (.opt .t), main := [.write] } ∧
    Helper fullSync .accessorMut (.proxy false false)
      { ret := .guard (.mapWrite false) .t, main := [.lazyRead false true false] } := by
  refine ⟨?_, ?_, ?_, ?_, ?_, ?_, ?_⟩ <;> exact helper_of (by decide +kernel)

example : Idle (.proxy false false) ({ val := .proxy false (.some (.val 5)) } : Field Nat) ∧
    Idle (.proxy false false) ({ val := .proxy false .none } : Field Nat) :=
  ⟨⟨.proxy (.some (.val 5)), rfl, rfl⟩, ⟨.proxy .none, rfl, rfl⟩⟩

end Verif.Props.Method
