import Verif.Proof.User
import Verif.Props.Guards
/-
C112: the user's code which helpers call: what it is, which guards are alive meanwhile, what it can do with the field, and what is left
if it panics.
-/
namespace Verif.Props.User
open Verif.Model.Args Verif.Model.Init Verif.Model.Method Verif.Model.User Verif.Spec.InitTy Verif.Spec.MethodTy Verif.Spec.Helper
open Verif.Spec.User Verif.Spec.Guards
open Verif.Proof.Method Verif.Proof.MethodLaws Verif.Proof.User Verif.Props.Method Verif.Props.MethodTy Verif.Props.Guards
open Verif.Spec (Outcome)

variable {V E : Type}

/-- All calls, by kind of helper. -/
theorem visits_eq {x : FCtx} {k : Kind} {τ : Ty} {b : Body} (h : Helper x k τ b) {f : Field V} (hf : Idle τ f) (env : CallEnv V E)
    (hal : rc x = true → env.alive = true) :
    visits x.isSetterInto b env f =
      match k with
      | .setter =>
        if x.isSetterInto then [visit x .convert (if x.isSync = false ∧ x.isLazy = true then none else content f.val)] else []
      | .accessor =>
        (if Spec.User.builds x (content f.val) then [visit x .build none] else []) ++
          (if clones x && filled x (content f.val) env.bld then [visit x .clone (final (content f.val) env.bld)] else [])
      | .reader | .accessorMut => if Spec.User.builds x (content f.val) then [visit x .build none] else []
      | _ => [] := by
  obtain ⟨hc, hv⟩ := h.form hf
  have hr := h.ok
  have hk := h.kind
  have hb := h.code
  generalize content f.val = c at *
  subst hv
  cases k with
  | accessor => exact accessor_visits x b hb _ env c hc hr hal
  | accessorMut => exact accessorMut_visits x b hb _ env c hc hr hal
  | reader => exact reader_visits x b hb _ env c hc hr hal
  | setter => exact setter_visits x b hb _ env c hc
  | writer => exact other_visits x _ b hb (.inl rfl) hr _ env c hc
  | clearer => exact other_visits x _ b hb (.inr (.inl rfl)) hr _ env c hc
  | predicate => exact other_visits x _ b hb (.inr (.inr rfl)) hr _ env c hc
  | builder => cases hk
  | «lazy» => cases hk

/-- **C112.** Which code of the user a helper calls, in which order: each at most once. -/
theorem C112_calls {x : FCtx} {k : Kind} {τ : Ty} {b : Body} (h : Helper x k τ b) {f : Field V} (hf : Idle τ f) (env : CallEnv V E)
    (hal : rc x = true → env.alive = true) :
    (visits x.isSetterInto b env f).map (·.code) = expected x k (content f.val) env.bld := by
  rw [visits_eq h hf env hal]
  unfold expected
  cases k <;> try rfl
  · cases Spec.User.builds x (content f.val) <;> cases (clones x && filled x (content f.val) env.bld) <;> rfl
  · cases Spec.User.builds x (content f.val) <;> rfl
  · cases Spec.User.builds x (content f.val) <;> rfl
  · cases x.isSetterInto <;> rfl

/-- What is known of each call. -/
theorem visit_mem {x : FCtx} {k : Kind} {τ : Ty} {b : Body} (h : Helper x k τ b) {f : Field V} (hf : Idle τ f) (env : CallEnv V E)
    (hal : rc x = true → env.alive = true) {v : Visit V} (hm : v ∈ visits x.isSetterInto b env f) :
    ∃ c, v = visit x v.code c ∧
      ((v.code = .build ∧ x.isLazy = true ∧ content f.val = none ∧ c = none) ∨
       (v.code = .clone ∧ k = .accessor ∧ c.isSome = true ∧
          (c = content f.val ∨ x.isLazy = true ∧ content f.val = none ∧ ∃ w, env.bld = .ok w ∧ c = some w)) ∨
       (v.code = .convert ∧ k = .setter ∧ ((x.isSync = false ∧ x.isLazy = true ∧ c = none) ∨
          (¬ (x.isSync = false ∧ x.isLazy = true) ∧ c = content f.val)))) := by
  rw [visits_eq h hf env hal] at hm
  have hb : ∀ {v : Visit V}, v ∈ (if Spec.User.builds x (content f.val) then [visit x .build none] else []) →
      v = visit x .build none ∧ x.isLazy = true ∧ content f.val = none := by
    intro v hv
    cases hh : Spec.User.builds x (content f.val) with
    | false => rw [hh] at hv; simp at hv
    | true =>
      rw [hh] at hv
      simp only [if_true, List.mem_singleton] at hv
      unfold Spec.User.builds at hh
      simp only [Bool.and_eq_true, Option.isNone_iff_eq_none] at hh
      exact ⟨hv, hh⟩
  have hbuild : v = visit x .build none ∧ x.isLazy = true ∧ content f.val = none → ∃ c, v = visit x v.code c ∧
      ((v.code = .build ∧ x.isLazy = true ∧ content f.val = none ∧ c = none) ∨
       (v.code = .clone ∧ k = .accessor ∧ c.isSome = true ∧
          (c = content f.val ∨ x.isLazy = true ∧ content f.val = none ∧ ∃ w, env.bld = .ok w ∧ c = some w)) ∨
       (v.code = .convert ∧ k = .setter ∧ ((x.isSync = false ∧ x.isLazy = true ∧ c = none) ∨
          (¬ (x.isSync = false ∧ x.isLazy = true) ∧ c = content f.val)))) := by
    rintro ⟨rfl, h1, h2⟩
    exact ⟨none, rfl, .inl ⟨rfl, h1, h2, rfl⟩⟩
  cases k with
  | accessor =>
    rcases List.mem_append.1 hm with hm | hm
    · exact hbuild (hb hm)
    · cases hh : (clones x && filled x (content f.val) env.bld) with
      | false => rw [hh] at hm; simp at hm
      | true =>
        rw [hh] at hm
        simp only [if_true, List.mem_singleton] at hm
        subst hm
        refine ⟨_, rfl, .inr (.inl ⟨rfl, rfl, ?_⟩)⟩
        have hf' := (Bool.and_eq_true _ _ ▸ hh : _ ∧ _).2
        unfold filled at hf'
        cases hc : content f.val with
        | some w => exact ⟨rfl, .inl rfl⟩
        | none =>
          rw [hc] at hf'
          simp only [Option.isSome_none, Bool.false_or, Bool.and_eq_true] at hf'
          cases hbl : env.bld with
          | ok w => exact ⟨rfl, .inr ⟨hf'.1, rfl, w, rfl, rfl⟩⟩
          | err e => rw [hbl] at hf'; simp at hf'
          | panic => rw [hbl] at hf'; simp at hf'
  | reader => exact hbuild (hb hm)
  | accessorMut => exact hbuild (hb hm)
  | setter =>
    cases hh : x.isSetterInto with
    | false => rw [hh] at hm; simp at hm
    | true =>
      rw [hh] at hm
      simp only [if_true, List.mem_singleton] at hm
      subst hm
      refine ⟨_, rfl, .inr (.inr ⟨rfl, rfl, ?_⟩)⟩
      by_cases hp : x.isSync = false ∧ x.isLazy = true
      · exact .inl ⟨hp.1, hp.2, by simp [hp]⟩
      · exact .inr ⟨hp, by rw [if_neg hp]⟩
  | writer => cases hm
  | clearer => cases hm
  | predicate => cases hm
  | builder => cases hm
  | «lazy» => cases hm

/-- **C112.** The guards alive on the field meanwhile: builders and conversions have the write lock if there is a lock, `clone` runs beside
one shared guard if there is a lock or a cell, or none. -/
theorem C112_guards {x : FCtx} {k : Kind} {τ : Ty} {b : Body} (h : Helper x k τ b) {f : Field V} (hf : Idle τ f) (env : CallEnv V E)
    (hal : rc x = true → env.alive = true) {v : Visit V} (hm : v ∈ visits x.isSetterInto b env f) :
    (v.now.rd, v.now.wr) = guards x v.code ∧ v.now.val = v.after.val := by
  obtain ⟨c, hv, _⟩ := visit_mem h hf env hal hm
  rw [hv]
  exact ⟨rfl, rfl⟩

/-- **C112.** If the user's code panics no guard is left, and the field is as it was before, or holds what its builder gave if that was
called by the same helper and came to an end. What is missing: setters of plain lazy fields, `C112_lost`. -/
theorem C112_panic_partial {x : FCtx} {k : Kind} {τ : Ty} {b : Body} (h : Helper x k τ b) {f : Field V} (hf : Idle τ f)
    (env : CallEnv V E) (hal : rc x = true → env.alive = true) {v : Visit V} (hm : v ∈ visits x.isSetterInto b env f)
    (hp : ¬ (x.isSync = false ∧ x.isLazy = true ∧ k = .setter)) :
    Idle τ v.after ∧
      (v.after = f ∨ (v.code = .clone ∧ content f.val = none ∧ ∃ w, env.bld = .ok w ∧ content v.after.val = some w)) := by
  obtain ⟨c, hv, hc⟩ := visit_mem h hf env hal hm
  obtain ⟨hcc, hform⟩ := h.form hf
  have ha : v.after = fieldOf x c := by rw [hv]; rfl
  rw [ha]
  rcases hc with ⟨_, h1, h2, rfl⟩ | ⟨h1, _, h3, h4⟩ | ⟨_, h2, h3⟩
  · exact ⟨h.idle (by simp [h1]), .inl (by rw [hform, h2])⟩
  · rcases h4 with h4 | ⟨h5, h6, w, h7, h8⟩
    · subst h4
      exact ⟨h.idle hcc, .inl hform.symm⟩
    · subst h8
      exact ⟨h.idle (by simp), .inr ⟨h1, h6, w, h7, content_fieldOf x _⟩⟩
  · rcases h3 with ⟨h4, h5, _⟩ | ⟨_, h4⟩
    · exact absurd ⟨h4, h5, h2⟩ hp
    · subst h4
      exact ⟨h.idle hcc, .inl hform.symm⟩

/-- **C112.** The setter of a plain lazy field empties it before it converts: if the conversion panics the value is lost. -/
theorem C112_lost {x : FCtx} {τ : Ty} {b : Body} (h : Helper x .setter τ b) {f : Field V} (hf : Idle τ f) (env : CallEnv V E)
    (hs : x.isSync = false) (hl : x.isLazy = true) (hi : x.isSetterInto = true) (hal : rc x = true → env.alive = true) :
    ∃ v, visits x.isSetterInto b env f = [v] ∧ v.code = .convert ∧ content v.after.val = none ∧ Idle τ v.after := by
  rw [visits_eq h hf env hal]
  simp only [hi, if_true, hs, hl, true_and]
  exact ⟨_, rfl, rfl, content_fieldOf x _, h.idle (by simp [hl])⟩

/-- **C112.** What the user's code can do with the field it is called for, in the same thread or task: which helpers never return. -/
theorem C112_waits_iff {x : FCtx} {k : Kind} {τ : Ty} {b : Body} (h : Helper x k τ b) {f : Field V} (hf : Idle τ f) (env : CallEnv V E)
    (hal : rc x = true → env.alive = true) {v : Visit V} (hm : v ∈ visits x.isSetterInto b env f) (hs : x.isSync = true)
    {k' : Kind} {b' : Body} (h' : Helper x k' τ b') (env' : CallEnv V E) (hal' : rc x = true → env'.alive = true) :
    (call b' env' v.now).1 = .blocked ↔
      (x.isLazy = true ∨ x.needsLock = true) ∧
      ((v.code ≠ .clone ∧ ¬ (k' = .predicate ∧ (x.isLazy = true ∨ x.isFallible = true))) ∨
       (v.code = .clone ∧ ((k' = .setter ∨ k' = .writer ∨ k' = .clearer ∨ k' = .accessorMut) ∨
          ((k' = .accessor ∨ k' = .reader) ∧ x.isLazy = true ∧ x.isAsync = true)))) := by
  obtain ⟨c, hv, hc⟩ := visit_mem h hf env hal hm
  have hty : ValTy v.now.val τ := by
    have hn : v.now.val = (fieldOf x c).val := by rw [hv]; rfl
    rw [hn]
    refine (h.idle (c := c) ?_).typed
    intro hl ho
    rcases hc with ⟨_, h1, _⟩ | ⟨_, _, h3, _⟩ | ⟨_, _, h3⟩
    · rw [hl] at h1; cases h1
    · intro hn; rw [hn] at h3; cases h3
    · rcases h3 with ⟨_, h5, _⟩ | ⟨_, h4⟩
      · rw [hl] at h5; cases h5
      · rw [h4]; exact (h.form hf).1 hl ho
  obtain ⟨hg, _⟩ := C112_guards h hf env hal hm
  have hcont : content v.now.val = c := by rw [hv]; exact content_fieldOf x _
  by_cases hlk : x.isLazy = true ∨ x.needsLock = true
  · have hlocked : locked x = true := by
      unfold locked
      rw [hs]
      simpa using hlk
    by_cases hcl : v.code = .clone
    · have hw : v.now.wr = false := by
        have := congrArg Prod.snd hg
        rw [hcl] at this
        exact this
      have hr : v.now.rd = 1 := by
        have := congrArg Prod.fst hg
        rw [hcl] at this
        simpa [guards, hlocked] using this
      have hne : c ≠ none := by
        rcases hc with ⟨h1, _⟩ | ⟨_, _, h3, _⟩ | ⟨h1, _⟩
        · rw [hcl] at h1; cases h1
        · intro hn; rw [hn] at h3; cases h3
        · rw [hcl] at h1; cases h1
      rw [C106_beside_readers h' hty env' hs hal' hw (by rw [hr]; decide), hcont]
      simp [hlk, hcl, hne]
    · have hw : v.now.wr = true := by
        have := congrArg Prod.snd hg
        revert this hcl
        cases v.code <;> simp [guards, hlocked]
      rw [C106_beside_writer h' hty env' hs hal' hw]
      rcases hl : x.isLazy with _ | _
      · simp only [hl, Bool.false_eq_true, false_or] at hlk
        simp [hlk, hcl]
      · simp [hcl]
  · have hnl : x.isLazy = false ∧ x.needsLock = false := by
      simp only [not_or, Bool.not_eq_true] at hlk
      exact hlk
    rw [C106_waits_iff h' hty env' hs hal']
    unfold needOf need
    simp [hnl.1, hnl.2, inTheWay]

/-- **C112.** The same for a plain field with `inner_mut`: `clone` called by the accessor cannot set or clear the field it is called for, a
conversion can. -/
theorem C112_cell_iff {x : FCtx} {k : Kind} {τ : Ty} {b : Body} (h : Helper x k τ b) {f : Field V} (hf : Idle τ f) (env : CallEnv V E)
    (hal : rc x = true → env.alive = true) {v : Visit V} (hm : v ∈ visits x.isSetterInto b env f) (hs : x.isSync = false)
    (hl : x.isLazy = false) (hi : x.isInnerMut = true) {k' : Kind} {b' : Body} (h' : Helper x k' τ b') (env' : CallEnv V E) :
    (call b' env' v.now).1 = .panicked ↔ v.code = .clone ∧ (k' = .setter ∨ k' = .clearer ∨ k' = .accessorMut) := by
  obtain ⟨c, hv, hc⟩ := visit_mem h hf env hal hm
  have hne : x.isLazy = false → x.isOptional = false → c ≠ none := by
    intro hl' ho
    rcases hc with ⟨_, h1, _⟩ | ⟨_, _, h3, _⟩ | ⟨_, _, h3⟩
    · rw [hl] at h1; cases h1
    · intro hn; rw [hn] at h3; cases h3
    · rcases h3 with ⟨_, h5, _⟩ | ⟨_, h4⟩
      · rw [hl] at h5; cases h5
      · rw [h4]; exact (h.form hf).1 hl' ho
  have hlk : locked x = false := by simp [locked, hs]
  have key : ∀ n, guards x v.code = (n, false) → ((call b' env' v.now).1 = .panicked ↔
      n ≠ 0 ∧ (k' = .setter ∨ k' = .clearer ∨ k' = .accessorMut)) := by
    intro n hn
    have : v.now = withGuards x c (n, false) := by rw [hv, ← hn]; rfl
    rw [this]
    exact cell_panics x k' b' h'.code h'.ok env' c hne hs hl hi n
  cases hcode : v.code with
  | clone =>
    rw [key 1 (by simp [hcode, guards, hs, hl, hi])]
    simp
  | build =>
    rw [key 0 (by simp [hcode, guards, hlk])]
    simp
  | convert =>
    rw [key 0 (by simp [hcode, guards, hlk])]
    simp

/-! ### Guards of others -/

private theorem hold_busy (c : Cfg V E) (ex : Bool) : (c.hold ex).f.busy = true := by
  cases ex <;> simp [Cfg.hold, Field.busy]

private theorem put_busy (c : Cfg V E) (d : Nat) (a : Val V) : (c.put d a).f.busy = c.f.busy := rfl

private theorem lazyRead_busy {env : CallEnv V E} {c c' : Cfg V E} {a : CV V E} {d : Nat} {rc m fa : Bool} (hb : c.f.busy = true)
    (h : lazyRead env c d rc m fa = .next c' a) : c'.f.busy = true := by
  unfold lazyRead at h
  repeat' (first | contradiction | split at h)
  all_goals first | contradiction | (injection h with h1 h2; subst h1; first | exact hold_busy .. | exact hb)

private theorem onPlace_busy {env : CallEnv V E} {c c' : Cfg V E} {a : CV V E} {d : Nat} {op : MOp} (hb : c.f.busy = true)
    (h : onPlace env c d op = .next c' a) : c'.f.busy = true := by
  unfold onPlace at h
  repeat' (first | contradiction | (exact lazyRead_busy hb h) | split at h)
  all_goals first | contradiction | exact lazyRead_busy hb h | (injection h with h1 h2; subst h1; first | exact hold_busy .. | exact hb)

private theorem stepOp_busy {env : CallEnv V E} {c c' : Cfg V E} {a a' : CV V E} {op : MOp} (hb : c.f.busy = true)
    (h : stepOp env c a op = .next c' a') : c'.f.busy = true := by
  unfold stepOp at h
  repeat' (first | contradiction | (exact onPlace_busy hb h) | split at h)
  all_goals first | contradiction | (injection h with h1 h2; subst h1; exact hb)

private theorem builds_busy {env : CallEnv V E} {c : Cfg V E} {d : Nat} {op : MOp} (hb : c.f.busy = true) {v : Visit V}
    (h : v ∈ Verif.Model.User.builds env c d op) : ∃ d, sub d v.now.val = some (.once .none) := by
  unfold Verif.Model.User.builds at h
  have hbl : c.blocked true = true := hb
  split at h
  · rename_i heq
    split at h
    · cases h
    · rw [List.mem_singleton] at h; subst h; exact ⟨d, heq⟩
  · rename_i heq
    split at h
    · cases h
    · rw [List.mem_singleton] at h; subst h; exact ⟨d, heq⟩
  · rw [hbl] at h
    split at h <;> cases h
  · cases h

private theorem calls_busy {into : Bool} {env : CallEnv V E} {c : Cfg V E} {a : CV V E} {op : MOp} (hb : c.f.busy = true) {v : Visit V}
    (h : v ∈ calls into env c a op) (hv : v.code = .build) : ∃ d, sub d v.now.val = some (.once .none) := by
  unfold calls at h
  repeat' (first | contradiction | (exact builds_busy hb h) | split at h)
  all_goals
    first
    | contradiction
    | (rw [List.mem_singleton] at h; subst h; cases hv)
    | cases h

private theorem chain_busy {into : Bool} {env : CallEnv V E} {ops : List MOp} {c : Cfg V E} {a : CV V E} (hb : c.f.busy = true)
    {v : Visit V} (h : v ∈ chainCalls into env c a ops) (hv : v.code = .build) : ∃ d, sub d v.now.val = some (.once .none) := by
  induction ops generalizing c a with
  | nil => cases h
  | cons op ops ih =>
    unfold chainCalls at h
    rcases List.mem_append.mp h with h | h
    · exact calls_busy hb h hv
    · split at h
      · rename_i hs
        exact ih (stepOp_busy hb hs) h
      · cases h

private theorem runChain_busy {env : CallEnv V E} {ops : List MOp} {c c' : Cfg V E} {a a' : CV V E} (hb : c.f.busy = true)
    (h : runChain env c a ops = .next c' a') : c'.f.busy = true := by
  induction ops generalizing c a with
  | nil => simp only [runChain] at h; injection h with h1 h2; subst h1; exact hb
  | cons op ops ih =>
    unfold runChain at h
    split at h
    · rename_i hs
      exact ih (stepOp_busy hb hs) h
    · rename_i hs; exact absurd h (hs _ _)

/-- **C112.** While anyone keeps a guard of the field no builder is called, whatever the body, except from an empty `OnceCell`, which
has no guards. -/
theorem C112_alone (into : Bool) (b : Body) (env : CallEnv V E) (f : Field V) {v : Visit V} (hm : v ∈ visits into b env f)
    (hv : v.code = .build) : f.busy = false ∨ ∃ d, sub d v.now.val = some (.once .none) := by
  cases hb : f.busy with
  | false => exact .inl rfl
  | true =>
    right
    unfold visits at hm
    split at hm
    · exact chain_busy hb hm hv
    · rcases List.mem_append.mp hm with hm | hm
      · exact chain_busy hb hm hv
      · split at hm
        · rename_i hs
          exact chain_busy (runChain_busy (c := { f := f }) hb hs) hm hv
        · cases hm

/-! ### Witnesses -/

/-- A plain struct with a field `#[fieldx(lazy, set(into))]`. -/
def plainLazy : FCtx :=
  { ctx := { }, field := { lazy := some {}, setter := some { into := some true }, modeSync := some false } }

theorem plainLazy_setter : Helper plainLazy .setter (.once .t)
    { recvMut := true, ret := .own (.opt .t), pre := some [.take], main := [.setV], retPre := true } := helper_of (by decide +kernel)

/-- **C112.** It is not true that a field is as it was when a helper has panicked in the user's code. -/
theorem C112_panic_false : ∃ (x : FCtx) (τ : Ty) (b : Body) (f : Field Nat) (env : CallEnv Nat Nat) (v : Visit Nat),
    Verif.Model.Exclusive.acceptFieldFull x.field = true ∧ Verif.Model.Exclusive.acceptStructFull x.ctx.args = true ∧
    Helper x .setter τ b ∧ Idle τ f ∧ v ∈ visits x.isSetterInto b env f ∧ content f.val = some 5 ∧ content v.after.val = none :=
  ⟨plainLazy, _, _, { val := .once (.some (.val 5)) }, { arg := 7, bld := .panic, dflt := 0 }, ⟨.convert, { val := .once .none },
    { val := .once .none }⟩, by decide +kernel, by decide +kernel, plainLazy_setter, ⟨.once (.some (.val 5)), rfl, rfl⟩,
    by decide +kernel, rfl, rfl⟩

/-- A sync struct with a field `#[fieldx(lock, get(clone), set(into))]`. -/
def syncLock : FCtx :=
  { ctx := { args := { modeSync := some true } }
    field := { lock := some true, setter := some { into := some true }, accessor := some { clone := true } } }

theorem syncLock_setter : Helper syncLock .setter (.lock false .t)
    { ret := .own .t, main := [.write, .star, .ampMut, .memReplaceV] } := helper_of (by decide +kernel)

theorem syncLock_accessor : Helper syncLock .accessor (.lock false .t)
    { ret := .own .t, main := [.read, .star, .clone] } := helper_of (by decide +kernel)

/-- **C112.** It is not true that the user's code can use the field it is called for: a conversion which calls the accessor never
returns. -/
theorem C112_waits_false : ∃ (x : FCtx) (τ : Ty) (b b' : Body) (f : Field Nat) (env : CallEnv Nat Nat) (v : Visit Nat),
    Verif.Model.Exclusive.acceptFieldFull x.field = true ∧ Verif.Model.Exclusive.acceptStructFull x.ctx.args = true ∧
    Helper x .setter τ b ∧ Helper x .accessor τ b' ∧ Idle τ f ∧ v ∈ visits x.isSetterInto b env f ∧
    (call b' env v.now).1 = .blocked :=
  ⟨syncLock, _, _, _, { val := .lock false (.val 5) }, { arg := 7, bld := .panic, dflt := 0 },
    ⟨.convert, { val := .lock false (.val 5), wr := true }, { val := .lock false (.val 5) }⟩, by decide +kernel, by decide +kernel,
    syncLock_setter, syncLock_accessor, ⟨.lock (.val 5), rfl, rfl⟩, by decide +kernel, rfl⟩

/-! ### Cases -/

/-- The accessor of an empty lazy field of a sync struct builds under the write lock and clones under a shared guard; if `clone` panics the
value stays. -/
example : visits (E := Nat) false { ret := .own .t, main := [.lazyRead false false false, .star, .clone] }
    { arg := 0, bld := .ok 7, dflt := 0 } ({ val := .proxy false .none } : Field Nat) =
    [⟨.build, { val := .proxy false .none, wr := true }, { val := .proxy false .none }⟩,
     ⟨.clone, { val := .proxy false (.some (.val 7)), rd := 1 }, { val := .proxy false (.some (.val 7)) }⟩] := by decide +kernel

/-- Beside a read guard nothing is built. -/
example : visits (E := Nat) false { ret := .own .t, main := [.lazyRead false false false, .star, .clone] }
    { arg := 0, bld := .ok 7, dflt := 0 } ({ val := .proxy false .none, rd := 1 } : Field Nat) = [] ∧
    ({ val := .proxy false .none } : Field Nat).busy = false := by decide +kernel

example {v : Visit Nat} (hm : v ∈ visits (E := Nat) false { ret := .own .t, main := [.lazyRead false false false, .star, .clone] }
    { arg := 0, bld := .ok 7, dflt := 0 } ({ val := .proxy false .none } : Field Nat)) (hv : v.code = .build) :
    ({ val := .proxy false .none } : Field Nat).busy = false ∨ ∃ d, sub d v.now.val = some (.once .none) :=
  C112_alone _ _ _ _ hm hv

/-- The async setter converts once it has the lock. -/
example : visits (E := Nat) true { isAsync := true, ret := .own .t, main := [.write, .await, .star, .ampMut, .memReplaceV] }
    { arg := 7, bld := .panic, dflt := 0 } ({ val := .lock true (.val 5) } : Field Nat) =
    [⟨.convert, { val := .lock true (.val 5), wr := true }, { val := .lock true (.val 5) }⟩] := by decide +kernel

/-- A plain cell is not borrowed while its setter converts. -/
example : visits (E := Nat) true { ret := .own .t, main := [.replaceV] } { arg := 7, bld := .panic, dflt := 0 }
    ({ val := .cell (.val 5) } : Field Nat) = [⟨.convert, { val := .cell (.val 5) }, { val := .cell (.val 5) }⟩] := by decide +kernel

/-- A plain struct with a field `#[fieldx(inner_mut, get(clone), set)]`. -/
def plainCell : FCtx :=
  { ctx := { }, field := { innerMut := some true, setter := some {}, accessor := some { clone := true }, modeSync := some false } }

/-- `clone` which sets the field it is called for panics. -/
example : (call (E := Nat) { ret := .own .t, main := [.replaceV] } { arg := 7, bld := .panic, dflt := 0 }
    { val := .cell (.val 5), rd := 1 }).1 = .panicked :=
  (C112_cell_iff (x := plainCell) (k := .accessor) (τ := .cell .t) (b := { ret := .own .t, main := [.borrow, .star, .clone] })
    (helper_of (by decide +kernel)) (f := { val := .cell (.val 5) }) ⟨.cell (.val 5), rfl, rfl⟩
    { arg := 0, bld := (.panic : Outcome Nat Nat), dflt := 0 } (by decide +kernel)
    (v := ⟨.clone, { val := .cell (.val 5), rd := 1 }, { val := .cell (.val 5) }⟩) (by decide +kernel) (by decide +kernel)
    (by decide +kernel) (by decide +kernel) (k' := .setter) (b' := { ret := .own .t, main := [.replaceV] })
    (helper_of (by decide +kernel)) _).2 ⟨rfl, .inl rfl⟩

/-- The hypotheses of the others hold for the setter of `syncLock`. -/
example : (call (E := Nat) { ret := .own .t, main := [.read, .star, .clone] } { arg := 7, bld := .panic, dflt := 0 }
    { val := .lock false (.val 5), wr := true }).1 = .blocked :=
  (C112_waits_iff syncLock_setter (f := { val := .lock false (.val 5) }) ⟨.lock (.val 5), rfl, rfl⟩
    { arg := 7, bld := (.panic : Outcome Nat Nat), dflt := 0 } (by decide +kernel)
    (v := ⟨.convert, { val := .lock false (.val 5), wr := true }, { val := .lock false (.val 5) }⟩) (by decide +kernel)
    (by decide +kernel) syncLock_accessor _ (by decide +kernel)).2 ⟨.inr (by decide +kernel), .inl ⟨by decide, by decide⟩⟩

end Verif.Props.User
