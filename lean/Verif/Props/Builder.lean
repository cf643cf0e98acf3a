import Verif.Proof.Builder
import Verif.Props.Init
/-
C27-C31, C53: the generated builder.
-/
namespace Verif.Props.Builder
open Verif.Model.Args Verif.Model.Init Verif.Model.Builder Verif.Model.Exclusive Verif.Spec.InitTy
open Verif.Proof.BuilderField Verif.Proof.Builder

variable {V : Type}

/-! ### Specification -/

/-- `builder(required)` in force for a field: its own argument decides, else that of the struct. -/
def RequiredArg (x : FCtx) : Prop :=
  (∃ b, x.field.builder = some b ∧ b.required = some true) ∨
  ((∀ b, x.field.builder = some b → b.required = none) ∧ ∃ b, x.ctx.args.builder = some b ∧ b.required = some true)

/-- A field `build()` must be given: asked for by `required`, or settable through the builder with nothing to fall back
on. -/
def Mandatory (x : FCtx) : Prop :=
  RequiredArg x ∨ (x.needsBuilder = true ∧ x.isLazy = false ∧ x.isOptional = false ∧ x.field.hasDefaultValue = false)

/-- What a field should hold: the value given; without it the declared default; without it nothing for a lazy or optional
field, and `T::default()` for others. -/
inductive Holds (x : FCtx) (env : Env V) : Option V → Option V → Prop
  | given (v) : Holds x env (some v) (some v)
  | declared (d) : x.defaultValue = some d → Holds x env none (some env.dv)
  | empty : x.defaultValue = none → (x.isLazy = true ∨ x.isOptional = true) → Holds x env none none
  | zero : x.defaultValue = none → x.isLazy = false → x.isOptional = false → Holds x env none (some env.dflt)

/-- Builder calls: field name and value; allowed if the field has a setter. -/
def Allowed (c : Ctx) (calls : List (String × V)) : Prop :=
  ∀ p ∈ calls, ∃ f ∈ builderFields c, f.ident = p.1 ∧ hasSetter ⟨c, f⟩ = true

/-- The state of a builder after the calls. -/
def after (s : Slots V) (calls : List (String × V)) : Slots V := calls.foldl (fun s p => s.set p.1 p.2) s

/-- The value given last to a field. -/
def lastGiven (n : String) : List (String × V) → Option V
  | [] => none
  | p :: ps => (lastGiven n ps).or (if p.1 = n then some p.2 else none)

/-- Rust rejects a struct with two fields of the same name. -/
def Distinct (c : Ctx) : Prop := ((builderFields c).map (·.ident)).Nodup

/-! ### Helper lemmas -/

theorem mandatory_iff (x : FCtx) : Mandatory x ↔ hasChecker x = true := by
  have hr : RequiredArg x ↔ x.isBuilderRequired = true := by
    unfold RequiredArg FCtx.isBuilderRequired StructArgs.isBuilderRequired
    cases hb : x.field.builder with
    | none => cases hs : x.ctx.args.builder with
      | none => simp
      | some s => rcases h : s.required with _ | (_ | _) <;> simp [h]
    | some b => rcases h : b.required with _ | (_ | _) <;>
        (cases hs : x.ctx.args.builder with
          | none => simp [h]
          | some s => rcases h' : s.required with _ | (_ | _) <;> simp [h, h'])
  unfold Mandatory hasChecker
  rw [hr]
  cases x.isBuilderRequired <;> cases x.needsBuilder <;> cases x.isLazy <;> cases x.isOptional <;>
    cases x.field.hasDefaultValue <;> simp

theorem holds_default (x : FCtx) (env : Env V) : Holds x env none (defaultContent x env) := by
  unfold defaultContent
  cases hd : x.defaultValue with
  | some d => simp only [Option.isSome_some, if_true]; exact .declared d hd
  | none =>
    cases hz : x.isLazy with
    | true => simp; exact .empty hd (.inl hz)
    | false =>
      cases ho : x.isOptional with
      | true => simp; exact .empty hd (.inr ho)
      | false => simp; exact .zero hd hz ho

theorem lastGiven_cons (n : String) (p : String × V) (ps : List (String × V)) :
    lastGiven n (p :: ps) = (lastGiven n ps).or (if p.1 = n then some p.2 else none) := rfl

/-- Fields with distinct names are determined by their name. -/
theorem ident_inj (l : List FieldArgs) (g f : FieldArgs) : (l.map (·.ident)).Nodup → g ∈ l → f ∈ l →
    g.ident = f.ident → g = f := by
  induction l with
  | nil => intro _ h; cases h
  | cons x xs ih =>
    intro hn hg hf hid
    rw [List.map_cons, List.nodup_cons] at hn
    cases hg with
    | head =>
      cases hf with
      | head => rfl
      | tail _ hf => exact absurd (by rw [hid]; exact List.mem_map_of_mem hf) hn.1
    | tail _ hg =>
      cases hf with
      | head => exact absurd (by rw [← hid]; exact List.mem_map_of_mem hg) hn.1
      | tail _ hf => exact ih hn.2 hg hf hid

theorem after_get (calls : List (String × V)) (s : Slots V) (n : String) :
    after s calls n = (lastGiven n calls).or (s n) := by
  induction calls generalizing s with
  | nil => simp [after, lastGiven]
  | cons p ps ih =>
    have : after s (p :: ps) = after (s.set p.1 p.2) ps := rfl
    rw [this, ih]
    rw [lastGiven_cons]
    unfold Slots.set
    by_cases h : n = p.1
    · subst h; cases lastGiven p.1 ps <;> simp
    · have h' : p.1 ≠ n := fun h' => h h'.symm
      cases lastGiven n ps <;> simp [h, h']

theorem lastGiven_some {n : String} {v : V} {calls : List (String × V)} (h : lastGiven n calls = some v) :
    (n, v) ∈ calls := by
  induction calls with
  | nil => simp [lastGiven] at h
  | cons p ps ih =>
    unfold lastGiven at h
    cases hl : lastGiven n ps with
    | some u => rw [hl] at h; simp at h; subst h; exact List.mem_cons_of_mem _ (ih hl)
    | none =>
      rw [hl] at h
      simp only [Option.none_or] at h
      split at h
      · rename_i hn; cases h; subst hn; simp
      · cases h

theorem after_settable {c : Ctx} {s : Slots V} (hs : Settable c s) {calls : List (String × V)} (ha : Allowed c calls) :
    Settable c (after s calls) := by
  intro n hn
  rw [after_get] at hn
  cases hl : lastGiven n calls with
  | some v =>
    obtain ⟨f, hf, hid, hset⟩ := ha _ (lastGiven_some hl)
    exact ⟨f, hf, hid, hset⟩
  | none => rw [hl] at hn; exact hs n (by simpa using hn)

theorem build_spec {c : Ctx} (w : String → Env V) (s : Slots V) (hd : Distinct c) (hc : Compiles c)
    (hm : ∀ f ∈ builderFields c, Mandatory ⟨c, f⟩ → s f.ident ≠ none) :
    build c w s = construct c w s (builderFields c) ∧
    (((∃ f ∈ builderFields c, FieldPanics c s f) ∧ (build c w s).1 = .panic) ∨
    ((∀ f ∈ builderFields c, ¬ FieldPanics c s f) ∧ ∃ obj, (build c w s).1 = .ok obj ∧
      Described c w s (builderFields c) obj ∧
      (∀ f ∈ builderFields c, hasSetter ⟨c, f⟩ = true → (build c w s).2 f.ident = none) ∧
      (∀ n, (∀ f ∈ builderFields c, f.ident = n → hasSetter ⟨c, f⟩ = false) → (build c w s).2 n = s n))) := by
  have hb : build c w s = construct c w s (builderFields c) := by
    unfold build
    rw [runCheckers_none.mpr fun f hf h => hm f hf ((mandatory_iff _).mpr h)]
  refine ⟨hb, ?_⟩
  rw [hb]
  apply construct_spec hd
  intro f hf
  obtain ⟨h1, h2⟩ := hc f hf
  have hk := not_skipped hf
  exact ⟨hk, h1, h2, fun τ e ht he => Verif.Props.Init.C23_builder ⟨c, f⟩ hk ht he,
    fun h => hm f hf ((mandatory_iff _).mpr h)⟩

/-! ### An example struct -/

/-- `#[fxstruct(builder)] struct S { a: T, #[fieldx(default(1))] b: T, #[fieldx(lazy)] c: T }`. -/
def exCtx : Ctx :=
  { args := { builder := some {} }
    fields := [{ ident := "a" }, { ident := "b", default := some { value := some "1" } }, { ident := "c", lazy := some {} }] }

def exEnv : String → Env Nat := fun _ => ⟨1, 0, 0, .none, .none, none⟩

theorem compiles_of {c : Ctx} (h : (builderFields c).all (fun f =>
    (match declType ⟨c, f⟩ with | .ok _ => true | _ => false) &&
    (match builderInit ⟨c, f⟩ with | .ok _ => true | _ => false)) = true) : Compiles c := by
  intro f hf
  have := List.all_eq_true.mp h f hf
  simp only [Bool.and_eq_true] at this
  refine ⟨?_, ?_⟩
  · cases hh : declType ⟨c, f⟩ <;> simp_all
  · cases hh : builderInit ⟨c, f⟩ <;> simp_all

theorem exCompiles : Compiles exCtx := compiles_of (by decide +kernel)
theorem exDistinct : Distinct exCtx := by unfold Distinct; decide +kernel

/-! ### C27 -/

/-- `build()` returns an error exactly if some mandatory field has no value, and the error names the first such field in
declaration order. -/
theorem C27_err_iff (c : Ctx) (w : String → Env V) (s : Slots V) (n : String) :
    (build c w s).1 = .err n ↔ ∃ pre f post, builderFields c = pre ++ f :: post ∧ f.ident = n ∧ Mandatory ⟨c, f⟩ ∧
      s n = none ∧ ∀ g ∈ pre, Mandatory ⟨c, g⟩ → s g.ident ≠ none := by
  simp only [mandatory_iff]
  rw [← runCheckers_some]
  unfold build
  cases h : runCheckers c s (builderFields c) with
  | some m => simp
  | none =>
    simp only [reduceCtorEq, iff_false]
    exact construct_not_err

/-- A failed `build()` leaves everything in the builder. -/
theorem C27_err_keeps (c : Ctx) (w : String → Env V) (s : Slots V) (n : String) (h : (build c w s).1 = .err n) :
    (build c w s).2 = s := by
  unfold build at h ⊢
  cases hr : runCheckers c s (builderFields c) with
  | some m => rfl
  | none => rw [hr] at h; exact absurd h construct_not_err

/-- After a failed `build()`, giving values so that every mandatory field has one makes the next `build()` not fail, and the
object then contains what was given before and after the failure. -/
theorem C27_retry (c : Ctx) (w : String → Env V) (s : Slots V) (n : String) (h : (build c w s).1 = .err n)
    (calls : List (String × V))
    (hm : ∀ f ∈ builderFields c, Mandatory ⟨c, f⟩ → lastGiven f.ident calls ≠ none ∨ s f.ident ≠ none) :
    (∀ m, (build c w (after (build c w s).2 calls)).1 ≠ .err m) ∧
    ∀ k, after (build c w s).2 calls k = (lastGiven k calls).or (s k) := by
  rw [C27_err_keeps c w s n h]
  refine ⟨fun m he => ?_, after_get calls s⟩
  obtain ⟨pre, f, post, hf, hid, hmf, hsn, _⟩ := (C27_err_iff c w _ m).mp he
  have := hm f (by rw [hf]; simp) hmf
  rw [after_get, ← hid] at hsn
  cases hl : lastGiven f.ident calls <;> simp_all

example : (build exCtx exEnv Slots.new).1 = .err "a" := by decide +kernel
example : ∀ f ∈ builderFields exCtx, Mandatory ⟨exCtx, f⟩ → lastGiven f.ident [("a", 5)] ≠ none := by
  intro f hf hm
  have hf' : f = exCtx.fields[0] ∨ f = exCtx.fields[1] ∨ f = exCtx.fields[2] := by
    have : builderFields exCtx = [exCtx.fields[0], exCtx.fields[1], exCtx.fields[2]] := by decide +kernel
    rw [this] at hf; simpa using hf
  rw [mandatory_iff] at hm
  rcases hf' with rfl | rfl | rfl
  · decide
  · exact absurd hm (by decide +kernel)
  · exact absurd hm (by decide +kernel)

/-! ### C28 -/

/-- A successful `build()` gives an object with the fields of the builder in order, each value of the declared type, and
each holding what it should. -/
theorem C28_contents (c : Ctx) (w : String → Env V) (s : Slots V) (hd : Distinct c) (hc : Compiles c) (hs : Settable c s)
    (obj : List (String × Val V)) (h : (build c w s).1 = .ok obj) :
    obj.map (·.1) = (builderFields c).map (·.ident) ∧
    ∀ f ∈ builderFields c, ∃ a, (f.ident, a) ∈ obj ∧ (∀ τ, declType ⟨c, f⟩ = .ok τ → ValTy a τ) ∧
      Holds ⟨c, f⟩ (w f.ident) (s f.ident) (content a) := by
  have hm : ∀ f ∈ builderFields c, Mandatory ⟨c, f⟩ → s f.ident ≠ none := by
    intro f hf hmf
    unfold build at h
    cases hr : runCheckers c s (builderFields c) with
    | some m => rw [hr] at h; cases h
    | none => exact runCheckers_none.mp hr f hf ((mandatory_iff _).mp hmf)
  rcases (build_spec w s hd hc hm).2 with ⟨_, hp⟩ | ⟨_, obj', hok, hdesc, _, _⟩
  · rw [h] at hp; cases hp
  · rw [h] at hok
    cases hok
    have hholds : ∀ f a, f ∈ builderFields c → FieldRes c w s f a →
        Holds ⟨c, f⟩ (w f.ident) (s f.ident) (content a) := by
      intro f a hf hr
      cases hsf : s f.ident with
      | none =>
        rw [hr.absent (.inr hsf)]
        exact holds_default _ _
      | some v =>
        obtain ⟨g, hg, hid, hset⟩ := hs f.ident (by rw [hsf]; simp)
        have hgf : g = f := ident_inj _ g f hd hg hf hid
        subst hgf
        rw [hr.given v hset hsf]
        exact .given v
    have hall : ∀ (fs : List FieldArgs) (o : List (String × Val V)), Described c w s fs o →
        o.map (·.1) = fs.map (·.ident) ∧ ∀ f ∈ fs, ∃ a, (f.ident, a) ∈ o ∧ FieldRes c w s f a := by
      intro fs o hdo
      induction hdo with
      | nil => simp
      | cons hr _ ih =>
        refine ⟨by simp [ih.1], ?_⟩
        intro f hf
        cases hf with
        | head => exact ⟨_, by simp, hr⟩
        | tail _ hf =>
          obtain ⟨a, ha, hra⟩ := ih.2 f hf
          exact ⟨a, by simp [ha], hra⟩
    obtain ⟨h1, h2⟩ := hall _ _ hdesc
    refine ⟨h1, fun f hf => ?_⟩
    obtain ⟨a, ha, hr⟩ := h2 f hf
    exact ⟨a, ha, hr.ty, hholds f a hf hr⟩

/-- The value of a slot is the one given last, so `C28_contents` speaks of the last call for each field. -/
theorem C28_last_wins (calls : List (String × V)) (n : String) : after Slots.new calls n = lastGiven n calls := by
  rw [after_get]; simp [Slots.new]

/-- Call sequences which agree on the last value of each field lead to the same result: the order of calls for different
fields is irrelevant. -/
theorem C28_order_irrelevant (c : Ctx) (w : String → Env V) (calls calls' : List (String × V))
    (h : ∀ n, lastGiven n calls = lastGiven n calls') :
    build c w (after Slots.new calls) = build c w (after Slots.new calls') := by
  have : after (V := V) Slots.new calls = after Slots.new calls' := by
    funext n; rw [C28_last_wins, C28_last_wins, h]
  rw [this]

example : (build exCtx exEnv (after Slots.new [("a", 5), ("c", 7), ("a", 6)])).1 =
    .ok [("a", .val 6), ("b", .val 1), ("c", .once (.some (.val 7)))] := by decide +kernel

example : ∀ n, lastGiven n [("a", 1), ("c", 2), ("a", 3)] = lastGiven n [("a", 3), ("c", 2)] := by
  intro n
  by_cases ha : "a" = n <;> by_cases hc : "c" = n <;> simp [lastGiven, ha, hc]
  subst ha; simp at hc

/-! ### C29 -/

theorem settable_new (c : Ctx) : Settable c (Slots.new : Slots V) := by intro n h; exact absurd rfl h

/-- A successful `build()` leaves the builder as new. -/
theorem C29_emptied (c : Ctx) (w : String → Env V) (s : Slots V) (hd : Distinct c) (hc : Compiles c) (hs : Settable c s)
    (obj : List (String × Val V)) (h : (build c w s).1 = .ok obj) : (build c w s).2 = Slots.new := by
  have hm : ∀ f ∈ builderFields c, Mandatory ⟨c, f⟩ → s f.ident ≠ none := by
    intro f hf hmf
    unfold build at h
    cases hr : runCheckers c s (builderFields c) with
    | some m => rw [hr] at h; cases h
    | none => exact runCheckers_none.mp hr f hf ((mandatory_iff _).mp hmf)
  rcases (build_spec w s hd hc hm).2 with ⟨_, hp⟩ | ⟨_, obj', hok, _, hempty, hkeep⟩
  · rw [h] at hp; cases hp
  · funext n
    by_cases hex : ∃ f ∈ builderFields c, f.ident = n ∧ hasSetter ⟨c, f⟩ = true
    · obtain ⟨f, hf, rfl, hset⟩ := hex
      exact hempty f hf hset
    · rw [hkeep n]
      · cases hn : s n with
        | none => rfl
        | some v => exact absurd (hs n (by rw [hn]; simp)) hex
      · intro f hf hid
        cases hset : hasSetter ⟨c, f⟩ with
        | false => rfl
        | true => exact absurd ⟨f, hf, hid, hset⟩ hex

/-- A second `build()` without new values fails if there is a mandatory field; otherwise, if it gives an object, that
object consists of defaults and empty fields only. -/
theorem C29_second_build (c : Ctx) (w : String → Env V) (s : Slots V) (hd : Distinct c) (hc : Compiles c)
    (hs : Settable c s) (obj : List (String × Val V)) (h : (build c w s).1 = .ok obj) :
    ((∃ f ∈ builderFields c, Mandatory ⟨c, f⟩) → ∃ n, (build c w (build c w s).2).1 = .err n) ∧
    ((¬ ∃ f ∈ builderFields c, Mandatory ⟨c, f⟩) → ∀ obj', (build c w (build c w s).2).1 = .ok obj' →
      ∀ f ∈ builderFields c, ∃ a, (f.ident, a) ∈ obj' ∧ Holds ⟨c, f⟩ (w f.ident) none (content a)) := by
  rw [C29_emptied c w s hd hc hs obj h]
  refine ⟨?_, ?_⟩
  · rintro ⟨f, hf, hm⟩
    unfold build
    cases hr : runCheckers c (Slots.new : Slots V) (builderFields c) with
    | some m => exact ⟨m, rfl⟩
    | none => exact absurd rfl (runCheckers_none.mp hr f hf ((mandatory_iff _).mp hm))
  · intro _ obj' hok f hf
    obtain ⟨a, ha, _, hh⟩ := (C28_contents c w Slots.new hd hc (settable_new c) obj' hok).2 f hf
    exact ⟨a, ha, hh⟩

example : Distinct exCtx ∧ Compiles exCtx ∧ Settable exCtx (after (Slots.new : Slots Nat) [("a", 5)]) := by
  refine ⟨exDistinct, exCompiles, after_settable (settable_new _) ?_⟩
  intro p hp
  simp only [List.mem_singleton] at hp
  subst hp
  exact ⟨exCtx.fields[0], by decide +kernel, rfl, by decide +kernel⟩

/-! ### C30 -/

/-- A builder argument with a method name that is switched off, on a field with nothing to fall back on: a setter is
generated but no check. -/
def NamedOff (x : FCtx) : Prop :=
  (∃ b, x.field.builder = some b ∧ b.name ≠ none ∧ b.off = true) ∧ ¬ RequiredArg x ∧
    x.isLazy = false ∧ x.isOptional = false ∧ x.field.hasDefaultValue = false

theorem namedOff_iff (x : FCtx) : NamedOff x ↔ PanicsWhenEmpty x = true := by
  have hr : RequiredArg x ↔ x.isBuilderRequired = true := by
    unfold RequiredArg FCtx.isBuilderRequired StructArgs.isBuilderRequired
    cases hb : x.field.builder with
    | none => cases hs : x.ctx.args.builder with
      | none => simp
      | some s => rcases h : s.required with _ | (_ | _) <;> simp [h]
    | some b => rcases h : b.required with _ | (_ | _) <;>
        (cases hs : x.ctx.args.builder with
          | none => simp [h]
          | some s => rcases h' : s.required with _ | (_ | _) <;> simp [h, h'])
  unfold NamedOff PanicsWhenEmpty
  rw [hr]
  unfold FCtx.forcedBuilder FCtx.needsBuilder FieldArgs.needsBuilder Helper.isTrue
  cases hb : x.field.builder with
  | none => simp
  | some b =>
    cases hn : b.name <;> cases ho : b.off <;> cases x.isBuilderRequired <;> cases x.isLazy <;> cases x.isOptional <;>
      cases x.field.hasDefaultValue <;> simp [hn, ho]

/-- `build()` panics exactly if no mandatory field is missing and some field of the `NamedOff` kind got no value. -/
theorem C30_panic_iff (c : Ctx) (w : String → Env V) (s : Slots V) (hd : Distinct c) (hc : Compiles c) :
    (build c w s).1 = .panic ↔ (∀ f ∈ builderFields c, Mandatory ⟨c, f⟩ → s f.ident ≠ none) ∧
      ∃ f ∈ builderFields c, NamedOff ⟨c, f⟩ ∧ s f.ident = none := by
  have hn : (∃ f ∈ builderFields c, NamedOff ⟨c, f⟩ ∧ s f.ident = none) ↔ ∃ f ∈ builderFields c, FieldPanics c s f := by
    simp only [namedOff_iff, FieldPanics]
  rw [hn]
  constructor
  · intro h
    have hm : ∀ f ∈ builderFields c, Mandatory ⟨c, f⟩ → s f.ident ≠ none := by
      intro f hf hmf
      unfold build at h
      cases hr : runCheckers c s (builderFields c) with
      | some m => rw [hr] at h; cases h
      | none => exact runCheckers_none.mp hr f hf ((mandatory_iff _).mp hmf)
    refine ⟨hm, ?_⟩
    rcases (build_spec w s hd hc hm).2 with ⟨hp, _⟩ | ⟨_, obj', hok, _⟩
    · exact hp
    · rw [h] at hok; cases hok
  · rintro ⟨hm, f, hf, hp⟩
    rcases (build_spec w s hd hc hm).2 with ⟨_, h⟩ | ⟨hnp, _⟩
    · exact h
    · exact absurd hp (hnp f hf)

/-- C30 as far as it is true: without fields of the `NamedOff` kind `build()` gives an object or an error. Missing from the
full claim: structs with such a field. -/
theorem C30_no_panic_partial (c : Ctx) (w : String → Env V) (s : Slots V) (hd : Distinct c) (hc : Compiles c)
    (h : ∀ f ∈ builderFields c, ¬ NamedOff ⟨c, f⟩) :
    (∃ obj, (build c w s).1 = .ok obj) ∨ ∃ n, (build c w s).1 = .err n := by
  by_cases hm : ∀ f ∈ builderFields c, Mandatory ⟨c, f⟩ → s f.ident ≠ none
  · rcases (build_spec w s hd hc hm).2 with ⟨⟨f, hf, hp⟩, _⟩ | ⟨_, obj, hok, _⟩
    · exact absurd ((namedOff_iff _).mpr hp.1) (h f hf)
    · exact .inl ⟨obj, hok⟩
  · right
    unfold build
    cases hr : runCheckers c s (builderFields c) with
    | some m => exact ⟨m, rfl⟩
    | none => exact absurd (fun f hf hmf => runCheckers_none.mp hr f hf ((mandatory_iff _).mp hmf)) hm

example : ∀ f ∈ builderFields exCtx, ¬ NamedOff ⟨exCtx, f⟩ := by
  intro f hf hn
  rw [namedOff_iff] at hn
  have h : (builderFields exCtx).all (fun f => !PanicsWhenEmpty ⟨exCtx, f⟩) = true := by decide +kernel
  have := List.all_eq_true.mp h f hf
  simp [hn] at this

/-- `#[fxstruct(builder)] struct S { #[fieldx(builder("with_a", off))] a: T }`. -/
def exOff : Ctx :=
  { args := { builder := some {} }, fields := [{ ident := "a", builder := some { off := true, name := some "with_a" } }] }

/-- The full claim C30 is false: the macro accepts `builder("with_a", off)`, and `build()` on a new builder panics. -/
theorem C30_full_false (w : String → Env V) : acceptStructFull exOff.args = true ∧
    (∀ f ∈ exOff.fields, acceptFieldFull f = true) ∧ exOff.needsBuilderStruct = true ∧ Compiles exOff ∧
    (build exOff w Slots.new).1 = .panic := by
  refine ⟨by decide +kernel, by decide +kernel, by decide +kernel, compiles_of (by decide +kernel), ?_⟩
  rw [C30_panic_iff exOff w Slots.new (by unfold Distinct; decide +kernel) (compiles_of (by decide +kernel))]
  refine ⟨?_, exOff.fields[0], by decide +kernel, (namedOff_iff _).mpr (by decide +kernel), rfl⟩
  intro f hf hm
  rw [mandatory_iff] at hm
  have h : (builderFields exOff).all (fun f => !hasChecker ⟨exOff, f⟩) = true := by decide +kernel
  have := List.all_eq_true.mp h f hf
  simp [hm] at this

/-! ### C31 -/

/-- `build()` can succeed exactly if every mandatory field has a setter. -/
theorem C31_buildable_iff (c : Ctx) (w : String → Env V) (v₀ : V) (hd : Distinct c) (hc : Compiles c) :
    (∃ calls : List (String × V), Allowed c calls ∧ ∃ obj, (build c w (after Slots.new calls)).1 = .ok obj) ↔
    ∀ f ∈ builderFields c, Mandatory ⟨c, f⟩ → hasSetter ⟨c, f⟩ = true := by
  constructor
  · rintro ⟨calls, ha, obj, h⟩ f hf hm
    have hne : after Slots.new calls f.ident ≠ none := by
      unfold build at h
      cases hr : runCheckers c (after Slots.new calls) (builderFields c) with
      | some m => rw [hr] at h; cases h
      | none => exact runCheckers_none.mp hr f hf ((mandatory_iff _).mp hm)
    obtain ⟨g, hg, hid, hset⟩ := after_settable (settable_new c) ha f.ident hne
    rw [← ident_inj _ g f hd hg hf hid]
    exact hset
  · intro h
    let calls : List (String × V) := ((builderFields c).filter (fun f => hasSetter ⟨c, f⟩)).map (fun f => (f.ident, v₀))
    have hgiven : ∀ f ∈ builderFields c, hasSetter ⟨c, f⟩ = true → after Slots.new calls f.ident ≠ none := by
      intro f hf hset
      rw [C28_last_wins]
      have hmem : (f.ident, v₀) ∈ calls := List.mem_map.mpr ⟨f, List.mem_filter.mpr ⟨hf, by simp [hset]⟩, rfl⟩
      have hl : ∀ (l : List (String × V)) (n : String) (v : V), (n, v) ∈ l → lastGiven n l ≠ none := by
        intro l n v
        induction l with
        | nil => intro h; cases h
        | cons p ps ih =>
          intro h
          unfold lastGiven
          cases h with
          | head => cases lastGiven n ps <;> simp
          | tail _ h =>
            have := ih h
            cases hh : lastGiven n ps with
            | none => exact absurd hh this
            | some u => simp
      exact hl _ _ _ hmem
    refine ⟨calls, ?_, ?_⟩
    · intro p hp
      obtain ⟨f, hf, rfl⟩ := List.mem_map.mp hp
      obtain ⟨hf1, hf2⟩ := List.mem_filter.mp hf
      exact ⟨f, hf1, rfl, by simpa using hf2⟩
    · rcases (build_spec w (after Slots.new calls) hd hc (fun f hf hm => hgiven f hf (h f hf hm))).2 with
        ⟨⟨f, hf, hp⟩, _⟩ | ⟨_, obj, hok, _⟩
      · exact absurd hp.2 (hgiven f hf (panics_setter hp.1).1)
      · exact ⟨obj, hok⟩

/-- A field can only be mandatory without a setter if `required` comes from an argument while its builder method is
switched off or not opted in. -/
theorem C31_unsuppliable (x : FCtx) (hm : Mandatory x) (hs : hasSetter x = false) :
    RequiredArg x ∧ x.needsBuilder = false := by
  unfold hasSetter at hs
  rw [Bool.or_eq_false_iff] at hs
  rcases hm with h | ⟨h, _⟩
  · exact ⟨h, hs.2⟩
  · rw [hs.2] at h; cases h

/-- C31 as far as it is true: with no `required` argument in force for fields without a setter, `build()` can succeed.
Missing from the full claim: structs where `required` reaches a field that has no setter. -/
theorem C31_buildable_partial (c : Ctx) (w : String → Env V) (v₀ : V) (hd : Distinct c) (hc : Compiles c)
    (h : ∀ f ∈ builderFields c, RequiredArg ⟨c, f⟩ → hasSetter ⟨c, f⟩ = true) :
    ∃ calls : List (String × V), Allowed c calls ∧ ∃ obj, (build c w (after Slots.new calls)).1 = .ok obj := by
  rw [C31_buildable_iff c w v₀ hd hc]
  intro f hf hm
  cases hs : hasSetter ⟨c, f⟩ with
  | true => rfl
  | false =>
    have := h f hf (C31_unsuppliable _ hm hs).1
    rw [hs] at this; cases this

example : ∀ f ∈ builderFields exCtx, hasSetter ⟨exCtx, f⟩ = true := by
  have h : (builderFields exCtx).all (fun f => hasSetter ⟨exCtx, f⟩) = true := by decide +kernel
  exact fun f hf => List.all_eq_true.mp h f hf

/-- `#[fxstruct(builder(required))] struct S { a: T, #[fieldx(builder(off), default(1))] b: T }`. -/
def exReq : Ctx :=
  { args := { builder := some { required := some true } }
    fields := [{ ident := "a" }, { ident := "b", builder := some { off := true }, default := some { value := some "1" } }] }

/-- The full claim C31 is false: the struct is accepted, and `build()` returns an error whatever is called before. -/
theorem C31_full_false (w : String → Env V) (v₀ : V) : acceptStructFull exReq.args = true ∧
    (∀ f ∈ exReq.fields, acceptFieldFull f = true) ∧ exReq.needsBuilderStruct = true ∧ Compiles exReq ∧
    ∀ calls : List (String × V), Allowed exReq calls → ∃ n, (build exReq w (after Slots.new calls)).1 = .err n := by
  have hc : Compiles exReq := compiles_of (by decide +kernel)
  have hd : Distinct exReq := by unfold Distinct; decide +kernel
  refine ⟨by decide +kernel, by decide +kernel, by decide +kernel, hc, ?_⟩
  intro calls ha
  have hn : ∀ f ∈ builderFields exReq, ¬ NamedOff ⟨exReq, f⟩ := by
    intro f hf hn
    rw [namedOff_iff] at hn
    have h : (builderFields exReq).all (fun f => !PanicsWhenEmpty ⟨exReq, f⟩) = true := by decide +kernel
    have := List.all_eq_true.mp h f hf
    simp [hn] at this
  rcases C30_no_panic_partial exReq w (after Slots.new calls) hd hc hn with ⟨obj, h⟩ | h
  · have := (C31_buildable_iff exReq w v₀ hd hc).mp ⟨calls, ha, obj, h⟩ exReq.fields[1] (by decide +kernel)
      ((mandatory_iff _).mpr (by decide +kernel))
    exact absurd this (by decide +kernel)
  · exact h

/-! ### C53 -/

/-- The struct expression in `build()` gives a value to every field of the struct exactly if no field of the user's is
marked `skip`; the self reference of `rc` is taken care of separately. -/
theorem C53_complete_iff (c : Ctx) (hd : (c.allFields.map (·.ident)).Nodup)
    (hx : ∀ f ∈ c.extra, c.args.isRefCounted = true ∧ f.skip = true) :
    (∀ f ∈ c.allFields, f.ident ∈ constructed c) ↔ ∀ f ∈ c.fields, f.skip = false := by
  unfold constructed
  constructor
  · intro h f hf
    have hfa : f ∈ c.allFields := by unfold Ctx.allFields; exact List.mem_append_right _ hf
    have hm := h f hfa
    rw [List.mem_append] at hm
    rcases hm with hm | hm
    · split at hm
      · obtain ⟨g, hg, hid⟩ := List.mem_map.mp hm
        have hga : g ∈ c.allFields := by unfold Ctx.allFields; exact List.mem_append_left _ hg
        have heq := ident_inj _ g f hd hga hfa hid
        subst heq
        unfold Ctx.allFields at hd
        rw [List.map_append, List.nodup_append] at hd
        exact absurd rfl (hd.2.2 _ (List.mem_map_of_mem hg) _ (List.mem_map_of_mem hf))
      · cases hm
    · obtain ⟨g, hg, hid⟩ := List.mem_map.mp hm
      have heq := ident_inj _ g f hd (List.mem_filter.mp hg).1 hfa hid
      subst heq
      exact not_skipped hg
  · intro h f hf
    rw [List.mem_append]
    unfold Ctx.allFields at hf
    rcases List.mem_append.mp hf with hf' | hf'
    · left
      rw [if_pos (hx f hf').1]
      exact List.mem_map_of_mem hf'
    · right
      refine List.mem_map_of_mem (List.mem_filter.mpr ⟨by unfold Ctx.allFields; exact hf, ?_⟩)
      simp [FieldArgs.isSkipped, h f hf']

example : (exCtx.allFields.map (·.ident)).Nodup ∧ exCtx.extra = [] ∧ ∀ f ∈ exCtx.fields, f.skip = false := by decide

/-- C53 as far as it is true. Missing from the full claim: structs with skipped fields. -/
theorem C53_complete_partial (c : Ctx) (hd : (c.allFields.map (·.ident)).Nodup)
    (hx : ∀ f ∈ c.extra, c.args.isRefCounted = true ∧ f.skip = true) (hs : ∀ f ∈ c.fields, f.skip = false) :
    ∀ f ∈ c.allFields, f.ident ∈ constructed c := (C53_complete_iff c hd hx).mpr hs

/-- `#[fxstruct(builder)] struct S { a: T, #[fieldx(skip)] b: T }`. -/
def exSkip : Ctx := { args := { builder := some {} }, fields := [{ ident := "a" }, { ident := "b", skip := true }] }

/-- The full claim C53 is false: with a builder, a skipped field gets no value in `build()`. -/
theorem C53_full_false : acceptStructFull exSkip.args = true ∧ (∀ f ∈ exSkip.fields, acceptFieldFull f = true) ∧
    exSkip.needsBuilderStruct = true ∧ "b" ∈ exSkip.allFields.map (·.ident) ∧ "b" ∉ constructed exSkip := by
  decide +kernel

end Verif.Props.Builder
