import Verif.Proof.Context
import Verif.Proof.CellLaws
/-
C110: the macro's bookkeeping.
-/
namespace Verif.Props.Context
open Verif.Model.Args Verif.Model.Structs Verif.Model.Context Verif.Spec.Context Verif.Proof.Context

/-- No expansion panics because a cell is borrowed or initialised twice, or because there is no name for the self reference,
whatever the generators ask, add and record, in any order; and nothing remains borrowed. -/
theorem C110_no_conflict (a : StructArgs) (fs : List FieldArgs) (g : Gens) (hg : g.Fits) :
    ∃ s, rewrite a fs g {} = some ((), s) ∧ Idle s := by
  obtain ⟨_, s, e, h, _⟩ := Keeps.all (a := a) (fs := fs) hg {} start
  exact ⟨s, e, fun c => by rw [h.sh, h.al]; exact ⟨rfl, rfl⟩⟩

theorem ran {a : StructArgs} {fs : List FieldArgs} {g : Gens} (hg : g.Fits) {s : St} (e : rewrite a fs g {} = some ((), s)) :
    Inv a fs s := by
  obtain ⟨_, s', e', h, _⟩ := Keeps.all (a := a) (fs := fs) hg {} start
  rw [e] at e'; cases e'; exact h.inv

/-- Each answer given in the course of an expansion is the one which follows from the arguments: that it is remembered, when it
was first asked for, and what was asked before makes no difference. -/
theorem C110_answers (a : StructArgs) (fs : List FieldArgs) (g : Gens) (hg : g.Fits) (s : St)
    (e : rewrite a fs g {} = some ((), s)) : ∀ q b, (q, b) ∈ s.asked → b = answer a fs q :=
  (ran hg e).asked

/-- Hence equal questions have equal answers, in two expansions of the same struct by whatever generators. -/
theorem C110_same_answers (a : StructArgs) (fs : List FieldArgs) (g g' : Gens) (hg : g.Fits) (hg' : g'.Fits) (s s' : St)
    (e : rewrite a fs g {} = some ((), s)) (e' : rewrite a fs g' {} = some ((), s')) (q : Ask) (b b' : Bool)
    (h : (q, b) ∈ s.asked) (h' : (q, b') ∈ s'.asked) : b = b' :=
  (C110_answers a fs g hg s e q b h).trans (C110_answers a fs g' hg' s' e' q b' h').symm

theorem eq_of_ident : ∀ {l : List FieldArgs}, (l.map (·.ident)).Nodup → ∀ {x y}, x ∈ l → y ∈ l → x.ident = y.ident → x = y
  | [], _, _, _, hx, _, _ => by cases hx
  | z :: l, hn, x, y, hx, hy, h => by
    have hn' := List.nodup_cons.1 hn
    rcases List.mem_cons.1 hx with hx' | hx' <;> rcases List.mem_cons.1 hy with hy' | hy'
    · rw [hx', hy']
    · subst hx'; exact absurd (List.mem_map.2 ⟨y, hy', h.symm⟩ : x.ident ∈ l.map (·.ident)) hn'.1
    · subst hy'; exact absurd (List.mem_map.2 ⟨x, hx', h⟩ : y.ident ∈ l.map (·.ident)) hn'.1
    · exact eq_of_ident hn'.2 hx' hy' h

/-- The context given for a field is the field's own, and all contexts the builder asks for by name are there, if names differ. -/
theorem C110_contexts (a : StructArgs) (fs : List FieldArgs) (g : Gens) (hg : g.Fits) (s : St) (hd : Distinct a fs)
    (e : rewrite a fs g {} = some ((), s)) :
    (∀ f x, (f, x) ∈ s.given → x = f) ∧
      ∀ f ∈ (prepare a fs).allFields, ∀ o, (f.ident, o) ∈ s.built → o = some f := by
  have i := ran hg e
  have key : ∀ x ∈ (prepare a fs).allFields, ∀ y ∈ (prepare a fs).allFields, x.ident = y.ident → x = y := by
    intro x hx y hy h
    exact eq_of_ident hd hx hy h
  refine ⟨fun f x h => ?_, fun f hf o h => ?_⟩
  · obtain ⟨hf, hx, h⟩ := i.given f x h
    exact key x hx f hf h
  · obtain ⟨x, hx, hi, rfl⟩ := i.built f.ident o h
    rw [key x hx f hf hi]

/-- A name the builder asks for is always that of a field. -/
theorem C110_builder_names (a : StructArgs) (fs : List FieldArgs) (g : Gens) (hg : g.Fits) (s : St)
    (e : rewrite a fs g {} = some ((), s)) :
    ∀ n o, (n, o) ∈ s.built → ∃ x ∈ (prepare a fs).allFields, x.ident = n ∧ o = some x :=
  (ran hg e).built

/-- An accessor of a sync struct that copies or clones finds the argument by which it was told to. -/
theorem C110_mode_span (x : FCtx) (h : x.isCopy = true ∨ x.isClone = true) : modeSpan x = true := by
  obtain ⟨c, f⟩ := x
  unfold modeSpan fieldModeSpan structModeSpan
  unfold FCtx.isCopy FCtx.isClone FieldArgs.isAccessorCopy FieldArgs.isAccessorClone StructArgs.isAccessorCopy
    StructArgs.isAccessorClone FieldArgs.isCopy FieldArgs.isClone StructArgs.isCopy StructArgs.isClone at h
  simp only at h ⊢
  revert h
  cases f.accessorMode <;> cases f.copy <;> cases f.clone <;> cases c.args.accessorMode <;> cases c.args.copy <;>
    cases c.args.clone <;> simp

/-- `is_builder_opt_in` itself is no function of the arguments: with no `builder` for the struct and one for a field, what it says
depends on whether `needs_builder_struct` was asked before. Only `FXFieldCtx::needs_builder` asks it, and only if there is a
`builder` for the struct. -/
theorem C110_opt_in_false : ¬ ∀ (a : StructArgs) (fs : List FieldArgs) (s₁ s₂ s₃ : St) (b b' c : Bool),
    isBuilderOptIn a {} = some (b, s₁) → needsBuilderStruct a fs {} = some (c, s₂) → isBuilderOptIn a s₂ = some (b', s₃) →
    b = b' := by
  intro h
  have := h {} [{ ident := "a", builder := some {} }] _ _ _ _ _ _ rfl rfl rfl
  cases this

/-- A struct with the self reference, two fields and serde, and generators which ask and add. -/
def sample : StructArgs := { rc := some {}, builder := some {}, serde := some {} }
def sampleFields : List FieldArgs := [{ ident := "a", lazy := some {} }, { ident := "b", lock := some true }]
def sampleGens : Gens where
  field := fun p x =>
    match p with
    | .prepare => [.ask (.isSync x), .typed x.ident [.isSync x] false, .add .fields, .ask .needsBuilderStruct, .ident x.ident,
        .add .methods, .ask (.needsBuilder x), .add .defaults, .add .builders, .add .builderFields, .add .copyable]
    | .shadowField => [.unique, .add .shadowFields, .add .shadowDefaults, .add .methods]
    | .build => [.setChecker x.ident, .getChecker x.ident, .typed x.ident [.isSync x] false, .error]
    | _ => [.ask .ratherSync]
  whole := fun p =>
    match p with
    | .shadowStruct => [.unique, .text, .add .methods]
    | .dflt => [.join .defaults, .ask .needsDefault]
    | .builder => [.join .builders, .join .builderFields]
    | .attribute => [.add .attrs]
    | .extras => [.add .methods]
    | .fromShadow | .intoShadow => [.text]
    | _ => [.error]

theorem sample_fits : sampleGens.Fits := by
  constructor
  · intro p x l hl
    cases p <;> simp [sampleGens] at hl <;> rcases hl with h | h | h | h | h | h | h | h | h | h | h <;> simp_all [occurs] <;>
      (subst_vars; simp [occurs])
  · intro p l hl
    cases p <;> simp [sampleGens] at hl <;> rcases hl with h | h | h <;> simp_all [occurs]

/-- It meets the hypotheses. -/
example : ∃ s, rewrite sample sampleFields sampleGens {} = some ((), s) ∧ Idle s :=
  C110_no_conflict _ _ _ sample_fits

example : Distinct sample sampleFields := by unfold Distinct; decide

/-- Each of the three fields has its context in each of four loops over them, and in the builder. -/
example : ((rewrite sample sampleFields sampleGens {}).map fun r =>
    (r.2.given.map fun p => (p.1.ident, p.2.ident), r.2.built.map fun p => (p.1, p.2.map (·.ident)), r.2.asked.length)) =
    some ([("__weak_myself", "__weak_myself"), ("a", "a"), ("b", "b"), ("__weak_myself", "__weak_myself"), ("a", "a"),
      ("b", "b"), ("__weak_myself", "__weak_myself"), ("a", "a"), ("b", "b"), ("__weak_myself", "__weak_myself"), ("a", "a"),
      ("b", "b")], [("__weak_myself", some "__weak_myself"), ("a", some "a"), ("b", some "b")], 22) := by decide +kernel

/-- The rules are not idle: a context asked for while another is alive panics, as does a declaration added while declarations are
read, and an error recorded while errors are. -/
example : withFieldCtx { ident := "a" } (fun _ => withFieldCtx { ident := "b" } fun _ => pure ()) {} = none := rfl
example : withRef (.bag .fields) (Leaf.run {} [] (.add .fields)) {} = none := rfl
example : rewrite {} [] { whole := fun p => if p = .dflt then [.add .fields] else [] } {} = none := rfl
example : remember .ratherSync (remember .ratherSync (pure true)) {} = none := rfl

/-- Without different names the context may be another field's. -/
example : ((rewrite { rc := some {} } [{ ident := "__weak_myself", lazy := some {} }] {} {}).map fun r =>
    r.2.given.map fun p => (p.1.lazy.isSome, p.2.lazy.isSome)) = some [(false, false), (true, false), (false, false), (true, false)] := by
  decide +kernel

/-- The span is found in the struct's arguments. -/
example : FCtx.isClone ⟨{ args := { clone := some true } }, { ident := "a", copy := some false }⟩ = true := rfl
example : modeSpan ⟨{ args := { clone := none } }, { ident := "a" }⟩ = false := rfl

end Verif.Props.Context
