import Verif.Model.Serde
import Verif.Spec.InitTy
/-
What serialisation and deserialisation should do, in terms of the contents of fields.
-/
namespace Verif.Spec.Serde
open Verif.Model.Args Verif.Model.Init Verif.Model.Serde Verif.Spec.InitTy

variable {V : Type}

/-- The user's value in a field, if any. -/
def holds (o : Obj V) (n : String) : Option V := (o n).bind content

/-- Making sure that a lazy field has a value: nothing happens if it has one; otherwise its builder runs on an object with
all fields (`names`) in place, and the value is stored; a failing builder leaves the field as it was. -/
inductive Force (names : List String) (bld : String → Obj V → BRes V × Obj V) (n : String) : Obj V → Obj V → Prop
  | full {o v} : holds o n = some v → Force names bld n o o
  | built {o o1 o' v} : holds o n = none → (∀ m ∈ names, o m ≠ none) → bld n o = (.ok v, o1) →
      holds o' n = some v → (∀ m, m ≠ n → o' m = o1 m) → Force names bld n o o'
  | failed {o o1} : holds o n = none → (∀ m ∈ names, o m ≠ none) → bld n o = (.err, o1) → Force names bld n o o1

/-- The fields of the list, one after the other. -/
inductive ForceAll (names : List String) (bld : String → Obj V → BRes V × Obj V) :
    List String → Obj V → Obj V → Prop
  | nil (o) : ForceAll names bld [] o o
  | cons {n ns o o1 o2} : Force names bld n o o1 → ForceAll names bld ns o1 o2 → ForceAll names bld (n :: ns) o o2

/-- The builder of some field of the list panics when it is its turn. -/
inductive ForcePanics (names : List String) (bld : String → Obj V → BRes V × Obj V) : List String → Obj V → Prop
  | here {n ns o} : holds o n = none → (∀ m ∈ names, o m ≠ none) → (bld n o).1 = .panic →
      ForcePanics names bld (n :: ns) o
  | later {n ns o o1} : Force names bld n o o1 → ForcePanics names bld ns o1 → ForcePanics names bld (n :: ns) o

/-- The item that stands for a content. -/
def itemOf : Option V → Item V
  | some v => .val v
  | none => .null

/-- All fields are there and have values of their declared types: what Rust guarantees of any object. -/
def Typed (c : Ctx) (o : Obj V) : Prop :=
  ∀ f ∈ c.allFields, ∃ τ a, declType ⟨c, f⟩ = .ok τ ∧ o f.ident = some a ∧ ValTy a τ

/-- Builders leave a well-typed object well-typed. -/
def Sound (c : Ctx) (bld : String → Obj V → BRes V × Obj V) : Prop :=
  ∀ n o, Typed c o → Typed c (bld n o).2

/-- Two runs of a deterministic specification agree on contents. -/
theorem Force.det {names : List String} {bld : String → Obj V → BRes V × Obj V} {n : String} {o o1 o2 : Obj V}
    (h1 : Force names bld n o o1) (h2 : Force names bld n o o2) : ∀ m, holds o1 m = holds o2 m := by
  intro m
  cases h1 with
  | full h =>
    cases h2 with
    | full _ => rfl
    | built h' => rw [h] at h'; cases h'
    | failed h' => rw [h] at h'; cases h'
  | built h ha hb hv ho =>
    cases h2 with
    | full h' => rw [h] at h'; cases h'
    | built h' ha' hb' hv' ho' =>
      rw [hb] at hb'
      obtain ⟨h3, h4⟩ := Prod.mk.inj hb'
      cases h3; subst h4
      by_cases hm : m = n
      · subst hm; rw [hv, hv']
      · unfold holds; rw [ho m hm, ho' m hm]
    | failed h' ha' hb' => rw [hb] at hb'; cases hb'
  | failed h ha hb =>
    cases h2 with
    | full h' => rw [h] at h'; cases h'
    | built h' ha' hb' hv' ho' => rw [hb] at hb'; cases hb'
    | failed h' ha' hb' => rw [hb] at hb'; cases hb'; rfl

/-- The name a field has in documents, after the documentation (fieldx_derive/src/lib.rs 525-532, 565-566): the literal
of its `serde` argument, else the name given by `rename`, else its own. -/
inductive DocName (f : FieldArgs) : String → Prop
  | serde {s n} : f.serde = some s → s.shadowName = some n → DocName f n
  | rename {n} : (∀ s, f.serde = some s → s.shadowName = none) → f.baseName = some n → DocName f n
  | own : (∀ s, f.serde = some s → s.shadowName = none) → f.baseName = none → DocName f f.ident

/-- No literal in the field's `serde` argument. -/
def NoSerdeName (f : FieldArgs) : Prop := ∀ s, f.serde = some s → s.shadowName = none

end Verif.Spec.Serde
