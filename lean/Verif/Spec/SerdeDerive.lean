/-
What the derives of the `serde` crate make of the attributes on an item, from its documentation
(serde.rs/container-attrs.html, serde.rs/field-attrs.html), and what they need to compile. Nothing of the model is
mentioned. (Specification only.)
-/
namespace Verif.Spec.SerdeDerive

inductive Tr
  | ser
  | de
deriving DecidableEq, Repr

/-- Arguments of `#[serde(..)]` on a struct. `from`, `into`: another struct stands in. -/
inductive CArg
  | «from»
  | into
  | dflt
  | dfltFn
deriving DecidableEq, Repr

/-- Arguments of `#[serde(..)]` on a field. -/
inductive FArg
  | skip
  | skipSer
  | skipDe
  | dflt
  /-- `default = ".."` with the user's path -/
  | dfltPath
  /-- `default = ".."` with a function of the struct -/
  | dfltFn
  | rename (n : String)
deriving DecidableEq, Repr

/-- A struct with its derives and attributes; fields by name. -/
structure Item where
  derives : List Tr
  args    : List CArg
  fields  : List (String × List FArg)

/-- Things the code of a derive refers to. -/
inductive Need
  | clone
  /-- the conversion into the struct that stands in -/
  | into
  /-- the conversion from it -/
  | «from»
  /-- it has the trait itself -/
  | standIn (t : Tr)
  /-- `Default` of the struct -/
  | dflt
  /-- the function named for the struct -/
  | dfltFn
  /-- `Default` for the type of a field -/
  | fieldDflt (f : String)
  /-- the function named for a field -/
  | fieldFn (f : String)
deriving DecidableEq, Repr

/-- The code of the derives on `i` refers to `n`. -/
inductive Needs (i : Item) : Need → Prop
  | clone : .ser ∈ i.derives → .into ∈ i.args → Needs i .clone
  | into : .ser ∈ i.derives → .into ∈ i.args → Needs i .into
  | intoSer : .ser ∈ i.derives → .into ∈ i.args → Needs i (.standIn .ser)
  | «from» : .de ∈ i.derives → .from ∈ i.args → Needs i .from
  | fromDe : .de ∈ i.derives → .from ∈ i.args → Needs i (.standIn .de)
  | dflt : .de ∈ i.derives → .dflt ∈ i.args → Needs i .dflt
  | dfltFn : .de ∈ i.derives → .dfltFn ∈ i.args → Needs i .dfltFn
  | fieldDflt {f l} : .de ∈ i.derives → (f, l) ∈ i.fields → .dflt ∈ l → Needs i (.fieldDflt f)
  | fieldFn {f l} : .de ∈ i.derives → (f, l) ∈ i.fields → .dfltFn ∈ l → Needs i (.fieldFn f)
  /-- a field which is not read takes its default, else that of the struct, else `Default::default()` -/
  | skipped {f l} : .de ∈ i.derives → (f, l) ∈ i.fields → (.skip ∈ l ∨ .skipDe ∈ l) →
      (∀ a ∈ l, a ≠ .dflt ∧ a ≠ .dfltPath ∧ a ≠ .dfltFn) → (∀ a ∈ i.args, a ≠ .dflt ∧ a ≠ .dfltFn) →
      Needs i (.fieldDflt f)

/-- An object is written through the stand-in. -/
def WrittenThrough (i : Item) : Prop := .ser ∈ i.derives ∧ .into ∈ i.args

/-- It is read through it. -/
def ReadThrough (i : Item) : Prop := .de ∈ i.derives ∧ .from ∈ i.args

/-- A field takes part in what is written. -/
def Written (l : List FArg) : Prop := .skip ∉ l ∧ .skipSer ∉ l

/-- It takes part in what is read. -/
def Read (l : List FArg) : Prop := .skip ∉ l ∧ .skipDe ∉ l

/-- The name it has in documents. -/
def NameIs (f : String) (l : List FArg) (n : String) : Prop :=
  FArg.rename n ∈ l ∨ (∀ m, FArg.rename m ∉ l) ∧ n = f

/-- The direction is on by the arguments `serialize` and `deserialize` (`this` and the `other` one): said so, or not said
and the other one not asked for (lib.rs 403-404, serde_helper.rs 72-73: `deserialize(off)` implies `serialize`). -/
def On (this other : Option Bool) : Prop := this = some true ∨ this = none ∧ other ≠ some true

end Verif.Spec.SerdeDerive
