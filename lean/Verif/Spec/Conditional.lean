import Verif.Model.Conditional
/-!
# When conditional compilation leaves the expansion in one piece

`off` tells which attributes are a `cfg` that does not hold.
-/
namespace Verif.Spec.Conditional
open Verif.Model.Args Verif.Model.Expand Verif.Model.Attrs Verif.Model.Conditional
open Verif.Model.Emit (emits)

variable (off : Mark → Bool) (c : Ctx) (l : Lits) (fattrs : String → List Attr)

/-- The part is still there: neither it nor anything it is inside of has been taken out. -/
def Stays (p : Part) : Prop := ∀ m ∈ marks c fattrs p, off m = false

/-- The code left mentions no name whose declaration has been taken out. -/
def Sound (out : List Piece) : Prop :=
  ∀ p ∈ parts c out, Stays off c fattrs p → ∀ n ∈ mentions c out p, home n ∈ parts c out → Stays off c fattrs (home n)

/-- An attribute on the item takes it out. -/
def Gone (i : Item) : Prop := ∃ m ∈ place c [] fattrs i, off m = true

/-- A field of the struct whose value comes from the shadow, one whose value goes there. -/
def Reads (f : FieldArgs) : Prop :=
  c.args.isSerde = true ∧ c.args.needsDeserialize = true ∧
    (FCtx.mk c f).isSerde = true ∧ (FCtx.mk c f).needsDeserialize = true
def Writes (f : FieldArgs) : Prop :=
  c.args.isSerde = true ∧ c.args.needsSerialize = true ∧
    (FCtx.mk c f).isSerde = true ∧ (FCtx.mk c f).needsSerialize = true

/-- An async lazy field. -/
def AsyncLazy (f : FieldArgs) : Prop :=
  f.skip = false ∧ (FCtx.mk c f).isSync = true ∧ (FCtx.mk c f).isAsync = true ∧ (FCtx.mk c f).isLazy = true

/-- There is a function for the serde default of the struct, of a field. -/
def WholeFn : Prop :=
  c.args.isSerde = true ∧ ∃ h, c.args.serde = some h ∧ h.hasDefault = true ∧ h.defaultValue.isSome = true
def FieldFn (f : FieldArgs) : Prop :=
  c.args.isSerde = true ∧ (FCtx.mk c f).isSerde = true ∧ l.isPath f.ident = false ∧
    ∃ h, f.serde = some h ∧ h.hasDefault = true ∧ h.defaultValue.isSome = true

/-- The rule, from the arguments alone. -/
structure Rule : Prop where
  /-- A field may go if nothing initialises, reads or converts it, and its methods go as well. -/
  fields : ∀ f ∈ c.allFields, Gone off c fattrs (.structField f) →
    c.needsDefault = false ∧
    (∀ k, k ≠ .builder → emits ⟨c, f⟩ k = true → Gone off c fattrs .structImpl ∨ Gone off c fattrs (.method f k)) ∧
    (c.needsBuilderStruct = true → f.skip = true ∨ Gone off c fattrs .builderImpl) ∧ ¬ Reads c f ∧ ¬ Writes c f
  /-- The builder struct goes with its impl and that with `builder()`; a field of it goes with the impl. -/
  builder : c.needsBuilderStruct = true →
    (Gone off c fattrs .builderStruct → Gone off c fattrs .builderImpl) ∧
    (Gone off c fattrs .builderImpl → Gone off c fattrs .structImpl) ∧
    (∀ f ∈ c.allFields, f.skip = false → Gone off c fattrs (.builderField f) → Gone off c fattrs .builderImpl)
  /-- The wrappers of async lazy fields are in the impl of the struct, and needed wherever such a field gets a value. -/
  wrappers : Gone off c fattrs .structImpl → ∀ f ∈ c.allFields, AsyncLazy c f →
    c.needsDefault = false ∧ (c.needsBuilderStruct = true → Gone off c fattrs .builderImpl) ∧ ¬ Reads c f
  /-- The shadow struct may go if there is no conversion and no default. -/
  shadow : c.args.isSerde = true → Gone off c fattrs .shadowStruct →
    c.args.needsSerialize = false ∧ c.args.needsDeserialize = false ∧ c.needsDefault = false ∧
    (WholeFn c → Gone off c fattrs .structImpl)
  /-- So may a field of it. -/
  shadowFields : c.args.isSerde = true → ∀ f ∈ c.allFields, (FCtx.mk c f).isSerde = true →
    Gone off c fattrs (.shadowField f) → c.needsDefault = false ∧ ¬ Reads c f ∧ ¬ Writes c f
  /-- Functions for serde defaults are in the impl of the struct, and needed for deserialisation. -/
  functions : Gone off c fattrs .structImpl → c.args.needsDeserialize = true →
    ¬ WholeFn c ∧ ∀ f ∈ c.allFields, FieldFn c l f → Gone off c fattrs (.shadowField f)

end Verif.Spec.Conditional
