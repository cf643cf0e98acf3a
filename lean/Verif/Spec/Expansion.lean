import Verif.Model.Expand
/-
What the expansion of a struct ought to be, and which fields are at fault when there are errors. Stated from the
arguments alone: no generator is mentioned.
-/
namespace Verif.Spec.Expansion
open Verif.Model.Args Verif.Model.Expand Verif.Model

/-- No error type is given for a fallible field, neither at the field nor at the struct. -/
def NoErrorType (x : FCtx) : Prop :=
  (∀ a, x.field.fallible = some a → a.error = none) ∧ (∀ a, x.ctx.args.fallible = some a → a.error = none)

/-- The field is at fault: it is fallible, its error type is needed for its code, and not known. Sync and async fields
always name the error type, others in their accessors. -/
def Faulty (x : FCtx) : Prop :=
  x.isFallible = true ∧ NoErrorType x ∧
    (x.isSync = true ∨ (x.isLazy = true ∧ (x.needsAccessor = true ∨ x.needsAccessorMut = true)))

/-- The bare keyword `default`, without a value, on a lazy or optional sync or async field. -/
def BareDefault (x : FCtx) : Prop :=
  x.isSync = true ∧ (∃ d, x.field.default = some d ∧ d.isTrue = true ∧ d.value = none) ∧
    (x.isLazy = true ∨ x.isOptional = true)

/-- The serde default of the struct is given and cannot be used. -/
def FaultyWhole (c : Ctx) (l : Lits) : Prop :=
  c.args.isSerde = true ∧ l.badWhole = true ∧
    ∃ sh, c.args.serde = some sh ∧ sh.hasDefault = true ∧ sh.defaultValue.isSome = true

/-- A field that shows up in another part of the expansion which needs the error type too: the conversion from the serde
shadow, `build()`. -/
def FaultyElsewhere (x : FCtx) : Prop :=
  x.isSync = true ∧
    ((x.isLazy = true ∧ (x.ctx.args.isSerde = true ∧ x.ctx.args.needsDeserialize = true) ∧
        (x.isSerde = true ∧ x.needsDeserialize = true)) ∨
     (x.isLazy = false ∧ x.ctx.needsBuilderStruct = true ∧ x.field.skip = false ∧
        (x.needsAccessor = true → x.isClone = true ∨ x.isCopy = true ∨ x.needsLock = true)))

/-- The fields are told apart by their names. -/
def DistinctNames (c : Ctx) : Prop := (c.allFields.map (·.ident)).Nodup

/-- Names of the pieces of one sort, in order. -/
def declared (out : List Piece) : List String := out.filterMap fun | .decl f => some f | _ => none
def defaulted (out : List Piece) : List String := out.filterMap fun | .dflt f => some f | _ => none
def copyChecked (out : List Piece) : List String := out.filterMap fun | .copy f => some f | _ => none
def methods (out : List Piece) : List (String × Kind) := out.filterMap fun | .method f k => some (f, k) | _ => none
def wrapped (out : List Piece) : List String := out.filterMap fun | .wrapper f => some f | _ => none
def setters (out : List Piece) : List String := out.filterMap fun | .setter f => some f | _ => none
def slots (out : List Piece) : List String := out.filterMap fun | .slot f => some f | _ => none
def built (out : List Piece) : List String := out.filterMap fun | .build f => some f | _ => none
def checked (out : List Piece) : List String := out.filterMap fun | .checker f => some f | _ => none
def shadowed (out : List Piece) : List String := out.filterMap fun | .shadow f => some f | _ => none
def serdeFns (out : List Piece) : List String := out.filterMap fun | .serdeFn f => some f | _ => none
def shadowDefaulted (out : List Piece) : List String := out.filterMap fun | .shadowDflt f => some f | _ => none
def fromShadowed (out : List Piece) : List String := out.filterMap fun | .fromShadow f => some f | _ => none
def lazyInited (out : List Piece) : List String := out.filterMap fun | .lazyInit f => some f | _ => none
def intoShadowed (out : List Piece) : List String := out.filterMap fun | .intoShadow f => some f | _ => none

/-- The struct expressions in the tokens: codegen.rs 282-306 (`default_impl`), 232-250 (`new`), 339-400 (`new` and `build` of
the builder; `use_default` is set by an empty setter, 360-362 and 375-380), codegen/serde.rs 308-322, 371-386, 430-439. -/
def exprsOf (c : Ctx) (out : List Piece) : List Structs.Expr :=
  let weak := if c.args.isRefCounted then (Structs.myselfField c.args).toList else []
  (if out.contains .defaultImpl then [{ of := .own, names := defaulted out }] else []) ++
  (if out.contains .newFn then [{ of := .own, names := weak, rest := true }] else []) ++
  (if out.contains .builderStruct then
    [{ of := .builder, names := (Structs.myselfField c.args).toList ++ slots out },
     { of := .own, names := weak ++ built out, rest := (built out).length < (slots out).length && c.needsDefault }] else []) ++
  (if out.contains .shadowStruct && c.needsDefault then
    [{ of := .shadow, names := shadowDefaulted out }] else []) ++
  (if out.contains .fromImpl then
    [{ of := .own, names := fromShadowed out, rest := c.needsDefault }] else []) ++
  (if out.contains .intoImpl then
    [{ of := .shadow, names := intoShadowed out }] else [])

/-- The fields of the three structs: codegen.rs 508-513, 439-457; codegen/serde.rs 325-331. -/
def namesOf (c : Ctx) (out : List Piece) : Structs.Owner → List String
  | .own => declared out
  | .builder =>
    (if c.args.isRefCounted then (Structs.myselfField c.args).toList else []) ++
      slots out
  | .shadow => shadowed out

end Verif.Spec.Expansion
