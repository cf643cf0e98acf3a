import Verif.Model.Init
/-
The generated builder: its object, its setters, and `build()`.

Sources: /repo/fieldx_derive/src/codegen.rs 327-422 (`builder_impl`), 424-462 (`builder_struct`);
/repo/fieldx_derive/src/codegen/codegen_trait.rs 303-322, 357-428, 430-478.

Simplifications: default expressions are evaluated to fixed values (they are the user's code); `.into()` conversions are
not shown; `post_build` is not applied here (see `Verif.Model.Rc`); the values of a struct are a list of named fields.
-/
namespace Verif.Model.Builder
open Verif.Model.Args Verif.Model.Init

/-- The fields of the builder object besides the self reference, in declaration order: codegen_trait.rs 303-322 (skipped
fields have none), codegen.rs 317-325 `builder_field_ctxs`. -/
def builderFields (c : Ctx) : List FieldArgs := c.allFields.filter (fun f => !f.isSkipped)

/-- Is there a setter in the builder: codegen_trait.rs 357-358 `field_builder`. -/
def hasSetter (x : FCtx) : Bool := x.forcedBuilder || x.needsBuilder

/-- Does `build()` check that a value was given: codegen_trait.rs 396-399 `field_builder_value_required`. -/
def hasChecker (x : FCtx) : Bool :=
  x.isBuilderRequired || (x.needsBuilder && !(x.isLazy || x.isOptional || x.field.hasDefaultValue))

/-- The builder object: a slot for each field. -/
abbrev Slots (V : Type) := String → Option V

/-- `new()`: codegen.rs 340-352, 381-387. -/
def Slots.new {V : Type} : Slots V := fun _ => none

/-- A setter: codegen_trait.rs 366-372. -/
def Slots.set {V : Type} (s : Slots V) (n : String) (v : V) : Slots V := fun m => if m = n then some v else s m

/-- Put back the slot of one field. -/
def Slots.put {V : Type} (s : Slots V) (n : String) (o : Option V) : Slots V := fun m => if m = n then o else s m

/-- What `build()` gives: the object, an error naming a field, a panic; `ill` if there is no such code. -/
inductive Built (V : Type)
  | ok (obj : List (String × Val V))
  | err (name : String)
  | panic
  | ill
deriving DecidableEq

/-- The checks, in order: codegen.rs 371-373, 412. -/
def runCheckers {V : Type} (c : Ctx) (s : Slots V) : List FieldArgs → Option String
  | [] => none
  | f :: fs => if hasChecker ⟨c, f⟩ && (s f.ident).isNone then some f.ident else runCheckers c s fs

/-- The struct expression: initialisers are evaluated in the order written. codegen.rs 362-370, 389-397. -/
def construct {V : Type} (c : Ctx) (w : String → Env V) (s : Slots V) : List FieldArgs → Built V × Slots V
  | [] => (.ok [], s)
  | f :: fs =>
    match declType ⟨c, f⟩, builderInit ⟨c, f⟩ with
    | .ok τ, .ok e =>
      match eval τ (w f.ident) (s f.ident) e with
      | (.ok a, o) =>
        match construct c w (s.put f.ident o) fs with
        | (.ok rest, s') => (.ok ((f.ident, a) :: rest), s')
        | r => r
      | (.panic, o) => (.panic, s.put f.ident o)
      | (.stuck, o) => (.ill, s.put f.ident o)
    | _, _ => (.ill, s)

/-- `build(&mut self)`: codegen.rs 411-414. -/
def build {V : Type} (c : Ctx) (w : String → Env V) (s : Slots V) : Built V × Slots V :=
  match runCheckers c s (builderFields c) with
  | some n => (.err n, s)
  | none => construct c w s (builderFields c)

/-- Fields the struct expression in `build()` gives a value: the self reference (codegen_trait.rs 257-262) and the
builder fields. The rest is never taken from `Default`: `use_default` (codegen.rs 364-367) is only set if a field's
initialiser is empty, which means an error was recorded. -/
def constructed (c : Ctx) : List String :=
  (if c.args.isRefCounted then c.extra.map (·.ident) else []) ++ (builderFields c).map (·.ident)

end Verif.Model.Builder
