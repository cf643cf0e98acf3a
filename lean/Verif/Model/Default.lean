import Verif.Model.Init
/-
The generated `Default` implementation and `new()`.

Sources: /repo/fieldx_derive/src/codegen.rs 226-251 (`struct_extras`), 282-306 (`default_impl`),
/repo/fieldx_derive/src/codegen/codegen_trait.rs 232-276 (`maybe_ref_counted_create`), 324-329 (`field_default`),
/repo/fieldx_derive/src/ctx/codegen.rs 229-232, 393-418.

Simplifications: as in `Verif.Model.Init`; the object is a list of named fields; the self reference that `new()` of a
reference counted struct overwrites is in `Verif.Model.Rc`.
-/
namespace Verif.Model.Default
open Verif.Model.Args Verif.Model.Init

/-- Is `impl Default` written? codegen.rs 285-287, 293, 302-305: nothing is written if there are no entries, and there is
one entry for each field (codegen_trait.rs 324-329, called for every field, skipped or not, codegen.rs 186-203). -/
def hasDefaultImpl (c : Ctx) : Bool := c.needsDefault && !c.allFields.isEmpty

/-- The constructor function, if written: codegen.rs 231-250. -/
def constructor (c : Ctx) : Option String :=
  if c.needsDefault then some (if c.args.needsNew then "new" else "__fieldx_new") else none

/-- What `Default::default()` gives; `ill` if the code would not type-check. -/
inductive Made (V : Type)
  | ok (obj : List (String × Val V))
  | panic
  | ill
deriving DecidableEq

/-- The struct expression `Self { .. }` in `default()`: codegen.rs 293-300. -/
def defaultObj {V : Type} (c : Ctx) (w : String → Env V) : List FieldArgs → Made V
  | [] => .ok []
  | f :: fs =>
    match declType ⟨c, f⟩, defaultInit ⟨c, f⟩ with
    | .ok τ, .ok e =>
      match (eval τ (w f.ident) none e).1 with
      | .ok a =>
        match defaultObj c w fs with
        | .ok rest => .ok ((f.ident, a) :: rest)
        | r => r
      | .panic => .panic
      | .stuck => .ill
    | _, _ => .ill

/-- `Default::default()`. -/
def makeDefault {V : Type} (c : Ctx) (w : String → Env V) : Made V := defaultObj c w c.allFields

end Verif.Model.Default
