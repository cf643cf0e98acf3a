import Verif.Model.Parse
/-!
# The attribute macro `fxhelper`

Model of /repo/fieldx_derive_support/src/lib.rs, the macro which completes the declaration of every helper argument
(`get`, `set`, `builder`, ..), and of its four uses in /repo/fieldx_aux/src: base_helper.rs 20-22, accessor_helper.rs
28-39, setter_helper.rs 10-15, builder_helper.rs 13-56.

Left out: visibilities, spans, attributes passed through unchanged, generics. An object of a generated struct is seen
through the tests its own check makes, one answer for each field.
-/
namespace Verif.Model.FxHelper
open Verif.Model.Args

/-- The type of a field of a helper struct. The macro looks at the text only: is it a path (lib.rs 85), and is the path
the single word `Flag` (line 86)? -/
inductive Ty where
  /-- `Flag` -/
  | flag
  /-- the same type written with a longer path, as `darling::util::Flag` -/
  | longFlag
  /-- `Option<..>` -/
  | option
  /-- any other path, as `String` -/
  | path
  /-- not a path, as `(A, B)` or `&'static str` -/
  | other
deriving DecidableEq, Repr

/-- `FXHelperField`, lib.rs 14-23. -/
structure Field where
  name      : String
  ty        : Ty
  exclusive : Option String := none
deriving DecidableEq, Repr

/-- `FXHArgs` and `FXHelperStruct`, lib.rs 9-12, 25-33. `derives`: the paths in all `#[derive(..)]` of the struct;
`validate`: a function is given. -/
structure Input where
  fields   : List Field
  derives  : List String := []
  validate : Bool := false
deriving DecidableEq, Repr

/-- The method which tells that an argument is given: lib.rs 76-77, 87, 90. -/
inductive Test where
  | isSome
  | isPresent
deriving DecidableEq, Repr

/-- `exclusives`, lib.rs 70: the map of groups as a list of entries. The order of the entries of a `HashMap` is any. -/
abbrev Groups := List (String × List (String × Test))

/-- Lib.rs 73-79. -/
def groups₀ : Groups := [("visibility", [("public", .isSome), ("private", .isSome)])]

/-- Lib.rs 85-97: `none` if the type is not a path. -/
def testOf : Ty → Option Test
  | .flag => some .isPresent
  | .longFlag | .option | .path => some .isSome
  | .other => none

/-- Lib.rs 99-104. -/
def push (gs : Groups) (g : String) (m : String × Test) : Groups :=
  if g ∈ gs.map (·.1) then gs.map fun e => if e.1 = g then (e.1, e.2 ++ [m]) else e else gs ++ [(g, [m])]

/-- The loop over the fields, lib.rs 81-113, as to the groups. `none`: the macro returns an error (lines 94-96). -/
def collect : List Field → Groups → Option Groups
  | [], gs => some gs
  | f :: fs, gs =>
    match f.exclusive with
    | none => collect fs gs
    | some g =>
      match testOf f.ty with
      | none => none
      | some t => collect fs (push gs g (f.name, t))

/-- The fields every helper gets, lib.rs 195-205. -/
def common : List Field :=
  [⟨"name", .option, none⟩, ⟨"off", .flag, none⟩, ⟨"attributes_fn", .option, none⟩, ⟨"public", .option, none⟩,
   ⟨"private", .option, none⟩]

/-- What the macro makes of a struct, as far as the choices below go. -/
structure Output where
  /-- the fields of the struct, lib.rs 194-208 -/
  fields     : List Field
  /-- the blocks of `validate_exclusives`, lib.rs 149-176, 241-244 -/
  groups     : Groups
  /-- all the derives of the struct, lib.rs 190-193 -/
  derives    : List String
  /-- the method `attributes` gives the field of this name, lib.rs 115-132; otherwise `None` -/
  attributes : Bool
  /-- the function given is called, lib.rs 178-187, 248 -/
  validate   : Bool
deriving DecidableEq, Repr

/-- Lib.rs 134-144: `Getters` is added unless it is there. -/
def gettersDerive (derives : List String) : List String := if "Getters" ∈ derives then [] else ["Getters"]

/-- `fxhelper`, lib.rs 36-254. -/
def fxhelper (i : Input) : Option Output :=
  (collect i.fields groups₀).map fun gs =>
    { fields := common ++ i.fields
      groups := gs
      derives := ["FromMeta", "Clone"] ++ i.derives ++ gettersDerive i.derives
      attributes := i.fields.any (·.name == "attributes")
      validate := i.validate }

/-! ### The generated code -/

/-- Which answer the object gives to the test of a field. -/
abbrev Given := String → Bool

/-- `set_params` of one group, lib.rs 152-164. -/
def setParams (given : Given) (ms : List (String × Test)) : List String :=
  ms.filterMap fun m => if given m.1 then some m.1 else none

/-- `validate_exclusives`, lib.rs 149-176, 241-244: the blocks in the order in which they are written; the first group
with more than one argument returns its error, made of the title and the names. -/
def validateExclusives (given : Given) : Groups → Option (String × List String)
  | [] => none
  | (g, ms) :: r =>
    if (setParams given ms).length > 1 then some (g, setParams given ms) else validateExclusives given r

/-- Which error `__validate_helper` ends with. -/
inductive Err where
  | group (title : String) (names : List String)
  | own
deriving DecidableEq, Repr

/-- `__validate_helper`, lib.rs 246-250. `own`: the function given accepts the object. -/
def validateHelper (o : Output) (given : Given) (own : Bool) : Option Err :=
  match validateExclusives given o.groups with
  | some (g, ns) => some (.group g ns)
  | none => if o.validate && !own then some .own else none

/-- The method called by a test exists for the type: `Flag::is_present` (darling), `Option::is_some`. -/
def hasMethod : Ty → Test → Bool
  | .flag, .isPresent | .longFlag, .isPresent | .option, .isSome => true
  | _, _ => false

/-- The checks compile: lib.rs 154-158. -/
def checksCompile (o : Output) : Bool :=
  o.groups.all fun e => e.2.all fun m => o.fields.all fun f => f.name != m.1 || hasMethod f.ty m.2

/-! ### The uses -/

/-- base_helper.rs 20-22. -/
def base : Input := { fields := [], derives := ["Default", "Debug"] }

/-- accessor_helper.rs 28-39. -/
def accessor : Input :=
  { fields := [⟨"clone", .flag, some "accessor mode"⟩, ⟨"copy", .flag, some "accessor mode"⟩,
               ⟨"as_ref", .flag, some "accessor mode"⟩]
    derives := ["Default", "Debug"] }

/-- setter_helper.rs 10-15. -/
def setter : Input := { fields := [⟨"into", .option, none⟩], derives := ["Default", "Debug", "Getters"] }

/-- builder_helper.rs 13-56. -/
def builder : Input :=
  { fields := [⟨"attributes", .option, none⟩, ⟨"attributes_impl", .option, none⟩, ⟨"into", .option, none⟩,
               ⟨"required", .option, none⟩, ⟨"opt_in", .option, none⟩, ⟨"post_build", .option, none⟩,
               ⟨"error", .option, none⟩]
    derives := ["Debug", "Default", "Getters"]
    validate := true }

/-- The four. -/
def uses : List Input := [base, accessor, setter, builder]

/-- The answers of an object of the common part: lib.rs 196-205. -/
def helperGiven (h : Helper) : Given
  | "name" => h.name.isSome
  | "off" => h.off
  | "attributes_fn" => h.attrsFn.isSome
  | "public" => h.pub.isSome
  | "private" => h.priv.isSome
  | _ => false

/-- The answers of an accessor helper: accessor_helper.rs 33-38. -/
def accessorGiven (a : Accessor) : Given
  | "clone" => a.clone
  | "copy" => a.copy
  | "as_ref" => a.asRef
  | n => helperGiven a.toHelper n

/-- `FXBuilderHelper::validate`, builder_helper.rs 98-121: at struct level everything is fine, at a field nothing of the
three may be given. -/
def builderOwn (struct : Bool) (b : Builder) : Bool :=
  struct || !(b.error.isSome || b.postBuild.isSome || b.optIn.isSome)

end Verif.Model.FxHelper
