import Verif.Model.Exclusive
/-!
# From attribute syntax to argument records

`#[fxstruct(..)]` and `#[fieldx(..)]` are read by `darling` into the structures of `Verif.Model.Args`, with the readers of
/repo/fieldx_aux/src/{nesting_attr,value,syn_value,default_arg,base_helper,accessor_helper,setter_helper,builder_helper,
fallible,serde_helper,attributes,lib}.rs and the derived ones of /repo/fieldx_derive/src/{fields,util/args}.rs.

Third party, as documented: `syn` splits the text into the tree `Arg`; a reader derived by `darling` takes a list of
named arguments, refuses names it does not know, names given twice and literals, and hands each argument to the reader of
its field; a field that is not mentioned gets its `from_none` (`None`, or a flag not present); `and_then` runs last.

Simplifications: errors are not told apart, and a panic of the macro (`attributes` without a list) counts as an error:
`none`. Paths, identifiers and expressions are strings; the paths of attributes have one segment (splitting of their
tokens is in `Verif.Model.Tokens`).
-/
namespace Verif.Model.Parse
open Verif.Model.Args Verif.Model.Exclusive

/-- A literal (`syn::Lit`). -/
inductive Lit
  | str (s : String)
  | bool (b : Bool)
  | other (text : String)
deriving DecidableEq, Repr

/-- Right side of `name = value`. -/
inductive NV
  | lit (l : Lit)
  | path (p : String)
deriving DecidableEq, Repr

/-- An item of an attribute (`darling::ast::NestedMeta`: `syn::Meta` or a literal). -/
inductive Arg
  | word (name : String)
  | nv (name : String) (value : NV)
  | list (name : String) (args : List Arg)
  | lit (l : Lit)

/-- The path an item begins with. -/
def Arg.name : Arg → Option String
  | .word n | .nv n _ | .list n _ => some n
  | .lit _ => none

/-- A literal item. -/
def Arg.lit? : Arg → Option Lit
  | .lit l => some l
  | _ => none

/-- The text of a literal. -/
def Lit.text : Lit → String
  | .str s => "\"" ++ s ++ "\""
  | .bool b => if b then "true" else "false"
  | .other t => t

/-- The text of a value. -/
def NV.text : NV → String
  | .lit l => l.text
  | .path p => p

mutual
/-- The text of an item (`to_token_stream`). -/
def text : Arg → String
  | .word n => n
  | .nv n v => n ++ " = " ++ v.text
  | .list n args => n ++ "(" ++ texts args ++ ")"
  | .lit l => l.text
/-- The text of several items. -/
def texts : List Arg → String
  | [] => ""
  | a :: as => text a ++ ", " ++ texts as
end

/-! ### Readers derived by darling -/

/-- Only items with these names (unknown names and literals are errors). -/
def known (names : List String) (args : List Arg) : Bool := args.all fun a => a.name.any (names.contains ·)

/-- The items with the name `n`. -/
def called (n : String) (args : List Arg) : List Arg := args.filter (·.name == some n)

/-- The field `n` of a derived reader: read the argument if it is there; twice is an error. -/
def slot {α : Type} (n : String) (read : Arg → Option α) (args : List Arg) : Option (Option α) :=
  match called n args with
  | [] => some none
  | [a] => (read a).map some
  | _ => none

/-- `darling::util::Flag`: the bare word only. -/
def flagArg : Arg → Option Unit
  | .word _ => some ()
  | _ => none

/-- A field of type `Flag`. -/
def flag (n : String) (args : List Arg) : Option Bool := (slot n flagArg args).map (·.isSome)

/-- `and_then`. -/
def check {α : Type} (ok : α → Bool) (a : α) : Option α := if ok a then some a else none

/-! ### fieldx_aux -/

/-- nesting_attr.rs 80-113 `extract_literals`, 123-147 `from_meta`, for types with literals: literals are set apart; the
bare word is `for_keyword`; `name = value` goes to `from_meta` of the type (`nv`). -/
def nesting {α : Type} (keyword : Option α) (fromList : List Arg → Option α) (setLits : α → List Lit → Option α)
    (nv : NV → Option α := fun _ => none) (arg : Arg) : Option α :=
  match arg with
  | .list _ args => do
    let a ← fromList (args.filter fun a => a.lit?.isNone)
    let lits := args.filterMap (·.lit?)
    if lits.length > 0 then setLits a lits else some a
  | .word _ => keyword
  | .nv _ v => nv v
  | .lit _ => none

/-- nesting_attr.rs 42-53, 56-58; value.rs 22-26; lib.rs 117-119: no literals. -/
def noLits {α : Type} : α → List Lit → Option α := fun _ _ => none

/-- util.rs 5-41 `set_literals!` with `..1 => field as Lit::Str`; accessor_helper.rs 78-97; value.rs 133-142. -/
def strLit {α : Type} (set : α → String → α) (a : α) : List Lit → Option α
  | [.str s] => some (set a s)
  | _ => none

/-- value.rs 13-60, 71-80, lib.rs 203 `FXBool`: `name`, `name(off)`. -/
def fxBool : Arg → Option Bool :=
  nesting (some true) (fun args => if known ["off"] args then (flag "off" args).map (!·) else none) noLits

/-- value.rs 13-60, 130-158, lib.rs 201 `FXString` and its `value()`: `name("text")`; `off` takes the text away. -/
def fxString (a : Arg) : Option (Option String) :=
  (nesting none (fun args => if known ["off"] args then (flag "off" args).map fun off => (off, none) else none)
    (strLit fun a s => (a.1, some s)) (arg := a)).map fun a : Bool × Option String => if a.1 then none else a.2

/-- lib.rs 96-110, `from_list` derived for the enum `FXPubMode`: exactly one variant. A unit variant is a word, the path
is given as `in_mod = path`. -/
def pubVariant : List Arg → Option PubMode
  | [.word "crate"] => some .crate
  | [.word "super"] => some .super
  | [.nv "in_mod" (.path p)] => some (.inMod p)
  | [.nv "in_mod" (.lit (.str p))] => some (.inMod p)
  | _ => none

/-- The same, `from_string`: a unit variant. -/
def pubString : NV → Option PubMode
  | .lit (.str "crate") => some .crate
  | .lit (.str "super") => some .super
  | _ => none

/-- lib.rs 112-120 `FXNestingAttr<FXPubMode>`: the word alone, or one variant, or a variant as value. -/
def pubMode : Arg → Option PubMode := nesting (some .all) pubVariant noLits pubString

/-- attributes.rs 31-39, 51-56: the attributes made of one item. Punctuation separates, `=` included, so that a value
becomes an attribute of its own (and a literal is none). -/
def attrItem : Arg → Option (List String)
  | .word n => some [n]
  | .list n args => some [text (.list n args)]
  | .nv n (.path p) => some [n, p]
  | _ => none

/-- attributes.rs 25-60 `FXAttributes`: a list (anything else panics). -/
def attributes : Arg → Option (List String)
  | .list _ args => (args.mapM attrItem).map (·.flatten)
  | _ => none

/-- syn_value.rs 40-51, nesting_attr.rs 123-147 for types without literals: a list with exactly one path or identifier. -/
def onePath : Arg → Option String
  | .list _ [.word p] => some p
  | _ => none

/-- syn_value.rs 78-85 with `AS_KEYWORD`: the word alone, or one identifier (builder_helper.rs 51 `post_build`). -/
def onePathOr : Arg → Option (Option String)
  | .word _ => some none
  | .list _ [.word p] => some (some p)
  | _ => none

/-- syn_value.rs 210-266 `FXPunctuated<Path, Token![,], 1, 2>` (builder_helper.rs 55 `error`). -/
def twoPaths : Arg → Option (String × Option String)
  | .list _ [.word p] => some (p, none)
  | .list _ [.word p, .word q] => some (p, some q)
  | _ => none

/-- lib.rs 155-171 `FXSyncMode::parse`. -/
def syncMode : Arg → Option SyncMode
  | .list _ [.word "sync"] => some .sync
  | .list _ [.word "async"] => some .async
  | .list _ [.word "plain"] => some .plain
  | _ => none

/-- `bool` of darling (setter_helper.rs 14 `into`): the word, or a boolean value, also as a string. -/
def boolArg : Arg → Option Bool
  | .word _ => some true
  | .nv _ (.lit (.bool b)) => some b
  | .nv _ (.lit (.str "true")) => some true
  | .nv _ (.lit (.str "false")) => some false
  | _ => none

/-- default_arg.rs 43-91 `FXDefault<true>`: the word, nothing, a value, or `off` and a value. -/
def fxDefault : Arg → Option Default
  | .word _ => some { off := false, value := none }
  | .list _ [] => some { off := false, value := none }
  | .list _ [a] => some { off := false, value := some (text a) }
  | .list _ [.word "off", a] => some { off := true, value := some (text a) }
  | _ => none

/-- `darling::util::PathList` (serde_helper.rs 25 `forward_attrs`): words only. -/
def pathList : Arg → Option (List String)
  | .list _ args => args.mapM fun a => match a with
    | .word p => some p
    | _ => none
  | _ => none

/-- The arguments every helper has: fieldx_derive_support/src/lib.rs 196-207. -/
def helperNames : List String := ["name", "off", "attributes_fn", "public", "private"]

/-- Reading them. -/
def helperSlots (args : List Arg) : Option Helper := do
  let name ← slot "name" fxString args
  let off ← flag "off" args
  let attrsFn ← slot "attributes_fn" attributes args
  let pub ← slot "public" pubMode args
  let priv ← slot "private" fxBool args
  return { off, name := name.bind id, attrsFn, pub, priv }

/-- base_helper.rs 20-22 with fieldx_derive_support/src/lib.rs 189-207, derived `from_list` of `FXBaseHelper`. -/
def helperList (args : List Arg) : Option Helper :=
  if known helperNames args then (helperSlots args).bind (check acceptHelper) else none

/-- base_helper.rs 33-39, lib.rs 193 `FXHelper`. -/
def fxHelper : Arg → Option Helper :=
  nesting (some {}) helperList (strLit fun h s => { h with name := some s })

/-- accessor_helper.rs 28-39, derived `from_list` of `FXAccessorHelper`. -/
def accessorList (args : List Arg) : Option Accessor :=
  if known (helperNames ++ ["clone", "copy", "as_ref"]) args then do
    let h ← helperSlots args
    let clone ← flag "clone" args
    let copy ← flag "copy" args
    let asRef ← flag "as_ref" args
    check acceptAccessor { toHelper := h, clone, copy, asRef }
  else none

/-- accessor_helper.rs 73-100, lib.rs 205 `FXAccessor`. -/
def fxAccessor : Arg → Option Accessor :=
  nesting (some {}) accessorList (strLit fun h s => { h with name := some s })

/-- setter_helper.rs 10-15, derived `from_list` of `FXSetterHelper`. -/
def setterList (args : List Arg) : Option Setter :=
  if known (helperNames ++ ["into"]) args then do
    let h ← helperSlots args
    let into ← slot "into" boolArg args
    check (fun s => acceptHelper s.toHelper) { toHelper := h, into }
  else none

/-- setter_helper.rs 31-37, lib.rs 207 `FXSetter`. -/
def fxSetter : Arg → Option Setter :=
  nesting (some {}) setterList (strLit fun h s => { h with name := some s })

/-- builder_helper.rs 13-56, 98-121, derived `from_list` of `FXBuilderHelper<STRUCT>`. -/
def builderList (struct : Bool) (args : List Arg) : Option Builder :=
  if known (helperNames ++ ["attributes", "attributes_impl", "into", "required", "opt_in", "post_build", "error"]) args
  then do
    let h ← helperSlots args
    let attributes' ← slot "attributes" attributes args
    let attributesImpl ← slot "attributes_impl" attributes args
    let into ← slot "into" fxBool args
    let required ← slot "required" fxBool args
    let optIn ← slot "opt_in" fxBool args
    let postBuild ← slot "post_build" onePathOr args
    let error ← slot "error" twoPaths args
    check (fun b => if struct then acceptHelper b.toHelper else acceptFieldBuilder b)
      { toHelper := h, attributes := attributes', attributesImpl, into, required, optIn, postBuild, error }
  else none

/-- builder_helper.rs 124-130, lib.rs 209 `FXBuilder<STRUCT>`. -/
def fxBuilder (struct : Bool) : Arg → Option Builder :=
  nesting (some {}) (builderList struct) (strLit fun h s => { h with name := some s })

/-- fallible.rs 7-15, derived `from_list` of `FXFallible`. -/
def fallibleList (args : List Arg) : Option Fallible :=
  if known ["off", "error"] args then do
    let off ← flag "off" args
    let error ← slot "error" onePath args
    return { off, error }
  else none

/-- fallible.rs 36-46, `FXNestingAttr<FXFallible>`. -/
def fxFallible : Arg → Option Fallible := nesting (some {}) fallibleList noLits

/-- serde_helper.rs 14-32, 48-55, derived `from_list` of `FXSerdeHelper`. -/
def serdeList (args : List Arg) : Option Serde :=
  if known ["off", "public", "private", "attributes", "serialize", "deserialize", "forward_attrs", "default",
    "shadow_name"] args then do
    let off ← flag "off" args
    let pub ← slot "public" pubMode args
    let priv ← slot "private" fxBool args
    let attributes' ← slot "attributes" attributes args
    let serialize ← slot "serialize" fxBool args
    let deserialize ← slot "deserialize" fxBool args
    let forwardAttrs ← slot "forward_attrs" pathList args
    let default ← slot "default" fxDefault args
    let shadowName ← slot "shadow_name" fxString args
    check acceptSerde
      { off, pub, priv, serialize, deserialize, default, shadowName := shadowName.bind id, forwardAttrs,
        attributes := attributes' }
  else none

/-- serde_helper.rs 34-40, lib.rs 211 `FXSerde`. -/
def fxSerde : Arg → Option Serde := nesting (some {}) serdeList (strLit fun s n => { s with shadowName := some n })

/-! ### fieldx_derive -/

/-- Names of the arguments of `#[fieldx(..)]`: fieldx_derive/src/fields.rs 26-69. -/
def fieldNames : List String :=
  ["skip", "mode", "sync", "r#async", "attributes_fn", "fallible", "lazy", "rename", "get", "get_mut", "set", "reader",
   "writer", "clearer", "predicate", "optional", "public", "private", "default", "builder", "into", "clone", "copy", "lock",
   "inner_mut", "serde"]

/-- `FXFieldReceiver::from_field`, fieldx_derive/src/fields.rs 17-77: all the items of all `#[fieldx(..)]` of a field. -/
def fieldSlots (ident : String) (args : List Arg) : Option FieldArgs :=
  if known fieldNames args then do
    let skip ← flag "skip" args
    let mode ← slot "mode" syncMode args
    let modeSync ← slot "sync" fxBool args
    let modeAsync ← slot "r#async" fxBool args
    let attrsFn ← slot "attributes_fn" attributes args
    let fallible ← slot "fallible" fxFallible args
    let lazy ← slot "lazy" fxHelper args
    let baseName ← slot "rename" fxString args
    let accessor ← slot "get" fxAccessor args
    let accessorMut ← slot "get_mut" fxHelper args
    let setter ← slot "set" fxSetter args
    let reader ← slot "reader" fxHelper args
    let writer ← slot "writer" fxHelper args
    let clearer ← slot "clearer" fxHelper args
    let predicate ← slot "predicate" fxHelper args
    let optional ← slot "optional" fxBool args
    let pub ← slot "public" pubMode args
    let priv ← slot "private" fxBool args
    let default ← slot "default" fxDefault args
    let builder ← slot "builder" (fxBuilder false) args
    let into ← slot "into" fxBool args
    let clone ← slot "clone" fxBool args
    let copy ← slot "copy" fxBool args
    let lock ← slot "lock" fxBool args
    let innerMut ← slot "inner_mut" fxBool args
    let serde ← slot "serde" fxSerde args
    return { ident, skip, mode, modeSync, modeAsync, attrsFn, fallible, lazy, baseName := baseName.bind id, accessor,
             accessorMut, setter, reader, writer, clearer, predicate, optional, pub, priv, default, builder, into, clone,
             copy, lock, innerMut, serde }
  else none

/-- `FXField::from_field`, fieldx_derive/src/fields.rs 82-108. `attrs`: the `#[fieldx]` attributes of the field in order,
`none` for the bare form. All items are read together; a bare `#[fieldx]` marks the field; then the checks run. -/
def field (ident : String) (attrs : List (Option (List Arg))) : Option FieldArgs := do
  let f ← fieldSlots ident (attrs.flatMap (·.getD []))
  check acceptField (if attrs.any (·.isNone) then f.markImplicitly else f)

/-- Names of the arguments of `#[fxstruct(..)]`: fieldx_derive/src/util/args.rs 19-65. -/
def structNames : List String :=
  ["mode", "sync", "r#async", "builder", "into", "no_new", "default", "rc", "attributes", "attributes_impl", "fallible",
   "lazy", "get", "get_mut", "set", "reader", "writer", "clearer", "predicate", "optional", "public", "private", "clone",
   "copy", "lock", "inner_mut", "serde"]

/-- `FXSArgs::from_list`, fieldx_derive/src/util/args.rs 16-107, called in fieldx_derive/src/lib.rs 597-607. -/
def struct (args : List Arg) : Option StructArgs :=
  if known structNames args then do
    let mode ← slot "mode" syncMode args
    let modeSync ← slot "sync" fxBool args
    let modeAsync ← slot "r#async" fxBool args
    let builder ← slot "builder" (fxBuilder true) args
    let into ← slot "into" fxBool args
    let noNew ← slot "no_new" fxBool args
    let default ← slot "default" fxBool args
    let rc ← slot "rc" fxHelper args
    let attributes' ← slot "attributes" attributes args
    let attributesImpl ← slot "attributes_impl" attributes args
    let fallible ← slot "fallible" fxFallible args
    let lazy ← slot "lazy" fxHelper args
    let accessor ← slot "get" fxAccessor args
    let accessorMut ← slot "get_mut" fxHelper args
    let setter ← slot "set" fxSetter args
    let reader ← slot "reader" fxHelper args
    let writer ← slot "writer" fxHelper args
    let clearer ← slot "clearer" fxHelper args
    let predicate ← slot "predicate" fxHelper args
    let optional ← slot "optional" fxBool args
    let pub ← slot "public" pubMode args
    let priv ← slot "private" fxBool args
    let clone ← slot "clone" fxBool args
    let copy ← slot "copy" fxBool args
    let lock ← slot "lock" fxBool args
    let innerMut ← slot "inner_mut" fxBool args
    let serde ← slot "serde" fxSerde args
    check acceptStruct
      { mode, modeSync, modeAsync, builder, into, noNew, default, rc, attributes := attributes', attributesImpl, fallible,
        lazy, accessor, accessorMut, setter, reader, writer, clearer, predicate, optional, pub, priv, clone, copy, lock,
        innerMut, serde }
  else none

end Verif.Model.Parse
