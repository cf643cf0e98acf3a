import Verif.Spec.Grammar
/-!
# Specification: what the arguments say

For every argument, the setting that a reader of the documentation finds in it. `Says.. a v`: the item `a` says `v`.
-/
namespace Verif.Spec.Reading
open Verif.Model.Args
open Verif.Model.Parse (Arg Lit NV text)
open Verif.Spec.Grammar (Has IsOff)

/-- The setting `v` of the argument `n`: nothing if it is not there, otherwise what it says. -/
def At {α : Type} (n : String) (Says : Arg → α → Prop) (args : List Arg) : Option α → Prop
  | some r => ∃ a ∈ args, a.name = some n ∧ Says a r
  | none => ¬ Has n args

/-- A flag is set if it is there. -/
def Flag (n : String) (args : List Arg) (v : Bool) : Prop := v = true ↔ Has n args

/-- A text is there if it is given and not switched off. -/
def Text (n : String) (args : List Arg) (v : Option String) : Prop :=
  ∀ s, v = some s ↔ ∃ as, .list n as ∈ args ∧ .lit (.str s) ∈ as ∧ .word "off" ∉ as

/-- What is in the parentheses. -/
def inner : Arg → List Arg
  | .list _ as => as
  | _ => []

/-- A switch is on unless it is switched off. -/
def SaysSwitch (a : Arg) (v : Bool) : Prop := v = true ↔ ¬ IsOff a

/-- Visibility. -/
inductive SaysPublic : Arg → PubMode → Prop
  | all (n) : SaysPublic (.word n) .all
  | crate (n) : SaysPublic (.list n [.word "crate"]) .crate
  | super (n) : SaysPublic (.list n [.word "super"]) .super
  | crate' (n) : SaysPublic (.nv n (.lit (.str "crate"))) .crate
  | super' (n) : SaysPublic (.nv n (.lit (.str "super"))) .super
  | inMod (n p) : SaysPublic (.list n [.nv "in_mod" (.path p)]) (.inMod p)
  | inMod' (n p) : SaysPublic (.list n [.nv "in_mod" (.lit (.str p))]) (.inMod p)

/-- The attributes in a list, in order. A word is an attribute, a word with parentheses too; `a = b` are two. -/
inductive Attributes : List Arg → List String → Prop
  | nil : Attributes [] []
  | word (w) {as vs} : Attributes as vs → Attributes (.word w :: as) (w :: vs)
  | list (w bs) {as vs} : Attributes as vs → Attributes (.list w bs :: as) (text (.list w bs) :: vs)
  | nv (w p) {as vs} : Attributes as vs → Attributes (.nv w (.path p) :: as) (w :: p :: vs)

/-- Attributes. -/
def SaysAttributes (a : Arg) (v : List String) : Prop := Attributes (inner a) v

/-- Paths, in order. -/
def SaysPaths (a : Arg) (v : List String) : Prop := inner a = v.map .word

/-- Concurrency mode. -/
inductive SaysMode : Arg → SyncMode → Prop
  | sync (n) : SaysMode (.list n [.word "sync"]) .sync
  | async (n) : SaysMode (.list n [.word "async"]) .async
  | plain (n) : SaysMode (.list n [.word "plain"]) .plain

/-- A path. -/
def SaysPath (a : Arg) (v : String) : Prop := inner a = [.word v]

/-- A path, or nothing. -/
def SaysPathOrWord (a : Arg) (v : Option String) : Prop := inner a = v.toList.map .word

/-- A path, and maybe another. -/
def SaysPathOrTwo (a : Arg) (v : String × Option String) : Prop := inner a = .word v.1 :: v.2.toList.map .word

/-- Yes or no. -/
inductive SaysTruth : Arg → Bool → Prop
  | word (n) : SaysTruth (.word n) true
  | bool (n b) : SaysTruth (.nv n (.lit (.bool b))) b
  | yes (n) : SaysTruth (.nv n (.lit (.str "true"))) true
  | no (n) : SaysTruth (.nv n (.lit (.str "false"))) false

/-- A default: off if there is an `off` before the value; the value is the text of the last item. -/
def SaysDefault (a : Arg) (v : Default) : Prop :=
  (v.off = true ↔ ∃ b, inner a = [.word "off", b]) ∧ v.value = (inner a).getLast?.map text

/-- A name: the literal; without a literal the text of `n`. -/
def Name (n : String) (args : List Arg) (v : Option String) : Prop :=
  (∀ s, .lit (.str s) ∈ args → v = some s) ∧ ((∀ l, .lit l ∉ args) → Text n args v)

/-- What all helpers have. -/
structure Helps (args : List Arg) (h : Helper) : Prop where
  off     : Flag "off" args h.off
  name    : Name "name" args h.name
  attrsFn : At "attributes_fn" SaysAttributes args h.attrsFn
  pub     : At "public" SaysPublic args h.pub
  priv    : At "private" SaysSwitch args h.priv

/-- A helper. The word alone says the same as empty parentheses. -/
def SaysHelper (a : Arg) (h : Helper) : Prop := Helps (inner a) h

/-- `get`. -/
structure SaysAccessor (a : Arg) (v : Accessor) : Prop where
  helps : Helps (inner a) v.toHelper
  clone : Flag "clone" (inner a) v.clone
  copy  : Flag "copy" (inner a) v.copy
  asRef : Flag "as_ref" (inner a) v.asRef

/-- `set`. -/
structure SaysSetter (a : Arg) (v : Setter) : Prop where
  helps : Helps (inner a) v.toHelper
  into  : At "into" SaysTruth (inner a) v.into

/-- `builder`. -/
structure SaysBuilder (a : Arg) (v : Builder) : Prop where
  helps          : Helps (inner a) v.toHelper
  attributes     : At "attributes" SaysAttributes (inner a) v.attributes
  attributesImpl : At "attributes_impl" SaysAttributes (inner a) v.attributesImpl
  into           : At "into" SaysSwitch (inner a) v.into
  required       : At "required" SaysSwitch (inner a) v.required
  optIn          : At "opt_in" SaysSwitch (inner a) v.optIn
  postBuild      : At "post_build" SaysPathOrWord (inner a) v.postBuild
  error          : At "error" SaysPathOrTwo (inner a) v.error

/-- `fallible`. -/
structure SaysFallible (a : Arg) (v : Fallible) : Prop where
  off   : Flag "off" (inner a) v.off
  error : At "error" SaysPath (inner a) v.error

/-- `serde`. -/
structure SaysSerde (a : Arg) (v : Serde) : Prop where
  off          : Flag "off" (inner a) v.off
  pub          : At "public" SaysPublic (inner a) v.pub
  priv         : At "private" SaysSwitch (inner a) v.priv
  serialize    : At "serialize" SaysSwitch (inner a) v.serialize
  deserialize  : At "deserialize" SaysSwitch (inner a) v.deserialize
  forwardAttrs : At "forward_attrs" SaysPaths (inner a) v.forwardAttrs
  default      : At "default" SaysDefault (inner a) v.default
  shadowName   : Name "shadow_name" (inner a) v.shadowName
  attributes   : At "attributes" SaysAttributes (inner a) v.attributes

/-- All the arguments of a field. -/
structure FieldSays (args : List Arg) (f : FieldArgs) : Prop where
  skip        : Flag "skip" args f.skip
  mode        : At "mode" SaysMode args f.mode
  modeSync    : At "sync" SaysSwitch args f.modeSync
  modeAsync   : At "r#async" SaysSwitch args f.modeAsync
  attrsFn     : At "attributes_fn" SaysAttributes args f.attrsFn
  fallible    : At "fallible" SaysFallible args f.fallible
  lazy        : At "lazy" SaysHelper args f.lazy
  baseName    : Text "rename" args f.baseName
  accessor    : At "get" SaysAccessor args f.accessor
  accessorMut : At "get_mut" SaysHelper args f.accessorMut
  setter      : At "set" SaysSetter args f.setter
  reader      : At "reader" SaysHelper args f.reader
  writer      : At "writer" SaysHelper args f.writer
  clearer     : At "clearer" SaysHelper args f.clearer
  predicate   : At "predicate" SaysHelper args f.predicate
  optional    : At "optional" SaysSwitch args f.optional
  pub         : At "public" SaysPublic args f.pub
  priv        : At "private" SaysSwitch args f.priv
  default     : At "default" SaysDefault args f.default
  builder     : At "builder" SaysBuilder args f.builder
  into        : At "into" SaysSwitch args f.into
  clone       : At "clone" SaysSwitch args f.clone
  copy        : At "copy" SaysSwitch args f.copy
  lock        : At "lock" SaysSwitch args f.lock
  innerMut    : At "inner_mut" SaysSwitch args f.innerMut
  serde       : At "serde" SaysSerde args f.serde

/-- All the arguments of a struct. -/
structure StructSays (args : List Arg) (s : StructArgs) : Prop where
  mode           : At "mode" SaysMode args s.mode
  modeSync       : At "sync" SaysSwitch args s.modeSync
  modeAsync      : At "r#async" SaysSwitch args s.modeAsync
  builder        : At "builder" SaysBuilder args s.builder
  into           : At "into" SaysSwitch args s.into
  noNew          : At "no_new" SaysSwitch args s.noNew
  default        : At "default" SaysSwitch args s.default
  rc             : At "rc" SaysHelper args s.rc
  attributes     : At "attributes" SaysAttributes args s.attributes
  attributesImpl : At "attributes_impl" SaysAttributes args s.attributesImpl
  fallible       : At "fallible" SaysFallible args s.fallible
  lazy           : At "lazy" SaysHelper args s.lazy
  accessor       : At "get" SaysAccessor args s.accessor
  accessorMut    : At "get_mut" SaysHelper args s.accessorMut
  setter         : At "set" SaysSetter args s.setter
  reader         : At "reader" SaysHelper args s.reader
  writer         : At "writer" SaysHelper args s.writer
  clearer        : At "clearer" SaysHelper args s.clearer
  predicate      : At "predicate" SaysHelper args s.predicate
  optional       : At "optional" SaysSwitch args s.optional
  pub            : At "public" SaysPublic args s.pub
  priv           : At "private" SaysSwitch args s.priv
  clone          : At "clone" SaysSwitch args s.clone
  copy           : At "copy" SaysSwitch args s.copy
  lock           : At "lock" SaysSwitch args s.lock
  innerMut       : At "inner_mut" SaysSwitch args s.innerMut
  serde          : At "serde" SaysSerde args s.serde

/-- A bare `#[fieldx]` among the attributes of a field: if nothing is said about `lazy`, the field is marked with `lazy`,
`clearer` and `predicate`, all three set to `m`. -/
def Marked (bare : Bool) (m : Helper) (f g : FieldArgs) : Prop :=
  if bare = true ∧ f.lazy = none then g = { f with lazy := some m, clearer := some m, predicate := some m } else g = f

end Verif.Spec.Reading
