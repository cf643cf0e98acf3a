import Verif.Model.Parse
/-!
# Specification: one way of writing every setting

`wField`, `wStruct` write down the settings of a field and of a struct, argument by argument.
-/
namespace Verif.Spec.Spelling
open Verif.Model.Args
open Verif.Model.Parse (Arg Lit NV)

/-- `name`, if set. -/
def wFlag (n : String) (v : Bool) : List Arg := if v then [.word n] else []

/-- `name`, `name(off)`. -/
def wSwitch (n : String) : Option Bool → List Arg
  | none => []
  | some true => [.word n]
  | some false => [.list n [.word "off"]]

/-- `name("text")`. -/
def wText (n : String) : Option String → List Arg
  | none => []
  | some s => [.list n [.lit (.str s)]]

/-- `"text"`. -/
def wLit : Option String → List Arg
  | none => []
  | some s => [.lit (.str s)]

/-- `public`, `public(crate)`, `public(super)`, `public(in_mod = path)`; there is no way to write "private" here. -/
def wPublic (n : String) : Option PubMode → List Arg
  | none | some .priv => []
  | some .all => [.word n]
  | some .crate => [.list n [.word "crate"]]
  | some .super => [.list n [.word "super"]]
  | some (.inMod p) => [.list n [.nv "in_mod" (.path p)]]

/-- `attributes(a, b, ..)`. -/
def wAttrs (n : String) : Option (List String) → List Arg
  | none => []
  | some l => [.list n (l.map .word)]

/-- `mode(sync)`. -/
def wMode (n : String) : Option SyncMode → List Arg
  | none => []
  | some .sync => [.list n [.word "sync"]]
  | some .async => [.list n [.word "async"]]
  | some .plain => [.list n [.word "plain"]]

/-- `into`, `into = false`. -/
def wTruth (n : String) : Option Bool → List Arg
  | none => []
  | some b => [.nv n (.lit (.bool b))]

/-- `error(path)`. -/
def wPath (n : String) : Option String → List Arg
  | none => []
  | some p => [.list n [.word p]]

/-- `post_build`, `post_build(path)`. -/
def wPathOrWord (n : String) : Option (Option String) → List Arg
  | none => []
  | some none => [.word n]
  | some (some p) => [.list n [.word p]]

/-- `error(path)`, `error(path, path)`. -/
def wPathOrTwo (n : String) : Option (String × Option String) → List Arg
  | none => []
  | some (p, none) => [.list n [.word p]]
  | some (p, some q) => [.list n [.word p, .word q]]

/-- `default`, `default(value)`, `default(off, value)`; there is no way to write "off" without a value. -/
def wDefault (n : String) : Option Default → List Arg
  | none => []
  | some { value := none, .. } => [.word n]
  | some { off := false, value := some v } => [.list n [.lit (.other v)]]
  | some { off := true, value := some v } => [.list n [.word "off", .lit (.other v)]]

/-- Arguments one after the other. -/
def join (ws : List (String × List Arg)) : List Arg := ws.flatMap (·.2)

/-- What all helpers have, but the name. -/
def helperArgs (h : Helper) : List (String × List Arg) :=
  [("off", wFlag "off" h.off), ("attributes_fn", wAttrs "attributes_fn" h.attrsFn), ("public", wPublic "public" h.pub),
   ("private", wSwitch "private" h.priv)]

/-- `helper("name", ..)`. -/
def wHelper (n : String) : Option Helper → List Arg
  | none => []
  | some h => [.list n (wLit h.name ++ join (helperArgs h))]

/-- `get(..)`. -/
def wAccessor (n : String) : Option Accessor → List Arg
  | none => []
  | some a => [.list n (wLit a.name ++ join (helperArgs a.toHelper ++
      [("clone", wFlag "clone" a.clone), ("copy", wFlag "copy" a.copy), ("as_ref", wFlag "as_ref" a.asRef)]))]

/-- `set(..)`. -/
def wSetter (n : String) : Option Setter → List Arg
  | none => []
  | some a => [.list n (wLit a.name ++ join (helperArgs a.toHelper ++ [("into", wTruth "into" a.into)]))]

/-- `builder(..)`. -/
def wBuilder (n : String) : Option Builder → List Arg
  | none => []
  | some b => [.list n (wLit b.name ++ join (helperArgs b.toHelper ++
      [("attributes", wAttrs "attributes" b.attributes), ("attributes_impl", wAttrs "attributes_impl" b.attributesImpl),
       ("into", wSwitch "into" b.into), ("required", wSwitch "required" b.required), ("opt_in", wSwitch "opt_in" b.optIn),
       ("post_build", wPathOrWord "post_build" b.postBuild), ("error", wPathOrTwo "error" b.error)]))]

/-- `fallible(..)`. -/
def wFallible (n : String) : Option Fallible → List Arg
  | none => []
  | some f => [.list n (join [("off", wFlag "off" f.off), ("error", wPath "error" f.error)])]

/-- `serde(..)`. -/
def wSerde (n : String) : Option Serde → List Arg
  | none => []
  | some s => [.list n (wLit s.shadowName ++ join
      [("off", wFlag "off" s.off), ("public", wPublic "public" s.pub), ("private", wSwitch "private" s.priv),
       ("serialize", wSwitch "serialize" s.serialize), ("deserialize", wSwitch "deserialize" s.deserialize),
       ("forward_attrs", wAttrs "forward_attrs" s.forwardAttrs), ("default", wDefault "default" s.default),
       ("attributes", wAttrs "attributes" s.attributes)])]

/-- All the arguments of a field. -/
def fieldArgs (f : FieldArgs) : List (String × List Arg) :=
  [("skip", wFlag "skip" f.skip), ("mode", wMode "mode" f.mode), ("sync", wSwitch "sync" f.modeSync),
   ("r#async", wSwitch "r#async" f.modeAsync), ("attributes_fn", wAttrs "attributes_fn" f.attrsFn),
   ("fallible", wFallible "fallible" f.fallible), ("lazy", wHelper "lazy" f.lazy),
   ("rename", wText "rename" f.baseName), ("get", wAccessor "get" f.accessor),
   ("get_mut", wHelper "get_mut" f.accessorMut), ("set", wSetter "set" f.setter),
   ("reader", wHelper "reader" f.reader), ("writer", wHelper "writer" f.writer),
   ("clearer", wHelper "clearer" f.clearer), ("predicate", wHelper "predicate" f.predicate),
   ("optional", wSwitch "optional" f.optional), ("public", wPublic "public" f.pub),
   ("private", wSwitch "private" f.priv), ("default", wDefault "default" f.default),
   ("builder", wBuilder "builder" f.builder), ("into", wSwitch "into" f.into), ("clone", wSwitch "clone" f.clone),
   ("copy", wSwitch "copy" f.copy), ("lock", wSwitch "lock" f.lock), ("inner_mut", wSwitch "inner_mut" f.innerMut),
   ("serde", wSerde "serde" f.serde)]

/-- `#[fieldx(..)]`. -/
def wField (f : FieldArgs) : List Arg := join (fieldArgs f)

/-- All the arguments of a struct. -/
def structArgs (s : StructArgs) : List (String × List Arg) :=
  [("mode", wMode "mode" s.mode), ("sync", wSwitch "sync" s.modeSync), ("r#async", wSwitch "r#async" s.modeAsync),
   ("builder", wBuilder "builder" s.builder), ("into", wSwitch "into" s.into), ("no_new", wSwitch "no_new" s.noNew),
   ("default", wSwitch "default" s.default), ("rc", wHelper "rc" s.rc),
   ("attributes", wAttrs "attributes" s.attributes), ("attributes_impl", wAttrs "attributes_impl" s.attributesImpl),
   ("fallible", wFallible "fallible" s.fallible), ("lazy", wHelper "lazy" s.lazy),
   ("get", wAccessor "get" s.accessor), ("get_mut", wHelper "get_mut" s.accessorMut), ("set", wSetter "set" s.setter),
   ("reader", wHelper "reader" s.reader), ("writer", wHelper "writer" s.writer),
   ("clearer", wHelper "clearer" s.clearer), ("predicate", wHelper "predicate" s.predicate),
   ("optional", wSwitch "optional" s.optional), ("public", wPublic "public" s.pub),
   ("private", wSwitch "private" s.priv), ("clone", wSwitch "clone" s.clone), ("copy", wSwitch "copy" s.copy),
   ("lock", wSwitch "lock" s.lock), ("inner_mut", wSwitch "inner_mut" s.innerMut), ("serde", wSerde "serde" s.serde)]

/-- `#[fxstruct(..)]`. -/
def wStruct (s : StructArgs) : List Arg := join (structArgs s)

/-! ### What can be written at all -/

/-- A visibility other than "private". -/
def PubOk (p : Option PubMode) : Prop := p ≠ some .priv

/-- A default that is switched off has a value. -/
def DefaultOk (d : Option Default) : Prop := ∀ x, d = some x → x.off = true → x.value ≠ none

/-- A helper. -/
def HelperOk (h : Option Helper) : Prop := PubOk (h.bind (·.pub))

/-- `serde`. -/
def SerdeOk (s : Option Serde) : Prop := PubOk (s.bind (·.pub)) ∧ DefaultOk (s.bind (·.default))

/-- The settings of a field can be written. -/
def FieldOk (f : FieldArgs) : Prop :=
  PubOk f.pub ∧ DefaultOk f.default ∧ HelperOk f.lazy ∧ HelperOk (f.accessor.map (·.toHelper)) ∧ HelperOk f.accessorMut ∧
  HelperOk (f.setter.map (·.toHelper)) ∧ HelperOk f.reader ∧ HelperOk f.writer ∧ HelperOk f.clearer ∧
  HelperOk f.predicate ∧ HelperOk (f.builder.map (·.toHelper)) ∧ SerdeOk f.serde

/-- The settings of a struct can be written. -/
def StructOk (s : StructArgs) : Prop :=
  PubOk s.pub ∧ HelperOk s.lazy ∧ HelperOk (s.accessor.map (·.toHelper)) ∧ HelperOk s.accessorMut ∧
  HelperOk (s.setter.map (·.toHelper)) ∧ HelperOk s.reader ∧ HelperOk s.writer ∧ HelperOk s.clearer ∧
  HelperOk s.predicate ∧ HelperOk (s.builder.map (·.toHelper)) ∧ HelperOk s.rc ∧ SerdeOk s.serde

end Verif.Spec.Spelling
