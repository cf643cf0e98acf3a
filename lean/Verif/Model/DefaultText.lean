import Verif.Spec.DefaultMeaning
/-
Default values as they are written, and the code made of them.

Sources: /repo/fieldx_aux/src/default_arg.rs; /repo/fieldx_derive/src/codegen/codegen_trait.rs 331-355;
/repo/fieldx_derive/src/codegen/serde.rs 55-118, 190-220, 473-534.

`Verif.Model.Args` keeps only the text of a default value (`C120_read`), and `Verif.Model.Expand.Lits` says what kind of text it
is; here it is an item.

Simplification: what is put around the value for the kind of the field (`Some`, locks) is in `Verif.Model.Init`.
-/
namespace Verif.Model.DefaultText
open Verif.Model.Parse Verif.Spec.DefaultMeaning

/-- default_arg.rs 13-22 `FXDefault`. -/
structure DefaultArg where
  off   : Bool
  value : Option Arg

/-- default_arg.rs 44-74 `from_list`. -/
def fromList (optional : Bool) (items : List Arg) : Option DefaultArg :=
  if items.length = 2 then
    match items with
    | .word "off" :: rest => some { off := true, value := rest.head? }
    | _ => none
  else if items.length = 0 then
    if optional then some { off := false, value := none } else none
  else if items.length > 2 then none
  else some { off := false, value := items.head? }

/-- default_arg.rs 76-91 `from_word`. -/
def fromWord (optional : Bool) : Option DefaultArg := if optional then some { off := false, value := none } else none

/-- `FromMeta::from_meta` of darling over these two; `name = value` is not among what is accepted. -/
def fromMeta (optional : Bool) : Arg → Option DefaultArg
  | .word _ => fromWord optional
  | .list _ items => fromList optional items
  | _ => none

/-- default_arg.rs 27-34 `is_str`. -/
def DefaultArg.isStr (d : DefaultArg) : Bool :=
  match d.value with
  | some (.lit (.str _)) => true
  | _ => false

/-- default_arg.rs 38-40 `has_value`. -/
def DefaultArg.hasValue (d : DefaultArg) : Bool := d.value.isSome

/-- default_arg.rs 94-98 `is_true`. -/
def DefaultArg.isTrue (d : DefaultArg) : Bool := !d.off

/-- default_arg.rs 106-118 `TryFrom` for `String`. -/
def DefaultArg.toStr (d : DefaultArg) : Except Unit String :=
  match d.value with
  | some (.lit (.str s)) => .ok s
  | _ => .error ()

/-- ctx/field.rs 291-298 `default_value`, with fields.rs 333-340; serde_helper.rs 99-110. -/
def onValue (d : Option DefaultArg) : Option Arg := d.bind fun d => if d.isTrue then d.value else none

/-- codegen_trait.rs 334-346: the code of the default of a field; `none` is what follows at 347-354. -/
def fieldCode (d : Option DefaultArg) : Option Code :=
  (onValue d).map fun a =>
    match a with
    | .lit (.str _) => .stringFrom a
    | _ => .item a

/-- codegen/serde.rs 66-95 in `serde_field_attribute`, with 200-216 in `serde_field_default_fn`. -/
def serdeField (d : Option DefaultArg) : Except Unit (Option SerdeArg) :=
  match d with
  | none => .ok none
  | some d =>
    if d.isTrue then
      if d.hasValue then
        if d.isStr then do
          let s ← d.toStr
          return some (.path s)
        else
          match onValue (some d) with
          | some a => .ok (some (.fn (.item a)))
          | none => .error ()
      else .ok (some .word)
    else .ok none

/-- codegen/serde.rs 481-531 in `serde_shadow_default_fn`; `isPath` is `syn::parse_str::<ExprPath>`. -/
def serdeWhole (isPath : String → Bool) (d : Option DefaultArg) : Except Unit (Option SerdeArg) :=
  match d with
  | none => .ok none
  | some d =>
    if d.isTrue then
      if d.hasValue then
        if d.isStr then do
          let s ← d.toStr
          if isPath s then return some (.fn (.into (.callPath s))) else .error ()
        else
          match d.value with
          | some (.nv _ _) => .error ()
          | some a => .ok (some (.fn (.into (.item a))))
          | none => .error ()
      else .ok (some .word)
    else .ok none

end Verif.Model.DefaultText
