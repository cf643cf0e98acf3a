import Verif.Model.Attrs
import Verif.Spec.Prec
import Verif.Spec.ArgRead
/-!
# Documented placement of attributes

/repo/fieldx_derive/src/lib.rs 65 (`attributes_fn`), 113-125 (`attributes`, `attributes_impl` of the struct), 206-207 and 584
(`builder`), 401, 406 and 567 (`serde`); /repo/README.md 449-455 (`forward_attrs`).
-/

namespace Verif.Spec.Placement
open Verif.Model.Args Verif.Model.Attrs Verif.Spec.Prec Verif.Spec.ArgRead

/-- The attributes on an item that come from arguments. -/
def fromArgs (l : List Mark) : List String := l.filterMap fun m => match m with | .arg s => some s | _ => none

/-- Those the user has written on the struct or the field. -/
def fromUser (l : List Mark) : List Attr := l.filterMap fun m => match m with | .own a => some a | _ => none

/-- Which arguments an item takes its attributes from, most specific first. -/
def sources (a : StructArgs) : Item → List (Option (List String))
  | .struct => []
  | .structField _ => []
  | .structImpl => [a.attributesImpl]
  | .method f k => [(fieldArg f k).bind (·.attrsFn), f.attrsFn, (structRaw a k).bind (·.attrsFn)]
  | .builderStruct => [a.builder.bind (·.attributes), a.attributes]
  | .builderImpl => [a.builder.bind (·.attributesImpl), a.attributesImpl]
  | .builderField f => [f.builder.bind (·.attributes)]
  | .builderSetter f => [f.builder.bind (·.attrsFn), f.attrsFn, a.builder.bind (·.attrsFn)]
  | .shadowStruct => [a.serde.bind (·.attributes), a.attributes]
  | .shadowField f => [f.serde.bind (·.attributes)]

/-- The attributes from arguments are as documented. -/
def ArgsRight (a : StructArgs) (i : Item) (l : List Mark) : Prop := Decides (sources a i) [] (fromArgs l)

/-- `forward_attrs` in force for a field: its own, else that of the struct; without any no attribute is forwarded. -/
def Forwarded (a : StructArgs) (f : FieldArgs) (l : List String) : Prop :=
  Decides [f.serde.bind (·.forwardAttrs), a.serde.bind (·.forwardAttrs)] [] l

/-- The attributes written by the user are as documented. -/
def UserRight (a : StructArgs) (sattrs : List Attr) (fattrs : String → List Attr) : Item → List Mark → Prop
  | .struct, l => fromUser l = sattrs.filter (·.path = "derive") ++ sattrs.filter (¬ ·.path = "derive")
  | .structField f, l => fromUser l = fattrs f.ident
  | .shadowField f, l => ∃ fw, Forwarded a f fw ∧
      fromUser l = (fattrs f.ident).filter fun x => x.path = "serde" ∨ x.path ∈ fw
  | _, l => fromUser l = []

end Verif.Spec.Placement
