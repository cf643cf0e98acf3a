import Verif.Model.Serde
import Verif.Model.Builder
import Verif.Model.Emit
import Verif.Model.Tokens
/-!
# Where attributes are written

Sources: /repo/fieldx_derive/src/codegen.rs 327-338, 408-412, 436-452, 481-520; /repo/fieldx_derive/src/codegen/serde.rs
23-29, 139-157, 284-331; /repo/fieldx_derive/src/codegen/codegen_trait.rs 186-206, 287-300, 365-369, 380-394;
/repo/fieldx_derive/src/util/args.rs 255-268; /repo/fieldx_aux/src/serde_helper.rs 94-97.

Simplification: an attribute is its path and the rest as text.
-/

namespace Verif.Model.Attrs
open Verif.Model.Args Verif.Model.Builder Verif.Model.Serde

/-- An attribute the user has put on the struct or on a field, other than `#[fieldx]` (fields.rs 19: `forward_attrs` keeps the
others). -/
structure Attr where
  path : String
  body : String
deriving DecidableEq, Repr

/-- An attribute in the generated code: one of the user's, one from an argument of the `attributes` family, or one made by
fieldx. -/
inductive Mark where
  | own (a : Attr)
  | arg (s : String)
  | made (s : String)
deriving DecidableEq, Repr

/-- Items of the generated code which carry attributes. -/
inductive Item where
  | struct
  | structField (f : FieldArgs)
  | structImpl
  | method (f : FieldArgs) (k : Kind)
  | builderStruct
  | builderImpl
  | builderField (f : FieldArgs)
  | builderSetter (f : FieldArgs)
  | shadowStruct
  | shadowField (f : FieldArgs)

/-- Attributes of an argument that may be absent. -/
def ofArg (a : Option (List String)) : List Mark := (a.getD []).map .arg

/-- util/args.rs 255-261 `builder_attributes`. -/
def builderAttributes (s : StructArgs) : Option (List String) := (s.builder.bind (·.attributes)).or s.attributes

/-- util/args.rs 263-269 `builder_impl_attributes`. -/
def builderImplAttributes (s : StructArgs) : Option (List String) :=
  (s.builder.bind (·.attributesImpl)).or s.attributesImpl

/-- serde_helper.rs 95-97 `accepts_attr`. -/
def acceptsAttr (h : Serde) (a : Attr) : Bool := h.forwardAttrs.elim true (·.contains a.path)

/-- serde.rs 23-29 `filter_shadow_attributes`. -/
def shadowOwn (x : FCtx) (attrs : List Attr) : List Attr :=
  let h := x.field.serde.or x.ctx.args.serde
  attrs.filter fun a => a.path == "serde" || h.elim false (acceptsAttr · a)

/-- serde.rs 144-148. -/
def shadowUser (x : FCtx) : Option (List String) := (x.field.serde.bind (·.attributes)).or x.ctx.args.attributes

/-- serde.rs 55-118: is there a `serde` attribute made for the shadow field? -/
def madeSerde (x : FCtx) : Bool :=
  skipAttr x != .no || x.field.serde.elim false (fun s => s.default.elim false (·.isTrue)) || x.field.baseName.isSome

/-- serde.rs 225-243 and 252-282: what `serde` adds to the struct. -/
def madeStruct (s : StructArgs) : List Mark :=
  if s.isSerde then
    let ser := (s.serde.bind (·.needsSerialize)).getD true
    let de := (s.serde.bind (·.needsDeserialize)).getD true
    (if ser || de then [.made "derive"] else []) ++ (if ser || de then [.made "serde"] else [])
  else []

/-- Is its path `derive`? -/
def isDerive : Mark → Bool
  | .own a => a.path == "derive"
  | .arg _ => false
  | .made s => s == "derive"

/-- ctx/codegen.rs 332-342: the comparison. -/
def markCmp (a b : Mark) : Ordering :=
  if isDerive a && !isDerive b then .lt
  else if !isDerive a && isDerive b then .gt
  else .eq

/-- One step of the sort: in front of the first element not smaller. -/
def insertBy {α} (cmp : α → α → Ordering) (a : α) : List α → List α
  | [] => [a]
  | b :: l => if cmp a b = .gt then b :: insertBy cmp a l else a :: b :: l

/-- ctx/codegen.rs 332 `slice::sort_by`, the stable sort of the standard library. Simplification: by insertion. -/
def sortBy {α} (cmp : α → α → Ordering) (l : List α) : List α := l.foldr (insertBy cmp) []

/-- serde.rs 302-310: what comes before the user's attributes of the shadow struct. -/
def madeShadow (s : StructArgs) : List Mark :=
  (if (s.serde.bind (·.needsSerialize)).getD true || (s.serde.bind (·.needsDeserialize)).getD true then [.made "derive"] else []) ++
  (if s.serde.elim false (fun h => h.default.elim false (·.isTrue)) then [.made "serde"] else [])

/-- The attributes of an item, in order. `sattrs`: the user's on the struct, `fattrs`: those on a field. -/
def place (c : Ctx) (sattrs : List Attr) (fattrs : String → List Attr) : Item → List Mark
  -- codegen.rs 481, 508; ctx/codegen.rs 324-344
  | .struct => sortBy markCmp (madeStruct c.args ++ sattrs.map .own)
  -- codegen_trait.rs 288, 295-298; ctx/field.rs 428-430
  | .structField f => (fattrs f.ident).map .own
  -- codegen.rs 482, 517
  | .structImpl => ofArg c.args.attributesImpl
  -- codegen_trait.rs 203-206: every generator asks for `FXInlining::Always`
  | .method f k => .made "inline(always)" :: ofArg (Emit.emittedAttrs ⟨c, f⟩ k)
  -- codegen.rs 436, 451
  | .builderStruct => ofArg (builderAttributes c.args)
  -- codegen.rs 336, 408
  | .builderImpl => ofArg (builderImplAttributes c.args)
  -- codegen_trait.rs 384-393
  | .builderField f => ofArg (f.builder.bind (·.attributes)) ++
      (if hasSetter ⟨c, f⟩ then [] else [.made "allow(dead_code)"])
  -- codegen_trait.rs 365-368
  | .builderSetter f => .made "inline(always)" :: ofArg (Emit.attributesFn ⟨c, f⟩ .builder)
  -- serde.rs 301, 325-327
  | .shadowStruct => madeShadow c.args ++ ofArg (c.args.serde.bind (·.attributes))
  -- serde.rs 139-157
  | .shadowField f => (if madeSerde ⟨c, f⟩ then [.made "serde"] else []) ++ ofArg (shadowUser ⟨c, f⟩) ++
      (shadowOwn ⟨c, f⟩ (fattrs f.ident)).map .own

end Verif.Model.Attrs
