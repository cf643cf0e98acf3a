import Verif.Model.Args
/-
Which methods are generated for a field, and in which accessor mode.

Sources: /repo/fieldx_derive/src/codegen/codegen_trait.rs 303-322 (`field_methods`), 357-378 (`field_builder`);
/repo/fieldx_derive/src/codegen/plain.rs 81-146, 148-200, 241-300, 302-327, 329-365, 435-441;
/repo/fieldx_derive/src/codegen/sync.rs 212-309, 311-370, 456-463, 465-507, 509-566, 568-602, 604-647.
-/
namespace Verif.Model.Emit
open Verif.Model.Args

/-- Is the method of kind `k` generated for the field? `lazy` stands for the user-supplied builder method: never
generated by the macro (the private wrapper of async fields is not counted here).
codegen_trait.rs 303-322; builder 357-378; plain predicate plain.rs 330; plain reader and writer plain.rs 435-441. -/
def emits (x : FCtx) (k : Kind) : Bool :=
  if x.field.isSkipped then false
  else match k with
    | .accessor => x.needsAccessor
    | .accessorMut => x.needsAccessorMut
    | .reader => x.isSync && x.needsReader
    | .writer => x.isSync && x.needsWriter
    | .setter => x.needsSetter
    | .clearer => x.needsClearer
    | .predicate => if x.isSync then x.needsPredicate else x.needsPredicate && (x.isLazy || x.isOptional)
    | .builder => x.ctx.needsBuilderStruct && (x.forcedBuilder || x.needsBuilder)
    | .lazy => false

/-- The mode in which the plain generator writes an accessor: plain.rs 92-97. -/
def plainAccMode (x : FCtx) : AccMode := x.accessorMode

/-- The mode in which the sync generator writes an accessor: sync.rs 214-245 (copy is tested first at 230; without
copy and clone a reference or guard is returned, 292-304). -/
def syncAccMode (x : FCtx) : AccMode :=
  if x.isClone || x.isCopy then (if x.isCopy then .copy else .clone) else .none

/-- What decides, in the plain generator, whether an `inner_mut` accessor returns the content or a `Ref`:
plain.rs 117-125. -/
def plainInnerByValue (x : FCtx) : Bool := x.isClone || x.isCopy

/-- codegen_trait.rs 186-202 `attributes_fn`: the attributes a generator gets for the kind it names. -/
def attributesFn (x : FCtx) (k : Kind) : Option (List String) :=
  ((x.field.getHelper k).bind (·.attrsFn)).or x.field.attrsFn |>.or ((x.ctx.args.getHelper k).bind (·.attrsFn))

/-- Attributes put on a generated method. The sync mutable accessor asks for those of the accessor (sync.rs 317); all others
name their own kind: sync.rs 69, 218, 472, 516, 575, 610; plain.rs 88, 154, 248, 307, 335; codegen_trait.rs 365. -/
def emittedAttrs (x : FCtx) (k : Kind) : Option (List String) :=
  match k with
  | .accessorMut => if x.isSync then attributesFn x .accessor else attributesFn x .accessorMut
  | k => attributesFn x k

end Verif.Model.Emit
