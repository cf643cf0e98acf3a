import Verif.Spec.Skip
/-
Arguments of the struct as defaults for its fields. Written down from /repo/README.md 46, 118 and
/repo/fieldx_derive/src/lib.rs 160, 177, 255, 349, 375, which call arguments of `#[fxstruct(…)]` defaults for the
fields: then an argument given for the struct could as well be written at each field which has none of its own.
-/
namespace Verif.Spec.Lower
open Verif.Model.Args Verif.Model.Init Verif.Model

/-- The keywords known to both attributes: /repo/fieldx_derive/src/util/args.rs 16-65, /repo/fieldx_derive/src/fields.rs
17-77. -/
inductive Arg
  | fallible | lazy | get | getMut | set | reader | writer | clearer | predicate | optional | into | clone | copy | lock | innerMut
deriving DecidableEq, Repr

/-- The argument of the struct, if there is one, is the keyword alone, or with `off` only. -/
def Bare (s : StructArgs) : Arg → Prop
  | .fallible => ∀ h, s.fallible = some h → h = { off := h.off }
  | .lazy => ∀ h, s.lazy = some h → h = { off := h.off }
  | .get => ∀ h, s.accessor = some h → h = { off := h.off }
  | .getMut => ∀ h, s.accessorMut = some h → h = { off := h.off }
  | .set => ∀ h, s.setter = some h → h = { off := h.off }
  | .reader => ∀ h, s.reader = some h → h = { off := h.off }
  | .writer => ∀ h, s.writer = some h → h = { off := h.off }
  | .clearer => ∀ h, s.clearer = some h → h = { off := h.off }
  | .predicate => ∀ h, s.predicate = some h → h = { off := h.off }
  | _ => True

/-- The struct without the argument. -/
def without (s : StructArgs) : Arg → StructArgs
  | .fallible => { s with fallible := none }
  | .lazy => { s with lazy := none }
  | .get => { s with accessor := none }
  | .getMut => { s with accessorMut := none }
  | .set => { s with setter := none }
  | .reader => { s with reader := none }
  | .writer => { s with writer := none }
  | .clearer => { s with clearer := none }
  | .predicate => { s with predicate := none }
  | .optional => { s with optional := none }
  | .into => { s with into := none }
  | .clone => { s with clone := none }
  | .copy => { s with copy := none }
  | .lock => { s with lock := none }
  | .innerMut => { s with innerMut := none }

/-- The field, with the argument of the struct if it has none of its own. -/
def given (s : StructArgs) (f : FieldArgs) : Arg → FieldArgs
  | .fallible => { f with fallible := f.fallible.or s.fallible }
  | .lazy => { f with lazy := f.lazy.or s.lazy }
  | .get => { f with accessor := f.accessor.or s.accessor }
  | .getMut => { f with accessorMut := f.accessorMut.or s.accessorMut }
  | .set => { f with setter := f.setter.or s.setter }
  | .reader => { f with reader := f.reader.or s.reader }
  | .writer => { f with writer := f.writer.or s.writer }
  | .clearer => { f with clearer := f.clearer.or s.clearer }
  | .predicate => { f with predicate := f.predicate.or s.predicate }
  | .optional => { f with optional := f.optional.or s.optional }
  | .into => { f with into := f.into.or s.into }
  | .clone => { f with clone := f.clone.or s.clone }
  | .copy => { f with copy := f.copy.or s.copy }
  | .lock => { f with lock := f.lock.or s.lock }
  | .innerMut => { f with innerMut := f.innerMut.or s.innerMut }

/-- All that is written for a field: its code, whether setter and builder convert, visibility and attributes of each method. -/
structure Sheet where
  code     : Skip.Code
  into     : Bool × Bool
  vis      : Kind → Option PubMode
  attrs    : Kind → Option (List String)

def sheet (x : FCtx) : Sheet :=
  { code := Skip.code x, into := (x.isSetterInto, x.isBuilderInto), vis := x.publicMode, attrs := Emit.emittedAttrs x }

/-- The code of a whole struct: the pieces and errors, and all of each field. -/
def whole (s : StructArgs) (fs : List FieldArgs) (l : Expand.Lits) : Expand.Expansion × List Sheet :=
  (Expand.fxstruct true s fs l, (Structs.prepare s fs).allFields.map fun f => sheet ⟨Structs.prepare s fs, f⟩)

/-- The struct as written, and with the argument at its fields, are both accepted. -/
def BothAccepted (s : StructArgs) (fs : List FieldArgs) (a : Arg) : Prop :=
  (Exclusive.acceptStructFull s = true ∧ ∀ f ∈ fs, Exclusive.acceptFieldFull f = true) ∧
  (Exclusive.acceptStructFull (without s a) = true ∧ ∀ f ∈ fs, Exclusive.acceptFieldFull (given s f a) = true)

/-- Writing the argument at the fields instead makes no difference here. -/
def SameBelow (s : StructArgs) (fs : List FieldArgs) (a : Arg) : Prop :=
  ∀ l, whole (without s a) (fs.map fun f => given s f a) l = whole s fs l

/-- The documented rule for one argument; `rc`: also in reference counted structs. -/
def Lowerable (rc : Bool) (a : Arg) : Prop :=
  ∀ (s : StructArgs) (fs : List FieldArgs), (s.isRefCounted = true → rc = true) →
    ((Structs.prepare s fs).allFields.map (·.ident)).Nodup → Bare s a → BothAccepted s fs a → SameBelow s fs a

/-- The arguments for which it holds. -/
def fine : Bool → List Arg
  | true => [.getMut, .set, .optional]
  | false => [.fallible, .get, .getMut, .set, .clearer, .predicate, .optional]

end Verif.Spec.Lower
