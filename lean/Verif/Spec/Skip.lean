import Verif.Model.Expand
/-
The arguments of a skipped field which may be dropped. Written down from /repo/fieldx_derive/src/lib.rs 470-474: "Leave this
field alone. The only respected argument of `fieldx` when skipped is the `default`."
-/
namespace Verif.Spec.Skip
open Verif.Model.Args Verif.Model.Init Verif.Model

/-- The arguments of `#[fieldx(…)]` besides `skip` and `default`: /repo/fieldx_derive/src/fields.rs 20-76. -/
inductive Arg
  | mode | sync | async | attributesFn | fallible | lazy | rename | get | getMut | set | reader | writer | clearer
  | predicate | optional | pub | priv | builder | into | clone | copy | lock | innerMut | serde
deriving DecidableEq, Repr

/-- The field without some of its arguments. -/
def drop (S : Arg → Bool) (f : FieldArgs) : FieldArgs :=
  { ident := f.ident
    skip := f.skip
    default := f.default
    mode := if S .mode then none else f.mode
    modeSync := if S .sync then none else f.modeSync
    modeAsync := if S .async then none else f.modeAsync
    attrsFn := if S .attributesFn then none else f.attrsFn
    fallible := if S .fallible then none else f.fallible
    lazy := if S .lazy then none else f.lazy
    baseName := if S .rename then none else f.baseName
    accessor := if S .get then none else f.accessor
    accessorMut := if S .getMut then none else f.accessorMut
    setter := if S .set then none else f.setter
    reader := if S .reader then none else f.reader
    writer := if S .writer then none else f.writer
    clearer := if S .clearer then none else f.clearer
    predicate := if S .predicate then none else f.predicate
    optional := if S .optional then none else f.optional
    pub := if S .pub then none else f.pub
    priv := if S .priv then none else f.priv
    builder := if S .builder then none else f.builder
    into := if S .into then none else f.into
    clone := if S .clone then none else f.clone
    copy := if S .copy then none else f.copy
    lock := if S .lock then none else f.lock
    innerMut := if S .innerMut then none else f.innerMut
    serde := if S .serde then none else f.serde }

/-- The struct with some of the arguments dropped at some of its skipped fields. -/
def dropAt (S : Arg → Bool) (p : FieldArgs → Bool) (fs : List FieldArgs) : List FieldArgs :=
  fs.map fun f => if f.skip && p f then drop S f else f

/-- What is written for one field: its type and initialiser, and, unless it is skipped, its initialiser in `build()`, its
methods and what serde needs. -/
structure Code where
  decl    : Gen Ty
  init    : Gen IE
  build   : Option (Gen IE)
  methods : List (Kind × Gen Method.Body)
  shadow  : Option (Ty × IE × Gen IE × IE)

def code (x : FCtx) : Code :=
  { decl := declType x
    init := defaultInit x
    build := if x.field.skip then none else some (builderInit x)
    methods := if x.field.skip then [] else Expand.methodKinds.map fun k => (k, Method.body x k)
    shadow := if x.field.skip then none else some (shadowType x, shadowDefault x, fromShadow x, intoShadow x) }

/-- The code of a whole struct: the pieces and errors, and the code of each field. -/
def whole (parsed : Bool) (s : StructArgs) (fs : List FieldArgs) (l : Expand.Lits) : Expand.Expansion × List Code :=
  (Expand.fxstruct parsed s fs l, (Structs.prepare s fs).allFields.map fun f => code ⟨Structs.prepare s fs, f⟩)

/-- The documented rule for one argument: wherever a skipped field has it, the code is the same without it. -/
def Ignored (a : Arg) : Prop :=
  ∀ (parsed : Bool) (s : StructArgs) (fs : List FieldArgs) (l : Expand.Lits) (p : FieldArgs → Bool),
    ((Structs.prepare s fs).allFields.map (·.ident)).Nodup → (∀ f ∈ fs, Exclusive.acceptFieldFull f = true) →
    whole parsed s (dropAt (· == a) p fs) l = whole parsed s fs l

/-- The arguments which are not ignored. -/
def heeded : List Arg :=
  [.mode, .sync, .async, .fallible, .get, .reader, .writer, .clearer, .predicate, .builder, .clone, .copy, .lock, .innerMut]

end Verif.Spec.Skip
