import Verif.Model.Structs
/-
What the macro keeps while it runs: the cells of its context, which are borrowed, and answers which are remembered.

Sources: /repo/fieldx_derive/src/ctx/codegen.rs (all of it), ctx/field.rs 46-57, 113-123, 179-184, 329-350, 364-380, 432-438,
codegen.rs 134-528, codegen/serde.rs 140-534, codegen/codegen_trait.rs 69-95, 287-329, 400-480.

`std::cell::RefCell`: `borrow` panics while there is a `RefMut`, `borrow_mut` while there is a `Ref` or a `RefMut`.
`std::cell::OnceCell::get_or_init` panics if the closure initialises the cell itself.

Simplifications: of the generators called for a field (`field_accessor` and so on) only the calls on the context are kept, as a
list which may be any list of those that occur in them, in any order; contents of the collections are not kept (they are in
`Model/Expand`), except for the fields added, the names of builder fields, and the table of field contexts; an error is recorded
while the field context is still borrowed, though in the code `ok_or_record` runs after `prepare_field` has dropped it.
-/
namespace Verif.Model.Context
open Verif.Model.Args Verif.Model.Structs

/-- Collections of token streams and the like: ctx/codegen.rs 25-34, 44, 51. -/
inductive Bag
  | fields | defaults | methods | builders | builderFields | shadowFields | shadowDefaults | attrs | copyable
deriving DecidableEq, Repr

/-- Answers which are remembered: ctx/codegen.rs 22, 23, 47, 53. -/
inductive Memo
  | needsBuilderStruct | optIn | needsDefault | ratherSync
deriving DecidableEq, Repr

/-- The `RefCell`s: ctx/codegen.rs 19-54, ctx/field.rs 56. -/
inductive Cell
  | errors
  | tokens
  | bag (b : Bag)
  | memo (m : Memo)
  | extraFields
  | uniqueId
  | table
  | builderIdents
  /-- `builder_checker` of the field context under this name -/
  | checker (f : String)
deriving DecidableEq, Repr

/-- Questions the generators ask: `is_rather_sync`, `needs_builder_struct`, `needs_default` of the struct (ctx/codegen.rs),
`is_sync`, `needs_builder` of a field (ctx/field.rs 179-184, 113-123). -/
inductive Ask
  | ratherSync
  | needsBuilderStruct
  | needsDefault
  | isSync (f : FieldArgs)
  | needsBuilder (f : FieldArgs)
deriving DecidableEq, Repr

/-- The context while the macro runs. `shared` counts the `Ref`s of a cell, `alone` tells of a `RefMut`. `asked` and `given` are
for the statements: questions with their answers, for which field which context was given, and
for which name the builder had which context. -/
structure St where
  shared : Cell → Nat := fun _ => 0
  alone  : Cell → Bool := fun _ => false
  memo   : Memo → Option Bool := fun _ => none
  extra  : List FieldArgs := []
  table  : List FieldArgs := []
  idents : List String := []
  /-- the field contexts whose `ty_wrapped` is initialised -/
  typed  : List String := []
  asked  : List (Ask × Bool) := []
  given  : List (FieldArgs × FieldArgs) := []
  built  : List (String × Option FieldArgs) := []

/-- A run; `none` is a panic. -/
def M (α : Type) := St → Option (α × St)

namespace M

/-- No more to do. (Rust's sequencing; no code of the repository.) -/
def ret {α : Type} (a : α) : M α := fun s => some (a, s)

/-- One after the other, unless the first panics. (Rust's sequencing; no code of the repository.) -/
def bind {α β : Type} (m : M α) (f : α → M β) : M β := fun s =>
  match m s with
  | some (a, s') => f a s'
  | none => none

instance : Monad M where
  pure := ret
  bind := bind

end M

/-- Read the state: what the code sees in a cell it has borrowed. -/
def get : M St := fun s => some (s, s)
/-- Change the state: what the code does to the content of a cell it has borrowed. -/
def change (f : St → St) : M Unit := fun s => some ((), f s)
/-- A panic: of `RefCell`, `OnceCell` or `Option::unwrap`, as said where it is used. -/
def panics {α : Type} : M α := fun _ => none

/-- `RefCell::borrow`. -/
def borrow (c : Cell) : M Unit := fun s =>
  if s.alone c then none else some ((), { s with shared := fun k => if k = c then s.shared k + 1 else s.shared k })

/-- A `Ref` is dropped. -/
def release (c : Cell) : M Unit := change fun s => { s with shared := fun k => if k = c then s.shared k - 1 else s.shared k }

/-- `RefCell::borrow_mut`. -/
def borrowMut (c : Cell) : M Unit := fun s =>
  if s.alone c || s.shared c != 0 then none else some ((), { s with alone := fun k => if k = c then true else s.alone k })

/-- A `RefMut` is dropped. -/
def releaseMut (c : Cell) : M Unit := change fun s => { s with alone := fun k => if k = c then false else s.alone k }

/-- While a `Ref` is alive. -/
def withRef {α : Type} (c : Cell) (m : M α) : M α := do borrow c; let a ← m; release c; pure a

/-- While a `RefMut` is alive. -/
def withMut {α : Type} (c : Cell) (m : M α) : M α := do borrowMut c; let a ← m; releaseMut c; pure a

/-- A `for` loop. -/
def each {α : Type} (step : α → M Unit) : List α → M Unit
  | [] => pure ()
  | a :: as => do step a; each step as

/-- `*self.x.borrow_mut().get_or_init(...)`: ctx/codegen.rs 251-256, 260, 396, 438. -/
def remember (m : Memo) (init : M Bool) : M Bool :=
  withMut (.memo m) do
    match (← get).memo m with
    | some b => pure b
    | none => do
      let b ← init
      match (← get).memo m with
      | some _ => panics
      | none => do
        change fun s => { s with memo := fun k => if k = m then some b else s.memo k }
        pure b

section
variable (a : StructArgs) (fs : List FieldArgs)

/-- ctx/codegen.rs 363-370 `all_fields`. -/
def allFields : M (List FieldArgs) := withRef .extraFields do return (← get).extra ++ fs

/-- ctx/codegen.rs 437-451 `is_rather_sync`. -/
def isRatherSync : M Bool :=
  remember .ratherSync <|
    match a.isSync with
    | some b => pure b
    | none => do return ((← allFields fs).findSome? (·.isSync)).getD false

/-- ctx/codegen.rs 250-256 `is_builder_opt_in`. -/
def isBuilderOptIn : M Bool := remember .optIn (pure (a.builder.elim false (·.isBuilderOptIn)))

/-- ctx/codegen.rs 258-275 `needs_builder_struct`; 266: `OnceCell::set`, the result of which is ignored. -/
def needsBuilderStruct : M Bool :=
  remember .needsBuilderStruct <|
    match a.needsBuilder with
    | some b => pure b
    | none =>
      if fs.any (fun f => f.needsBuilder == some true) then do
        withMut (.memo .optIn) <| change fun s =>
          { s with memo := fun k => if k = .optIn then some ((s.memo k).getD true) else s.memo k }
        pure true
      else pure false

/-- ctx/codegen.rs 393-418 `needs_default`. -/
def needsDefault : M Bool :=
  remember .needsDefault <|
    match a.needsDefault with
    | some b => pure b
    | none =>
      if a.needsNew then pure true
      else do
        let sync ← isRatherSync a fs
        return fs.any fun f => f.hasDefaultValue || (sync && f.isLazy.getD false)

/-- The question put to the context. -/
def Ask.put : Ask → M Bool
  | .ratherSync => isRatherSync a fs
  | .needsBuilderStruct => Context.needsBuilderStruct a fs
  | .needsDefault => Context.needsDefault a fs
  | .isSync f =>
    match f.isSync with
    | some b => pure b
    | none => isRatherSync a fs
  | .needsBuilder f =>
    match f.needsBuilder with
    | some b => pure b
    | none =>
      match a.needsBuilder with
      | none => pure false
      | some false => pure false
      | some true => do return !(← isBuilderOptIn a)

/-- Ask, and note the answer. -/
def ask (q : Ask) : M Bool := do
  let b ← q.put a fs
  change fun s => { s with asked := s.asked ++ [(q, b)] }
  pure b

/-- ctx/codegen.rs 113-117 `push_error`. -/
def pushError : M Unit := withMut .errors (pure ())

/-- ctx/codegen.rs 202-206 `tokens_extend`. -/
def tokensExtend : M Unit := withMut .tokens (pure ())

/-- Calls on the context which a generator makes. -/
inductive Leaf
  | ask (q : Ask)
  /-- `add_*`: ctx/codegen.rs 145-195, 302-316 -/
  | add (b : Bag)
  /-- ctx/codegen.rs 176-179 `add_builder_field_ident` -/
  | ident (f : String)
  /-- `*_combined`, `all_attrs`: a collection is read, ctx/codegen.rs 208-232, 323-344 -/
  | join (b : Bag)
  | error
  | text
  /-- ctx/codegen.rs 374-378 `unique_ident_pfx` -/
  | unique
  /-- ctx/field.rs 432-434 `set_builder_checker` -/
  | setChecker (f : String)
  /-- ctx/field.rs 436-438 `builder_checker` -/
  | getChecker (f : String)
  /-- ctx/field.rs 333-339 `ty_wrapped`, the questions its closure asks and whether it records an error:
  codegen/plain.rs 40-66, codegen/sync.rs 180-202 -/
  | typed (f : String) (qs : List Ask) (err : Bool)
deriving DecidableEq, Repr

/-- Make the call. -/
def Leaf.run : Leaf → M Unit
  | .ask q => do let _ ← Context.ask a fs q; pure ()
  | .add b => withMut (.bag b) (pure ())
  | .ident f => withMut .builderIdents <| change fun s => { s with idents := s.idents ++ [f] }
  | .join b => withRef (.bag b) (pure ())
  | .error => pushError
  | .text => tokensExtend
  | .unique => do withRef .uniqueId (pure ()); withMut .uniqueId (pure ())
  | .setChecker f => withMut (.checker f) (pure ())
  | .getChecker f => withRef (.checker f) (pure ())
  | .typed f qs err => do
    if (← get).typed.contains f then pure ()
    else do
      each (fun q => do let _ ← Context.ask a fs q; pure ()) qs
      if err then pushError
      if (← get).typed.contains f then panics
      else change fun s => { s with typed := f :: s.typed }

/-- ctx/codegen.rs 352-361 `field_ctx`, and the body that has the context: the `Ref` is alive until the body ends. -/
def withFieldCtx (f : FieldArgs) (body : FieldArgs → M Unit) : M Unit := do
  withMut .table <| change fun s =>
    if s.table.any (·.ident == f.ident) then s else { s with table := s.table ++ [f] }
  borrow .table
  match (← get).table.find? (·.ident == f.ident) with
  | some x => do
    change fun s => { s with given := s.given ++ [(f, x)] }
    body x
  | none => pure ()
  release .table

/-- Parts of the run in which generators are called. -/
inductive Phase
  /-- `prepare_field` -/
  | prepare
  /-- `serde_shadow_field`, `serde_shadow_field_default` -/
  | shadowField
  /-- `serde_derive_traits`, `serde_struct_attribute` -/
  | attribute
  /-- `struct_extras`, `builder()` -/
  | extras
  /-- `serde_shadow_struct` -/
  | shadowStruct
  /-- `field_from_shadow` -/
  | fromShadow
  /-- `field_from_struct`, `field_lazy_initializer` -/
  | intoShadow
  /-- `default_impl` -/
  | dflt
  /-- `builder_struct`, `builder_impl` outside of the loop over fields -/
  | builder
  /-- the loop over fields in `builder_impl` -/
  | build
deriving DecidableEq, Repr

/-- The calls which occur in a phase, besides questions and recording of errors:
prepare: codegen.rs 187-205, codegen_trait.rs 287-329; shadowField: codegen/serde.rs 140-220; attribute: 253-286;
extras: codegen.rs 207-280; shadowStruct: codegen/serde.rs 288-335, 472-534; fromShadow: 351-384; intoShadow: 403-438;
dflt: codegen.rs 282-306; builder: 328-337, 372-465; build: 346-373 with codegen_trait.rs 394-480. -/
def occurs : Phase → Leaf → Bool
  | _, .ask _ | _, .error | _, .typed _ _ _ => true
  | .prepare, .add b => b ∈ [.fields, .defaults, .methods, .builders, .builderFields, .copyable]
  | .prepare, .ident _ => true
  | .shadowField, .add b => b ∈ [.shadowFields, .shadowDefaults, .methods]
  | .shadowField, .unique => true
  | .attribute, .add b => b ∈ [.attrs]
  | .extras, .add b => b ∈ [.methods]
  | .shadowStruct, .add b => b ∈ [.methods]
  | .shadowStruct, .unique | .shadowStruct, .text => true
  | .fromShadow, .text | .intoShadow, .text => true
  | .dflt, .join b => b ∈ [.defaults]
  | .builder, .join b => b ∈ [.builders, .builderFields]
  | .build, .setChecker _ | .build, .getChecker _ => true
  | _, _ => false

/-- What the generators do: for every phase, and every field context in it, some list of calls. -/
structure Gens where
  field : Phase → FieldArgs → List Leaf := fun _ _ => []
  whole : Phase → List Leaf := fun _ => []

/-- They make the calls which occur in the phase; a name added is that of the field: codegen_trait.rs 306-315. -/
structure Gens.Fits (g : Gens) : Prop where
  field : ∀ p x, ∀ l ∈ g.field p x, occurs p l = true ∧ ∀ n, l = .ident n → n = x.ident
  whole : ∀ p, ∀ l ∈ g.whole p, occurs p l = true ∧ ∀ n, l ≠ .ident n

variable (g : Gens)

/-- A loop over all fields: codegen.rs 175-181, codegen/serde.rs 351-369, 403-428, 445-460. -/
def overFields (p : Phase) : M Unit := do
  each (fun f => withFieldCtx f fun x => each (·.run a fs) (g.field p x)) (← allFields fs)

/-- codegen.rs 140-169 `prepare_ref_counted`; 150: `unwrap`. -/
def prepareRefCounted : M Unit := do
  if a.isRefCounted then
    match myselfField a with
    | none => panics
    | some n => do
      let _ ← ask a fs .ratherSync
      withMut .extraFields <| change fun s => { s with extra := s.extra ++ [hidden n] }

/-- codegen.rs 171-185 `prepare_struct`. -/
def prepareStruct : M Unit := do
  prepareRefCounted a fs
  overFields a fs g .prepare
  overFields a fs g .shadowField
  each (·.run a fs) (g.whole .attribute)

/-- codegen/serde.rs 288-335 `serde_shadow_struct`: both collections are borrowed until the end. -/
def shadowStruct : M Unit :=
  if a.isSerde then
    withRef (.bag .shadowFields) do
      let d ← ask a fs .needsDefault
      if d then withRef (.bag .shadowDefaults) (each (·.run a fs) (g.whole .shadowStruct))
      else each (·.run a fs) (g.whole .shadowStruct)
  else pure ()

/-- codegen.rs 207-226 `rewrite_struct`, codegen/serde.rs 467-471 `serde_rewrite_struct`. -/
def rewriteStruct : M Unit := do
  each (·.run a fs) (g.whole .extras)
  shadowStruct a fs g
  if a.isSerde && a.needsDeserialize then overFields a fs g .fromShadow
  if a.isSerde && a.needsSerialize then overFields a fs g .intoShadow

/-- codegen.rs 318-325 `builder_field_ctxs`: the contexts of all of them, borrowed at once. The answer is which were found. -/
def builderFieldCtxs : M (List (Option FieldArgs)) :=
  withRef .builderIdents do
    let s ← get
    each (fun n => do
      borrow .table
      -- `Ref::filter_map` keeps the `Ref` if there is such an entry, and drops it otherwise: ctx/codegen.rs 346-350
      if ((← get).table.find? (·.ident == n)).isNone then release .table) s.idents
    let xs := s.idents.map fun n => s.table.find? (·.ident == n)
    change fun s' => { s' with built := s'.built ++ s.idents.zip xs }
    pure xs

/-- The loop in `builder_impl`: codegen.rs 346-373. Each context is dropped at the end of its turn. -/
def buildLoop : List (Option FieldArgs) → M Unit
  | [] => pure ()
  | some x :: rest => do
    each (·.run a fs) (g.field .build x)
    release .table
    buildLoop rest
  | none :: rest => do pushError; buildLoop rest

/-- codegen.rs 424-465 `builder_struct` with 327-422 `builder_impl`. -/
def builderStruct : M Unit := do
  if ← ask a fs .needsBuilderStruct then
    each (·.run a fs) (g.whole .builder)
    let xs ← builderFieldCtxs
    buildLoop a fs g xs
    each (·.run a fs) (g.whole .builder)

/-- codegen.rs 467-528 `finalize` and ctx/codegen.rs 234-248: declarations and copyable types are borrowed until the end. -/
def finalize : M Unit := do
  Leaf.run a fs (.join .attrs)
  Leaf.run a fs (.join .methods)
  withRef (.bag .fields) do
    each (·.run a fs) (g.whole .dflt)
    builderStruct a fs g
    withRef (.bag .copyable) do
      tokensExtend
      withMut .errors tokensExtend
      tokensExtend

/-- codegen.rs 134-138 `rewrite`. -/
def rewrite : M Unit := do
  prepareStruct a fs g
  rewriteStruct a fs g
  finalize a fs g

end

/-- fields.rs 373-388 `accessor_mode_span` of a field: is there a span? One is known for each argument given
(fieldx_aux/src/accessor_helper.rs 57-70, nesting_attr.rs 109-146). -/
def fieldModeSpan (f : FieldArgs) : Bool := f.accessorMode.isSome || f.copy.isSome || f.clone.isSome

/-- util/args.rs 275-291 `accessor_mode_span` of a struct. -/
def structModeSpan (a : StructArgs) : Bool := a.accessorMode.isSome || a.copy.isSome || a.clone.isSome

/-- ctx/field.rs 416-420 `accessor_mode_span`, of which codegen/sync.rs 226-228 takes the value if the accessor copies or clones. -/
def modeSpan (x : FCtx) : Bool := fieldModeSpan x.field || structModeSpan x.ctx.args

end Verif.Model.Context
