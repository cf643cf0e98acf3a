import Verif.Model.Exclusive
import Verif.Model.Emit
import Verif.Model.Method
import Verif.Model.Serde
/-
Features of the crate: which arguments are refused without them, and which items that depend on them the generated code
names.

Sources: /repo/fieldx_derive/src/util.rs 97-111 (`feature_required`), its uses in /repo/fieldx_derive/src/util/args.rs
89-102 and /repo/fieldx_derive/src/fields.rs 155-168; /repo/fieldx_derive/src/codegen/sync/impl_sync.rs and impl_async.rs
(the paths written into the code); /repo/fieldx_derive/src/codegen.rs 187-203.

Simplifications: paths are told apart by the module or crate they start with; `::std` paths and the ungated items of
fieldx (`::fieldx::OnceCell`, `::fieldx::traits`, `::fieldx::error`) are left out; what the user's own expressions and
types name is left out; a generator that fails contributes no names.
-/
namespace Verif.Model.Features
open Verif.Model.Args Verif.Model.Init Verif.Model.Method

/-- The features that change what is accepted and what is generated: fieldx_derive/Cargo.toml 38-43. -/
structure Features where
  sync  : Bool
  async : Bool
  serde : Bool
deriving DecidableEq, Repr

/-- fieldx_derive/src/util.rs 98-111 `feature_required`, called only in a build without the feature. -/
def featureRequired (on : Bool) (name : String) (arg : Option Bool) : List String :=
  if !on && arg.getD false then [name] else []

/-- Features missing for a field: fieldx_derive/src/fields.rs 155-168. -/
def fieldRefusals (F : Features) (f : FieldArgs) : List String :=
  featureRequired F.sync "sync" f.modeSync ++ featureRequired F.async "async" f.modeAsync ++
    featureRequired F.serde "serde" (f.serde.map (·.isTrue))

/-- Features missing for a struct: fieldx_derive/src/util/args.rs 89-102. -/
def structRefusals (F : Features) (s : StructArgs) : List String :=
  featureRequired F.sync "sync" s.modeSync ++ featureRequired F.async "async" s.modeAsync ++
    featureRequired F.serde "serde" (s.serde.map (·.isTrue))

/-- fieldx_derive/src/util/args.rs 79-107 and fields.rs 140-173 `validate`, with the checks of the helpers: nothing is
reported for the struct and its fields. -/
def accepted (F : Features) (c : Ctx) : Bool :=
  Exclusive.acceptStructFull c.args && (structRefusals F c.args).isEmpty &&
    c.fields.all (fun f => Exclusive.acceptFieldFull f && (fieldRefusals F f).isEmpty)

/-- Where a path written into the code starts. -/
inductive Path
  /-- `::fieldx::sync` -/
  | fxSync
  /-- `::fieldx::r#async` -/
  | fxAsync
  /-- `::parking_lot` -/
  | parkingLot
  /-- `::tokio::sync` -/
  | tokio
deriving DecidableEq, Repr

/-- Proxies, builder wrappers, own guards and locks: sync/impl_sync.rs 9-23, 44-46; sync/impl_async.rs 20-34, 65-67. -/
def modOf (async : Bool) : Path := if async then .fxAsync else .fxSync

/-- Guards of the locks: sync/impl_sync.rs 48-62; sync/impl_async.rs 69-83. -/
def crateOf (async : Bool) : Path := if async then .tokio else .parkingLot

/-- Paths in a declared type: fieldx_derive/src/codegen/sync.rs 124-134, 144-162, 179-197; plain.rs 40-61. -/
def tyPaths : Ty → List Path
  | .t => []
  | .opt a | .once a | .cell a => tyPaths a
  | .lock as a => modOf as :: tyPaths a
  | .proxy as _ => [modOf as]

/-- Paths in an initialiser: sync.rs 404-407, 649-690; the types of fields are written out in it. -/
def iePaths : IE → List Path
  | .lockNew as e => modOf as :: iePaths e
  | .proxyNew as _ e => modOf as :: iePaths e
  | .some e | .onceFrom e | .cellNew e => iePaths e
  | .orElseSome e d | .ifSlot e d | .ifLetSlot e d => iePaths e ++ iePaths d
  | .mapOrElse e d b => iePaths e ++ iePaths d ++ iePaths b
  | .dv _ | .sdv | .dflt | .none | .onceNew | .slotTake | .slotUnwrap | .var | .shadow | .me | .meTake | .meIntoInner => []

/-- Paths of a guard type. -/
def guardPaths : Guard → List Path
  | .ref | .refMut => []
  | .read as | .write as | .mapWrite as => [crateOf as]
  | .mapRead => [.parkingLot]
  | .fx as => [modOf as]

/-- Paths in the return type of a helper: sync.rs 63-111, 212-370, 465-602. -/
def ctyPaths : CTy → List Path
  | .guard g _ | .optGuard g _ | .tryGuard g _ => guardPaths g
  | .res a | .fut a => ctyPaths a
  | .own _ | .bool | .unitRes | .place .. | .ref .. | .optRef .. | .refRes _ | .refOfRef => []

/-- The names in what a generator made. -/
def genPaths {α : Type} (f : α → List Path) : Gen α → List Path
  | .ok a => f a
  | .error | .panic => []

/-- The kinds of helpers with a body: codegen_trait.rs 303-312. -/
def kinds : List Kind := [.accessor, .accessorMut, .reader, .writer, .setter, .clearer, .predicate]

/-- All gated paths in the code of a field: its declaration, its initialisers in `Default` (codegen.rs 282-300), in
`build()` and in the conversion from the shadow, and the signatures of its helpers. Bodies of helpers call methods
only. -/
def names (F : Features) (x : FCtx) : List Path :=
  genPaths tyPaths (declType x) ++
  (if x.ctx.needsDefault then genPaths iePaths (defaultInit x) else []) ++
  (if x.ctx.needsBuilderStruct && !x.field.isSkipped then genPaths iePaths (builderInit x) else []) ++
  (if F.serde && Serde.deserialised x then genPaths iePaths (fromShadow x) else []) ++
  (kinds.filter (Emit.emits x)).flatMap (fun k => genPaths (fun b => ctyPaths b.ret) (body x k))

end Verif.Model.Features
