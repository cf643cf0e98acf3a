import Verif.Model.Init
/-
Serde support: the shadow struct, its serde attributes, and the conversions between a struct and its shadow.

Sources: /repo/fieldx_derive/src/codegen/serde.rs; /repo/fieldx_derive/src/codegen/{plain,sync}.rs (`field_from_shadow`,
`field_from_struct`, `field_lazy_initializer`); /repo/fieldx/src/sync/fxproxy.rs 134-136 and
/repo/fieldx/src/async/fxproxy.rs 149-151 (`lazy_init`).

What `#[derive(Serialize, Deserialize)]` does with the attributes written by fieldx is modelled from the serde
documentation (`from`, `into`, `default`, `rename`, `skip_serializing`, `skip_deserializing`; a missing `Option` is
`None`; unknown keys are ignored; a key of a field which is read, given twice, is the error "duplicate field").

Simplifications: a document is a list of keys with items; an item is `null` or the user's value (the user's type is taken
to survive its own serialisation, and not to be written as `null`); serde's `into` converts a clone of the object, the
object here is that clone; the user's attributes on the struct and the fields (`forward_attrs`, `attributes`) are left
out; default expressions have fixed values; a field read by `take()` counts as moved out, since nothing reads it again.
-/
namespace Verif.Model.Serde
open Verif.Model.Args Verif.Model.Init

/-- An object: the value of each field; `none` if there is no such field or it is moved out. -/
abbrev Obj (V : Type) := String → Option (Val V)

def Obj.put {V : Type} (o : Obj V) (n : String) (a : Val V) : Obj V := fun m => if m = n then some a else o m

def Obj.moved {V : Type} (o : Obj V) (n : String) : Obj V := fun m => if m = n then none else o m

/-- Result of a lazy builder. -/
inductive BRes (V : Type)
  | ok (v : V)
  | err
  | panic
deriving DecidableEq

/-- The user's side: values of default expressions, builders, and serde defaults. A builder gets `&self`; through it it
can change other fields (reading another lazy field initialises that field). -/
structure World (V : Type) where
  env    : String → Env V
  bld    : String → Obj V → BRes V × Obj V
  /-- is the field's serde default a string (a path to a function)? -/
  isPath : String → Bool
  /-- what that function returns -/
  path   : String → Val V
  /-- the field of the shadow made from the struct's serde default expression -/
  whole  : String → Val V

/-- Result of a conversion: `ill` if there is no such code or it would not compile. -/
inductive Res (α : Type)
  | ok (a : α)
  | panic
  | ill
deriving DecidableEq

/-! ### Which fields -/

/-- Fields of the shadow struct: serde.rs 443-458 `serde_prepare_struct`. -/
def shadowFields (c : Ctx) : List FieldArgs := c.allFields.filter (fun f => (FCtx.mk c f).isSerde)

/-- Fields of the conversion into the shadow: serde.rs 402-405. -/
def serFields (c : Ctx) : List FieldArgs :=
  c.allFields.filter (fun f => (FCtx.mk c f).isSerde && (FCtx.mk c f).needsSerialize)

/-- Fields of the conversion from the shadow: serde.rs 351-354. -/
def deserialised (x : FCtx) : Bool := x.isSerde && x.needsDeserialize

/-- serde.rs 31-53 `serde_skip_toks`. -/
inductive Skip
  | no | all | ser | de
deriving DecidableEq

def skipAttr (x : FCtx) : Skip :=
  if x.ctx.args.isSerde then
    if !x.isSerde then .all
    else if !x.needsSerialize then .ser
    else if !x.needsDeserialize then .de
    else .no
  else .no

/-- Key of the field in a document: serde.rs 98-102 (`rename`), else the name of the field. -/
def key (f : FieldArgs) : String := f.baseName.getD f.ident

/-! ### Into the shadow -/

/-- Statements of `From<Struct> for Shadow`. -/
inductive Stmt
  /-- `let _ = (&me).f.get_or_init(|| (&me).build_f());`, `let _ = (&me).f.lazy_init((&me));` -/
  | init (f : FieldArgs)
  /-- an initialiser of the struct expression -/
  | move (f : FieldArgs)

/-- serde.rs 391-436 `serde_struct_into_shadow`: the initialisations come before the struct expression. -/
def intoCode (c : Ctx) : List Stmt :=
  ((serFields c).filter (fun f => (FCtx.mk c f).isLazy)).map .init ++ (serFields c).map .move

/-- Is the whole object there, so that `&me` is allowed? -/
def inPlace {V : Type} (c : Ctx) (o : Obj V) : Bool := c.allFields.all (fun f => (o f.ident).isSome)

/-- Store a built value. -/
def built {V : Type} (w : World V) (n : String) (o : Obj V) (fill : V → Val V) : Res (Obj V) :=
  match w.bld n o with
  | (.ok v, o') => .ok (o'.put n (fill v))
  | (.err, o') => .ok o'
  | (.panic, _) => .panic

/-- Initialisation of a lazy field; the result is thrown away by `let _`. plain.rs 67-79; sync.rs 427-435 with
fieldx/src/sync/fxproxy.rs 134-161 (`let _ = self.read_or_init(owner)`); `lazy_init` of the async proxy
(fieldx/src/async/fxproxy.rs 149-151) only makes a future, which is dropped without being polled. -/
def runInit {V : Type} (c : Ctx) (w : World V) (o : Obj V) (f : FieldArgs) : Res (Obj V) :=
  if inPlace c o then
    match o f.ident with
    | some (.proxy true _) => .ok o
    | some (.once .none) => built w f.ident o (fun v => .once (.some (.val v)))
    | some (.once (.some _)) => .ok o
    | some (.proxy false .none) => built w f.ident o (fun v => .proxy false (.some (.val v)))
    | some (.proxy false (.some _)) => .ok o
    | _ => .ill
  else .ill

/-- One field of the struct expression. -/
def runMove {V : Type} (c : Ctx) (w : World V) (o : Obj V) (f : FieldArgs) : Res (Val V) :=
  match o f.ident with
  | some a =>
    match (eval (shadowType ⟨c, f⟩) { w.env f.ident with me := a } none (intoShadow ⟨c, f⟩)).1 with
    | .ok b => .ok b
    | .panic => .panic
    | .stuck => .ill
  | none => .ill

/-- The body of the conversion, in order. -/
def exec {V : Type} (c : Ctx) (w : World V) : List Stmt → Obj V → Res (List (String × Val V))
  | [], _ => .ok []
  | .init f :: rest, o =>
    match runInit c w o f with
    | .ok o' => exec c w rest o'
    | .panic => .panic
    | .ill => .ill
  | .move f :: rest, o =>
    match runMove c w o f with
    | .ok b =>
      match exec c w rest (o.moved f.ident) with
      | .ok sh => .ok ((f.ident, b) :: sh)
      | r => r
    | .panic => .panic
    | .ill => .ill

/-- The struct expression names every field of the shadow (there is no `..` part): serde.rs 428-438. -/
def intoComplete (c : Ctx) : Bool := (shadowFields c).all (fun f => (serFields c).contains f)

/-- `From<Struct> for Shadow`: serde.rs 391-441. -/
def intoShadowObj {V : Type} (c : Ctx) (w : World V) (o : Obj V) : Res (List (String × Val V)) :=
  if c.args.isSerde && c.args.needsSerialize && intoComplete c then exec c w (intoCode c) o else .ill

/-! ### Documents -/

/-- An item of a document. -/
inductive Item (V : Type)
  | null
  | val (v : V)
deriving DecidableEq

abbrev Doc (V : Type) := List (String × Item V)

/-- Serialisation of a field of the shadow. -/
def toItem {V : Type} : Val V → Option (Item V)
  | .val v => some (.val v)
  | .none => some .null
  | .some (.val v) => some (.val v)
  | _ => none

/-- Serialisation of the shadow by `derive(Serialize)`. -/
def writeFields {V : Type} (c : Ctx) (sh : List (String × Val V)) : List FieldArgs → Res (Doc V)
  | [] => .ok []
  | f :: fs =>
    if skipAttr ⟨c, f⟩ = .ser ∨ skipAttr ⟨c, f⟩ = .all then writeFields c sh fs
    else
      match (sh.lookup f.ident).bind toItem, writeFields c sh fs with
      | some it, .ok d => .ok ((key f, it) :: d)
      | _, _ => .ill

/-- `Serialize` for the struct: `#[serde(into = "Shadow")]`, serde.rs 247-285. -/
def serialise {V : Type} (c : Ctx) (w : World V) (o : Obj V) : Res (Doc V) :=
  match intoShadowObj c w o with
  | .ok sh => writeFields c sh (shadowFields c)
  | .panic => .panic
  | .ill => .ill

/-! ### From a document -/

/-- Result of deserialisation: `error` is reported by serde. -/
inductive DRes (α : Type)
  | ok (a : α)
  | error
  | ill
deriving DecidableEq

def DRes.ofOut {V : Type} : Out V → DRes (Val V)
  | .ok a => .ok a
  | _ => .ill

/-- `default` in the serde attribute of a field: serde.rs 66-96; the generated function: 190-220. -/
def fieldDefault {V : Type} (w : World V) (x : FCtx) : Option (Out V) :=
  match x.field.serde with
  | some sh =>
    if sh.hasDefault then
      match sh.defaultValue with
      | some _ =>
        if w.isPath x.field.ident then some (.ok (w.path x.field.ident))
        else some (eval (shadowType x) (w.env x.field.ident) none (serdeDefaultFn x)).1
      | none => some (dfltAt (w.env x.field.ident).dflt (shadowType x))
    else none
  | none => none

/-- `default` in the serde attribute of the shadow: serde.rs 473-534; without a value it is `Shadow::default()`, which is
only there if the struct has a `Default` (159-188, 308-322). -/
def containerDefault {V : Type} (w : World V) (x : FCtx) : Option (Out V) :=
  match x.ctx.args.serde with
  | some sh =>
    if sh.hasDefault then
      match sh.defaultValue with
      | some _ => some (.ok (w.whole x.field.ident))
      | none =>
        if x.ctx.needsDefault then some (eval (shadowType x) (w.env x.field.ident) none (shadowDefault x)).1
        else some .stuck
    else none
  | none => none

/-- What `derive(Deserialize)` puts into a field for which it has no item: the field's default, else that of the
container, else `None` for an `Option`, else an error. -/
def missing {V : Type} (w : World V) (x : FCtx) : DRes (Val V) :=
  match (fieldDefault w x).or (containerDefault w x) with
  | some r => .ofOut r
  | none => if shadowType x = .opt .t then .ok .none else .error

/-- What `derive(Deserialize)` puts into a field it skips: the same, but `Default::default()` in the end. -/
def skipped {V : Type} (w : World V) (x : FCtx) : DRes (Val V) :=
  match (fieldDefault w x).or (containerDefault w x) with
  | some r => .ofOut r
  | none => .ofOut (dfltAt (w.env x.field.ident).dflt (shadowType x))

/-- Deserialisation of an item. -/
def readItem {V : Type} : Ty → Item V → DRes (Val V)
  | .opt .t, .null => .ok .none
  | .opt .t, .val v => .ok (.some (.val v))
  | .t, .val v => .ok (.val v)
  | _, _ => .error

/-- Is the key given more than once? -/
def repeated {V : Type} (d : Doc V) (k : String) : Bool := 1 < d.countP (fun i => i.1 == k)

/-- Deserialisation of one field of the shadow. A field which is skipped is as unknown to serde as any other key, so
that its key may be repeated. -/
def readField {V : Type} (w : World V) (x : FCtx) (d : Doc V) : DRes (Val V) :=
  if skipAttr x = .de ∨ skipAttr x = .all then skipped w x
  else if repeated d (key x.field) then .error
  else
    match d.lookup (key x.field) with
    | some it => readItem (shadowType x) it
    | none => missing w x

def readFields {V : Type} (c : Ctx) (w : World V) (d : Doc V) : List FieldArgs → DRes (List (String × Val V))
  | [] => .ok []
  | f :: fs =>
    match readField w ⟨c, f⟩ d with
    | .ok a =>
      match readFields c w d fs with
      | .ok sh => .ok ((f.ident, a) :: sh)
      | r => r
    | .error => .error
    | .ill => .ill

/-- One field of `From<Shadow> for Struct`: serde.rs 351-365; the rest comes from `..Self::default()` if there is a
`Default` (372-377), and otherwise is missing from the struct expression. -/
def fromField {V : Type} (c : Ctx) (w : World V) (sh : List (String × Val V)) (f : FieldArgs) : DRes (Val V) :=
  match declType ⟨c, f⟩ with
  | .ok τ =>
    if deserialised ⟨c, f⟩ then
      match fromShadow ⟨c, f⟩, sh.lookup f.ident with
      | .ok e, some a => .ofOut (eval τ { w.env f.ident with shadow := a } none e).1
      | _, _ => .ill
    else if c.needsDefault then
      match defaultInit ⟨c, f⟩ with
      | .ok e => .ofOut (eval τ (w.env f.ident) none e).1
      | _ => .ill
    else .ill
  | _ => .ill

def fromFields {V : Type} (c : Ctx) (w : World V) (sh : List (String × Val V)) :
    List FieldArgs → DRes (List (String × Val V))
  | [] => .ok []
  | f :: fs =>
    match fromField c w sh f with
    | .ok a =>
      match fromFields c w sh fs with
      | .ok l => .ok ((f.ident, a) :: l)
      | r => r
    | .error => .error
    | .ill => .ill

/-- `From<Shadow> for Struct`: serde.rs 339-389. -/
def fromShadowObj {V : Type} (c : Ctx) (w : World V) (sh : List (String × Val V)) : DRes (List (String × Val V)) :=
  if c.args.isSerde && c.args.needsDeserialize then fromFields c w sh c.allFields else .ill

/-- `Deserialize` for the struct: `#[serde(from = "Shadow")]`, serde.rs 247-285. -/
def deserialise {V : Type} (c : Ctx) (w : World V) (d : Doc V) : DRes (List (String × Val V)) :=
  match readFields c w d (shadowFields c) with
  | .ok sh => fromShadowObj c w sh
  | .error => .error
  | .ill => .ill

end Verif.Model.Serde
