import Verif.Model.Parse
import Verif.Model.Names
import Verif.Model.Structs
import Verif.Model.Method
import Verif.Model.Default
import Verif.Model.Build
import Verif.Model.Serde
/-!
# Replaying the tests of fieldx on the model

The tests under /repo/fieldx/tests cannot be run here. Their structs are given to the reader of attribute syntax
(`Verif.Model.Parse`), their calls to the generated methods (`Verif.Model.Method`), and what they assert is compared with
what the model gives. These are checks of the model against observed behaviour of the code, not properties of the code.

Values are strings. Conversions by `into()` and arithmetic on values are left out; a guard is dropped at the end of the
statement that asked for it.
-/

namespace Verif.Suite
open Verif.Spec (Outcome)
open Verif.Model Verif.Model.Args Verif.Model.Parse Verif.Model.Init Verif.Model.Method

/-- A struct with its attributes. -/
structure Src where
  sargs  : List Arg
  fields : List (String × List (Option (List Arg)))

/-- The struct as the macro sees it; `none`: it is refused. -/
def Src.ctx (t : Src) : Option Ctx := do
  let s ← struct t.sargs
  let fs ← t.fields.mapM fun p => field p.1 p.2
  pure (Structs.prepare s fs)

abbrev Obj := List (String × Val String)

/-- The value of a field. -/
def Obj.put (o : Obj) (n : String) (a : Val String) : Obj := o.map fun p => if p.1 == n then (n, a) else p

/-- The user's side of a test: values of default expressions by field, defaults of types, and builder methods, which may
read and so initialise other fields. -/
structure World where
  dv    : String → String := fun _ => ""
  sdv   : String → String := fun _ => ""
  dflt  : String → String := fun _ => ""
  bld   : String → Obj → Outcome String String × Obj := fun _ o => (.panic, o)

/-- Surroundings of the initialiser of a field. -/
def World.env (w : World) (n : String) : Env String :=
  { dv := w.dv n, sdv := w.sdv n, dflt := w.dflt n, shadow := .none, me := .none }

/-- What a test sees of an answer. -/
inductive Seen
  /-- a value, owned, by reference, or under a guard -/
  | is (a : Val String)
  | bool (b : Bool)
  | unit
  | err (e : String)
  | panicked
  | blocked
  /-- no such method, wrong receiver, or `.await` in the wrong place -/
  | ill
deriving DecidableEq

/-- Reading an answer. -/
def seen (f : Field String) : Got String String → Seen
  | .value (.own a) => .is a
  | .value (.bool b) => .bool b
  | .value .unit => .unit
  | .value (.place d) | .value (.guard _ d) =>
    match sub d f.val with
    | some a => .is a
    | none => .ill
  | .value (.optPlace none) => .is .none
  | .value (.optPlace (some d)) =>
    match sub d f.val with
    | some a => .is (.some a)
    | none => .ill
  | .value _ => .ill
  | .error e => .err e
  | .panicked => .panicked
  | .blocked => .blocked
  | .ill => .ill

/-- The field and helper a method name stands for. -/
def lookup (c : Ctx) (m : String) : Option (FieldArgs × Kind) :=
  c.allFields.findSome? fun f =>
    (Names.slots ⟨c, f⟩).findSome? fun s =>
      match s with
      | .helper .lazy | .wrap => none
      | .helper k => if Names.helperName ⟨c, f⟩ k == m then some (f, k) else none

/-- A call `obj.m(arg)`, with `.await` if `aw`, on a variable declared `mut` if `mt`: what is seen, the place the answer gives
access to, and the object afterwards. -/
def call (c : Ctx) (w : World) (mt aw : Bool) (o : Obj) (m arg : String) : Seen × Option (String × Nat) × Obj :=
  match lookup c m with
  | none => (.ill, none, o)
  | some (f, k) =>
    match body ⟨c, f⟩ k, o.find? (·.1 == f.ident) with
    | .ok b, some (_, a) =>
      if b.isAsync != aw || (b.recvMut && !mt) then (.ill, none, o)
      else
        let r := w.bld (Names.helperName ⟨c, f⟩ .lazy) o
        let (got, f', ran) := Method.call b { arg := arg, bld := r.1, dflt := w.dflt f.ident } { val := a }
        let o' := if ran.isSome then r.2 else o
        let at? := match got with
          | .value (.place d) | .value (.guard _ d) | .value (.optPlace (some d)) => some (f.ident, d)
          | _ => none
        (seen f' got, at?, o'.put f.ident f'.val)
    | _, _ => (.ill, none, o)

/-- Statements of a test. -/
inductive Stmt
  /-- `assert_eq!(obj.m(arg), r)` -/
  | see (m arg : String) (r : Seen)
  /-- the same with `.await` -/
  | seeA (m arg : String) (r : Seen)
  /-- `*obj.m() = v` -/
  | assign (m : String) (v : Val String)
  | assignA (m : String) (v : Val String)
  /-- `assert_eq!(obj.field, v)` -/
  | field (n : String) (v : Val String)

/-- One statement; `none`: an assertion fails or the statement makes no sense. -/
def stmt (c : Ctx) (w : World) (mt : Bool) (o : Obj) : Stmt → Option Obj
  | .see m arg r => let x := call c w mt false o m arg; if x.1 = r then some x.2.2 else none
  | .seeA m arg r => let x := call c w mt true o m arg; if x.1 = r then some x.2.2 else none
  | .assign m v => assignTo (call c w mt false o m "") v
  | .assignA m v => assignTo (call c w mt true o m "") v
  | .field n v => if o.lookup n = some v then some o else none
where
  assignTo (x : Seen × Option (String × Nat) × Obj) (v : Val String) : Option Obj :=
    match x.2.1 with
    | some (n, d) => (x.2.2.lookup n).map fun a => x.2.2.put n (Method.put v d a)
    | none => none

/-- All statements. -/
def stmts (c : Ctx) (w : World) (mt : Bool) (o : Obj) (l : List Stmt) : Option Obj :=
  l.foldlM (stmt c w mt) o

/-- `Struct::new()`. -/
def new (c : Ctx) (w : World) : Option Obj :=
  if Default.constructor c == some "new" then
    match Default.makeDefault c w.env with
    | .ok o => some o
    | _ => none
  else none

/-- A test that begins with `new()`. -/
def passes (t : Src) (w : World) (mt : Bool) (l : List Stmt) : Bool :=
  match t.ctx with
  | none => false
  | some c => ((new c w).bind fun o => stmts c w mt o l).isSome

/-- `Struct::builder()`, the setters given by name, `.build()`; an error names the field. -/
def build (c : Ctx) (w : World) (sets : List (String × String)) : Builder.Built String :=
  if !c.needsBuilderStruct then .ill
  else
    let s := sets.foldlM (fun (s : Builder.Slots String) p =>
      (c.allFields.find? fun f => Emit.emits ⟨c, f⟩ .builder && Names.helperName ⟨c, f⟩ .builder == p.1).map
        fun f => s.set f.ident p.2) Builder.Slots.new
    match s with
    | some s => (Builder.build c w.env s).1
    | none => .ill

/-- A test that begins with a builder. -/
def passesBuilt (t : Src) (w : World) (mt : Bool) (sets : List (String × String)) (l : List Stmt) : Bool :=
  match t.ctx with
  | none => false
  | some c =>
    match build c w sets with
    | .ok o => (stmts c w mt o l).isSome
    | _ => false

/-- A test that begins with a struct expression. -/
def passesOn (t : Src) (w : World) (mt : Bool) (o : Obj) (l : List Stmt) : Bool :=
  match t.ctx with
  | none => false
  | some c => (stmts c w mt o l).isSome

/-- A builder method which gives a value and touches nothing. -/
def gives (v : String) (o : Obj) : Outcome String String × Obj := (.ok v, o)

/-- A builder method which makes its value from that of another field, read through the accessor `m`. -/
def from1 (c : Option Ctx) (w : World) (aw : Bool) (m : String) (f : String → String) (o : Obj) :
    Outcome String String × Obj :=
  match c with
  | none => (.panic, o)
  | some c =>
    let x := call c w false aw o m ""
    match x.1 with
    | .is (.val v) => (.ok (f v), x.2.2)
    | _ => (.panic, x.2.2)

end Verif.Suite
