import Verif.Suite.Tests
/-!
# Documents of the serde tests, on the model

Sources: /repo/fieldx/tests/plain_serde.rs, sync_serde.rs, sync_serde_optional.rs, serde_default.rs. An item is a string or
null; nested objects and numbers are strings. Left out: serde_attributes.rs (attributes the user hands on to serde have no
meaning in the model) and the generic variants, whose fields are of the same kinds.
-/

namespace Verif.Suite
open Verif.Model
open Verif.Model.Init (Val)

/-- The user's side for serde: default expressions of fields, those in `serde(default(..))` of fields, builders, and the
struct's serde default. -/
def serdeWorld (w : World) (whole : String → Val String) : Serde.World String where
  env := w.env
  bld := fun n o => ((match (w.bld ("build_" ++ n) []).1 with | .ok v => .ok v | .err _ => .err | .panic => .panic), o)
  isPath := fun _ => false
  path := fun _ => .none
  whole := whole

/-- An object as the serde model has it. -/
def Obj.fn (o : Obj) : Serde.Obj String := fun n => o.lookup n

/-- `to_string(&obj)`, the object made by the builder and then by the statements. -/
def written (t : Src) (w : World) (mt : Bool) (sets : List (String × String)) (l : List Stmt) :
    Option (Serde.Res (Serde.Doc String)) :=
  t.ctx.bind fun c =>
    match build c w sets with
    | .ok o => (stmts c w mt o l).map fun o => Serde.serialise c (serdeWorld w fun _ => .none) o.fn
    | _ => none

/-- `from_str(doc)`, then the statements. -/
def readsBack (t : Src) (w : World) (whole : String → Val String) (d : Serde.Doc String) (l : List Stmt) : Bool :=
  match t.ctx with
  | none => false
  | some c =>
    match Serde.deserialise c (serdeWorld w whole) d with
    | .ok o => (stmts c w false o l).isSome
    | _ => false

/-! ### plain_serde.rs -/

/-- 57-83, and the default expressions of 16-55. -/
def plainSerdeW : World where
  dv := fun | "count" => "13" | "simple" => "-1122.3344" | "simple2" => "12.34" | _ => ""
  sdv := fun | "pi" => "0" | "simple2" => "-987.654" | _ => ""
  dflt := fun _ => "type's default"
  bld := fun
    | "build_bar" => gives "from lazy"
    | "build_baz" => gives "cnt 123"
    | "build_count" => gives "1"
    | "build_pi" => gives "3.141592653589793"
    | "build_e" => gives "2.718281828459045"
    | _ => fun o => (.panic, o)

/-- `FooDup::default()`, the default of the shadow: serde.rs 159-188 makes it of the defaults of the fields. -/
def plainSerdeWhole : String → Val String
  | "baz" | "e" | "opt" => .none
  | "simple" => .val "-1122.3344"
  | "modifiable" => .val ""
  | _ => .none

-- 87-99
example : written Src.plain_serde_Foo plainSerdeW true [("simple", "666.13"), ("modifiable", "from builder")] [] =
    some (.ok [("baz", .val "cnt 123"), ("count", .val "13"), ("pi", .val "3.141592653589793"),
      ("e", .val "2.718281828459045"), ("opt", .null), ("simple", .val "666.13"), ("sssimple", .val "12.34"),
      ("modifiable", .val "from builder")]) := by decide +kernel

-- 101-110
example : written Src.plain_serde_Foo plainSerdeW true [("simple", "666.13"), ("modifiable", "from builder")]
    [.see "set_opt" "12" no, get "clear_count" (so "13")] =
    some (.ok [("baz", .val "cnt 123"), ("count", .val "1"), ("pi", .val "3.141592653589793"),
      ("e", .val "2.718281828459045"), ("opt", .val "12"), ("simple", .val "666.13"), ("sssimple", .val "12.34"),
      ("modifiable", .val "from builder")]) := by decide +kernel

-- 112-140
example : readsBack Src.plain_serde_Foo plainSerdeW plainSerdeWhole
    [("baz", .val "cnt 9876"), ("count", .val "112233"), ("pi", .val "3.141"), ("opt", .null), ("simple", .val "-13.666"),
      ("sssimple", .val "999.111"), ("modifiable", .val "from deserialize")] [
    get "bar" (v "from lazy"), get "baz" (v "cnt 9876"), get "count" (v "13"), get "pi" (v "3.141"), get "opt" no,
    .field "simple" (.val "-13.666"), .field "simple2" (.val "999.111"), get "modifiable" (v "from deserialize")] = true := by
  decide +kernel

-- 142-161
example : readsBack Src.plain_serde_Foo plainSerdeW plainSerdeWhole [("baz", .val "cnt 9876"), ("opt", .val "31415926")] [
    get "opt" (so "31415926"), get "pi" (v "0"), get "e" (v "2.718281828459045"), .field "simple" (.val "-1122.3344"),
    .field "simple2" (.val "-987.654")] = true := by decide +kernel

/-! ### sync_serde.rs -/

-- 77-89
example : written Src.sync_serde_Foo plainSerdeW false [("simple", "666.13"), ("modifiable", "from builder")] [] =
    some (.ok [("baz", .val "cnt 123"), ("count", .val "13"), ("pi", .val "3.141592653589793"), ("opt", .null),
      ("simple", .val "666.13"), ("sssimple", .val "12.34"), ("modifiable", .val "from builder")]) := by decide +kernel

-- 91-100
example : written Src.sync_serde_Foo plainSerdeW false [("simple", "666.13"), ("modifiable", "from builder")]
    [.see "set_opt" "12" no, get "clear_count" (so "13")] =
    some (.ok [("baz", .val "cnt 123"), ("count", .val "1"), ("pi", .val "3.141592653589793"), ("opt", .val "12"),
      ("simple", .val "666.13"), ("sssimple", .val "12.34"), ("modifiable", .val "from builder")]) := by decide +kernel

-- 102-130
example : readsBack Src.sync_serde_Foo plainSerdeW (fun _ => .none)
    [("baz", .val "cnt 9876"), ("count", .val "112233"), ("pi", .val "3.141"), ("opt", .null), ("simple", .val "-13.666"),
      ("sssimple", .val "999.111"), ("modifiable", .val "from deserialize")] [
    get "modifiable" (v "from deserialize"), get "bar" (v "from lazy"), get "baz" (v "cnt 9876"), get "count" (v "13"),
    get "pi" (v "3.141"), get "opt" no, .field "simple" (.val "-13.666"), .field "simple2" (.val "999.111")] = true := by
  decide +kernel

-- 132-145
example : readsBack Src.sync_serde_Foo plainSerdeW (fun _ => .none)
    [("baz", .val "cnt 9876"), ("pi", .val "3.141"), ("opt", .val "31415926")] [
    get "opt" (so "31415926"), .field "simple" (.val "-1122.3344"), .field "simple2" (.val "-987.654")] = true := by
  decide +kernel

/-! ### sync_serde_optional.rs -/

-- 18-27
example : passesBuilt Src.sync_serde_optional_Foo {} false [("mandatory", "always have this")] [get "maybe_name" no] = true := by
  decide +kernel

example : written Src.sync_serde_optional_Foo {} false [("mandatory", "always have this")] [] =
    some (.ok [("maybe_name", .null), ("mandatory", .val "always have this")]) := by decide +kernel

-- 29-32
example : readsBack Src.sync_serde_optional_Foo {} (fun _ => .none)
    [("maybe_name", .null), ("mandatory", .val "is the only defined")] [
    get "maybe_name" no, get "mandatory" (v "is the only defined")] = true := by decide +kernel

-- 37-50
example : written Src.sync_serde_optional_Foo {} false [("maybe_name", "some name"), ("mandatory", "always have this")]
    [get "maybe_name" (so "some name")] =
    some (.ok [("maybe_name", .val "some name"), ("mandatory", .val "always have this")]) := by decide +kernel

-- 52-55
example : readsBack Src.sync_serde_optional_Foo {} (fun _ => .none)
    [("maybe_name", .val "there is a name"), ("mandatory", .val "is also defined")] [
    get "maybe_name" (so "there is a name"), get "mandatory" (v "is also defined")] = true := by decide +kernel

/-! ### serde_default.rs -/

/-- 13-20 and 29-36. -/
def serdeDefault : String → Val String := fun | "f1" => .val "f1 default" | _ => .val "f2 default"

-- 66-76
example : readsBack Src.serde_default_Foo {} serdeDefault [("f2", .val "f2 json")] [
    get "f1" (v "f1 default"), get "f2" (v "f2 json")] = true := by decide +kernel

example : readsBack Src.serde_default_Foo {} serdeDefault [("f2", .val "f2 json"), ("f1", .val "f1 json")] [
    get "f1" (v "f1 json")] = true := by decide +kernel

-- 78-88
example : readsBack Src.serde_default_Bar {} serdeDefault [("f2", .val "f2 json")] [
    get "f1" (v "f1 default"), get "f2" (v "f2 json")] = true := by decide +kernel

example : readsBack Src.serde_default_Bar {} serdeDefault [("f2", .val "f2 json"), ("f1", .val "f1 json")] [
    get "f1" (v "f1 json")] = true := by decide +kernel

/-- 45-64: `Fubar` converted into the shadow. -/
def fubar : String → Val String := fun | "f1" => .val "f1 from fubar" | _ => .val "f2 from fubar"

-- 90-100
example : readsBack Src.serde_default_Baz {} fubar [("f1", .val "f1 json")] [
    get "f1" (v "f1 json"), get "f2" (v "f2 from fubar")] = true := by decide +kernel

example : readsBack Src.serde_default_Baz {} fubar [("f2", .val "f2 json"), ("f1", .val "f1 json")] [
    get "f1" (v "f1 json")] = true := by decide +kernel

end Verif.Suite
