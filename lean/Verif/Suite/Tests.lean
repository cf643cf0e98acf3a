import Verif.Suite.Sources
/-!
# What the tests of fieldx assert, on the model

One example or more for each test function that needs one thread only; the source is named above. Where a test throws an
answer away, or only prints it, the example still says what it is. What an example adds to its test, or leaves out, is said
with it. Documents are in `Verif.Suite.Documents`, what the compiler said in `Verif.Suite.Refused`.

Left out: the tests `threaded` of sync.rs and async.rs (statements on all interleavings are proved of `Verif.Model.Multi` and
`Verif.Model.AsyncMulti`), plain_generics.rs, sync_generics.rs, plain_builder_generics.rs, sync_accessor_arc.rs, those on
reference counts (plain_rc.rs, sync_arc.rs), and async_lock.rs, which has no generated code.
-/

namespace Verif.Suite
open Verif.Model
open Verif.Model.Init (Val)

/-- A plain value. -/
def v (a : String) : Seen := .is (.val a)
/-- `Some` of a value. -/
def so (a : String) : Seen := .is (.some (.val a))
/-- `None`. -/
def no : Seen := .is .none
/-- `Some` of a value, to be assigned. -/
def some' (a : String) : Val String := .some (.val a)
/-- A statement without arguments. -/
def get (m : String) (r : Seen) : Stmt := .see m "" r
/-- The same with `.await`. -/
def getA (m : String) (r : Seen) : Stmt := .seeA m "" r

/-! ### /repo/fieldx/tests/plain.rs -/

/-- Builders of plain.rs 24-36, those without reads. -/
def plainW0 : World where
  dv := fun | "bar" => "13" | "pi" => "3.1415926" | "baz" => "bazzification" | _ => ""
  bld := fun | "build_bar" => gives "42" | "build_piquant" => gives "щось пікантне" | _ => fun o => (.panic, o)

/-- All of them. -/
def plainW : World :=
  { plainW0 with bld := fun
      | "build_foo" => from1 Src.plain_Plain.ctx plainW0 false "bar" fun b => "this is foo with bar=" ++ b
      | n => plainW0.bld n }

-- 38-42
example : passes Src.plain_Plain plainW false [.field "pi" (.val "3.1415926")] = true := by decide +kernel

-- 44-90
example : passes Src.plain_Plain plainW true [
    get "has_foo" (.bool false), get "foo" (v "this is foo with bar=13"), get "has_foo" (.bool true),
    get "has_bar" (.bool true), get "clear_bar" (so "13"), get "has_bar" (.bool false),
    get "foo" (v "this is foo with bar=13"), get "has_bar" (.bool false), get "bar" (v "42"),
    get "clear_bar" (so "42"), get "clear_foo" (so "this is foo with bar=13"), get "foo" (v "this is foo with bar=42"),
    .see "set_bar" "12" (so "42"), get "has_bar" (.bool true), get "clear_foo" (so "this is foo with bar=42"),
    get "has_foo" (.bool false), get "foo" (v "this is foo with bar=12"), get "piquant" (v "щось пікантне"),
    get "clear_piquant" (so "щось пікантне")] = true := by decide +kernel

-- 92-112
example : passes Src.plain_Plain plainW true [
    get "baz" (so "bazzification"), get "has_baz" (.bool true), get "clear_baz" (so "bazzification"),
    get "has_baz" (.bool false), .see "set_baz" "new baz" no, get "has_baz" (.bool true), get "baz" (so "new baz")] = true := by
  decide +kernel

-- 114-131; the variable is not `mut`
example : passes Src.plain_Plain plainW false [
    .see "set_modifiable" "new value" (v ""), get "modifiable" (v "new value"),
    .assign "modifiable_mut" (.val "modified value"), get "modifiable" (v "modified value")] = true := by decide +kernel

/-! ### /repo/fieldx/tests/plain_builder.rs -/

/-- Builders without reads. -/
def plainBuilderW0 : World where
  dv := fun | "pi" => "3.1415926" | "baz" => "bazzification" | "lazy_default" => "this is default string value" | _ => ""
  bld := fun | "build_bar" => gives "42" | "build_lazy_default" => gives "this is a lazy default" | _ => fun o => (.panic, o)

/-- All of them. -/
def plainBuilderW : World :=
  { plainBuilderW0 with bld := fun
      | "build_dummy" => from1 Src.plain_builder_Plain.ctx plainBuilderW0 false "bar" fun b => "this is foo with bar=" ++ b
      | n => plainBuilderW0.bld n }

example : passesBuilt Src.plain_builder_Plain plainBuilderW true
    [("dummy", "as banal as it gets"), ("pi", "-1.2"), ("modifiable", "from builder")] [
    .field "pi" (.val "-1.2"), get "clear_dummy" (so "as banal as it gets"), get "dummy" (v "this is foo with bar=42"),
    get "baz" (so "bazzification"), get "fubar" no, get "modifiable" (v "from builder"),
    get "lazy_default" (v "this is default string value")] = true := by decide +kernel

example : passesBuilt Src.plain_builder_Plain plainBuilderW true
    [("lazy_default", "non-lazy, non-default"), ("modifiable", "from builder")] [
    get "lazy_default" (v "non-lazy, non-default"), get "clear_lazy_default" (so "non-lazy, non-default"),
    get "lazy_default" (v "this is a lazy default"), .see "set_modifiable" "set manually" (v "from builder"),
    get "modifiable" (v "set manually")] = true := by decide +kernel

/-! ### /repo/fieldx/tests/mutable_accessor.rs -/

example : passes Src.mutable_accessor_Foo
    { bld := fun | "build_lazish" => gives "got from the builder" | _ => fun o => (.panic, o) } true [
    get "has_lazish" (.bool false), get "lazish_mut" (v "got from the builder"), get "has_lazish" (.bool true),
    .assign "lazish_mut" (.val "from the user"), get "lazish" (v "from the user"), get "has_std" (.bool false),
    .assign "std_mut" (some' "manually set"), get "std" (so "manually set"), get "has_std" (.bool true)] = true := by
  decide +kernel

/-! ### /repo/fieldx/tests/plain_fallible.rs, sync_fallible.rs, async_fallible.rs -/

/-- Builders of `Foo<false>`. -/
def okW : World where
  bld := fun | "build_ok" => gives "-42" | "build_writable" => gives "12" | "build_shared" => gives "shared" | _ => fun o => (.panic, o)

/-- Builders of `Foo<true>`. -/
def errW : World where
  bld := fun
    | "build_ok" => fun o => (.err "will never be there", o)
    | "build_writable" => fun o => (.err "no value", o)
    | "build_shared" => fun o => (.err "this is a failed outcome", o)
    | _ => fun o => (.panic, o)

example : passes Src.plain_fallible_Foo okW true [
    get "ok" (v "-42"), get "writable" (v "12"), .assign "writable_mut" (.val "42"), get "writable" (v "42"),
    get "shared" (v "shared")] = true := by decide +kernel

example : passes Src.plain_fallible_Foo errW true [
    get "ok" (.err "will never be there"), get "writable" (.err "no value"), .see "set_writable" "42" no,
    get "writable" (v "42"), get "shared" (.err "this is a failed outcome")] = true := by decide +kernel

example : passes Src.sync_fallible_Foo okW false [
    get "ok" (v "-42"), get "writable" (v "12"), .assign "writable_mut" (.val "42"), get "writable" (v "42"),
    get "shared" (v "shared")] = true := by decide +kernel

example : passes Src.sync_fallible_Foo errW false [
    get "ok" (.err "will never be there"), get "writable" (.err "no value"), .see "set_writable" "42" no,
    get "writable" (v "42"), get "shared" (.err "this is a failed outcome")] = true := by decide +kernel

example : passes Src.async_fallible_Foo okW false [
    getA "ok" (v "-42"), getA "writable" (v "12"), .assignA "writable_mut" (.val "42"), getA "writable" (v "42"),
    getA "shared" (v "shared")] = true := by decide +kernel

example : passes Src.async_fallible_Foo errW false [
    getA "ok" (.err "will never be there"), getA "writable" (.err "no value"), .seeA "set_writable" "42" no,
    getA "writable" (v "42"), getA "shared" (.err "this is a failed outcome")] = true := by decide +kernel

/-! ### /repo/fieldx/tests/sync.rs, async.rs -/

/-- Builders of syncish/mod.rs without reads. -/
def syncW0 : World where
  dv := fun | "baz" => "bazzification" | "fubar" => "fufubarik!" | _ => ""
  bld := fun | "build_bar" => gives "42" | "build_fubar" => gives "аби було" | _ => fun o => (.panic, o)

/-- All of them. -/
def syncW (t : Src) (aw : Bool) : World :=
  { syncW0 with bld := fun
      | "build_foo" => from1 t.ctx syncW0 aw "bar" fun b => "Foo with bar=" ++ b
      | n => syncW0.bld n }

-- sync.rs 12-57; the guard of `write_bar` is dropped before `clear_foo`, not after it
example : passes Src.syncish_Foo (syncW Src.syncish_Foo false) false [
    get "has_foo" (.bool false), get "foo" (v "Foo with bar=42"), get "has_foo" (.bool true), get "has_bar" (.bool true),
    get "clear_bar" (so "42"), get "has_bar" (.bool false), get "foo" (v "Foo with bar=42"), get "has_bar" (.bool false),
    .see "set_bar" "12" no, get "has_bar" (.bool true), get "clear_foo" (so "Foo with bar=42"), get "has_foo" (.bool false),
    get "foo" (v "Foo with bar=12"), .assign "write_bar" (some' "666"), get "clear_foo" (so "Foo with bar=12"),
    get "foo" (v "Foo with bar=666"), get "fubar" (v "fufubarik!"), get "clear_fubar" (so "fufubarik!"),
    get "fubar" (v "аби було")] = true := by decide +kernel

-- sync.rs 59-81
example : passes Src.syncish_Foo (syncW Src.syncish_Foo false) false [
    get "read_baz" (so "bazzification"), get "clear_baz" (so "bazzification"), get "has_baz" (.bool false),
    .assign "write_baz" (some' "bazzish"), get "read_baz" (so "bazzish"), .see "set_baz" "bazzuka" (so "bazzish"),
    get "read_baz" (so "bazzuka")] = true := by decide +kernel

-- async.rs 62-118
example : passes Src.async_Foo (syncW Src.async_Foo true) false [
    get "has_foo" (.bool false), getA "foo" (v "Foo with bar=42"), get "has_foo" (.bool true), get "has_bar" (.bool true),
    getA "clear_bar" (so "42"), get "has_bar" (.bool false), getA "foo" (v "Foo with bar=42"), get "has_bar" (.bool false),
    .seeA "set_bar" "12" no, get "has_bar" (.bool true), getA "clear_foo" (so "Foo with bar=42"),
    get "has_foo" (.bool false), getA "foo" (v "Foo with bar=12"), .assignA "write_bar" (some' "666"),
    getA "clear_foo" (so "Foo with bar=12"), getA "foo" (v "Foo with bar=666"), getA "fubar" (v "fufubarik!"),
    getA "clear_fubar" (so "fufubarik!"), getA "fubar" (v "аби було")] = true := by decide +kernel

-- async.rs 120-154
example : passes Src.async_Foo (syncW Src.async_Foo true) false [
    getA "read_baz" (so "bazzification"), getA "clear_baz" (so "bazzification"), getA "has_baz" (.bool false),
    .assignA "write_baz" (some' "bazzish"), getA "read_baz" (so "bazzish"), .seeA "set_baz" "bazzuka" (so "bazzish"),
    getA "read_baz" (so "bazzuka")] = true := by decide +kernel

/-! ### /repo/fieldx/tests/optional_inner_mut.rs -/

example : passes Src.optional_inner_mut_FooPlain {} false [
    get "has_mutable" (.bool false), .see "set_mutable" "manual" no, get "mutable" (so "manual"),
    get "has_mutable" (.bool true), get "clear_mutable" (so "manual"), get "clear_mutable" no,
    get "has_mutable" (.bool false), .assign "mutable_mut" (some' "via get_mut"), get "mutable" (so "via get_mut")] = true := by
  decide +kernel

example : passes Src.optional_inner_mut_FooSync {} false [
    get "has_mutable" (.bool false), .see "set_mutable" "manual" no, get "mutable" (so "manual"),
    get "has_mutable" (.bool true), get "clear_mutable" (so "manual"), get "clear_mutable" no,
    get "has_mutable" (.bool false), .assign "mutable_mut" (some' "via get_mut"), get "mutable" (so "via get_mut")] = true := by
  decide +kernel

/-! ### /repo/fieldx/tests/sync_lock_optional.rs -/

example : passes Src.sync_lock_optional_Foo {} false [
    get "has_b1" (.bool false), .assign "b1_mut" (some' "foo.b1"), get "has_b1" (.bool true), get "b1" (so "foo.b1"),
    .see "set_b1" "b1 via setter" (so "foo.b1"), get "b1" (so "b1 via setter")] = true := by decide +kernel

example : passesBuilt Src.sync_lock_optional_Foo {} false [("b1", "manual b1")] [
    get "has_b1" (.bool true), get "b1" (so "manual b1")] = true := by decide +kernel

example : passes Src.sync_lock_optional_Foo {} true [
    get "has_b2" (.bool false), .assign "b2_mut" (some' "foo.b2"), get "has_b2" (.bool true), get "b2" (so "foo.b2"),
    .see "set_b2" "b2 via setter" (so "foo.b2"), get "b2" (so "b2 via setter")] = true := by decide +kernel

-- not in the test: without the lock the variable has to be `mut`
example : passes Src.sync_lock_optional_Foo {} false [.assign "b2_mut" (some' "foo.b2")] = false := by decide +kernel

example : passesBuilt Src.sync_lock_optional_Foo {} false [("b2", "manual b2")] [
    get "has_b2" (.bool true), get "b2" (so "manual b2")] = true := by decide +kernel

/-! ### Optional fields: sync_optional_wo_default.rs, as_ref.rs, sync_option.rs, sync_optional.rs, plain_option.rs,
plain_optional.rs -/

example : passes Src.sync_optional_wo_default_Foo {} false [
    get "has_v" (.bool false), get "v" no, .see "set_v" "42" no, get "has_v" (.bool true), get "v" (so "42"),
    get "clear_v" (so "42"), get "v" no] = true := by decide +kernel

example : passesBuilt Src.as_ref_Foo {} false [("b1", "bar")] [get "b1" (so "bar")] = true := by decide +kernel

-- the type of the value is itself an option
example : passes Src.sync_option_Foo {} false [
    get "has_foo" (.bool false), .see "set_foo" "Some(The Answer)" no, get "foo" (so "Some(The Answer)"),
    get "read_foo" (so "Some(The Answer)"), .see "set_foo" "None" (so "Some(The Answer)"), get "foo" (so "None"),
    get "read_foo" (so "None"), get "has_foo" (.bool true), get "clear_foo" (so "None"), get "foo" no, get "read_foo" no,
    get "has_foo" (.bool false)] = true := by decide +kernel

example : passes Src.sync_optional_Foo {} false [get "foo" no, .see "set_foo" "manual" no, get "foo" (so "manual")] = true := by
  decide +kernel

example : passes Src.sync_optional_Bar {} false [get "bar" no, .see "set_bar" "manual" no, get "bar" (so "manual")] = true := by
  decide +kernel

example : passes Src.plain_option_Foo {} true [
    get "has_foo" (.bool false), .see "set_foo" "Some(The Answer)" no, get "foo" (so "Some(The Answer)"),
    .see "set_foo" "None" (so "Some(The Answer)"), get "foo" (so "None"), get "has_foo" (.bool true)] = true := by decide +kernel

example : passes Src.plain_optional_Foo {} true [get "foo" no, .see "set_foo" "manual" no, get "foo" (so "manual")] = true := by
  decide +kernel

example : passes Src.plain_optional_Bar {} true [get "bar" no, .see "set_bar" "manual" no, get "bar" (so "manual")] = true := by
  decide +kernel

/-! ### Locks and accessors: sync_all_lock.rs, inner_mut_copy_clone.rs, sync_accessor.rs -/

example : passesBuilt Src.sync_all_lock_Foo {} false [("text", "hello"), ("count", "10"), ("bare", "bar")] [
    get "text" (v "hello"), get "count" (v "10"), get "read_count" (v "10"), get "bare" (v "bar")] = true := by decide +kernel

example : passesBuilt Src.inner_mut_copy_clone_Foo {} false [("m1", "42"), ("m2", "from builder")] [
    get "m1" (v "42"), get "m2" (v "from builder")] = true := by decide +kernel

/-- Builders of sync_accessor.rs 47-64. -/
def accessorW : World where
  dv := fun | "locked_bar" => "protected" | _ => ""
  bld := fun
    | "build_lazy_bar_copy" => gives "-15"
    | "build_lazy_bar_clone" => gives "lazily created"
    | "build_queue" => gives "foo, bar"
    | _ => fun o => (.panic, o)

/-- sync_accessor.rs 43-51: a struct expression over `Default::default()`. -/
def forTest (o : Obj) : Obj := (o.put "bar_copy" (.val "15")).put "bar_clone" (.val "statically set")

-- 68-96 compares addresses of two answers: here, that they are owned values
example : (Src.sync_accessor_Foo.ctx.bind fun c => ((new c accessorW).map forTest).bind fun o => stmts c accessorW false o [
    get "bar_copy" (v "15"), get "bar_clone" (v "statically set"), get "lazy_bar_copy" (v "-15"),
    get "lazy_bar_clone" (v "lazily created")]).isSome = true := by decide +kernel

-- 98-109
example : passes Src.sync_accessor_Foo accessorW false [
    get "read_locked_bar" (v "protected"), .assign "write_lb" (.val "changed"), get "read_locked_bar" (v "changed")] = true := by
  decide +kernel

-- 111-134; `push` is an assignment, the last `pop` is left out
example : passes Src.sync_accessor_Foo accessorW true [
    get "queue" (v "foo, bar"), .assign "queue_mut" (.val "foo, bar, baz"), get "queue" (v "foo, bar, baz"),
    .assign "seq_mut" (.val "12, 13, 42, 666"), get "seq" (v "12, 13, 42, 666")] = true := by
  decide +kernel

/-! ### Builders: sync_builder.rs, sync_builder_generics.rs, builder_opt_in.rs, builder_required.rs, builder_init.rs,
plain_builder_custom_error.rs, no_default.rs, defaults.rs, skip.rs -/

/-- Builders of sync_builder.rs 26-42 without reads. -/
def syncBuilderW0 : World where
  dv := fun | "locked_bar" => "initial" | "lazy_default" => "this is default string value" | _ => ""
  bld := fun
    | "build_foo" => gives "це є ледачим значенням"
    | "build_lazy_default" => gives "this is a lazy default"
    | _ => fun o => (.panic, o)

/-- All of them. -/
def syncBuilderW (w0 : World) (t : Src) : World :=
  { w0 with bld := fun
      | "build_real" => from1 t.ctx w0 false "foo" fun b => toString b.length
      | n => w0.bld n }

example : passesBuilt Src.sync_builder_Foo (syncBuilderW syncBuilderW0 Src.sync_builder_Foo) false
    [("foo", "це користувацьке значення"), ("real", "1"), ("locked_bar", "custom set"), ("modifiable", "from builder")] [
    get "clear_real" (so "1"), get "real" (v "25"), get "clear_foo" (so "це користувацьке значення"),
    get "foo" (v "це є ледачим значенням"), get "clear_real" (so "25"), get "real" (v "22"),
    get "read_locked_bar" (v "custom set"), get "locked_bar" (v "custom set"), .see "set_locked_bar" "with setter" (v "custom set"),
    get "locked_bar" (v "with setter"), get "modifiable" (v "from builder"),
    .see "set_modifiable" "set manually" (v "from builder"), get "modifiable" (v "set manually"),
    .assign "modifiable_mut" (.val "via get_mut"), get "modifiable" (v "via get_mut")] = true := by decide +kernel

example : passesBuilt Src.sync_builder_Foo (syncBuilderW syncBuilderW0 Src.sync_builder_Foo) false [("modifiable", "non-skippable")] [
    get "foo" (v "це є ледачим значенням"), get "real" (v "22"), get "locked_bar" (v "initial"),
    get "lazy_default" (v "this is default string value")] = true := by decide +kernel

example : passesBuilt Src.sync_builder_Foo (syncBuilderW syncBuilderW0 Src.sync_builder_Foo) false
    [("lazy_default", "non-lazy, non-default"), ("modifiable", "non-skippable")] [
    get "lazy_default" (v "non-lazy, non-default"), get "clear_lazy_default" (so "non-lazy, non-default"),
    get "lazy_default" (v "this is a lazy default")] = true := by decide +kernel

-- not in the tests: `modifiable` is required
example : (Src.sync_builder_Foo.ctx.map fun c => build c {} []) = some (.err "modifiable") := by decide +kernel

/-- sync_builder_generics.rs 37-55 with `T = String`. -/
def genericsW0 : World where
  bld := fun | "build_foo" => gives "my default string" | _ => fun o => (.panic, o)

example : passesBuilt Src.sync_builder_generics_Foo (syncBuilderW genericsW0 Src.sync_builder_generics_Foo) false
    [("foo", "це користувацьке значення"), ("real", "12")] [
    get "clear_real" (so "12"), get "real" (v "25"), get "clear_foo" (so "це користувацьке значення"),
    get "foo" (v "my default string"), get "clear_real" (so "25"), get "real" (v "17")] = true := by
  decide +kernel

/-- builder_opt_in.rs: the default of `unbuildable`. -/
def optInW : World where
  dv := fun | "unbuildable" => "explicit" | _ => ""

example : passesBuilt Src.builder_opt_in_FooPlain optInW false [("buildable", "from builder")] [
    get "buildable" (v "from builder"), get "unbuildable" (v "explicit")] = true := by decide +kernel

example : passesBuilt Src.builder_opt_in_FooSync optInW false [("buildable", "from builder")] [
    get "buildable" (v "from builder"), get "unbuildable" (v "explicit")] = true := by decide +kernel

-- the tests only print what `build` gives; an optional field may be required
example : (Src.builder_required_FooPlain.ctx.map fun c => build c {} []) = some (.err "v") := by decide +kernel

example : (Src.builder_required_FooSync.ctx.map fun c => build c {} []) = some (.err "v") := by decide +kernel

/-- A call of the generated `build()` with the user's `post_build` method. -/
def built (t : Src) (w : World) (meth : String → Obj → Build.Ret String String) (sets : List (String × String)) :
    Option (Build.Out String String × List String) :=
  t.ctx.map fun c =>
    let r := (Build.buildFn c).run c w.env meth (sets.foldl (fun s p => s.set p.1 p.2) Builder.Slots.new)
    (r.out, r.calls.map (·.1))

-- builder_init.rs 9-21
example : built Src.builder_init_Foo { dv := fun _ => "0" }
    (fun _ o => if o = [("derive", .val "0")] then .self [("derive", .val "42")] else .panic) [] =
    some (.ok false [("derive", .val "42")], ["post_build"]) := by decide +kernel

/-- plain_builder_custom_error.rs 26-34; 2.0 is the only number below 3.0 there. -/
def checkIn (_ : String) (o : Obj) : Build.Ret String String :=
  if o.lookup "num" = some (.val "2.0") then .err "BadFieldValue(num)" else .ok o

-- 43-56: the error is made by `into()`
example : built Src.plain_builder_custom_error_Plain {} checkIn [] = some (.err (.missing .into "num"), []) := by
  decide +kernel

-- 58-69
example : built Src.plain_builder_custom_error_Plain {} checkIn [("num", "2.0")] =
    some (.err (.user "BadFieldValue(num)"), ["check_in"]) := by decide +kernel

-- 71-82: the error is the variant
example : built Src.plain_builder_custom_error_Foo {} checkIn [] =
    some (.err (.missing (.variant "my::Error::UnsetField") "foo"), []) := by decide +kernel

/-- no_default.rs 40-45. -/
def noDefaultW : World where
  bld := fun | "build_b2" => gives "from build" | _ => fun o => (.panic, o)

-- 67-76: `new` is the user's own function, no constructor is written; `.into()` makes a filled cell of `b2`
example : (Src.no_default_Plain.ctx.map Default.constructor) = some none := by decide +kernel

example : passesOn Src.no_default_Plain noDefaultW true
    [("bar", .val "manual"), ("b2", .once (some' "from new")), ("b3", .val "b3 from new")] [
    get "bar" (v "manual"), get "b2" (v "from new"), get "clear_b2" (so "from new"), get "b2" (v "from build"),
    .see "set_b3" "set+into" (v "b3 from new"), get "b3" (v "set+into")] = true := by decide +kernel

-- 78-92
example : passesBuilt Src.no_default_Plain noDefaultW true [("bar", "from builder"), ("b3", "builder+into")] [
    get "bar" (v "from builder"), get "b3" (v "builder+into"), .see "set_bar" "manual" (v "from builder"),
    get "bar" (v "manual"), get "b2" (v "from build"), .see "set_b3" "set+into" (v "builder+into"), get "b3" (v "set+into")] =
    true := by decide +kernel

-- 98-100: `b2` is `Default::default()`
example : passesOn Src.no_default_IsSync {} false [("bar", .val "manual"), ("b2", .lock false .none)] [
    get "bar" (v "manual"), get "b2" no] = true := by decide +kernel

-- 102-120
example : passesBuilt Src.no_default_IsSync {} true [("bar", "from builder"), ("b2", "from builder 2")] [
    get "bar" (v "from builder"), get "b2" (so "from builder 2"), get "clear_b2" (so "from builder 2"), get "b2" no,
    .see "set_bar" "manual" (v "from builder"), get "bar" (v "manual")] = true := by decide +kernel

example : passes Src.defaults_Foo { dflt := fun _ => "0" } false [get "v" (v "0")] = true := by decide +kernel

example : passes Src.skip_FooN
    { dv := fun _ => "321.654", bld := fun | "build_bar" => gives "test plain" | _ => fun o => (.panic, o) } false [
    get "bar" (v "test plain"), .field "bare_field" (.val "321.654")] = true := by decide +kernel

example : passes Src.skip_FooS
    { dv := fun _ => "3.1415926", bld := fun | "build_bar" => gives "test sync" | _ => fun o => (.panic, o) } false [
    get "bar" (v "test sync"), .field "bare_field" (.val "3.1415926")] = true := by decide +kernel

/-! ### /repo/fieldx/tests/serde_reserved_keyword.rs -/

-- 29-30 and 38-41: struct expressions
example : passesOn Src.serde_reserved_keyword_Foo {} false [("ty", .val "bar")] [get "get_type" (v "bar")] = true := by
  decide +kernel

example : passesOn Src.serde_reserved_keyword_Bar {} false [("ma", .val "pfx*sfx")] [get "match_constraint" (v "pfx*sfx")] =
    true := by decide +kernel

-- 32-36 and 43-47
example : passesBuilt Src.serde_reserved_keyword_Foo {} false [("set_type", "bar")] [get "get_type" (v "bar")] = true := by
  decide +kernel

example : passesBuilt Src.serde_reserved_keyword_Bar {} false [("set_match_constraint", "pre*post")] [
    get "match_constraint" (v "pre*post")] = true := by decide +kernel

end Verif.Suite
