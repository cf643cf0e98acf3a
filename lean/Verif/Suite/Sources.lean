import Verif.Suite.Run
/-!
# The structs of the tests of fieldx

Attributes of every `#[fxstruct]` under /repo/fieldx/tests, copied word by word.
-/

namespace Verif.Suite.Src

/-- /repo/fieldx/tests/as_ref.rs 3. -/
def as_ref_Bar : Src where
  sargs := []
  fields := [
    ("note", [])]

/-- /repo/fieldx/tests/as_ref.rs 9. -/
def as_ref_Foo : Src where
  sargs := [.word "builder"]
  fields := [
    ("b1", [some [.word "predicate", .list "get" [.list "public" [.word "crate"], .word "as_ref"]]])]

/-- /repo/fieldx/tests/async.rs 15. -/
def async_Foo : Src where
  sargs := [.list "mode" [.word "async"]]
  fields := [
    ("foo", [some [.word "lazy", .word "writer", .word "clearer", .word "predicate"]]),
    ("bar", [some [.word "lazy", .word "writer", .word "predicate", .word "clearer", .word "set"]]),
    ("baz", [some [.word "r#async", .word "reader", .word "writer", .list "get" [.word "off"], .word "clearer",
      .word "predicate", .word "set", .list "default" [.lit (.str "bazzification")]]]),
    ("fubar", [some [.word "lazy", .word "clearer", .list "default" [.lit (.str "fufubarik!")]]]),
    ("bar_builds", []),
    ("next_bar", [])]

/-- /repo/fieldx/tests/async_fallible.rs 5. -/
def async_fallible_Foo : Src where
  sargs := [.list "mode" [.word "async"], .list "fallible" [.word "off", .list "error" [.word "String"]]]
  fields := [
    ("ok", [some [.word "lazy", .word "fallible"]]),
    ("writable", [some [.word "lazy", .word "fallible", .list "get" [.word "copy"], .word "get_mut", .word "set"]]),
    ("shared", [some [.word "lazy", .word "fallible", .list "get" [.word "clone"]]])]

/-- /repo/fieldx/tests/builder_init.rs 3. -/
def builder_init_Foo : Src where
  sargs := [.list "builder" [.word "post_build"]]
  fields := [
    ("derive", [some [.list "default" [.lit (.other "0")]]])]

/-- /repo/fieldx/tests/builder_opt_in.rs 3. -/
def builder_opt_in_FooPlain : Src where
  sargs := [.list "builder" [.word "opt_in", .word "into"], .list "default" [.word "off"], .word "get"]
  fields := [
    ("buildable", [some [.word "builder"]]),
    ("unbuildable", [some [.list "default" [.lit (.str "explicit")]]])]

/-- /repo/fieldx/tests/builder_opt_in.rs 14. -/
def builder_opt_in_FooSync : Src where
  sargs := [.word "sync", .list "builder" [.word "opt_in", .word "into"], .list "default" [.word "off"], .word "get"]
  fields := [
    ("buildable", [some [.word "builder"]]),
    ("unbuildable", [some [.list "default" [.lit (.str "explicit")]]])]

/-- /repo/fieldx/tests/builder_required.rs 3. -/
def builder_required_FooPlain : Src where
  sargs := [.word "builder"]
  fields := [
    ("v", [some [.word "optional", .word "get", .list "builder" [.word "required",
      .list "attributes_fn" [.list "allow" [.word "dead_code"]]]]])]

/-- /repo/fieldx/tests/builder_required.rs 12. -/
def builder_required_FooSync : Src where
  sargs := [.word "sync", .word "builder"]
  fields := [
    ("v", [some [.word "optional", .word "get", .list "builder" [.word "required",
      .list "attributes_fn" [.list "allow" [.word "dead_code"]]]]])]

/-- /repo/fieldx/tests/compilable/no_reader.rs 6. -/
def compilable_no_reader_TT : Src where
  sargs := [.word "sync"]
  fields := [
    ("tt", [some [.word "lazy", .list "reader" [.word "off", .list "attributes_fn" [.list "deny" [.word "dead_code"]]]]])]

/-- /repo/fieldx/tests/defaults.rs 3. -/
def defaults_Foo : Src where
  sargs := [.word "default"]
  fields := [
    ("v", [some [.list "get" [.word "copy"]]])]

/-- /repo/fieldx/tests/inner_mut_copy_clone.rs 6. -/
def inner_mut_copy_clone_Foo : Src where
  sargs := [.word "sync", .word "builder"]
  fields := [
    ("m1", [some [.word "inner_mut", .list "get" [.word "copy"]]]),
    ("m2", [some [.word "inner_mut", .list "get" [.word "clone"]]])]

/-- /repo/fieldx/tests/mutable_accessor.rs 2. -/
def mutable_accessor_Foo : Src where
  sargs := [.word "get_mut"]
  fields := [
    ("lazish", [some [.word "lazy", .word "predicate"]]),
    ("std", [some [.word "predicate"]])]

/-- /repo/fieldx/tests/no_default.rs 14. -/
def no_default_Plain : Src where
  sargs := [.list "get" [.word "public"], .word "builder", .list "default" [.word "off"]]
  fields := [
    ("bar", [some [.word "set"]]),
    ("b2", [some [.word "lazy", .word "clearer"]]),
    ("b3", [some [.list "get" [.word "clone"], .word "set", .word "into"]])]

/-- /repo/fieldx/tests/no_default.rs 48. -/
def no_default_IsSync : Src where
  sargs := [.word "sync", .list "get" [.word "public"], .word "builder", .word "no_new"]
  fields := [
    ("bar", [some [.word "set"]]),
    ("b2", [some [.word "lock", .word "clearer"]])]

/-- /repo/fieldx/tests/optional_inner_mut.rs 4. -/
def optional_inner_mut_FooPlain : Src where
  sargs := []
  fields := [
    ("mutable", [some [.word "inner_mut", .word "optional", .word "get_mut", .word "get", .word "set", .word "clearer",
      .word "predicate"]])]

/-- /repo/fieldx/tests/optional_inner_mut.rs 10. -/
def optional_inner_mut_FooSync : Src where
  sargs := [.word "sync"]
  fields := [
    ("mutable", [some [.word "inner_mut", .word "optional", .word "get_mut", .word "get", .word "set", .word "clearer",
      .word "predicate"]])]

/-- /repo/fieldx/tests/plain.rs 3. -/
def plain_Plain : Src where
  sargs := []
  fields := [
    ("foo", [some [.word "lazy", .word "clearer", .word "predicate"]]),
    ("bar", [some [.word "lazy", .word "private", .word "predicate", .word "clearer", .word "set",
      .list "default" [.lit (.other "13")]]]),
    ("pi", [some [.list "default" [.lit (.other "3.1415926")]]]),
    ("baz", [some [.word "clearer", .word "predicate", .word "set", .list "default" [.lit (.str "bazzification")]]]),
    ("fubar", [some [.word "lazy", .word "clearer", .list "rename" [.lit (.str "piquant")],
      .list "default" [.word "off", .lit (.str "this won't be used")]]]),
    ("modifiable", [some [.word "inner_mut", .word "set", .word "get", .word "get_mut"]])]

/-- /repo/fieldx/tests/plain_builder.rs 5. -/
def plain_builder_Plain : Src where
  sargs := [.list "builder" [.list "public" [.word "crate"], .list "attributes" [.list "derive" [.word "Debug"]]],
      .list "attributes_impl" [.list "allow" [.word "dead_code"]]]
  fields := [
    ("foo", [some [.word "lazy", .word "clearer", .word "predicate", .list "rename" [.lit (.str "dummy")]]]),
    ("bar", [some [.word "lazy", .word "private", .word "predicate", .word "clearer", .word "set",
      .list "builder" [.list "attributes_fn" [.list "allow" [.word "dead_code"]]]]]),
    ("pi", [some [.list "default" [.lit (.other "3.1415926")]]]),
    ("baz", [some [.word "clearer", .word "predicate", .word "set", .list "default" [.lit (.str "bazzification")],
      .list "builder" [.list "attributes_fn" [.list "allow" [.word "dead_code"]]]]]),
    ("fubar", [some [.word "clearer", .word "predicate", .word "set",
      .list "builder" [.list "attributes_fn" [.list "allow" [.word "dead_code"]]]]]),
    ("lazy_default", [some [.word "lazy", .word "clearer", .list "default" [.list "Self::default_string" []]]]),
    ("modifiable", [some [.word "inner_mut", .word "set", .word "get", .word "into"]])]

/-- /repo/fieldx/tests/plain_builder_custom_error.rs 20. -/
def plain_builder_custom_error_Plain : Src where
  sargs := [.list "builder" [.list "error" [.word "my::Error"], .list "post_build" [.word "check_in"]]]
  fields := [
    ("num", [])]

/-- /repo/fieldx/tests/plain_builder_custom_error.rs 36. -/
def plain_builder_custom_error_Foo : Src where
  sargs := [.list "builder" [.list "error" [.word "my::Error", .word "my::Error::UnsetField"]]]
  fields := [
    ("foo", [])]

/-- /repo/fieldx/tests/plain_builder_generics.rs 11. -/
def plain_builder_generics_Plain : Src where
  sargs := [.word "builder", .word "into"]
  fields := [
    ("foo", [some [.word "lazy", .word "clearer"]]),
    ("bar", [some [.word "lazy", .word "clearer"]]),
    ("modifiable", [some [.word "inner_mut", .word "get"]]),
    ("_p1", [some [.list "builder" [.word "off"]]]),
    ("_p2", [some [.word "default"]])]

/-- /repo/fieldx/tests/plain_fallible.rs 4. -/
def plain_fallible_Foo : Src where
  sargs := [.list "mode" [.word "plain"], .list "fallible" [.word "off", .list "error" [.word "String"]]]
  fields := [
    ("ok", [some [.word "lazy", .word "fallible"]]),
    ("writable", [some [.word "lazy", .word "fallible", .list "get" [.word "copy"], .word "get_mut", .word "set"]]),
    ("shared", [some [.word "lazy", .word "fallible", .list "get" [.word "clone"]]])]

/-- /repo/fieldx/tests/plain_generics.rs 3. -/
def plain_generics_Plain : Src where
  sargs := []
  fields := [
    ("foo", [some [.word "lazy", .word "clearer", .word "predicate"]]),
    ("bar", [some [.word "lazy", .word "private", .word "predicate", .word "clearer", .word "set", .word "copy"]]),
    ("pi", [some [.list "default" [.lit (.other "3.1415926")]]]),
    ("baz", [some [.word "clearer", .word "predicate", .word "set", .list "default" [.lit (.str "bazzification")]]]),
    ("fubar", [some [.word "lazy", .word "clearer", .list "rename" [.lit (.str "piquant")]]]),
    ("maybe", [some [.word "lazy", .word "clearer", .word "predicate"]]),
    ("plain", [some [.list "get" [.word "copy", .list "attributes_fn" [.list "allow" [.word "dead_code"]]]]])]

/-- /repo/fieldx/tests/plain_option.rs 3. -/
def plain_option_Foo : Src where
  sargs := [.word "into"]
  fields := [
    ("foo", [some [.list "get" [.word "clone"], .word "set", .word "private", .word "predicate"]])]

/-- /repo/fieldx/tests/plain_optional.rs 3. -/
def plain_optional_Foo : Src where
  sargs := [.word "optional"]
  fields := [
    ("foo", [some [.list "get" [.word "as_ref"], .list "set" [.word "into"]]])]

/-- /repo/fieldx/tests/plain_optional.rs 9. -/
def plain_optional_Bar : Src where
  sargs := []
  fields := [
    ("bar", [some [.word "optional", .list "get" [.word "as_ref"], .list "set" [.word "into"]]])]

/-- /repo/fieldx/tests/plain_rc.rs 5. -/
def plain_rc_Bar : Src where
  sargs := [.list "rc" [.word "public"], .word "builder"]
  fields := [
    ("id", [some [.list "get" [.word "copy"], .list "attributes_fn" [.list "allow" [.word "dead_code"]]]])]

/-- /repo/fieldx/tests/plain_rc.rs 12. -/
def plain_rc_Foo : Src where
  sargs := [.word "rc", .word "builder"]
  fields := [
    ("bar", [some [.word "lazy", .word "get", .word "builder"]])]

/-- /repo/fieldx/tests/plain_serde.rs 16. -/
def plain_serde_Foo : Src where
  sargs := [.list "builder" [.list "attributes_impl" [.list "allow" [.word "dead_code"]]],
      .list "serde" [.list "default" [.lit (.str "FooDup::default")], .list "shadow_name" [.lit (.str "FooDup")]]]
  fields := [
    ("bar", [some [.word "lazy", .list "serde" [.word "off"]]]),
    ("baz", [some [.word "lazy"]]),
    ("count", [some [.word "lazy", .list "get" [.word "copy"], .word "clearer",
      .list "default" [.list "Self::init_count" []], .list "serde" [.list "deserialize" [.word "off"],
      .list "forward_attrs" [.word "a1", .word "b2"]]]]),
    ("pi", [some [.word "lazy", .list "get" [.word "copy"], .list "serde" [.list "default" [.lit (.other "0f64")]]]]),
    ("e", [some [.word "lazy", .list "get" [.word "copy"], .word "serde"]]),
    ("opt", [some [.word "optional", .word "set", .list "get" [.word "copy"]]]),
    ("simple", [some [.list "default" [.lit (.other "-1122.3344")]]]),
    ("simple2", [some [.list "serde" [.list "default" [.lit (.other "-987.654")]],
      .list "default" [.lit (.other "12.34")], .list "rename" [.lit (.str "sssimple")]]]),
    ("modifiable", [some [.word "inner_mut", .word "get"]])]

/-- /repo/fieldx/tests/plain_serde_generic.rs 16. -/
def plain_serde_generic_Foo : Src where
  sargs := [.list "builder" [.list "attributes_impl" [.list "allow" [.word "dead_code"]]],
      .list "serde" [.list "default" [.list "Self::serde_default" []], .list "shadow_name" [.lit (.str "FooDup")]]]
  fields := [
    ("bar", [some [.word "lazy", .list "serde" [.word "off"]]]),
    ("baz", [some [.word "lazy"]]),
    ("count", [some [.word "lazy", .list "get" [.word "copy"], .word "clearer",
      .list "default" [.list "Self::init_count" []], .list "serde" [.list "deserialize" [.word "off"],
      .list "forward_attrs" [.word "a1", .word "b2"]]]]),
    ("pi", [some [.word "lazy", .list "get" [.word "copy"], .word "serde"]]),
    ("opt", [some [.word "optional", .word "get", .word "set"]]),
    ("simple", [some [.list "default" [.lit (.other "-1122.3344")]]]),
    ("simple2", [some [.list "serde" [.list "default" [.lit (.other "-987.654")]],
      .list "default" [.lit (.other "12.34")], .list "rename" [.lit (.str "sssimple")]]])]

/-- /repo/fieldx/tests/serde_attributes.rs 7. -/
def serde_attributes_Foo : Src where
  sargs := [.word "sync", .list "builder" [.word "into"],
      .list "serde" [.list "attributes" [.list "serde" [.word "deny_unknown_fields"]]]]
  fields := [
    ("f1", []),
    ("f2",
      [some [.list "serde" [.list "attributes" [.list "serde" [.nv "skip_serializing_if" (.lit (.str "Foo::no_empty"))]]]]])]

/-- /repo/fieldx/tests/serde_default.rs 6. -/
def serde_default_Foo : Src where
  sargs := [.word "sync", .word "get", .list "serde" [.list "default" [.list "Self::serde_default" []]]]
  fields := [
    ("f1", []),
    ("f2", [])]

/-- /repo/fieldx/tests/serde_default.rs 22. -/
def serde_default_Bar : Src where
  sargs := [.word "sync", .word "get", .list "serde" [.list "default" [.lit (.str "Self::serde_default")]]]
  fields := [
    ("f1", []),
    ("f2", [])]

/-- /repo/fieldx/tests/serde_default.rs 38. -/
def serde_default_Baz : Src where
  sargs := [.word "sync", .word "get", .list "serde" [.lit (.str "BazDup"),
      .list "default" [.list "Self::serde_default" []]]]
  fields := [
    ("f1", []),
    ("f2", [])]

/-- /repo/fieldx/tests/serde_reserved_keyword.rs 7. -/
def serde_reserved_keyword_Foo : Src where
  sargs := [.list "get" [.lit (.str "get_"), .word "public"], .list "serde" [.word "default"],
      .list "builder" [.lit (.str "set_")]]
  fields := [
    ("ty", [some [.list "rename" [.lit (.str "type")]]])]

/-- /repo/fieldx/tests/serde_reserved_keyword.rs 14. -/
def serde_reserved_keyword_Bar : Src where
  sargs := [.list "get" [.word "public"], .list "serde" [.word "default"], .list "builder" [.word "public", .word "into"]]
  fields := [
    ("ma", [some [.list "rename" [.lit (.str "match")], .list "get" [.lit (.str "match_constraint")],
      .list "builder" [.lit (.str "set_match_constraint")], .list "serde" [.lit (.str "__mmm"),
      .list "shadow_name" [.lit (.str "__match")]]]])]

/-- /repo/fieldx/tests/skip.rs 4. -/
def skip_FooS : Src where
  sargs := [.word "sync", .word "lazy", .list "get" [.word "clone"]]
  fields := [
    ("bar", [some [.list "attributes_fn" [.list "allow" [.word "dead_code"]]]]),
    ("bare_field", [some [.word "skip", .list "default" [.lit (.other "3.1415926")]]])]

/-- /repo/fieldx/tests/skip.rs 12. -/
def skip_FooN : Src where
  sargs := [.word "lazy", .list "get" [.word "clone"]]
  fields := [
    ("bar", [some [.list "attributes_fn" [.list "allow" [.word "dead_code"]]]]),
    ("bare_field", [some [.word "skip", .list "default" [.lit (.other "321.654")], .word "lazy", .word "get",
      .word "set", .word "predicate", .word "clearer"]])]

/-- /repo/fieldx/tests/sync_accessor.rs 16. -/
def sync_accessor_Foo : Src where
  sargs := [.word "sync"]
  fields := [
    ("bar_copy", [some [.word "get", .word "copy"]]),
    ("bar_clone", [some [.list "get" [.word "clone"]]]),
    ("lazy_bar_copy", [some [.word "lazy", .word "get", .word "copy"]]),
    ("lazy_bar_clone", [some [.word "lazy", .list "get" [.word "clone"]]]),
    ("locked_bar", [some [.word "reader", .list "writer" [.lit (.str "write_lb")],
      .list "default" [.lit (.str "protected")]]]),
    ("queue", [some [.word "lazy", .word "get_mut"]]),
    ("seq", [some [.word "get", .word "get_mut"]])]

/-- /repo/fieldx/tests/sync_accessor_arc.rs 17. -/
def sync_accessor_arc_Foo : Src where
  sargs := [.word "sync", .word "rc", .word "builder"]
  fields := [
    ("bar_copy", [some [.word "get", .word "copy"]]),
    ("bar_clone", [some [.list "get" [.word "clone"]]]),
    ("lazy_bar_copy", [some [.word "lazy", .word "get", .word "copy"]]),
    ("lazy_bar_clone", [some [.word "lazy", .list "get" [.word "clone"]]]),
    ("locked_bar", [some [.word "reader", .list "writer" [.lit (.str "write_lb")],
      .list "default" [.lit (.str "protected")]]]),
    ("queue", [some [.word "lazy", .word "get_mut"]])]

/-- /repo/fieldx/tests/sync_all_lock.rs 9. -/
def sync_all_lock_Foo : Src where
  sargs := [.word "sync", .word "get", .word "lock", .list "builder" [.word "into"]]
  fields := [
    ("text", []),
    ("count", [some [.list "get" [.word "copy"], .word "reader"]]),
    ("bare", [some [.list "lock" [.word "off"]]])]

/-- /repo/fieldx/tests/sync_arc.rs 5. -/
def sync_arc_Bar : Src where
  sargs := [.word "sync", .list "rc" [.word "public"], .word "builder"]
  fields := [
    ("id", [some [.list "get" [.word "copy"], .list "attributes_fn" [.list "allow" [.word "dead_code"]]]])]

/-- /repo/fieldx/tests/sync_arc.rs 11. -/
def sync_arc_Foo : Src where
  sargs := [.word "sync", .word "rc", .word "builder"]
  fields := [
    ("bar", [some [.word "lazy", .word "get", .word "get_mut"]])]

/-- /repo/fieldx/tests/sync_builder.rs 5. -/
def sync_builder_Foo : Src where
  sargs := [.word "sync", .word "builder"]
  fields := [
    ("foo", [some [.word "lazy", .word "clearer"]]),
    ("real", [some [.word "lazy", .word "clearer", .list "builder" [.word "into"], .list "get" [.word "copy"]]]),
    ("locked_bar", [some [.word "reader", .list "get" [.word "clone"], .word "set", .list "builder" [.word "into"],
      .list "default" [.lit (.str "initial")]]]),
    ("lazy_default", [some [.word "lazy", .word "clearer", .list "default" [.list "Self::default_string" []]]]),
    ("modifiable", [some [.word "inner_mut", .word "set", .word "get", .word "get_mut", .list "builder" [.word "into"]]])]

/-- /repo/fieldx/tests/sync_builder_generics.rs 12. -/
def sync_builder_generics_Foo : Src where
  sargs := [.word "no_new", .list "default" [.word "off"], .word "sync", .word "builder"]
  fields := [
    ("foo", [some [.word "lazy", .word "clearer"]]),
    ("real", [some [.word "lazy", .word "copy", .word "clearer", .word "into"]]),
    ("_p1", [some [.list "builder" [.word "off"]]]),
    ("_p2", [some [.word "default"]])]

/-- /repo/fieldx/tests/sync_fallible.rs 5. -/
def sync_fallible_Foo : Src where
  sargs := [.list "mode" [.word "sync"], .list "fallible" [.word "off", .list "error" [.word "String"]]]
  fields := [
    ("ok", [some [.word "lazy", .word "fallible"]]),
    ("writable", [some [.word "lazy", .word "fallible", .list "get" [.word "copy"], .word "get_mut", .word "set"]]),
    ("shared", [some [.word "lazy", .word "fallible", .list "get" [.word "clone"]]])]

/-- /repo/fieldx/tests/sync_lock_optional.rs 9. -/
def sync_lock_optional_Foo : Src where
  sargs := [.word "sync", .word "builder"]
  fields := [
    ("b1", [some [.word "lock", .word "optional", .word "get_mut", .word "predicate", .word "set"]]),
    ("b2", [some [.word "optional", .list "lock" [.word "off"], .word "get_mut", .word "predicate", .word "set"]])]

/-- /repo/fieldx/tests/sync_option.rs 4. -/
def sync_option_Foo : Src where
  sargs := [.word "sync", .word "into"]
  fields := [
    ("foo", [some [.list "get" [.word "clone"], .word "reader", .word "set", .word "private", .word "predicate",
      .word "clearer"]])]

/-- /repo/fieldx/tests/sync_optional.rs 4. -/
def sync_optional_Foo : Src where
  sargs := [.word "sync", .word "optional"]
  fields := [
    ("foo", [some [.list "get" [.word "as_ref"], .list "set" [.word "into"], .list "reader" [.word "off"]]])]

/-- /repo/fieldx/tests/sync_optional.rs 10. -/
def sync_optional_Bar : Src where
  sargs := [.word "sync"]
  fields := [
    ("bar", [some [.word "optional", .word "get", .list "set" [.word "into"], .list "reader" [.word "off"]]])]

/-- /repo/fieldx/tests/sync_optional_wo_default.rs 7. -/
def sync_optional_wo_default_Foo : Src where
  sargs := [.word "sync"]
  fields := [
    ("v", [some [.list "get" [.word "copy"], .word "set", .word "clearer", .word "predicate", .word "reader",
      .list "attributes_fn" [.list "allow" [.word "dead_code"]]]])]

/-- /repo/fieldx/tests/sync_serde.rs 16. -/
def sync_serde_Foo : Src where
  sargs := [.word "sync", .list "builder" [.list "attributes_impl" [.list "allow" [.word "dead_code"]]],
      .list "serde" [.lit (.str "FooDup"), .word "default"]]
  fields := [
    ("bar", [some [.word "lazy", .list "serde" [.word "off"]]]),
    ("baz", [some [.word "lazy"]]),
    ("count", [some [.word "lazy", .list "get" [.word "copy"], .word "clearer",
      .list "default" [.list "Self::init_count" []], .list "serde" [.list "deserialize" [.word "off"],
      .list "forward_attrs" [.word "a1", .word "b2"]]]]),
    ("pi", [some [.word "lazy", .list "get" [.word "copy"], .word "serde"]]),
    ("opt", [some [.word "optional", .word "set", .list "get" [.word "copy"]]]),
    ("simple", [some [.list "default" [.lit (.other "-1122.3344")]]]),
    ("simple2", [some [.list "serde" [.list "default" [.lit (.other "-987.654")]],
      .list "default" [.lit (.other "12.34")], .list "rename" [.lit (.str "sssimple")]]]),
    ("modifiable", [some [.word "inner_mut", .word "get"]])]

/-- /repo/fieldx/tests/sync_serde_generic.rs 17. -/
def sync_serde_generic_Foo : Src where
  sargs := [.word "sync", .list "builder" [.list "attributes_impl" [.list "allow" [.word "dead_code"]]],
      .list "serde" [.list "default" [.list "Self::serde_default" []], .list "shadow_name" [.lit (.str "FooDup")]]]
  fields := [
    ("bar", [some [.word "lazy", .list "serde" [.word "off"]]]),
    ("baz", [some [.word "lazy"]]),
    ("count", [some [.word "lazy", .list "get" [.word "copy"], .word "clearer",
      .list "default" [.list "Self::init_count" []], .list "serde" [.list "deserialize" [.word "off"],
      .list "forward_attrs" [.word "a1", .word "b2"]]]]),
    ("pi", [some [.word "lazy", .list "get" [.word "copy"], .word "serde"]]),
    ("opt", [some [.word "optional", .word "get", .word "set"]]),
    ("simple", [some [.list "default" [.lit (.other "-1122.3344")]]]),
    ("simple2", [some [.list "serde" [.list "default" [.lit (.other "-987.654")]],
      .list "default" [.lit (.other "12.34")], .list "rename" [.lit (.str "sssimple")]]])]

/-- /repo/fieldx/tests/sync_serde_optional.rs 6. -/
def sync_serde_optional_Foo : Src where
  sargs := [.word "sync", .list "builder" [.list "attributes_impl" [.list "allow" [.word "dead_code"]]],
      .list "serde" [.lit (.str "FooDup"), .word "default"]]
  fields := [
    ("maybe_name", [some [.word "optional", .word "into", .list "get" [.word "clone"]]]),
    ("mandatory", [some [.word "into", .list "get" [.word "clone"]]])]

/-- /repo/fieldx/tests/syncish/mod.rs 5. -/
def syncish_Foo : Src where
  sargs := [.word "sync"]
  fields := [
    ("foo", [some [.word "lazy", .word "writer", .word "clearer", .word "predicate"]]),
    ("bar", [some [.word "lazy", .word "writer", .word "predicate", .word "clearer", .word "set"]]),
    ("baz", [some [.word "reader", .word "writer", .list "get" [.word "off"], .word "clearer", .word "predicate",
      .word "set", .list "default" [.lit (.str "bazzification")]]]),
    ("fubar", [some [.word "lazy", .word "clearer", .list "default" [.lit (.str "fufubarik!")]]]),
    ("bar_builds", []),
    ("next_bar", [])]

/-- /repo/fieldx/tests/syncish_generics/mod.rs 5. -/
def syncish_generics_Foo : Src where
  sargs := [.word "sync"]
  fields := [
    ("foo", [some [.word "lazy", .word "writer", .word "clearer", .word "predicate"]]),
    ("bar", [some [.word "lazy", .word "writer", .word "reader", .word "predicate", .word "clearer", .word "set",
      .list "get" [.word "off"]]]),
    ("baz", [some [.word "writer", .word "reader", .list "get" [.word "off"], .word "clearer", .word "predicate",
      .word "set", .list "default" [.lit (.str "bazzification")]]]),
    ("fubar", [some [.word "lazy", .word "clearer"]]),
    ("bar_builds", []),
    ("next_bar", []),
    ("dummy", [some [.word "lazy"]])]

/-- /repo/fieldx/tests/uncompilable/deserialize_off.rs 7. -/
def uncompilable_deserialize_off_Foo : Src where
  sargs := [.word "sync", .list "serde" [.list "deserialize" [.word "off"]]]
  fields := [
    ("v", [])]

/-- /repo/fieldx/tests/uncompilable/incompat_args.rs 3. -/
def uncompilable_incompat_args_Foo : Src where
  sargs := [.word "lazy", .word "optional"]
  fields := [
    ("foo", [])]

/-- /repo/fieldx/tests/uncompilable/incompat_field_args.rs 3. -/
def uncompilable_incompat_field_args_Foo : Src where
  sargs := []
  fields := [
    ("foo", [some [.word "lazy", .word "optional"]])]

/-- /repo/fieldx/tests/uncompilable/non_copy.rs 3. -/
def uncompilable_non_copy_Foo : Src where
  sargs := []
  fields := [
    ("foo", [some [.word "copy", .word "clearer"]])]

/-- /repo/fieldx/tests/uncompilable/priv_accessor.rs 5. -/
def uncompilable_priv_accessor_Foo : Src where
  sargs := [.word "get", .word "public"]
  fields := [
    ("foo_rw", [none]),
    ("foo", [some [.list "get" [.word "private"], .list "predicate" [.word "off"]]])]

/-- /repo/fieldx/tests/uncompilable/private.rs 5. -/
def uncompilable_private_Inner : Src where
  sargs := [.word "sync"]
  fields := [
    ("foo", [some [.word "private", .word "lazy", .word "reader"]])]

/-- /repo/fieldx/tests/uncompilable/serialize_deserialize_off.rs 5. -/
def uncompilable_serialize_deserialize_off_Foo : Src where
  sargs := [.word "sync", .list "serde" [.list "serialize" [.word "off"], .list "deserialize" [.word "off"]]]
  fields := [
    ("v", [])]

/-- /repo/fieldx/tests/uncompilable/serialize_off.rs 7. -/
def uncompilable_serialize_off_Foo : Src where
  sargs := [.word "sync", .list "serde" [.list "serialize" [.word "off"]]]
  fields := [
    ("v", [])]

/-- /repo/fieldx/tests/uncompilable/skip.rs 3. -/
def uncompilable_skip_Foo : Src where
  sargs := [.word "lazy", .word "get"]
  fields := [
    ("bare_field", [some [.word "skip", .list "default" [.lit (.other "321.654")]]])]

/-- /repo/fieldx/tests/uncompilable/unused_builder.rs 3. -/
def uncompilable_unused_builder_Unused : Src where
  sargs := [.word "builder"]
  fields := [
    ("foo", [some [.word "lazy", .list "builder" [.list "attributes_fn" [.list "deny" [.word "dead_code"]]]]])]

/-- /repo/fieldx/tests/uncompilable/unused_reader.rs 3. -/
def uncompilable_unused_reader_TT : Src where
  sargs := [.word "sync"]
  fields := [
    ("tt", [some [.word "lazy", .list "reader" [.list "attributes_fn" [.list "deny" [.word "dead_code"]]]]])]

end Verif.Suite.Src
