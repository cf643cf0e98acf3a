import Verif.Suite.Sources
import Verif.Model.Features
/-!
# What the compiler said, on the model

The directories of /repo/fieldx/tests/uncompilable hold what the compiler said of each program, for each set of features.
Here: what of it the macro has a part in. Left out: what the compiler says because of something else in the program, and
`non_copy`, `unused_builder`, `unused_reader`, where the complaint is about a type or about attributes handed on.
-/

namespace Verif.Suite
open Verif.Model Verif.Model.Args Verif.Model.Features

/-- The features asked for in vain by the struct, in the order of the messages. -/
def asked (t : Src) (F : Features) : Option (List String) := t.ctx.map fun c => structRefusals F c.args

/-- Messages "feature '..' is required". -/
def without (F : Features) (sync serde : Bool) : List String :=
  (if sync && !F.sync then ["sync"] else []) ++ (if serde && !F.serde then ["serde"] else [])

-- all the directories `stable`, `stable+async`, .., `stable+serde,sync,async`
example : ∀ s a d, asked Src.uncompilable_deserialize_off_Foo ⟨s, a, d⟩ = some (without ⟨s, a, d⟩ true true) := by
  decide +kernel
example : ∀ s a d, asked Src.uncompilable_serialize_off_Foo ⟨s, a, d⟩ = some (without ⟨s, a, d⟩ true true) := by
  decide +kernel
example : ∀ s a d, asked Src.uncompilable_serialize_deserialize_off_Foo ⟨s, a, d⟩ = some (without ⟨s, a, d⟩ true true) := by
  decide +kernel
example : ∀ s a d, asked Src.uncompilable_private_Inner ⟨s, a, d⟩ = some (without ⟨s, a, d⟩ true false) := by decide +kernel
example : ∀ s a d, asked Src.uncompilable_unused_reader_TT ⟨s, a, d⟩ = some (without ⟨s, a, d⟩ true false) := by decide +kernel
example : ∀ s a d, asked Src.uncompilable_priv_accessor_Foo ⟨s, a, d⟩ = some [] := by decide +kernel
example : ∀ s a d, asked Src.uncompilable_skip_Foo ⟨s, a, d⟩ = some [] := by decide +kernel
example : ∀ s a d, asked Src.uncompilable_non_copy_Foo ⟨s, a, d⟩ = some [] := by decide +kernel
example : ∀ s a d, asked Src.uncompilable_unused_builder_Unused ⟨s, a, d⟩ = some [] := by decide +kernel

/-! ### "Conflicting arguments 'lazy', 'optional' from group 'field mode'" -/

example : Src.uncompilable_incompat_args_Foo.ctx = none := by decide +kernel
example : Src.uncompilable_incompat_field_args_Foo.ctx = none := by decide +kernel

-- the group and the arguments in the message, in this order, and no other message
example : Exclusive.errors (Exclusive.structGroups { lazy := some {}, optional := some true }) =
    [("field mode", ["lazy", "optional"])] := by decide +kernel
example : (Parse.fieldSlots "foo" [.word "lazy", .word "optional"]).map (fun f => Exclusive.errors (Exclusive.fieldGroups f)) =
    some [("field mode", ["lazy", "optional"])] := by decide +kernel

/-! ### Methods -/

/-- Visibility of a method; the outer `none`: there is no such method. -/
def visOf (t : Src) (m : String) : Option (Option PubMode) :=
  t.ctx.bind fun c => (lookup c m).map fun p => Names.emittedVis ⟨c, p.1⟩ p.2

-- "no method named `bare_field` found"
example : visOf Src.uncompilable_skip_Foo "bare_field" = none := by decide +kernel
-- "method `foo` is private", while `foo_rw` in the same program is not
example : visOf Src.uncompilable_priv_accessor_Foo "foo_rw" = some (some .all) := by decide +kernel
example : visOf Src.uncompilable_priv_accessor_Foo "foo" = some (some .priv) := by decide +kernel
-- "method `read_foo` is private"
example : visOf Src.uncompilable_private_Inner "read_foo" = some (some .priv) := by decide +kernel
-- "method `read_tt` is never used": there is one; in compilable/no_reader.rs there is none
example : (visOf Src.uncompilable_unused_reader_TT "read_tt").isSome = true := by decide +kernel
example : visOf Src.compilable_no_reader_TT "read_tt" = none := by decide +kernel

/-! ### serde -/

/-- Are `Serialize`, `Deserialize`, and the shadow there? -/
def traits (t : Src) : Option (Bool × Bool × Bool) :=
  t.ctx.map fun c => (c.args.isSerde && c.args.needsSerialize, c.args.isSerde && c.args.needsDeserialize, c.args.isSerde)

-- "the trait bound `Foo: Deserialize<'_>` is not satisfied"
example : traits Src.uncompilable_deserialize_off_Foo = some (true, false, true) := by decide +kernel
-- "the trait bound `Foo: Serialize` is not satisfied"
example : traits Src.uncompilable_serialize_off_Foo = some (false, true, true) := by decide +kernel
-- "cannot find struct, variant or union type `__FooShadow`"
example : traits Src.uncompilable_serialize_deserialize_off_Foo = some (false, false, false) := by decide +kernel

end Verif.Suite
