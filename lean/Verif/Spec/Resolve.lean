/-
What a name written without a path leads to.

The Rust reference, "Name resolution": a name is looked for in the module first, among its items and what is imported by name,
then among what is imported by `*`, then in the prelude.
-/
namespace Verif.Spec.Resolve

/-- Types and traits, values, macros have names of their own. -/
inductive Ns
  | type
  | value
  | mac
deriving DecidableEq, Repr

/-- A name written without a path. -/
structure Word where
  ns   : Ns
  name : String
deriving DecidableEq, Repr

/-- What names lead to: the full path, if any. -/
abbrev Scope := Word → Option String

/-- The prelude, as far as needed: the standard one, the built-in types. -/
def prelude : Scope := fun w =>
  if w = ⟨.value, "Ok"⟩ then some "::std::result::Result::Ok"
  else if w = ⟨.value, "Some"⟩ then some "::std::option::Option::Some"
  else if w = ⟨.value, "None"⟩ then some "::std::option::Option::None"
  else if w = ⟨.type, "Default"⟩ then some "::std::default::Default"
  else if w = ⟨.type, "Copy"⟩ then some "::std::marker::Copy"
  else if w = ⟨.type, "Sized"⟩ then some "::std::marker::Sized"
  else if w = ⟨.type, "Send"⟩ then some "::std::marker::Send"
  else if w = ⟨.type, "bool"⟩ then some "bool"
  else none

/-- What `glob` imports by `*`. -/
def lookup (glob module_ : Scope) : Scope := fun w => (module_ w).or ((glob w).or (prelude w))

/-- What a word in the code of fieldx is there for. -/
def meant : Scope := fun w =>
  if w = ⟨.type, "FXStruct"⟩ then some "::fieldx::traits::FXStruct"
  else if w = ⟨.mac, "Serialize"⟩ then some "::serde::Serialize"
  else if w = ⟨.mac, "Deserialize"⟩ then some "::serde::Deserialize"
  else prelude w

end Verif.Spec.Resolve
