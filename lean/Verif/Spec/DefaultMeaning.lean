import Verif.Model.Parse
/-
What default values mean.

Items of attributes as expressions of Rust, the code that is made of them, and what `serde` does with its argument `default`
(https://serde.rs/field-attrs.html#default, container-attrs.html#default): without a path, `Default` of the type; with one, a call
of the function.
-/
namespace Verif.Spec.DefaultMeaning
open Verif.Model.Parse

/-- Types: of string literals, `String`, `bool`, and others. -/
inductive Ty
  | str
  | string
  | bool
  | named (n : String)
deriving DecidableEq, Repr

/-- Values. -/
inductive Val
  | text (s : String)
  | bool (b : Bool)
  | named (n : String)
deriving DecidableEq, Repr

/-- What the code is compiled with: which strings are paths, what literals, constants and calls are, what implements `Into` and
`Default`. -/
structure World where
  isPath : String → Bool
  lit    : String → Option (Ty × Val)
  const  : String → Option (Ty × Val)
  call   : String → List Arg → Option (Ty × Val)
  into   : Ty → Ty → Option (Val → Val)
  dflt   : Ty → Option Val

/-- Code made of a default value. -/
inductive Code
  /-- the item as it stands -/
  | item (a : Arg)
  /-- `::std::string::String::from(a)` -/
  | stringFrom (a : Arg)
  /-- `p()` -/
  | callPath (p : String)
  /-- `c.into()` -/
  | into (c : Code)

/-- The argument of `#[serde(..)]`. -/
inductive SerdeArg
  /-- `default` -/
  | word
  /-- `default = "p"` -/
  | path (p : String)
  /-- `default = ".."` with a function of this body -/
  | fn (body : Code)

variable (w : World)

/-- An item as an expression, with its type. An assignment has no place to assign to. -/
def den : Arg → Option (Ty × Val)
  | .lit (.str s) => some (.str, .text s)
  | .lit (.bool b) => some (.bool, .bool b)
  | .lit (.other t) => w.lit t
  | .word p => w.const p
  | .list p args => w.call p args
  | .nv _ _ => none

/-- A value with its type, where the type `τ` is wanted. -/
def typed (τ : Ty) : Option (Ty × Val) → Option Val
  | some (σ, v) => if σ = τ then some v else none
  | none => none

/-- A value with its type, after `.into()`, where the type `τ` is wanted. -/
def converted (τ : Ty) : Option (Ty × Val) → Option Val
  | some (σ, v) => (w.into σ τ).map fun f => f v
  | none => none

/-- A call of the function named by a string. -/
def named (s : String) : Option (Ty × Val) := if w.isPath s then w.call s [] else none

/-- Code with its type; that of `.into()` depends on what is wanted. -/
def Code.den : Code → Option (Ty × Val)
  | .item a => DefaultMeaning.den w a
  | .stringFrom a =>
    match DefaultMeaning.den w a with
    | some (.str, .text s) => some (.string, .text s)
    | _ => none
  | .callPath p => named w p
  | .into _ => none

/-- The value of code where the type `τ` is wanted; `none` does not compile. -/
def Code.value (τ : Ty) : Code → Option Val
  | .into c => converted w τ (c.den w)
  | c => typed τ (c.den w)

/-- The value of what is missing and of type `τ`. -/
def SerdeArg.value (τ : Ty) : SerdeArg → Option Val
  | .word => w.dflt τ
  | .path p => typed τ (named w p)
  | .fn c => c.value w τ

/-- `Into` is reflexive. -/
def Reflexive : Prop := ∀ τ, w.into τ τ = some id

end Verif.Spec.DefaultMeaning
