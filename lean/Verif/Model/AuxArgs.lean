import Verif.Model.Parse
/-
The argument types fieldx_aux offers to other macros: literal values, syntax elements, tuples and lists of them, and the macro
`set_literals!`. What fieldx itself uses of them is in `Verif.Model.Parse`.

Sources: /repo/fieldx_aux/src/value.rs, /repo/fieldx_aux/src/syn_value.rs, /repo/fieldx_aux/src/nesting_attr.rs 80-147, /repo/fieldx_aux/src/util.rs
5-46, /repo/fieldx_aux/src/lib.rs 192-203.

Simplified: types that can be parsed are given by their parser; numbers are written in decimal, without suffix. `darling` and `syn` as in
`Verif.Model.Parse`; `NestedMeta::parse_meta_list` takes arguments and literals and nothing else.
-/
namespace Verif.Model.AuxArgs
open Verif.Model.Parse

variable {T α : Type}

/-- value.rs 14-19 `FXValueArg`. -/
structure ValueArg (T : Type) where
  off   : Bool
  value : Option T
deriving DecidableEq, Repr

/-- value.rs 47-54 `value()`. -/
def ValueArg.get (a : ValueArg T) : Option T := if a.off then none else a.value

/-- value.rs 22-32 `validate_literals`. -/
def validateLiterals (boolOnly : Bool) (lits : List Lit) : Bool :=
  if decide (lits.length > 0) && boolOnly then false else if lits.length > 1 then false else true

/-- value.rs 107-116, 131-140 `set_literals`. -/
def setLiteral (conv : Lit → Option T) (a : ValueArg T) (lits : List Lit) : Option (ValueArg T) :=
  if validateLiterals false lits then
    match lits with
    | [] => none
    | l :: _ => (conv l).map fun v => { a with value := some v }
  else none

/-- Derived `from_list`, value.rs 14-19: `off` is the only name. -/
def valueList (args : List Arg) : Option (ValueArg T) :=
  if known ["off"] args then (flag "off" args).map fun off => { off, value := none } else none

/-- value.rs 34-44 `as_keyword`. -/
def asKeyword (boolOnly : Bool) : Option (ValueArg T) := if boolOnly then some { off := false, value := none } else none

/-- lib.rs 195 `FXValue<T>`, for the types of value.rs 151-164. -/
def fxValue (conv : Lit → Option T) : Arg → Option (ValueArg T) :=
  nesting (asKeyword false) valueList (setLiteral conv)

/-- lib.rs 203 `FXBool`, value.rs 71-80. -/
def fxFlag : Arg → Option (ValueArg Unit) :=
  nesting (asKeyword true) valueList fun a lits => if validateLiterals true lits then some a else none

/-- The number written with decimal digits. -/
def decimal (t : String) : Option Nat :=
  if t.toList.isEmpty then none else
  t.toList.foldl (fun n c => n.bind fun n => if '0' ≤ c ∧ c ≤ '9' then some (10 * n + (c.toNat - '0'.toNat)) else none) (some 0)

/-- `Lit::Int` with `base10_parse` into an unsigned type, value.rs 103-164. -/
def uint (bits : Nat) : Lit → Option Nat
  | .other t => match decimal t with
    | some n => if n < 2 ^ bits then some n else none
    | none => none
  | _ => none

/-- The same into a signed type: a literal has no sign. -/
def sint (bits : Nat) : Lit → Option Nat := uint (bits - 1)

/-- `Lit::Str` and `Lit::Bool`, value.rs 161, 164. -/
def strVal : Lit → Option String
  | .str s => some s
  | _ => none

def boolVal : Lit → Option Bool
  | .bool b => some b
  | _ => none

/-- A piece of syntax between separators: an argument or a literal, or something else. -/
inductive Elem
  | item (a : Arg)
  | other (text : String)

/-- An argument with such pieces in its list. -/
inductive Raw
  | word (name : String)
  | nv (name : String) (value : NV)
  | list (name : String) (elems : List Elem)

/-- syn_value.rs 40-55, 78-85, nesting_attr.rs 123-147: `FXSynValue<T, AS_KEYWORD>`; `none` inside is the field `value`, which `value()`,
syn_value.rs 26-31, unwraps. -/
def synValue (parse : List Elem → Option T) (keyword : Bool) : Raw → Option (Option T)
  | .list _ es => (parse es).map some
  | .word _ => if keyword then some none else none
  | .nv _ _ => none

/-- syn_value.rs 217-241 `FXPunctuated::parse`. A negative bound is no bound. -/
def punctuated (item : Elem → Option T) (min max : Int) (es : List Elem) : Option (List T) :=
  match es.mapM item with
  | none => none
  | some items =>
    if min ≥ 0 ∧ (items.length : Int) < min then none
    else if max ≥ 0 ∧ (items.length : Int) > max then none
    else some items

/-- syn_value.rs 243-254 `FXPunctuated::from_meta`. -/
def punctuatedArg (item : Elem → Option T) (min max : Int) : Raw → Option (List T)
  | .list _ es => punctuated item min max es
  | .word n => punctuated item min max [.item (.word n)]
  | .nv n v => punctuated item min max [.item (.nv n v)]

/-- `NestedMeta::parse`. -/
def Elem.meta? : Elem → Option Arg
  | .item a => some a
  | .other _ => none

/-- `NestedMeta::parse_meta_list`. -/
def metaList (es : List Elem) : Option (List Arg) := es.mapM Elem.meta?

/-- syn_value.rs 159-168: one after the other. -/
def inTurn (parsers : List (Arg → Option T)) (items : List Arg) : Option (List T) :=
  match parsers, items with
  | [], _ => some []
  | p :: ps, a :: as => match p a with
    | some t => (inTurn ps as).map (t :: ·)
    | none => none
  | _ :: _, [] => none

/-- syn_value.rs 147-192 `FXSynTuple`: 2 to 10 elements. -/
def synTuple (parsers : List (Arg → Option T)) : Raw → Option (List T)
  | .list _ es =>
    match metaList es with
    | none => none
    | some items =>
      if items.length > parsers.length then none
      else if items.length < parsers.length then none
      else inTurn parsers items
  | _ => none

/-- util.rs 20-35: literals are taken one after the other as long as there are fields. -/
def assign : List (Lit → Option α) → List Lit → Option (List (Option α))
  | [], _ => some []
  | _ :: fs, [] => (assign fs []).map (none :: ·)
  | f :: fs, l :: ls => match f l with
    | some v => (assign fs ls).map (some v :: ·)
    | none => none

/-- util.rs 5-37 `set_literals!` with `min..max` and fields: what is set. -/
def setLiterals (min : Nat) (max : Option Nat) (fields : List (Lit → Option α)) (lits : List Lit) : Option (List (Option α)) :=
  if lits.length < min then none
  else if max.any (lits.length > ·) then none
  else assign fields lits

end Verif.Model.AuxArgs
