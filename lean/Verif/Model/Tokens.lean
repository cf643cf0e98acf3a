/-
Token trees and the functions of the macro that work on them directly.

Sources: /repo/fieldx_derive/src/codegen/codegen_trait.rs 480-507 (`fixup_self_type`),
/repo/fieldx_aux/src/attributes.rs 25-61 (`FXAttributes`), /repo/fieldx_derive/src/ctx/codegen.rs 323-344 (`all_attrs`)
and 372-384 (`unique_ident_pfx`).

Simplifications: spans are left out; invisible (`None`) groups are left out; a literal and an identifier are their text.
-/
namespace Verif.Model.Tokens

/-- Group delimiters (proc_macro2 `Delimiter` without `None`). -/
inductive Delim
  | paren
  | brace
  | bracket
deriving DecidableEq, Repr

/-- proc_macro2 `TokenTree`. -/
inductive Tok
  | ident (s : String)
  | punct (c : Char)
  | lit (s : String)
  | group (d : Delim) (ts : List Tok)
deriving Repr

/-- codegen_trait.rs 491: `<#struct_ident #generics>`. -/
def selfTokens (struct : String) (generics : List Tok) : List Tok :=
  [.punct '<', .ident struct] ++ generics ++ [.punct '>']

mutual
/-- codegen_trait.rs 487-504, one token tree. -/
def fixupTok (struct : String) (generics : List Tok) : Tok → List Tok
  | .ident s => if s = "Self" then selfTokens struct generics else [.ident s]
  | .group d ts => [.group d (fixup struct generics ts)]
  | t => [t]
/-- codegen_trait.rs 480-507 `fixup_self_type`. -/
def fixup (struct : String) (generics : List Tok) : List Tok → List Tok
  | [] => []
  | t :: ts => fixupTok struct generics t ++ fixup struct generics ts
end

/-- Is it `TokenTree::Punct(_)` (attributes.rs 33)? -/
def Tok.isPunct : Tok → Bool
  | .punct _ => true
  | _ => false

/-- attributes.rs 32-40: one step of the fold over the tokens; chunks in order, the last one open. -/
def chunkStep (mlc : List (List Tok)) (item : Tok) : List (List Tok) :=
  if item.isPunct then mlc ++ [[]]
  else mlc.dropLast ++ [mlc.getLastD [] ++ [item]]

/-- attributes.rs 30-47: chunks, without an empty last one. -/
def chunks (ts : List Tok) : List (List Tok) :=
  let mlc := ts.foldl chunkStep [[]]
  if mlc.getLastD [] |>.isEmpty then mlc.dropLast else mlc

/-- attributes.rs 54: does `#[ tt ]` parse as an attribute? `tt` has no punctuation at its top level, so it must be a
path of one segment, alone or followed by one group (syn `Meta`). -/
def attrParses : List Tok → Bool
  | [.ident _] => true
  | [.ident _, .group _ _] => true
  | _ => false

/-- attributes.rs 25-61 `FXAttributes::from_meta` on a list; `none`: `parse_quote_spanned!` panics. -/
def attributesFromMeta (ts : List Tok) : Option (List (List Tok)) :=
  if (chunks ts).all attrParses then some (chunks ts) else none

/-- An attribute of the struct: whether its path is `derive`, and the rest. -/
structure Attr where
  isDerive : Bool
  body : Nat
deriving DecidableEq, Repr

/-- ctx/codegen.rs 332-342: the comparison. -/
def attrCmp (a b : Attr) : Ordering :=
  if a.isDerive && !b.isDerive then .lt
  else if !a.isDerive && b.isDerive then .gt
  else .eq

/-- ctx/codegen.rs 324-344 `all_attrs`. `sort_by` is a stable merge sort. -/
def allAttrs (extra input : List Attr) : List Attr :=
  (extra ++ input).mergeSort (fun a b => attrCmp a b != .gt)

/-- ctx/codegen.rs 374-378 `unique_ident_pfx` with overflow checks on (a `u32` counter that panics, `none`). -/
def uniqueIdent (count : Nat) (pfx : String) : Option (String × Nat) :=
  if count + 1 < 2 ^ 32 then some (pfx ++ "_" ++ (count + 1).repr, count + 1) else none

/-- ctx/codegen.rs 374-378 with overflow checks off (the counter wraps). -/
def uniqueIdentWrap (count : Nat) (pfx : String) : String × Nat :=
  let c := (count + 1) % 2 ^ 32
  (pfx ++ "_" ++ c.repr, c)

/-- A sequence of requests, counter checked; stops at the panic. -/
def uniqueIdents : Nat → List String → List String
  | _, [] => []
  | n, p :: ps =>
    match uniqueIdent n p with
    | some (s, n') => s :: uniqueIdents n' ps
    | none => []

/-- A sequence of requests, counter wrapping. -/
def uniqueIdentsWrap : Nat → List String → List String
  | _, [] => []
  | n, p :: ps => (uniqueIdentWrap n p).1 :: uniqueIdentsWrap (uniqueIdentWrap n p).2 ps

end Verif.Model.Tokens
