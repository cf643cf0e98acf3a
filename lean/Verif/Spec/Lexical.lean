/-!
# Identifiers of Rust

After the Rust reference, "Identifiers" and "Keywords" (edition 2021): an identifier is a word that is no keyword, or `r#`
and a word other than `crate`, `self`, `super`, `Self`. A word begins with a letter or `_` and goes on with letters, digits and
`_`; which characters beyond ASCII count is decided by Unicode and is left open here. Characters are assumed to be in
normal form C.
-/

namespace Verif.Spec.Lexical

/-- Which characters beyond ASCII may begin a word (XID_Start), and which others may stand further on (XID_Continue). -/
structure Letters where
  start : Char → Bool
  more  : Char → Bool

/-- May a word begin with `c`? -/
def Letters.begins (L : Letters) (c : Char) : Bool :=
  if c.toNat < 128 then c.isAlpha || c == '_' else L.start c

/-- May a word go on with `c`? -/
def Letters.goes (L : Letters) (c : Char) : Bool :=
  if c.toNat < 128 then c.isAlphanum || c == '_' else L.start c || L.more c

/-- A word. -/
def Word (L : Letters) (w : List Char) : Prop := ∃ c t, w = c :: t ∧ L.begins c = true ∧ ∀ d ∈ t, L.goes d = true

/-- Strict and reserved keywords. -/
def keywords : List String :=
  ["as", "break", "const", "continue", "crate", "else", "enum", "extern", "false", "fn", "for", "if", "impl", "in", "let",
   "loop", "match", "mod", "move", "mut", "pub", "ref", "return", "self", "Self", "static", "struct", "super", "trait", "true",
   "type", "unsafe", "use", "where", "while", "async", "await", "dyn", "abstract", "become", "box", "do", "final", "macro",
   "override", "priv", "typeof", "unsized", "virtual", "yield", "try"]

/-- Words which may not stand after `r#`. -/
def neverRaw : List String := ["crate", "self", "super", "Self", "_"]

/-- A token of the shape of an identifier, keywords and `_` included. -/
structure Ident where
  raw  : Bool := false
  text : String
deriving DecidableEq, Repr

/-- How the token is spelled. -/
def Ident.spelling (i : Ident) : List Char := if i.raw then 'r' :: '#' :: i.text.toList else i.text.toList

/-- There is such a token. -/
def Token (L : Letters) (i : Ident) : Prop := Word L i.text.toList ∧ (i.raw = true → i.text ∉ neverRaw)

/-- The token can be the name of something. -/
def Usable (L : Letters) (i : Ident) : Prop := Token L i ∧ (i.raw = false → i.text ∉ keywords ∧ i.text ≠ "_")

end Verif.Spec.Lexical
