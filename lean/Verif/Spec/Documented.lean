import Verif.Spec.Grammar
/-!
# Specification: the documented syntax

/repo/fieldx_derive/src/lib.rs 21-592, the documentation of the macro. `Doc` switches four documented forms on or off that
the code refuses; `Doc.all` is the documentation as written.
-/
namespace Verif.Spec.Documented
open Verif.Model.Parse (Arg Lit NV)
open Verif.Spec.Grammar

/-- Documented forms that are in question. `path`: `public(some::module)` (line 66); `init`: `builder(init(..))` (line
213); `optIn`: `opt_in` in the `builder` of a field ("consumed, but ignored", line 582); `nv`: attributes like
`doc = ".."` (lines 97-99, "looks exactly, as it would in the code"). -/
structure Doc where
  path  : Bool
  init  : Bool
  optIn : Bool
  nv    : Bool

/-- The documentation as written. -/
def Doc.all : Doc := ⟨true, true, true, true⟩

/-- The documentation without the forms in question. -/
def Doc.rest : Doc := ⟨false, false, false, false⟩

/-- _flag_ (line 43). -/
def docFlag : Form := .leaf fun a => ∃ n, a = .word n

/-- _keyword_ (line 42). -/
def docKeyword : Form := .leaf fun a => ∃ n, a = .word n ∨ a = .list n [.word "off"]

/-- Lines 93-111, `attributes` and family. -/
def docAttributes (d : Doc) : Form := .leaf fun a => ∃ n args, a = .list n args ∧ ∀ b ∈ args,
  (∃ w, b = .word w) ∨ (∃ w as, b = .list w as) ∨ (d.nv = true ∧ ∃ w s, b = .nv w (.lit (.str s)))

/-- Line 66, `public`. -/
def docPublic (d : Doc) : Form := .leaf fun a => ∃ n, a = .word n ∨ a = .list n [.word "crate"] ∨
  a = .list n [.word "super"] ∨ (d.path = true ∧ ∃ p, a = .list n [.word p])

/-- Lines 142-154, `mode`. -/
def docMode : Form := .leaf fun a => ∃ n, a = .list n [.word "sync"] ∨ a = .list n [.word "async"] ∨
  a = .list n [.word "plain"]

/-- `error(ErrorType)` (lines 169, 223). -/
def docPath : Form := .leaf fun a => ∃ n p, a = .list n [.word p]

/-- `post_build`, `post_build(check_in)` (line 214). -/
def docPostBuild : Form := .leaf fun a => ∃ n, a = .word n ∨ ∃ p, a = .list n [.word p]

/-- `rename("name")` (lines 525-532). -/
def docText : Form := .leaf fun a => ∃ n s, a = .list n [.lit (.str s)]

/-- `default`, `default("..")`, `default(path)`, `default(call())` (lines 405, 409-420). -/
def docDefault : Form := .leaf fun a => ∃ n, a = .word n ∨ (∃ s, a = .list n [.lit (.str s)]) ∨
  (∃ p, a = .list n [.word p]) ∨ ∃ p as, a = .list n [.list p as]

/-- `forward_attrs` (line 406). -/
def docPaths : Form := .leaf fun a => ∃ (n : String) (ps : List String), a = .list n (ps.map .word)

/-- Lines 55-66, common sub-arguments of helpers. -/
def docSubs (d : Doc) : List (String × Form) :=
  [("off", docFlag), ("attributes_fn", docAttributes d), ("public", docPublic d), ("private", docFlag)]

/-- _helper_ (line 44). -/
def docHelper (d : Doc) : Form := .group true true [["public", "private"]] [] (docSubs d)

/-- Lines 251-262, `get`. -/
def docGet (d : Doc) : Form := .group true true [["public", "private"], ["clone", "copy", "as_ref"]] []
  (docSubs d ++ [("clone", docFlag), ("copy", docFlag), ("as_ref", docFlag)])

/-- Lines 289-298, `set`. -/
def docSet (d : Doc) : Form := .group true true [["public", "private"]] [] (docSubs d ++ [("into", docFlag)])

/-- Lines 179-227, `builder` of a struct. -/
def docStructBuilder (d : Doc) : Form := .group true true [["public", "private"]] []
  (docSubs d ++ [("attributes", docAttributes d), ("attributes_impl", docAttributes d), ("into", docKeyword),
    ("opt_in", docKeyword), ("post_build", docPostBuild), ("error", docPath)] ++
   if d.init then [("init", docPath)] else [])

/-- Lines 576-588, `builder` of a field. -/
def docFieldBuilder (d : Doc) : Form := .group true true [["public", "private"]] []
  (docSubs d ++ [("attributes", docAttributes d), ("attributes_impl", docAttributes d), ("into", docKeyword),
    ("required", docKeyword)] ++ if d.optIn then [("opt_in", docKeyword)] else [])

/-- Lines 162-171, `fallible`. -/
def docFallible : Form := .group true false [] [] [("off", docFlag), ("error", docPath)]

/-- Lines 385-407, `serde`. -/
def docSerde (d : Doc) : Form := .group true true [] [[["public"], ["private"]]]
  [("off", docFlag), ("public", docPublic d), ("private", docFlag), ("attributes", docAttributes d),
   ("serialize", docKeyword), ("deserialize", docKeyword), ("forward_attrs", docPaths), ("default", docDefault)]

/-- Lines 465-588, the arguments of a field. Arguments that exclude each other are as in `Verif.Spec.Grammar`. -/
def docField (d : Doc) : Form := .group true false []
  [[["public"], ["private"]], [["copy"], ["clone"]], [["lazy"], ["optional", "inner_mut"]],
   [["fallible"], ["lock", "optional", "inner_mut"]], [["sync"], ["r#async"], ["inner_mut"], ["mode"]]]
  [("skip", docFlag), ("lazy", docHelper d), ("fallible", docFallible), ("inner_mut", docKeyword), ("rename", docText),
   ("get", docGet d), ("get_mut", docHelper d), ("set", docSet d), ("reader", docHelper d), ("writer", docHelper d),
   ("clearer", docHelper d), ("predicate", docHelper d), ("optional", docKeyword), ("public", docPublic d),
   ("private", docFlag), ("serde", docSerde d), ("into", docKeyword), ("builder", docFieldBuilder d)]

/-- Lines 111-407, the arguments of a struct. -/
def docStruct (d : Doc) : Form := .group true false []
  [[["public"], ["private"]], [["copy"], ["clone"]], [["sync", "r#async"], ["inner_mut"], ["mode"]],
   [["lazy"], ["optional", "inner_mut"]], [["serde"], ["rc"]]]
  [("attributes", docAttributes d), ("attributes_impl", docAttributes d), ("sync", docKeyword), ("r#async", docKeyword),
   ("mode", docMode), ("lazy", docHelper d), ("fallible", docFallible), ("inner_mut", docKeyword),
   ("builder", docStructBuilder d), ("rc", docKeyword), ("no_new", docKeyword), ("default", docKeyword),
   ("get", docGet d), ("get_mut", docHelper d), ("set", docSet d), ("reader", docHelper d), ("writer", docHelper d),
   ("lock", docKeyword), ("clearer", docHelper d), ("predicate", docHelper d), ("optional", docKeyword),
   ("public", docPublic d), ("private", docFlag), ("clone", docKeyword), ("copy", docKeyword), ("serde", docSerde d)]

end Verif.Spec.Documented
