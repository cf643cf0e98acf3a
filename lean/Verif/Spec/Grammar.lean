import Verif.Model.Parse
/-!
# Specification: the syntax of the attributes

Only the syntax trees (`Arg`, `Lit`, `NV`) are taken from the model.
-/
namespace Verif.Spec.Grammar
open Verif.Model.Parse (Arg Lit NV)

/-! ### Order -/

/-- Arguments whose sub-arguments have a meaning by position. -/
def positional : List String := ["default", "error", "attributes", "attributes_fn", "attributes_impl", "forward_attrs"]

/-- The same items in another order, at any depth, but not among positional sub-arguments. -/
inductive Reorder : List Arg → List Arg → Prop
  | refl (as) : Reorder as as
  | cons (a) {as bs} : Reorder as bs → Reorder (a :: as) (a :: bs)
  | swap (a b as) : Reorder (a :: b :: as) (b :: a :: as)
  | inside {n as bs} (rest) : n ∉ positional → Reorder as bs → Reorder (.list n as :: rest) (.list n bs :: rest)
  | trans {as bs cs} : Reorder as bs → Reorder bs cs → Reorder as cs

/-! ### Grammar -/

/-- What a name may be followed by. A `group` is a list of named arguments; `bare`: it may be left out altogether;
`lit`: one string literal may be in the list; `once`: of these names at most one may occur; `excl`: of these alternatives
at most one may be switched on; `fields`: the names and their forms. -/
inductive Form
  | leaf (ok : Arg → Prop)
  | group (bare lit : Bool) (once : List (List String)) (excl : List (List (List String))) (fields : List (String × Form))

/-- The name occurs. -/
def Has (n : String) (args : List Arg) : Prop := ∃ a ∈ args, a.name = some n

/-- `name(.., off, ..)`. -/
def IsOff : Arg → Prop
  | .list _ args => .word "off" ∈ args
  | _ => False

/-- The name occurs and is not switched off. -/
def On (n : String) (args : List Arg) : Prop := ∃ a ∈ args, a.name = some n ∧ ¬ IsOff a

mutual
/-- The item has the form. -/
def Fits : Form → Arg → Prop
  | .leaf ok, a => ok a
  | .group bare _ _ _ _, .word _ => bare = true
  | .group _ lit once excl fields, .list _ args =>
    (∀ a ∈ args, (lit = true ∧ ∃ s, a = .lit (.str s)) ∨ FitsIn fields a) ∧
    (args.filterMap (·.name)).Nodup ∧
    (args.filterMap (·.lit?)).length ≤ 1 ∧
    (∀ g ∈ once, g.Pairwise fun m n => ¬ (Has m args ∧ Has n args)) ∧
    (∀ g ∈ excl, g.Pairwise fun x y => ¬ ((∃ m ∈ x, On m args) ∧ ∃ n ∈ y, On n args))
  | .group .., _ => False
/-- The item has the form given for its name. -/
def FitsIn : List (String × Form) → Arg → Prop
  | [], _ => False
  | (n, f) :: r, a => (a.name = some n ∧ Fits f a) ∨ FitsIn r a
end

/-- A flag: `name`. -/
def aFlag : Form := .leaf fun a => ∃ n, a = .word n

/-- A switch: `name`, `name()`, `name(off)`. -/
def aSwitch : Form := .group true false [] [] [("off", aFlag)]

/-- A text: `name("..")`, `name(off, "..")`, `name(off)`, `name()`. -/
def aText : Form := .group false true [] [] [("off", aFlag)]

/-- `public`, `public(crate)`, `public(super)`, `public(in_mod = path)` and their variants with strings. -/
def aPublic : Form := .leaf fun a => ∃ n,
  a = .word n ∨ (∃ w, (w = "crate" ∨ w = "super") ∧ (a = .list n [.word w] ∨ a = .nv n (.lit (.str w)))) ∨
  (∃ p, a = .list n [.nv "in_mod" (.path p)] ∨ a = .list n [.nv "in_mod" (.lit (.str p))])

/-- A list of attributes. -/
def anAttributes : Form := .leaf fun a => ∃ n args, a = .list n args ∧
  ∀ b ∈ args, (∃ w, b = .word w) ∨ (∃ w as, b = .list w as) ∨ ∃ w p, b = .nv w (.path p)

/-- `mode(sync)`, `mode(async)`, `mode(plain)`. -/
def aMode : Form := .leaf fun a => ∃ n w, (w = "sync" ∨ w = "async" ∨ w = "plain") ∧ a = .list n [.word w]

/-- `name(path)`. -/
def aPath : Form := .leaf fun a => ∃ n p, a = .list n [.word p]

/-- `name`, `name(path)`. -/
def aPathOrWord : Form := .leaf fun a => ∃ n, a = .word n ∨ ∃ p, a = .list n [.word p]

/-- `name(path)`, `name(path, path)`. -/
def aPathOrTwo : Form := .leaf fun a => ∃ n p, a = .list n [.word p] ∨ ∃ q, a = .list n [.word p, .word q]

/-- `name(path, ..)`. -/
def aPaths : Form := .leaf fun a => ∃ (n : String) (ps : List String), a = .list n (ps.map .word)

/-- `into`, `into = true`, `into = false` and their variants with strings. -/
def aTruth : Form := .leaf fun a => ∃ n, a = .word n ∨ (∃ b, a = .nv n (.lit (.bool b))) ∨
  a = .nv n (.lit (.str "true")) ∨ a = .nv n (.lit (.str "false"))

/-- `default`, `default()`, `default(value)`, `default(off, value)`. -/
def aDefault : Form := .leaf fun a => ∃ n, a = .word n ∨ a = .list n [] ∨ ∃ v, a = .list n [v] ∨ a = .list n [.word "off", v]

/-- The arguments all helpers have. -/
def helperFields : List (String × Form) :=
  [("name", aText), ("off", aFlag), ("attributes_fn", anAttributes), ("public", aPublic), ("private", aSwitch)]

/-- `helper`, `helper("name")`, `helper(off, ..)`. -/
def aHelper : Form := .group true true [["public", "private"]] [] helperFields

/-- `get`. -/
def anAccessor : Form := .group true true [["public", "private"], ["clone", "copy", "as_ref"]] []
  (helperFields ++ [("clone", aFlag), ("copy", aFlag), ("as_ref", aFlag)])

/-- `set`. -/
def aSetter : Form := .group true true [["public", "private"]] [] (helperFields ++ [("into", aTruth)])

/-- `builder` of a field. -/
def aFieldBuilder : Form := .group true true [["public", "private"]] []
  (helperFields ++ [("attributes", anAttributes), ("attributes_impl", anAttributes), ("into", aSwitch),
    ("required", aSwitch)])

/-- `builder` of a struct. -/
def aStructBuilder : Form := .group true true [["public", "private"]] []
  (helperFields ++ [("attributes", anAttributes), ("attributes_impl", anAttributes), ("into", aSwitch),
    ("required", aSwitch), ("opt_in", aSwitch), ("post_build", aPathOrWord), ("error", aPathOrTwo)])

/-- `fallible`. -/
def aFallible : Form := .group true false [] [] [("off", aFlag), ("error", aPath)]

/-- `serde`. -/
def aSerde : Form := .group true true [] [[["public"], ["private"]]]
  [("off", aFlag), ("public", aPublic), ("private", aSwitch), ("attributes", anAttributes), ("serialize", aSwitch),
   ("deserialize", aSwitch), ("forward_attrs", aPaths), ("default", aDefault), ("shadow_name", aText)]

/-- `fieldx`: the arguments of a field. -/
def aField : Form := .group true false []
  [[["public"], ["private"]], [["copy"], ["clone"]], [["lazy"], ["optional", "inner_mut"]],
   [["fallible"], ["lock", "optional", "inner_mut"]], [["sync"], ["r#async"], ["inner_mut"], ["mode"]]]
  [("skip", aFlag), ("mode", aMode), ("sync", aSwitch), ("r#async", aSwitch), ("attributes_fn", anAttributes),
   ("fallible", aFallible), ("lazy", aHelper), ("rename", aText), ("get", anAccessor), ("get_mut", aHelper),
   ("set", aSetter), ("reader", aHelper), ("writer", aHelper), ("clearer", aHelper), ("predicate", aHelper),
   ("optional", aSwitch), ("public", aPublic), ("private", aSwitch), ("default", aDefault), ("builder", aFieldBuilder),
   ("into", aSwitch), ("clone", aSwitch), ("copy", aSwitch), ("lock", aSwitch), ("inner_mut", aSwitch), ("serde", aSerde)]

/-- `fxstruct`: the arguments of a struct. -/
def aStruct : Form := .group true false []
  [[["public"], ["private"]], [["copy"], ["clone"]], [["sync", "r#async"], ["inner_mut"], ["mode"]],
   [["lazy"], ["optional", "inner_mut"]], [["serde"], ["rc"]]]
  [("mode", aMode), ("sync", aSwitch), ("r#async", aSwitch), ("builder", aStructBuilder), ("into", aSwitch),
   ("no_new", aSwitch), ("default", aSwitch), ("rc", aHelper), ("attributes", anAttributes),
   ("attributes_impl", anAttributes), ("fallible", aFallible), ("lazy", aHelper), ("get", anAccessor),
   ("get_mut", aHelper), ("set", aSetter), ("reader", aHelper), ("writer", aHelper), ("clearer", aHelper),
   ("predicate", aHelper), ("optional", aSwitch), ("public", aPublic), ("private", aSwitch), ("clone", aSwitch),
   ("copy", aSwitch), ("lock", aSwitch), ("inner_mut", aSwitch), ("serde", aSerde)]

end Verif.Spec.Grammar
