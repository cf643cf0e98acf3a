import Verif.Model.Generics
/-
What Rust asks of generic parameters in headers, stated over tokens without reference to how they are printed. Only the
types `GTok`, `Param` and `Header` are shared with the model.

* A parameter list `<'a: 'b, T: A + B = D, const N: U = V>` declares parameters; lifetimes come first; defaults are
  allowed after `struct`, not after `impl`.
* An argument list `<'a, T, N>` consists of names only.
-/
namespace Verif.Spec.Generics
open Verif.Model.Generics

/-- `a + b` is read as the bounds `[a, b]`. -/
inductive Bounds : List GTok → List String → Prop
  | one (b : String) : Bounds [.other b] [b]
  | more (b : String) {ts : List GTok} {bs : List String} : Bounds ts bs → Bounds (.other b :: .plus :: ts) (b :: bs)

/-- Optional bounds after a name. -/
inductive MayBound : List GTok → List String → Prop
  | no : MayBound [] []
  | yes {ts : List GTok} {bs : List String} : Bounds ts bs → MayBound (.colon :: ts) bs

/-- Optional default after a parameter; there is none where it is not allowed. -/
inductive MayDefault : Bool → List GTok → Prop
  | no (ok : Bool) : MayDefault ok []
  | yes (d : String) : MayDefault true [.eq, .other d]

/-- A declared parameter, without its default: its name, and its bounds or its type. -/
inductive Declared
  | life (n : String) (bounds : List String)
  | type (n : String) (bounds : List String)
  | const (n : String) (ty : String)
deriving DecidableEq

def Declared.isLife : Declared → Bool
  | .life _ _ => true
  | _ => false

/-- One parameter. -/
inductive Decl (ok : Bool) : List GTok → Declared → Prop
  | life (n : String) {ts : List GTok} {bs : List String} : MayBound ts bs → Decl ok (.life n :: ts) (.life n bs)
  | type (n : String) {ts ds : List GTok} {bs : List String} :
      MayBound ts bs → MayDefault ok ds → Decl ok (.name n :: (ts ++ ds)) (.type n bs)
  | const (n t : String) {ds : List GTok} :
      MayDefault ok ds → Decl ok (.const :: .name n :: .colon :: .other t :: ds) (.const n t)

/-- Parameters separated by commas. -/
inductive Decls (ok : Bool) : List GTok → List Declared → Prop
  | one {ts : List GTok} {p : Declared} : Decl ok ts p → Decls ok ts [p]
  | more {ts us : List GTok} {p : Declared} {ps : List Declared} :
      Decl ok ts p → Decls ok us ps → Decls ok (ts ++ .comma :: us) (p :: ps)

/-- A parameter list; lifetimes first. -/
inductive Params (ok : Bool) : List GTok → List Declared → Prop
  | none : Params ok [] []
  | some {ts : List GTok} {ls ps : List Declared} :
      Decls ok ts (ls ++ ps) → (∀ p ∈ ls, p.isLife = true) → (∀ p ∈ ps, p.isLife = false) →
      Params ok (.open :: (ts ++ [.close])) (ls ++ ps)

/-- What can stand in an argument list here: the name of a parameter. -/
def IsName : GTok → Prop
  | .life _ => True
  | .name _ => True
  | _ => False

/-- Names separated by commas. -/
inductive Names : List GTok → List GTok → Prop
  | one {t : GTok} : IsName t → Names [t] [t]
  | more {t : GTok} {ts ns : List GTok} : IsName t → Names ts ns → Names (t :: .comma :: ts) (t :: ns)

/-- An argument list. -/
inductive Arguments : List GTok → List GTok → Prop
  | none : Arguments [] []
  | some {ts ns : List GTok} : Names ts ns → Arguments (.open :: (ts ++ [.close])) ns

/-- What the user declared: names, bounds, types. -/
def declaredOf : Param → Declared
  | .life n bs => .life n bs
  | .type n bs _ => .type n bs
  | .const n t _ => .const n t

/-- The name of a declared parameter as an argument. -/
def nameOf : Declared → GTok
  | .life n _ => .life n
  | .type n _ => .name n
  | .const n _ => .name n

/-- A header is right for parameters `ps` (lifetimes first) under the condition `wh`: it declares just these, under just
this condition, and applies each type it mentions to them. -/
structure Right (ps : List Declared) (wh : Option String) (h : Header) : Prop where
  decl : Params h.dfltOk h.decl ps
  cond : h.wh = wh
  uses : ∀ u ∈ h.uses, Arguments u (ps.map nameOf)

/-- The parameters of a struct, lifetimes first. -/
def own (g : Generics) : List Declared :=
  (g.params.map declaredOf).filter (·.isLife) ++ (g.params.map declaredOf).filter (!·.isLife)

/-! ### Ways of declaring parameters -/

/-- Nothing but a name. -/
def PlainParam : Param → Prop
  | .life _ bs => bs = []
  | .type _ bs d => bs = [] ∧ d = none
  | .const _ _ _ => False

/-- No default. -/
def NoDefault : Param → Prop
  | .life _ _ => True
  | .type _ _ d => d = none
  | .const _ _ d => d = none

/-- Lifetimes are written first. -/
def LifeFirst (g : Generics) : Prop :=
  ∃ ls ps : List Param, g.params = ls ++ ps ∧ (∀ p ∈ ls, p.isLife = true) ∧ ∀ p ∈ ps, p.isLife = false

end Verif.Spec.Generics
