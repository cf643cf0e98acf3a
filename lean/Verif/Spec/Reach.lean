/-
Rust's rules for visibility: how it is written and from where an item with a written visibility can be named.
(Specification only, no reference to the model.)
-/
namespace Verif.Spec.Reach

/-- A module: the crate and the names of the modules on the way down. -/
abbrev Mod := List String

/-- A visibility. -/
inductive Vis
  | inherited | pub | crate | super | inPath (path : String)
deriving DecidableEq, Repr

/-- How a visibility is written; a path is one token here. -/
inductive Spells : List String → Vis → Prop
  | inherited : Spells [] .inherited
  | pub : Spells ["pub"] .pub
  | crate : Spells ["pub", "(", "crate", ")"] .crate
  | super : Spells ["pub", "(", "super", ")"] .super
  | inPath (p : String) : Spells ["pub", "(", "in", p, ")"] (.inPath p)

/-- Where an item stands: its module, and the modules that paths name there. -/
structure Place where
  here    : Mod
  resolve : String → Mod

/-- `Seen pl v m`: an item at `pl` with visibility `v` can be named in module `m`. -/
inductive Seen (pl : Place) : Vis → Mod → Prop
  | pub (m : Mod) : Seen pl .pub m
  | crate (c : String) (up down : Mod) : pl.here = c :: up → Seen pl .crate (c :: down)
  | super (up down : Mod) (last : String) : pl.here = up ++ [last] → Seen pl .super (up ++ down)
  | inPath (p : String) (down : Mod) : Seen pl (.inPath p) (pl.resolve p ++ down)
  | inherited (down : Mod) : Seen pl .inherited (pl.here ++ down)

/-- What the compiler asks of a visibility: there is a module above for `super`, and a path names a module the item is
in. -/
inductive Legal (pl : Place) : Vis → Prop
  | inherited : Legal pl .inherited
  | pub : Legal pl .pub
  | crate : Legal pl .crate
  | super (up : Mod) (c last : String) : pl.here = c :: (up ++ [last]) → Legal pl .super
  | inPath (p : String) (c : String) (up down : Mod) : pl.resolve p = c :: up → pl.here = c :: (up ++ down) →
      Legal pl (.inPath p)

/-- How deep down the modules are that can name an item: nothing for `pub`, the crate, the module. -/
def depth (pl : Place) : Vis → Nat
  | .pub => 0
  | .crate => 1
  | .super => pl.here.length - 1
  | .inPath p => (pl.resolve p).length
  | .inherited => pl.here.length

end Verif.Spec.Reach
