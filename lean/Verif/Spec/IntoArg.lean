import Verif.Spec.Lower
/-
The argument `into`. Written down from /repo/fieldx_derive/src/lib.rs 570-574: "Sets default for `set` and `builder` arguments", which have
a sub-argument `into` of their own (208-211, 296-298).
-/
namespace Verif.Spec.IntoArg
open Verif.Model.Args

/-- `set` with `into` of its own, or else the given one. -/
def withIntoS (i : Option Bool) (h : Setter) : Setter := { h with into := h.into.or i }

/-- `builder` with `into` of its own, or else the given one. -/
def withIntoB (i : Option Bool) (h : Builder) : Builder := { h with into := h.into.or i }

/-- The field with `into` written in `set` and `builder` instead. -/
def spreadField (f : FieldArgs) : FieldArgs :=
  { f with into := none, setter := f.setter.map (withIntoS f.into), builder := f.builder.map (withIntoB f.into) }

/-- The struct with `into` written in `set` and `builder` instead. -/
def spreadStruct (s : StructArgs) : StructArgs :=
  { s with into := none, setter := s.setter.map (withIntoS s.into), builder := s.builder.map (withIntoB s.into) }

/-- A field which says `into` says `set` and `builder` too. -/
def Complete (f : FieldArgs) : Prop := f.into ≠ none → f.setter ≠ none ∧ f.builder ≠ none

/-- The same of a struct. -/
def CompleteStruct (s : StructArgs) : Prop := s.into ≠ none → s.setter ≠ none ∧ s.builder ≠ none

end Verif.Spec.IntoArg
