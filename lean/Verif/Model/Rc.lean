/-
Reference counted structs (`rc`): the self reference `__weak_myself`, how it is set and what it is used for.

Sources: /repo/fieldx_derive/src/codegen.rs 133-163 (`prepare_ref_counted`: the hidden field), 226-251 (`new()`), 253-280
(`myself`, `myself_downgrade`), 399-406 (`build()`); /repo/fieldx_derive/src/codegen/codegen_trait.rs 232-276
(`maybe_ref_counted_create`), 530-545 (`maybe_ref_counted_self`); /repo/fieldx_derive/src/codegen/plain.rs 67-79;
/repo/fieldx_derive/src/codegen/sync.rs 63-90, 246-261, 321-335.

`std::rc::{Rc, Weak}` and `std::sync::{Arc, Weak}` are modelled after their documentation (trusted): an allocation has a
strong count and a content; the content is dropped when the count goes to 0; `upgrade` works while the count is not 0;
`new_cyclic` lends a weak reference while the count is still 0; `make_mut` clones the content if there are other strong
references, moves it to a new allocation if there are only weak ones.

Simplifications: an object has one lazy field; every step is atomic (Arc's counts are atomic); which variables and fields
hold references is a list `refs`; allocations are never reused; the user does not assign the hidden field.
-/
namespace Verif.Model.Rc

/-- An object: the hidden weak self reference (`none` is `Weak::new()`) and the lazy field. codegen.rs 156-161. -/
structure Obj (V : Type) where
  me : Option Nat
  val : Option V
deriving DecidableEq

/-- An allocation made by Rc/Arc. -/
structure Box (V : Type) where
  strong : Nat := 0
  obj : Option (Obj V) := none

/-- What a variable holds: nothing (moved out), a strong reference, a weak one, an object by value, or the object which the
closure of `new_cyclic` is about to return for the given allocation. -/
inductive Ref (V : Type)
  | gone
  | strong (a : Nat)
  | weak (a : Option Nat)
  | value (o : Obj V)
  | making (a : Nat) (o : Obj V)
deriving DecidableEq

/-- All there is. `made` lists the allocations which `new()` and `build()` have returned. -/
structure St (V : Type) where
  box : Nat → Box V
  next : Nat
  refs : List (Ref V)
  made : List Nat

/-- The start. -/
def St.init {V : Type} : St V := ⟨fun _ => {}, 0, [], []⟩

/-- What may be done; numbers are positions in `refs`. -/
inductive Act (V : Type)
  | create
  | finish (i : Nat)
  | finishOther (i j : Nat)
  | abandon (i : Nat)
  | default
  | cloneObj (i : Nat)
  | wrap (i : Nat)
  | cloneRef (i : Nat)
  | drop (i : Nat)
  | downgrade (i : Nat)
  | upgrade (i : Nat)
  | tryUnwrap (i : Nat)
  | makeMut (i : Nat)
  | myself (i : Nat)
  | myselfDowngrade (i : Nat)
  | access (i : Nat) (v : V) (keep : Bool)

/-- What it gives: nothing to speak of, perhaps a strong reference, a value with the object it was just built on, a panic. -/
inductive Out (V : Type)
  | done
  | ref (a : Option Nat)
  | value (v : V) (builtOn : Option Nat)
  | panic
deriving DecidableEq

variable {V : Type}

/-- Change one allocation. -/
def St.setBox (s : St V) (a : Nat) (b : Box V) : St V := { s with box := fun x => if x = a then b else s.box x }

/-- Change one variable. -/
def St.setRef (s : St V) (i : Nat) (r : Ref V) : St V := { s with refs := s.refs.set i r }

/-- A new variable. -/
def St.push (s : St V) (r : Ref V) : St V := { s with refs := s.refs ++ [r] }

/-- `Rc::clone`. -/
def St.incr (s : St V) (a : Nat) : St V := s.setBox a { s.box a with strong := (s.box a).strong + 1 }

/-- `drop` of a strong reference: the content goes with the last one. -/
def St.decr (s : St V) (a : Nat) : St V :=
  s.setBox a ⟨(s.box a).strong - 1, if (s.box a).strong ≤ 1 then none else (s.box a).obj⟩

/-- `Weak::upgrade`. -/
def St.up (s : St V) (me : Option Nat) : Option Nat := me.bind fun a => if 0 < (s.box a).strong then some a else none

/-- The object which can be reached from a variable as `&self`. -/
def St.look (s : St V) : Ref V → Option (Obj V)
  | .strong a => (s.box a).obj
  | .value o => some o
  | .making _ o => some o
  | _ => none

/-- Put the object behind variable `i`, which holds `r`, back. -/
def St.back (s : St V) (i : Nat) (r : Ref V) (o : Obj V) : St V :=
  match r with
  | .strong a => s.setBox a { s.box a with obj := some o }
  | .value _ => s.setRef i (.value o)
  | .making a _ => s.setRef i (.making a o)
  | _ => s

/-- `Rc::new(value)` into variable `i`. -/
def St.alloc (s : St V) (i : Nat) (o : Obj V) : St V :=
  { (s.setBox s.next ⟨1, some o⟩).setRef i (.strong s.next) with next := s.next + 1 }

/-- Is there a weak reference to allocation `a`, be it in a variable or in the hidden field of an object? -/
def St.weakTo (s : St V) (a : Nat) : Bool :=
  s.refs.any (fun
    | .weak w => w == some a
    | .value o => o.me == some a
    | .making _ o => o.me == some a
    | _ => false) ||
  (List.range s.next).any fun b => match (s.box b).obj with
    | some o => o.me == some a
    | none => false

/-- The lazy accessor on object `o` behind variable `i`. With `sync` (sync.rs 75-90, 246-261) the strong self reference is
an argument of the call and so obtained in any case; otherwise (plain.rs 76-78) only inside the closure which calls the
builder. Without self reference `expect` panics: codegen_trait.rs 539. The builder gives `v`; it runs on the object found by
the self reference, and may `keep` that reference. -/
def St.access (s : St V) (sync : Bool) (i : Nat) (r : Ref V) (o : Obj V) (v : V) (keep : Bool) : St V × Out V :=
  match o.val, sync, s.up o.me with
  | some w, false, _ => (s, .value w none)
  | some w, true, some _ => (s, .value w none)
  | _, _, none => (s, .panic)
  | none, _, some b =>
    let s₁ := s.back i r { o with val := some v }
    (if keep then (s₁.incr b).push (.strong b) else s₁, .value v (some b))

/-- One step; `none`: not possible. -/
def step (sync : Bool) (s : St V) : Act V → Option (St V × Out V)
  -- `new_cyclic` begins; the closure has written the struct expression. codegen_trait.rs 256-263
  | .create => some ({ s.push (.making s.next ⟨some s.next, none⟩) with next := s.next + 1 }, .done)
  -- `post_build` has returned the object it was given, or there is none. codegen_trait.rs 241-252, 264
  | .finish i => match s.refs[i]? with
    | some (.making a o) =>
      some ({ (s.setBox a ⟨1, some o⟩).setRef i (.strong a) with made := a :: s.made }, .ref (some a))
    | _ => none
  -- `post_build` has returned some other object
  | .finishOther i j => match s.refs[i]?, s.refs[j]? with
    | some (.making a o), some (.value o') =>
      some ((((s.setBox a ⟨1, some o'⟩).setRef j (.value o)).setRef i (.strong a)), .ref (some a))
    | _, _ => none
  -- `post_build` has panicked
  | .abandon i => match s.refs[i]? with
    | some (.making _ _) => some (s.setRef i .gone, .done)
    | _ => none
  -- `default()`: `Weak::default()` for the hidden field, which is marked `skip`. codegen.rs 137, 282-306
  | .default => some (s.push (.value ⟨none, none⟩), .done)
  -- derived `Clone` (or `Clone` by hand) copies all fields, the hidden one too
  | .cloneObj i => match s.refs[i]?.bind s.look with
    | some o => some (s.push (.value o), .done)
    | none => none
  -- `Rc::new`
  | .wrap i => match s.refs[i]? with
    | some (.value o) => some (s.alloc i o, .ref (some s.next))
    | _ => none
  -- `Rc::clone`, `Weak::clone`
  | .cloneRef i => match s.refs[i]? with
    | some (.strong a) => some ((s.incr a).push (.strong a), .ref (some a))
    | some (.weak w) => some (s.push (.weak w), .done)
    | _ => none
  | .drop i => match s.refs[i]? with
    | some (.strong a) => some ((s.decr a).setRef i .gone, .done)
    | some (.weak _) => some (s.setRef i .gone, .done)
    | some (.value _) => some (s.setRef i .gone, .done)
    | _ => none
  | .downgrade i => match s.refs[i]? with
    | some (.strong a) => some (s.push (.weak (some a)), .done)
    | _ => none
  | .upgrade i => match s.refs[i]? with
    | some (.weak w) => match s.up w with
      | some a => some ((s.incr a).push (.strong a), .ref (some a))
      | none => some (s, .ref none)
    | _ => none
  -- `Rc::try_unwrap`, only if it succeeds
  | .tryUnwrap i => match s.refs[i]? with
    | some (.strong a) => match (s.box a).obj with
      | some o => if (s.box a).strong = 1 then some ((s.setBox a ⟨0, none⟩).setRef i (.value o), .done) else none
      | none => none
    | _ => none
  | .makeMut i => match s.refs[i]? with
    | some (.strong a) => match (s.box a).obj with
      | some o =>
        if (s.box a).strong = 1 then
          if s.weakTo a then some ((s.setBox a ⟨0, none⟩).alloc i o, .done) else some (s, .done)
        else some ((s.decr a).alloc i o, .done)
      | none => none
    | _ => none
  -- `myself()`: codegen.rs 264-271
  | .myself i => match s.refs[i]?.bind s.look with
    | some o => match s.up o.me with
      | some a => some ((s.incr a).push (.strong a), .ref (some a))
      | none => some (s, .ref none)
    | none => none
  -- `myself_downgrade()`: codegen.rs 272-278
  | .myselfDowngrade i => match s.refs[i]?.bind s.look with
    | some o => some (s.push (.weak o.me), .done)
    | none => none
  | .access i v keep => match s.refs[i]? with
    | some r => match s.look r with
      | some o => some (s.access sync i r o v keep)
      | none => none
    | none => none

/-- Everything that can come about. -/
inductive Reach (sync : Bool) : St V → Prop
  | init : Reach sync St.init
  | step {s s' : St V} {a : Act V} {o : Out V} : Reach sync s → step sync s a = some (s', o) → Reach sync s'

/-- Run a list of actions. -/
def run (sync : Bool) (s : St V) : List (Act V) → Option (St V)
  | [] => some s
  | a :: l => (step sync s a).bind fun r => run sync r.1 l

end Verif.Model.Rc
