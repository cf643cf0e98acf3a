import Verif.Model.Args
import Verif.Model.Method
/-
The documented types of fields and signatures of helpers, after /repo/README.md 404-420 ("The Inner Workings", "skipped
fields retain their original type"), 104-112 and the reference of arguments in /repo/fieldx_derive/src/lib.rs 251-375
(`get`, `get_mut`, `set`, `reader`, `writer`, `clearer`, `predicate`). Independent of the generators: types are read off
modes and flags, signatures off the type of the field.
-/
namespace Verif.Spec.Signature
open Verif.Model.Args (SyncMode Kind AccMode)
open Verif.Model.Init (Ty)
open Verif.Model.Method (CTy Guard)

/-- `DocType mode lazy optional locked innerMut fallible τ`: a field that is not skipped has type `τ`. -/
inductive DocType : SyncMode → (lazy optional locked innerMut fallible : Bool) → Ty → Prop
  | lazyPlain {o k i f} : DocType .plain true o k i f (.once .t)
  | lazySync {o k i f} : DocType .sync true o k i f (.proxy false f)
  | lazyAsync {o k i f} : DocType .async true o k i f (.proxy true f)
  | optPlain {k f} : DocType .plain false true k false f (.opt .t)
  | optInner {k f} : DocType .plain false true k true f (.cell (.opt .t))
  | optSync {i f} : DocType .sync false true true i f (.lock false (.opt .t))
  | optAsync {i f} : DocType .async false true true i f (.lock true (.opt .t))
  | optUnlocked {m i f} : m ≠ .plain → DocType m false true false i f (.opt .t)
  | inner {k f} : DocType .plain false false k true f (.cell .t)
  | lockSync {i f} : DocType .sync false false true i f (.lock false .t)
  | lockAsync {i f} : DocType .async false false true i f (.lock true .t)
  | unlocked {m i f} : m ≠ .plain → DocType m false false false i f .t
  | bare {k f} : DocType .plain false false k false f .t

/-- A signature: `&mut self` or `&self`, `async fn` or `fn`, and the return type. -/
structure Sig where
  recvMut : Bool
  isAsync : Bool
  ret     : CTy
deriving DecidableEq, Repr

/-- What is inside: `T` or `Option<T>`; a lazy field is never seen empty by accessors. -/
def inside : Ty → Ty
  | .once a | .cell a | .lock _ a => a
  | .proxy _ _ => .t
  | a => a

/-- Is the field lazy? -/
def isLazy : Ty → Bool
  | .once _ | .proxy _ _ => true
  | _ => false

/-- Can the field be changed through `&self`? -/
def interior : Ty → Bool
  | .cell _ | .lock _ _ | .proxy _ _ => true
  | _ => false

/-- Does access have to wait in a task? -/
def waits : Ty → Bool
  | .lock true _ | .proxy true _ => true
  | _ => false

/-- The field as an `Option`, which is what clearers and setters of lazy fields give back. -/
def asOption (τ : Ty) : Ty := if isLazy τ then .opt .t else inside τ

/-- `Result<.., E>` for fallible lazy fields. -/
def maybeRes (τ : Ty) (fallible : Bool) (c : CTy) : CTy := if isLazy τ && fallible then .res c else c

/-- Shared access: a read guard, a `Ref`, a reference. -/
def shared : Ty → CTy
  | .proxy true _ => .guard (.read true) .t
  | .proxy false _ => .guard .mapRead .t
  | .lock a d => .guard (.read a) d
  | .cell d => .guard .ref d
  | .once d => .ref false false d
  | d => .ref false false d

/-- Exclusive access to the value of an initialised field. -/
def exclusive : Ty → CTy
  | .proxy a _ => .guard (.mapWrite a) .t
  | .lock a d => .guard (.write a) d
  | .cell d => .guard .refMut d
  | .once d => .ref true false d
  | d => .ref true false d

/-- What the accessor gives: a copy or clone of the value, `Option<&T>`, or shared access. -/
def accessed (τ : Ty) : AccMode → CTy
  | .copy | .clone => .own (inside τ)
  | .asRef => .optRef false false
  | .none => shared τ

/-- The documented signature of a helper of a field of type `τ`. The writer of a lazy field gives access to the optional
value without initialising it. -/
def documented (τ : Ty) (mode : AccMode) (fallible : Bool) : Kind → Option Sig
  | .accessor => some ⟨false, waits τ, maybeRes τ fallible (accessed τ mode)⟩
  | .accessorMut => some ⟨!interior τ, waits τ, maybeRes τ fallible (exclusive τ)⟩
  | .reader => some ⟨false, waits τ, maybeRes τ fallible (shared τ)⟩
  | .writer => some ⟨false, waits τ, match τ with | .proxy a _ => .guard (.fx a) (.opt .t) | τ => exclusive τ⟩
  | .setter => some ⟨!interior τ, waits τ, .own (asOption τ)⟩
  | .clearer => some ⟨!interior τ, waits τ, .own (asOption τ)⟩
  | .predicate => some ⟨false, waits τ && !isLazy τ, .bool⟩
  | .builder | .lazy => none

end Verif.Spec.Signature
