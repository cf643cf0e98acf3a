import Verif.Spec.Cell
/-!
# Lazy fields depending on each other, builders which may fail: the sequential meaning

As `Verif.Spec.Fields`, with builders which end with a value, with an error, or by panicking, and which see the errors and
panics of the fields they read (/repo/fieldx_derive/src/lib.rs, section on `fallible`: the accessor hands over the error,
and the builder is run again on the next access). This file does not refer to the implementation.
-/

namespace Verif.Spec

/-- What a builder does: it reads fields one after the other, through the entry point it likes, each choice depending on
the answers so far, and ends somehow. A builder which lets the panic of a call through ends with `.panic` then; one which
catches it goes on. -/
inductive Code (F V E : Type) where
  | ret (o : Outcome V E)
  | read (q : GetKind) (j : F) (k : Ret V E → Code F V E)

variable {F V E : Type}

/-- Whatever the answers, the program only reads fields satisfying `P`. -/
def Code.Reads (P : F → Prop) : Code F V E → Prop
  | .ret _ => True
  | .read _ j k => P j ∧ ∀ r, (k r).Reads P

/-- Contents after a builder of field `j` has ended with `o`: a value is kept, a failure leaves nothing. -/
def keep [DecidableEq F] (σ : F → Option V) (j : F) (o : Outcome V E) : F → Option V :=
  match o with
  | .ok v => fun i => if i = j then some v else σ i
  | _ => σ

/-- Single-threaded evaluation of a program when the fields have content `σ`; `σ'` afterwards. -/
inductive Runs [DecidableEq F] (bld : F → Code F V E) :
    (F → Option V) → Code F V E → Outcome V E → (F → Option V) → Prop where
  | ret {σ o} : Runs bld σ (.ret o) o σ
  /-- the field has a value -/
  | hit {σ σ' q j k u w} : σ j = some u → Runs bld σ (k (getRet q (.ok u))) w σ' → Runs bld σ (.read q j k) w σ'
  /-- it has none: its builder runs -/
  | miss {σ σ₁ σ' q j k o w} : σ j = none → Runs bld σ (bld j) o σ₁ → Runs bld (keep σ₁ j o) (k (getRet q o)) w σ' →
      Runs bld σ (.read q j k) w σ'

/-- What field `i` comes to, reading it on its own in an object with contents `σ`: its value, or else the end of its
builder. -/
inductive Yields [DecidableEq F] (bld : F → Code F V E) (σ : F → Option V) (i : F) : Outcome V E → Prop where
  | has {u} : σ i = some u → Yields bld σ i (.ok u)
  | built {o σ'} : σ i = none → Runs bld σ (bld i) o σ' → Yields bld σ i o

end Verif.Spec
