/-!
# Lazy fields depending on each other: the sequential meaning

What the documentation says about lazy fields with builders reading other fields (/repo/fieldx_derive/src/lib.rs, section
on `lazy`): a field which has no value gets it from its builder on first read; the builder may read other fields. This
file does not refer to the implementation.
-/

namespace Verif.Spec

/-- What a builder does: it reads fields one after the other, each choice depending on the values read so far, and ends
with a value. -/
inductive Prog (F V : Type) where
  | ret (v : V)
  | read (j : F) (k : V → Prog F V)

variable {F V : Type}

/-- Whatever the values read, the program only reads fields satisfying `P`. -/
def Prog.Reads (P : F → Prop) : Prog F V → Prop
  | .ret _ => True
  | .read j k => P j ∧ ∀ v, (k v).Reads P

/-- Single-threaded evaluation of a program when the fields have content `σ`; `σ'` afterwards. To read field `i` from
user code is to evaluate `.read i .ret`. -/
inductive Eval [DecidableEq F] (bld : F → Prog F V) : (F → Option V) → Prog F V → V → (F → Option V) → Prop where
  | ret {σ v} : Eval bld σ (.ret v) v σ
  /-- the field has a value -/
  | hit {σ σ' j k u w} : σ j = some u → Eval bld σ (k u) w σ' → Eval bld σ (.read j k) w σ'
  /-- it has none: its builder runs and its value is kept -/
  | miss {σ σ₁ σ' j k u w} : σ j = none → Eval bld σ (bld j) u σ₁ →
      Eval bld (fun i => if i = j then some u else σ₁ i) (k u) w σ' → Eval bld σ (.read j k) w σ'

end Verif.Spec
