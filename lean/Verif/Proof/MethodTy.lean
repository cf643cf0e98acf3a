import Verif.Spec.MethodTy
/-
A checker for the typing of method bodies, equivalent to the specification.
-/
namespace Verif.Proof.MethodTy
open Verif.Model.Init Verif.Model.Method Verif.Spec.MethodTy

def data : Ty → Bool
  | .t | .opt .t => true
  | _ => false

theorem data_iff (τ : Ty) : data τ = true ↔ Data τ := by
  constructor
  · intro h
    rcases τ with _ | (_ | _ | _ | _ | _ | _) | _ | _ | _ | _ <;> simp [data] at h
    · exact .t
    · exact .opt
  · intro h; cases h <;> rfl

theorem guardMut_iff (g : Guard) : guardMut g = true ↔ MutGuard g := by
  constructor
  · intro h; cases g <;> simp [guardMut] at h <;> constructor
  · intro h; cases h <;> rfl

/-- The type after an operation. -/
def inferOp (Γ : MEnv) (c : CTy) (op : MOp) : Option CTy :=
  match op, c with
  | .amp, .place _ l τ => some (.ref false l τ)
  | .ampMut, .place true l τ => some (.ref true l τ)
  | .star, .ref m l τ => some (.place m l τ)
  | .star, .guard g τ => some (.place (guardMut g) true τ)
  | .copyVal, .place _ _ τ => if Γ.copyT && data τ then some (.own τ) else none
  | .clone, .place _ _ τ | .clone, .ref _ _ τ | .clone, .guard _ τ => if data τ then some (.own τ) else none
  | .asRef, .place _ l (.opt .t) | .asRef, .ref _ l (.opt .t) => some (.optRef false l)
  | .asRef, .guard _ (.opt .t) => some (.optRef false true)
  | .copied, .optRef _ _ => if Γ.copyT then some (.own (.opt .t)) else none
  | .cloned, .optRef _ _ => some (.own (.opt .t))
  | .borrow, .place _ false (.cell τ) => some (.guard .ref τ)
  | .borrowMut, .place _ false (.cell τ) => some (.guard .refMut τ)
  | .replaceV, .place _ _ (.cell .t) => some (.own .t)
  | .replaceSomeV, .place _ _ (.cell (.opt .t)) => some (.own (.opt .t))
  | .take, .place _ _ (.cell τ) => if data τ then some (.own τ) else none
  | .getOrInit _, .place _ l (.once .t) => some (.ref false l .t)
  | .getOrTryInit _, .place _ l (.once .t) => some (.res (.ref false l .t))
  | .get, .place _ l (.once .t) => some (.optRef false l)
  | .getMut, .place true l (.once .t) => some (.optRef true l)
  | .take, .place true _ (.once .t) => some (.own (.opt .t))
  | .setV, .place _ _ (.once .t) => some .unitRes
  | .unwrap, .optRef m l => some (.ref m l .t)
  | .take, .place true _ (.opt .t) => some (.own (.opt .t))
  | .take, .guard g (.opt .t) => if guardMut g then some (.own (.opt .t)) else none
  | .replaceV, .place true _ (.opt .t) => some (.own (.opt .t))
  | .replaceV, .guard g (.opt .t) => if guardMut g then some (.own (.opt .t)) else none
  | .isSome, .place _ _ (.opt .t) | .isSome, .guard _ (.opt .t) | .isSome, .optRef _ _ | .isSome, .optGuard _ _ => some .bool
  | .memReplaceV, .ref true _ .t => some (.own .t)
  | .read, .place _ false (.lock a τ) => some (call? a (.guard (.read a) τ))
  | .tryRead, .place _ false (.lock false τ) => some (.optGuard (.read false) τ)
  | .tryRead, .place _ false (.lock true τ) => some (.tryGuard (.read true) τ)
  | .write, .place _ false (.lock a τ) => some (call? a (.guard (.write a) τ))
  | .write, .place _ false (.proxy a _) => some (call? a (.guard (.fx a) (.opt .t)))
  | .storeV, .guard (.fx _) (.opt .t) => some (.own (.opt .t))
  | .clear, .place _ false (.proxy a _) => some (call? a (.own (.opt .t)))
  | .isSet, .place _ false (.proxy _ _) => some .bool
  | .lazyRead _ mu false, .place _ false (.proxy a _) => some (call? a (.guard (lazyGuard a mu) .t))
  | .lazyRead _ mu true, .place _ false (.proxy a _) => some (call? a (.res (.guard (lazyGuard a mu) .t)))
  | .await, .fut c => if Γ.isAsync then some c else none
  | .question, .res c => if Γ.retRes then some c else none
  | .okWrap, c => some (.res c)
  | _, _ => none

theorem inferOp_complete {Γ : MEnv} {c : CTy} {op : MOp} {c' : CTy} (h : OpTy Γ c op c') : inferOp Γ c op = some c' := by
  cases h <;> simp_all [inferOp, data_iff, guardMut_iff]

set_option maxHeartbeats 2000000 in
theorem inferOp_sound {Γ : MEnv} {c : CTy} {op : MOp} {c' : CTy} (h : inferOp Γ c op = some c') : OpTy Γ c op c' := by
  unfold inferOp at h
  split at h <;> (try split at h) <;>
    first
    | (simp only [Option.some.injEq] at h; subst h
       first
       | (constructor; done)
       | (constructor; assumption)
       | (rename_i hc; simp only [Bool.and_eq_true, data_iff, guardMut_iff] at hc
          first | (constructor <;> simp_all; done) | exact OpTy.copyVal hc.1 hc.2))
    | (simp at h; done)

theorem inferOp_iff (Γ : MEnv) (c : CTy) (op : MOp) (c' : CTy) : inferOp Γ c op = some c' ↔ OpTy Γ c op c' :=
  ⟨inferOp_sound, inferOp_complete⟩

/-- The type after a chain. -/
def infer (Γ : MEnv) (c : CTy) : List MOp → Option CTy
  | [] => some c
  | op :: ops => (inferOp Γ c op).bind (fun c' => infer Γ c' ops)

theorem infer_iff (Γ : MEnv) (ops : List MOp) : ∀ c c', infer Γ c ops = some c' ↔ ChainTy Γ c ops c' := by
  induction ops with
  | nil =>
    intro c c'
    simp only [infer, Option.some.injEq]
    exact ⟨fun h => h ▸ .nil, fun h => by cases h; rfl⟩
  | cons op ops ih =>
    intro c c'
    simp only [infer, Option.bind_eq_some_iff, inferOp_iff, ih]
    constructor
    · rintro ⟨d, h1, h2⟩; exact .cons h1 h2
    · intro h; cases h with | cons h1 h2 => exact ⟨_, h1, h2⟩

/-- Does the method type-check? -/
def checkBody (τ : Ty) (copyT : Bool) (b : Body) : Bool :=
  let Γ := envOf b copyT
  let c := CTy.place b.recvMut false τ
  match b.pre with
  | none => !b.retPre && infer Γ c b.main == some b.ret
  | some p =>
    if b.retPre then infer Γ c p == some b.ret && (infer Γ c b.main).isSome
    else (infer Γ c p).isSome && infer Γ c b.main == some b.ret

theorem checkBody_iff (τ : Ty) (copyT : Bool) (b : Body) : checkBody τ copyT b = true ↔ BodyTy τ copyT b := by
  rcases hp : b.pre with _ | p <;> rcases hr : b.retPre with _ | _ <;>
    simp [checkBody, hp, hr, infer_iff, Option.isSome_iff_exists]
  · constructor
    · exact fun h => .one hp hr h
    · intro h; cases h <;> simp_all
  · intro h; cases h <;> simp_all
  · constructor
    · rintro ⟨⟨c, h⟩, h'⟩; exact .second hp hr h h'
    · intro h
      cases h with
      | one h => simp_all
      | second h1 h2 h3 h4 => rw [hp] at h1; cases h1; exact ⟨⟨_, h3⟩, h4⟩
      | first h1 h2 => simp_all
  · constructor
    · rintro ⟨h, c, h'⟩; exact .first hp hr h h'
    · intro h
      cases h with
      | one h => simp_all
      | second h1 h2 => simp_all
      | first h1 h2 h3 h4 => rw [hp] at h1; cases h1; exact ⟨h3, _, h4⟩

instance (τ : Ty) (copyT : Bool) (b : Body) : Decidable (BodyTy τ copyT b) :=
  decidable_of_iff _ (checkBody_iff τ copyT b)

end Verif.Proof.MethodTy
