import Verif.Spec.InitTy
/-
A checker for the typing of generated expressions, equivalent to the specification; evaluation of well-typed
expressions gives values of the type.
-/
namespace Verif.Proof.InitTy
open Verif.Model.Init Verif.Spec.InitTy

def hasDefault : Ty → Bool
  | .t | .opt _ | .once _ => true
  | .cell a => hasDefault a
  | .lock _ a => hasDefault a
  | .proxy _ _ => false

theorem hasDefault_iff (τ : Ty) : hasDefault τ = true ↔ HasDefault τ := by
  induction τ with
  | t => simp [hasDefault, HasDefault.t]
  | opt a => simp [hasDefault, HasDefault.opt]
  | once a => simp [hasDefault, HasDefault.once]
  | cell a ih =>
    simp only [hasDefault, ih]
    exact ⟨.cell, fun h => by cases h; assumption⟩
  | lock as a ih =>
    simp only [hasDefault, ih]
    exact ⟨.lock _, fun h => by cases h; assumption⟩
  | proxy as f =>
    simp only [hasDefault, Bool.false_eq_true, false_iff]
    intro h; cases h

def check (Γ : TEnv) : Bool → IE → Ty → Bool
  | _, .dv _, τ => τ == .t
  | _, .sdv, τ => τ == .t
  | _, .dflt, τ => hasDefault τ
  | _, .none, τ => match τ with | .opt _ => true | _ => false
  | b, .some e, τ => match τ with | .opt a => check Γ b e a | _ => false
  | _, .onceNew, τ => match τ with | .once _ => true | _ => false
  | b, .onceFrom e, τ => match τ with | .once a => check Γ b e a | _ => false
  | b, .cellNew e, τ => match τ with | .cell a => check Γ b e a | _ => false
  | b, .lockNew as e, τ => match τ with | .lock as' a => as == as' && check Γ b e a | _ => false
  | b, .proxyNew as f e, τ => match τ with | .proxy as' f' => as == as' && f == f' && check Γ b e (.opt .t) | _ => false
  | _, .slotTake, τ => Γ.slot && τ == .opt .t
  | _, .slotUnwrap, τ => Γ.slot && τ == .t
  | b, .orElseSome e d, τ => match τ with | .opt a => check Γ b e (.opt a) && check Γ b d a | _ => false
  | b, .ifSlot e d, τ => Γ.slot && check Γ b e τ && check Γ b d τ
  | b, .ifLetSlot e d, τ => Γ.slot && check Γ true e τ && check Γ b d τ
  | b, .mapOrElse e d c, τ => check Γ b e (.opt .t) && check Γ b d τ && check Γ true c τ
  | b, .var, τ => b && τ == .t
  | _, .shadow, τ => Γ.shadow == some τ
  | _, .me, τ => Γ.me == some τ
  | _, .meTake, τ => 
    match Γ.me with
    | some (.once a) => τ == .opt a
    | some (.cell a) => τ == a
    | some (.opt a) => τ == .opt a
    | _ => false
  | _, .meIntoInner, τ =>
    match Γ.me with
    | some (.once a) => τ == .opt a
    | some (.cell a) => τ == a
    | some (.lock _ a) => τ == a
    | some (.proxy _ _) => τ == .opt .t
    | _ => false

theorem check_sound (Γ : TEnv) (e : IE) : ∀ (b : Bool) (τ : Ty), check Γ b e τ = true → HasTy Γ b e τ := by
  induction e with
  | dv f => intro b τ h; simp [check] at h; subst h; exact .dv
  | sdv => intro b τ h; simp [check] at h; subst h; exact .sdv
  | dflt => intro b τ h; exact .dflt ((hasDefault_iff τ).mp h)
  | none => intro b τ h; cases τ <;> simp [check] at h; exact .none
  | some e ih => intro b τ h; cases τ <;> simp [check] at h; exact .some (ih _ _ h)
  | onceNew => intro b τ h; cases τ <;> simp [check] at h; exact .onceNew
  | onceFrom e ih => intro b τ h; cases τ <;> simp [check] at h; exact .onceFrom (ih _ _ h)
  | cellNew e ih => intro b τ h; cases τ <;> simp [check] at h; exact .cellNew (ih _ _ h)
  | lockNew as e ih => intro b τ h; cases τ <;> simp [check] at h; obtain ⟨rfl, h⟩ := h; exact .lockNew (ih _ _ h)
  | proxyNew as f e ih =>
    intro b τ h; cases τ <;> simp [check] at h; obtain ⟨⟨rfl, rfl⟩, h⟩ := h; exact .proxyNew (ih _ _ h)
  | slotTake => intro b τ h; simp [check] at h; obtain ⟨h, rfl⟩ := h; exact .slotTake h
  | slotUnwrap => intro b τ h; simp [check] at h; obtain ⟨h, rfl⟩ := h; exact .slotUnwrap h
  | orElseSome e d ihe ihd =>
    intro b τ h; cases τ <;> simp [check] at h; exact .orElseSome (ihe _ _ h.1) (ihd _ _ h.2)
  | ifSlot e d ihe ihd => intro b τ h; simp [check] at h; exact .ifSlot h.1.1 (ihe _ _ h.1.2) (ihd _ _ h.2)
  | ifLetSlot e d ihe ihd => intro b τ h; simp [check] at h; exact .ifLetSlot h.1.1 (ihe _ _ h.1.2) (ihd _ _ h.2)
  | mapOrElse e d c ihe ihd ihc =>
    intro b τ h; simp [check] at h; exact .mapOrElse (ihe _ _ h.1.1) (ihd _ _ h.1.2) (ihc _ _ h.2)
  | var => intro b τ h; simp [check] at h; obtain ⟨rfl, rfl⟩ := h; exact .var
  | shadow => intro b τ h; simp [check] at h; exact .shadow h
  | me => intro b τ h; simp [check] at h; exact .me h
  | meTake =>
    intro b τ h
    rcases hm : Γ.me with _ | (_ | _ | _ | _ | _ | _) <;> simp [check, hm] at h
    · subst h; exact .takeOpt hm
    · subst h; exact .takeOnce hm
    · subst h; exact .takeCell hm
  | meIntoInner =>
    intro b τ h
    rcases hm : Γ.me with _ | (_ | _ | _ | _ | _ | _) <;> simp [check, hm] at h
    · subst h; exact .innerOnce hm
    · subst h; exact .innerCell hm
    · subst h; exact .innerLock hm
    · subst h; exact .innerProxy hm

theorem check_complete (Γ : TEnv) (b : Bool) (e : IE) (τ : Ty) (h : HasTy Γ b e τ) : check Γ b e τ = true := by
  induction h with
  | dflt h => exact (hasDefault_iff _).mpr h
  | takeOnce h => simp [check, h]
  | takeCell h => simp [check, h]
  | takeOpt h => simp [check, h]
  | innerOnce h => simp [check, h]
  | innerCell h => simp [check, h]
  | innerLock h => simp [check, h]
  | innerProxy h => simp [check, h]
  | _ => simp_all [check]

theorem check_iff (Γ : TEnv) (b : Bool) (e : IE) (τ : Ty) : check Γ b e τ = true ↔ HasTy Γ b e τ :=
  ⟨check_sound Γ e b τ, check_complete Γ b e τ⟩

instance (Γ : TEnv) (b : Bool) (e : IE) (τ : Ty) : Decidable (HasTy Γ b e τ) :=
  decidable_of_iff _ (check_iff Γ b e τ)

/-- The surroundings provide values of the types the environment tells. -/
structure EnvTy {V : Type} (Γ : TEnv) (b : Bool) (env : Env V) : Prop where
  shadow : ∀ τ, Γ.shadow = some τ → ValTy env.shadow τ
  me : ∀ τ, Γ.me = some τ → ValTy env.me τ
  var : b = true → env.var ≠ Option.none

theorem dfltAt_ty {V : Type} (d : V) {τ : Ty} (h : HasDefault τ) : ∃ a, dfltAt d τ = .ok a ∧ ValTy a τ := by
  induction h with
  | t => exact ⟨_, rfl, .val _⟩
  | opt a => exact ⟨_, rfl, .none⟩
  | once a => exact ⟨_, rfl, .once .none⟩
  | cell _ ih => obtain ⟨a, h1, h2⟩ := ih; exact ⟨_, by rw [dfltAt, h1]; rfl, .cell h2⟩
  | lock as _ ih => obtain ⟨a, h1, h2⟩ := ih; exact ⟨_, by rw [dfltAt, h1]; rfl, .lock h2⟩

theorem ofOpt_ty {V : Type} (o : Option V) : ValTy (ofOpt o) (.opt .t) := by
  cases o with
  | none => exact .none
  | some v => exact .some (.val v)

/-- A result that is a panic or a value of the type, never stuck. -/
def Good {V : Type} (τ : Ty) : Out V → Prop
  | .ok a => ValTy a τ
  | .panic => True
  | .stuck => False

theorem Good.map {V : Type} {τ σ : Ty} {o : Out V} {f : Val V → Val V} (h : Good τ o)
    (hf : ∀ a, ValTy a τ → ValTy (f a) σ) : Good σ (o.map f) := by
  cases o with
  | ok a => exact hf a h
  | panic => trivial
  | stuck => exact h

theorem eval_sound {V : Type} {Γ : TEnv} {b : Bool} {e : IE} {τ : Ty} (h : HasTy Γ b e τ) :
    ∀ (env : Env V) (slot : Option V), EnvTy Γ b env → Good τ (eval τ env slot e).1 := by
  induction h with
  | dv => intro env slot he; exact .val _
  | sdv => intro env slot he; exact .val _
  | dflt h => intro env slot he; obtain ⟨a, h1, h2⟩ := dfltAt_ty env.dflt h; simp only [eval, h1]; exact h2
  | none => intro env slot he; exact .none
  | some _ ih => intro env slot he; simp only [eval]; exact (ih env slot he).map fun a h => .some h
  | onceNew => intro env slot he; exact .once .none
  | onceFrom _ ih =>
    intro env slot he; simp only [eval]; exact (ih env slot he).map fun a h => .once (.some h)
  | cellNew _ ih => intro env slot he; simp only [eval]; exact (ih env slot he).map fun a h => .cell h
  | lockNew _ ih => intro env slot he; simp only [eval]; exact (ih env slot he).map fun a h => .lock h
  | proxyNew _ ih => intro env slot he; simp only [eval]; exact (ih env slot he).map fun a h => .proxy h
  | slotTake _ => intro env slot he; exact ofOpt_ty slot
  | slotUnwrap _ =>
    intro env slot he
    cases slot with
    | none => trivial
    | some v => exact .val v
  | orElseSome _ _ ihe ihd =>
    intro env slot he
    have h1 := ihe env slot he
    simp only [eval]
    split
    · rename_i s heq
      exact (ihd env s he).map fun a h => .some h
    · exact h1
  | ifSlot _ _ _ iha ihb =>
    intro env slot he
    simp only [eval]
    split
    · exact iha env slot he
    · exact ihb env slot he
  | ifLetSlot _ _ _ iha ihb =>
    intro env slot he
    cases slot with
    | none => exact ihb env _ he
    | some v => exact iha _ _ ⟨he.shadow, he.me, fun _ => by simp⟩
  | mapOrElse _ _ _ ihe ihd ihc =>
    intro env slot he
    have h1 := ihe env slot he
    simp only [eval]
    split
    · exact ihd env _ he
    · exact ihc _ _ ⟨he.shadow, he.me, fun _ => by simp⟩
    · rename_i a s hn hs heq
      rw [heq] at h1
      cases h1 with
      | none => exact absurd rfl (hn)
      | some h => cases h with | val v => exact absurd rfl (hs v)
    · rename_i o hn hs ho
      match ho' : (eval (.opt .t) env slot _), h1, ho with
      | (.ok a, s), h1, ho => exact absurd rfl (ho _ _)
      | (.panic, s), _, _ => trivial
  | var =>
    intro env slot he
    have := he.var rfl
    cases hv : env.var with
    | none => exact absurd hv this
    | some v => simp only [eval, hv]; exact .val v
  | shadow h => intro env slot he; exact he.shadow _ h
  | me h => intro env slot he; exact he.me _ h
  | takeOnce h =>
    intro env slot he
    have hm := he.me _ h
    cases hv : env.me <;> rw [hv] at hm <;> cases hm
    simp only [eval, hv]; assumption
  | takeCell h =>
    intro env slot he
    have hm := he.me _ h
    cases hv : env.me <;> rw [hv] at hm <;> cases hm
    simp only [eval, hv]; assumption
  | takeOpt h =>
    intro env slot he
    have hm := he.me _ h
    cases hv : env.me <;> rw [hv] at hm <;> cases hm
    · simp only [eval, hv]; exact .none
    · simp only [eval, hv]; exact .some (by assumption)
  | innerOnce h =>
    intro env slot he
    have hm := he.me _ h
    cases hv : env.me <;> rw [hv] at hm <;> cases hm
    simp only [eval, hv]; assumption
  | innerCell h =>
    intro env slot he
    have hm := he.me _ h
    cases hv : env.me <;> rw [hv] at hm <;> cases hm
    simp only [eval, hv]; assumption
  | innerLock h =>
    intro env slot he
    have hm := he.me _ h
    cases hv : env.me <;> rw [hv] at hm <;> cases hm
    simp only [eval, hv]; assumption
  | innerProxy h =>
    intro env slot he
    have hm := he.me _ h
    cases hv : env.me <;> rw [hv] at hm <;> cases hm
    simp only [eval, hv]; assumption

end Verif.Proof.InitTy
