import Verif.Model.Traits
import Verif.Spec.Traits
import Verif.Proof.Expand
/-
C107: which structs are `Send` and `Sync`, when async lazy fields compile, and whether the futures of async helpers are `Send`.
C108: which traits users can derive.
-/
namespace Verif.Props.Traits
open Verif.Model.Args Verif.Model.Init Verif.Model.Structs Verif.Model.Expand Verif.Model.Traits Verif.Spec.Traits

/-! ### One field -/

/-- Containers keep `Send`. -/
theorem expand_send (sg : Bool) (u o : Auto → Bool) (τ : Ty) : auto sg u o (expand τ) .send = u .send := by
  induction τ with
  | t => rfl
  | opt a ih => simpa [expand, auto] using ih
  | once a ih => simpa [expand, auto] using ih
  | cell a ih => simpa [expand, auto] using ih
  | lock as a ih => simpa [expand, lock, auto] using ih
  | proxy as fa => cases as <;> simp [expand, proxy, wrapper, auto]

theorem field_send (c : Ctx) (f : FieldArgs) (u o : Auto → Bool) : auto false u o (fieldTy c f) .send = u .send := by
  unfold fieldTy
  split
  · exact expand_send _ _ _ _
  · rfl

theorem field_sync (c : Ctx) (f : FieldArgs) (u o : Auto → Bool) (hg : ∃ τ, declType ⟨c, f⟩ = .ok τ) :
    auto false u o (fieldTy c f) .sync = true ↔ Shared (wrap ⟨c, f⟩) (u .send = true) (u .sync = true) := by
  obtain ⟨τ, hτ⟩ := hg
  unfold fieldTy
  rw [hτ]
  simp only
  revert hτ
  unfold declType syncType plainType builderWrapper useAsync wrap
  generalize (FCtx.mk c f).isSync = sy
  generalize (FCtx.mk c f).isLazy = lz
  generalize (FCtx.mk c f).isOptional = op
  generalize (FCtx.mk c f).needsLock = lk
  generalize (FCtx.mk c f).isInnerMut = im
  generalize (FCtx.mk c f).isAsync = ay
  generalize (FCtx.mk c f).isFallible = fa
  generalize hasErrorType ⟨c, f⟩ = he
  generalize (FCtx.mk c f).field.isSkipped = sk
  cases sy <;> cases lz <;> cases op <;> cases lk <;> cases im <;> cases sk <;> cases fa <;> cases he <;>
    simp [Bind.bind, Gen.bind, pure] <;> intros <;> subst_vars <;> cases ay <;>
    simp [expand, auto, Shared, lock, proxy, wrapper]

/-! ### The hidden field -/

theorem hidden_sync (c : Ctx) (n : String) : (FCtx.mk c (hidden n)).isSync = c.isRatherSync := rfl

theorem hidden_bare (c : Ctx) (n : String) (h : c.isRatherSync = true) : wrap ⟨c, hidden n⟩ = .bare := by
  unfold wrap
  rw [hidden_sync, h]
  rfl

/-- The fields `rc` adds. -/
theorem extra_eq (s : StructArgs) (fs : List FieldArgs) :
    (s.isRefCounted = false ∧ (prepare s fs).extra = []) ∨
      (s.isRefCounted = true ∧ ∃ n, (prepare s fs).extra = [hidden n]) := by
  unfold prepare myselfField StructArgs.isRefCounted
  cases s.rc with
  | none => exact .inl ⟨rfl, rfl⟩
  | some h =>
    cases hh : h.isTrue with
    | false => exact .inl ⟨by simp [hh], by simp [hh]⟩
    | true => exact .inr ⟨by simp [hh], "__weak_" ++ h.name.getD "myself", by simp [hh]⟩

/-- There is code for the declarations. -/
def Declared (c : Ctx) : Prop := ∀ f ∈ c.allFields, ∃ τ, declType ⟨c, f⟩ = .ok τ

/-- All types the user wrote are `Send`. -/
def AllSend (fs : List FieldArgs) (user : String → Auto → Bool) : Prop := ∀ f ∈ fs, user f.ident .send = true

/-- All fields can be shared. -/
def AllShared (s : StructArgs) (fs : List FieldArgs) (user : String → Auto → Bool) : Prop :=
  ∀ f ∈ fs, Shared (wrap ⟨prepare s fs, f⟩) (user f.ident .send = true) (user f.ident .sync = true)

theorem round_send (s : StructArgs) (fs : List FieldArgs) (user : String → Auto → Bool) (o : Auto → Bool) :
    round (prepare s fs) user o .send = true ↔ AllSend fs user ∧
      (s.isRefCounted = true → (prepare s fs).isRatherSync = true ∧ o .send = true ∧ o .sync = true) := by
  unfold round AllSend
  simp only [field_send, Bool.and_eq_true, List.all_eq_true]
  rcases extra_eq s fs with ⟨h1, h2⟩ | ⟨h1, n, h2⟩ <;>
    rw [h2] <;> simp [h1, weak, prepare] <;> exact and_comm

theorem round_sync (s : StructArgs) (fs : List FieldArgs) (hg : Declared (prepare s fs)) (user : String → Auto → Bool)
    (o : Auto → Bool) :
    round (prepare s fs) user o .sync = true ↔ AllShared s fs user ∧
      (s.isRefCounted = true → (prepare s fs).isRatherSync = true ∧ o .send = true ∧ o .sync = true) := by
  have hf : (∀ f ∈ (prepare s fs).fields, auto false (user f.ident) o (fieldTy (prepare s fs) f) .sync = true) ↔
      AllShared s fs user :=
    forall_congr' fun f => forall_congr' fun hm =>
      field_sync _ f _ _ (hg f (List.mem_append_right _ hm))
  unfold round
  rw [Bool.and_eq_true, List.all_eq_true, List.all_eq_true, hf]
  rcases extra_eq s fs with ⟨h1, h2⟩ | ⟨h1, n, h2⟩
  · rw [h2]; simp [h1]
  · have hm : hidden n ∈ (prepare s fs).allFields := List.mem_append_left _ (by rw [h2]; exact List.mem_singleton.2 rfl)
    have hs := field_sync (prepare s fs) (hidden n) (weak (prepare s fs).isRatherSync o) o (hg _ hm)
    rw [h2]
    simp only [List.mem_singleton, forall_eq, h1, hs]
    constructor
    · rintro ⟨ha, hb⟩
      refine ⟨hb, fun _ => ?_⟩
      revert ha
      cases hr : (prepare s fs).isRatherSync with
      | true => rw [hidden_bare _ _ hr]; simp [Shared, weak]
      | false => cases wrap ⟨prepare s fs, hidden n⟩ <;> simp [Shared, weak]
    · rintro ⟨hb, hc⟩
      obtain ⟨hr, h3, h4⟩ := hc trivial
      exact ⟨by rw [hidden_bare _ _ hr]; simp [Shared, weak, hr, h3, h4], hb⟩

/-! ### The struct -/

/-- Supposing more of the struct gives more. -/
theorem round_mono (s : StructArgs) (fs : List FieldArgs) (hg : Declared (prepare s fs)) (user : String → Auto → Bool)
    {o p : Auto → Bool} (h : ∀ t, o t = true → p t = true) (t : Auto) (ht : round (prepare s fs) user o t = true) :
    round (prepare s fs) user p t = true := by
  cases t with
  | send =>
    rw [round_send] at ht ⊢
    exact ⟨ht.1, fun hr => ⟨(ht.2 hr).1, h _ (ht.2 hr).2.1, h _ (ht.2 hr).2.2⟩⟩
  | sync =>
    rw [round_sync _ _ hg] at ht ⊢
    exact ⟨ht.1, fun hr => ⟨(ht.2 hr).1, h _ (ht.2 hr).2.1, h _ (ht.2 hr).2.2⟩⟩

theorem struct_rule (s : StructArgs) (fs : List FieldArgs) (hg : Declared (prepare s fs)) (user : String → Auto → Bool) :
    (structAuto (prepare s fs) user .send = true ↔ AllSend fs user ∧
      (s.isRefCounted = true → (prepare s fs).isRatherSync = true ∧ AllShared s fs user)) ∧
    (structAuto (prepare s fs) user .sync = true ↔ AllShared s fs user ∧
      (s.isRefCounted = true → (prepare s fs).isRatherSync = true ∧ AllSend fs user)) := by
  unfold structAuto
  simp only [round_send, round_sync s fs hg]
  by_cases hr : s.isRefCounted = true
  · simp only [hr, forall_const]
    constructor <;> constructor
    · rintro ⟨a, b, ⟨_, _⟩, ⟨c, _⟩⟩; exact ⟨a, b, c⟩
    · rintro ⟨a, b, c⟩; simp [a, b, c]
    · rintro ⟨a, b, ⟨c, _⟩, _⟩; exact ⟨a, b, c⟩
    · rintro ⟨a, b, c⟩; simp [a, b, c]
  · simp [hr]

/-- **C107.** The struct has the auto traits which can be supposed of it consistently. -/
theorem C107_auto (s : StructArgs) (fs : List FieldArgs) (hg : Declared (prepare s fs)) (user : String → Auto → Bool) (t : Auto) :
    structAuto (prepare s fs) user t = true ↔ Coinductive (round (prepare s fs) user) t := by
  obtain ⟨h1, h2⟩ := struct_rule s fs hg user
  constructor
  · intro h
    refine ⟨structAuto (prepare s fs) user, fun b hb => ?_, h⟩
    cases b with
    | send =>
      rw [round_send, h1, h2]
      rw [h1] at hb
      exact ⟨hb.1, fun hr => ⟨(hb.2 hr).1, hb, (hb.2 hr).2, fun _ => ⟨(hb.2 hr).1, hb.1⟩⟩⟩
    | sync =>
      rw [round_sync _ _ hg, h1, h2]
      rw [h2] at hb
      exact ⟨hb.1, fun hr => ⟨(hb.2 hr).1, ⟨(hb.2 hr).2, fun _ => ⟨(hb.2 hr).1, hb.1⟩⟩, hb⟩⟩
  · rintro ⟨o, ho, ht⟩
    have step : ∀ p : Auto → Bool, (∀ t, o t = true → p t = true) → ∀ t, o t = true → round (prepare s fs) user p t = true :=
      fun p hp t h => round_mono s fs hg user hp t (ho t h)
    exact step _ (step _ (step _ fun _ _ => rfl)) t ht

/-- **C107.** The struct is `Send` exactly if all types the user wrote are, whatever stands around them; and if it is reference counted
also all that makes it `Sync` is needed, and an `Arc`. -/
theorem C107_send_iff (s : StructArgs) (fs : List FieldArgs) (hg : Declared (prepare s fs)) (user : String → Auto → Bool) :
    structAuto (prepare s fs) user .send = true ↔ AllSend fs user ∧
      (s.isRefCounted = true → (prepare s fs).isRatherSync = true ∧ AllShared s fs user) :=
  (struct_rule s fs hg user).1

/-- **C107.** The struct is `Sync` exactly if no field is a cell for one thread, types within locks are `Send` and `Sync`, and others
are `Sync`; and if it is reference counted also an `Arc` is needed and that all types are `Send`. -/
theorem C107_sync_iff (s : StructArgs) (fs : List FieldArgs) (hg : Declared (prepare s fs)) (user : String → Auto → Bool) :
    structAuto (prepare s fs) user .sync = true ↔ AllShared s fs user ∧
      (s.isRefCounted = true → (prepare s fs).isRatherSync = true ∧ AllSend fs user) :=
  (struct_rule s fs hg user).2

/-- **C107.** The documented rule for sync structs: if all fields are lock-protected, or left as they are, and their types `Send` and
`Sync`, so is the struct. What is missing: fields that opt out of `sync` (`C107_lock_off_false`), types which are not `Sync`
(`C107_protected_false`). -/
theorem C107_documented_partial (s : StructArgs) (fs : List FieldArgs) (hg : Declared (prepare s fs))
    (hs : s.isSync = some true) (hf : ∀ f ∈ fs, f.isSync ≠ some false) (user : String → Auto → Bool)
    (hu : ∀ f ∈ fs, ∀ t, user f.ident t = true) (t : Auto) : structAuto (prepare s fs) user t = true := by
  have hr : (prepare s fs).isRatherSync = true := by
    show (s.isSync.getD _) = true
    rw [hs]; rfl
  have h1 : AllSend fs user := fun f hf => hu f hf _
  have h2 : AllShared s fs user := by
    intro f hm
    have hy : (FCtx.mk (prepare s fs) f).isSync = true := by
      show f.isSync.getD (prepare s fs).isRatherSync = true
      rw [hr]
      have := hf f hm
      revert this
      cases f.isSync with
      | none => intro; rfl
      | some b => cases b <;> simp
    unfold wrap
    rw [hy]
    simp only [if_true]
    split
    · exact ⟨hu f hm _, hu f hm _⟩
    · exact hu f hm _
  cases t with
  | send => exact (C107_send_iff s fs hg user).2 ⟨h1, fun _ => ⟨hr, h2⟩⟩
  | sync => exact (C107_sync_iff s fs hg user).2 ⟨h2, fun _ => ⟨hr, h1⟩⟩

theorem declared_of {c : Ctx} (h : c.allFields.all (fun f => match declType ⟨c, f⟩ with | .ok _ => true | _ => false) = true) :
    Declared c := by
  intro f hf
  have := List.all_eq_true.1 h f hf
  revert this
  cases declType ⟨c, f⟩ <;> simp

/-- A sync struct with a lazy field that is not to be locked. -/
def exOff : List FieldArgs := [{ ident := "a", lazy := some {}, lock := some false }]

/-- **C107.** `lock(off)` makes a lazy field of a sync struct a cell for one thread: the struct is not `Sync` though all types are. -/
theorem C107_lock_off_false : ∃ (s : StructArgs) (fs : List FieldArgs) (out : List Piece), s.isSync = some true ∧
    fxstruct true s fs {} = .code out [] ∧ structAuto (prepare s fs) (fun _ _ => true) .sync = false :=
  ⟨{ modeSync := some true }, exOff, Verif.Proof.Expand.finalOut (prepare { modeSync := some true } exOff) {},
    by decide +kernel, by decide +kernel, by decide +kernel⟩

/-- **C107.** Locks do not make up for a type that is not `Sync`: all fields are protected and `Send`, and the struct is not `Sync`. -/
theorem C107_protected_false : ∃ (s : StructArgs) (fs : List FieldArgs) (out : List Piece) (user : String → Auto → Bool),
    s.isSync = some true ∧ fxstruct true s fs {} = .code out [] ∧ (∀ f ∈ fs, wrap ⟨prepare s fs, f⟩ = .guarded) ∧
    AllSend fs user ∧ structAuto (prepare s fs) user .sync = false :=
  ⟨{ modeSync := some true }, [{ ident := "a", lock := some true }],
    Verif.Proof.Expand.finalOut (prepare { modeSync := some true } [{ ident := "a", lock := some true }]) {},
    fun _ t => t == .send, by decide +kernel, by decide +kernel, by decide +kernel, by unfold AllSend; decide +kernel,
    by decide +kernel⟩

/-! ### Async -/

theorem hidden_decl (c : Ctx) (n : String) (fa : Bool) : declType ⟨c, hidden n⟩ ≠ .ok (.proxy true fa) := by
  have hk : (FCtx.mk c (hidden n)).field.isSkipped = true := rfl
  have hl : (FCtx.mk c (hidden n)).isLazy = false := rfl
  unfold declType syncType plainType builderWrapper useAsync
  rw [hk, hl]
  cases (FCtx.mk c (hidden n)).isSync <;> cases (FCtx.mk c (hidden n)).isFallible <;> cases hasErrorType ⟨c, hidden n⟩ <;>
    cases (FCtx.mk c (hidden n)).isOptional <;> cases (FCtx.mk c (hidden n)).isInnerMut <;>
    simp [Bind.bind, Gen.bind, pure]

theorem proxy_iff (x : FCtx) (hg : ∃ τ, declType x = .ok τ) :
    (∃ fa, declType x = .ok (.proxy true fa)) ↔
      x.isSync = true ∧ x.isAsync = true ∧ x.isLazy = true ∧ x.field.isSkipped = false := by
  obtain ⟨τ, hτ⟩ := hg
  revert hτ
  unfold declType syncType plainType builderWrapper useAsync
  cases x.isSync <;> cases x.isLazy <;> cases x.isOptional <;> cases x.needsLock <;> cases x.isInnerMut <;> cases x.isAsync <;>
    cases x.isFallible <;> cases hasErrorType x <;> cases x.field.isSkipped <;> simp [Bind.bind, Gen.bind, pure]

/-- **C107.** Declarations of async lazy fields compile exactly if the struct is `Sync`. -/
theorem C107_async_iff (s : StructArgs) (fs : List FieldArgs) (hg : Declared (prepare s fs)) (user : String → Auto → Bool) :
    wellFormed (prepare s fs) user = true ↔
      ((∃ f ∈ fs, (FCtx.mk (prepare s fs) f).isSync = true ∧ (FCtx.mk (prepare s fs) f).isAsync = true ∧
        (FCtx.mk (prepare s fs) f).isLazy = true ∧ f.isSkipped = false) → structAuto (prepare s fs) user .sync = true) := by
  unfold wellFormed
  rw [List.all_eq_true]
  constructor
  · rintro h ⟨f, hf, hx⟩
    have hm : f ∈ (prepare s fs).allFields := List.mem_append_right _ hf
    obtain ⟨fa, hd⟩ := (proxy_iff ⟨prepare s fs, f⟩ (hg f hm)).2 hx
    have := h f hm
    rw [hd] at this
    exact this
  · intro h f hm
    cases hd : declType ⟨prepare s fs, f⟩ with
    | error => rfl
    | panic => rfl
    | ok τ =>
      cases τ with
      | proxy as fa =>
        cases as with
        | false => rfl
        | true =>
          refine h ?_
          rcases List.mem_append.1 hm with hm' | hm'
          · rcases extra_eq s fs with ⟨_, h2⟩ | ⟨_, n, h2⟩
            · rw [h2] at hm'; cases hm'
            · rw [h2, List.mem_singleton] at hm'
              subst hm'
              exact absurd hd (hidden_decl _ _ _)
          · exact ⟨f, hm', (proxy_iff ⟨prepare s fs, f⟩ ⟨_, hd⟩).1 ⟨fa, hd⟩⟩
      | _ => rfl

/-- **C107.** Hence an async struct, accepted without errors, with types that are all `Send` and `Sync`, need not compile: a cell for one
thread beside a lazy field is enough. -/
theorem C107_async_false : ∃ (s : StructArgs) (fs : List FieldArgs) (out : List Piece), s.isAsync = some true ∧
    fxstruct true s fs {} = .code out [] ∧ wellFormed (prepare s fs) (fun _ _ => true) = false :=
  let fs : List FieldArgs := [{ ident := "a", lazy := some {} }, { ident := "b", innerMut := some true }]
  ⟨{ modeAsync := some true }, fs, Verif.Proof.Expand.finalOut (prepare { modeAsync := some true } fs) {},
    by decide +kernel, by decide +kernel, by decide +kernel⟩

/-- The types of async containers. -/
theorem async_form (x : FCtx) (τ : Ty) (hτ : declType x = .ok τ) (u : Use) (hn : awaits x τ u ≠ []) :
    wrap x = .guarded ∧ ((∃ fa, τ = .proxy true fa) ∨ τ = .lock true .t ∨ τ = .lock true (.opt .t)) := by
  have ha : (∃ fa, τ = .proxy true fa) ∨ ∃ a, τ = .lock true a := by
    cases τ with
    | proxy as fa => cases as with
      | true => exact .inl ⟨_, rfl⟩
      | false => exact absurd rfl hn
    | lock as a => cases as with
      | true => exact .inr ⟨_, rfl⟩
      | false => exact absurd rfl hn
    | _ => exact absurd rfl hn
  clear hn
  revert hτ ha
  unfold declType syncType plainType builderWrapper useAsync wrap
  cases x.isSync <;> cases x.isLazy <;> cases x.isOptional <;> cases x.needsLock <;> cases x.isInnerMut <;>
    cases x.isFallible <;> cases hasErrorType x <;> cases x.field.isSkipped <;> cases x.isAsync <;>
    simp [Bind.bind, Gen.bind, pure] <;> intro h <;> subst h <;> simp

/-- **C107.** The futures of async helpers can be moved between threads exactly if the struct is `Sync`: at every `await`, in the helper
and in the container, all that is alive is `Send`. -/
theorem C107_futures (s : StructArgs) (fs : List FieldArgs) (hg : Declared (prepare s fs)) (user : String → Auto → Bool)
    (f : FieldArgs) (hf : f ∈ fs) (τ : Ty) (hτ : declType ⟨prepare s fs, f⟩ = .ok τ) (u : Use)
    (hn : awaits ⟨prepare s fs, f⟩ τ u ≠ []) (sg : Bool) :
    (∀ a ∈ awaits ⟨prepare s fs, f⟩ τ u, auto sg (user f.ident) (structAuto (prepare s fs) user) a .send = true) ↔
      structAuto (prepare s fs) user .sync = true := by
  obtain ⟨hw, hform⟩ := async_form _ τ hτ u hn
  have hi : structAuto (prepare s fs) user .sync = true → (user f.ident .send = true ∧ user f.ident .sync = true) ∧
      (s.isRefCounted = true → (prepare s fs).isRatherSync = true ∧ structAuto (prepare s fs) user .send = true) := by
    intro h
    obtain ⟨hall, hrc⟩ := (C107_sync_iff s fs hg user).1 h
    have hx := hall f hf
    rw [hw] at hx
    exact ⟨hx, fun hr => ⟨(hrc hr).1, (C107_send_iff s fs hg user).2 ⟨(hrc hr).2, fun _ => ⟨(hrc hr).1, hall⟩⟩⟩⟩
  have ha : (prepare s fs).args = s := rfl
  clear hn hτ
  revert hi
  unfold awaits
  simp only [ha]
  generalize structAuto (prepare s fs) user = o
  generalize user f.ident = v
  generalize (prepare s fs).isRatherSync = r
  generalize s.isRefCounted = k
  rcases hform with ⟨fa, rfl⟩ | rfl | rfl <;> cases u <;> cases k <;>
    simp [auto, proxy, wrapper, lock, expand] <;> cases o .send <;> cases o .sync <;> cases v .send <;> cases v .sync <;>
    cases r <;> simp

/-- **C107.** So where there is a lazy async field that compiles, all futures of async helpers can be moved between threads. -/
theorem C107_futures_lazy (s : StructArgs) (fs : List FieldArgs) (hg : Declared (prepare s fs)) (user : String → Auto → Bool)
    (hw : wellFormed (prepare s fs) user = true)
    (hz : ∃ f ∈ fs, (FCtx.mk (prepare s fs) f).isSync = true ∧ (FCtx.mk (prepare s fs) f).isAsync = true ∧
      (FCtx.mk (prepare s fs) f).isLazy = true ∧ f.isSkipped = false)
    (f : FieldArgs) (hf : f ∈ fs) (τ : Ty) (hτ : declType ⟨prepare s fs, f⟩ = .ok τ) (u : Use) (sg : Bool) :
    ∀ a ∈ awaits ⟨prepare s fs, f⟩ τ u, auto sg (user f.ident) (structAuto (prepare s fs) user) a .send = true := by
  intro a ha
  exact (C107_futures s fs hg user f hf τ hτ u (fun h => by rw [h] at ha; cases ha) sg).2
    ((C107_async_iff s fs hg user).1 hw hz) a ha

/-! ### Guards -/

/-- **C107.** What `myself()` gives, an `Arc` or `Rc` of the struct, can be moved to or shared with another thread exactly if the struct is
`Sync`. -/
theorem C107_myself (s : StructArgs) (fs : List FieldArgs) (hg : Declared (prepare s fs)) (user : String → Auto → Bool)
    (hr : s.isRefCounted = true) (sg : Bool) (v : Auto → Bool) (t : Auto) :
    auto sg v (structAuto (prepare s fs) user) (.strong (prepare s fs).isRatherSync) t = true ↔
      structAuto (prepare s fs) user .sync = true := by
  simp only [auto, Bool.and_eq_true]
  rw [C107_send_iff s fs hg, C107_sync_iff s fs hg]
  constructor
  · exact fun h => h.2.2
  · exact fun h => ⟨(h.2 hr).1, ⟨(h.2 hr).2, fun _ => ⟨(h.2 hr).1, h.1⟩⟩, h⟩

/-- Not with `Rc`, whatever the types are. -/
example : auto true (fun _ => true) (fun _ => true) (.strong false) .send = false := rfl

/-- **C107.** The guard a lazy field's writer gives is never `Sync`; for contents which are `Send` and `Sync` it can be moved to another
thread exactly if the field is async or the feature `send_guard` is on. -/
theorem C107_guards (sg as : Bool) (v o : Auto → Bool) :
    auto sg v o (fxGuard as) .sync = false ∧
    ((∀ t, v t = true) → (auto sg v o (fxGuard as) .send = true ↔ as = true ∨ sg = true)) := by
  constructor
  · simp [fxGuard, auto]
  · intro h
    cases as <;> cases sg <;> simp [fxGuard, auto, proxy, wrapper, h]

/-- **C107.** The guard a reader or writer of a locked field gives can be moved to another thread exactly if the type is `Sync`, and
`Send` too unless the guard only reads and is async, and the feature `send_guard` is on or the field is async. It can be shared exactly
if the type is both. -/
theorem C107_lock_guards (x : FCtx) (as : Bool) (a : Ty) (h : declType x = .ok (.lock as a)) (sg writes : Bool) (v o : Auto → Bool) :
    (auto sg v o (.guard as writes (expand a)) .send = true ↔
      v .sync = true ∧ (as = false ∨ writes = true → v .send = true) ∧ (as = false → sg = true)) ∧
    (auto sg v o (.guard as writes (expand a)) .sync = true ↔ v .send = true ∧ v .sync = true) := by
  have ha : a = .t ∨ a = .opt .t := by
    revert h
    unfold declType syncType plainType builderWrapper
    cases x.isSync <;> cases x.isLazy <;> cases x.isOptional <;> cases x.needsLock <;> cases x.isInnerMut <;>
      cases x.isFallible <;> cases hasErrorType x <;> cases x.field.isSkipped <;>
      simp [Bind.bind, Gen.bind, pure] <;> intros <;> subst_vars <;> simp
  rcases ha with rfl | rfl <;> cases as <;> cases writes <;>
    simp only [auto, expand] <;> cases v .send <;> cases v .sync <;> cases sg <;> decide

/-- An async reader over contents which are `Sync` only: the guard moves, that of the writer does not. -/
example : declType ⟨prepare { modeAsync := some true } [{ ident := "a", reader := some {}, optional := some true }],
      { ident := "a", reader := some {}, optional := some true }⟩ = .ok (.lock true (.opt .t)) ∧
    auto false (fun t => t == .sync) (fun _ => true) (.guard true false (expand (.opt .t))) .send = true ∧
    auto false (fun t => t == .sync) (fun _ => true) (.guard true true (expand (.opt .t))) .send = false := by decide +kernel

/-! ### Derives -/

theorem skipped_flags (x : FCtx) (h : x.field.isSkipped = true) : x.isLazy = false ∧ x.isOptional = false := by
  have h' : x.field.skip = true := h
  constructor
  · simp [FCtx.isLazy, FieldArgs.isLazy, FieldArgs.isSkipped, h']
  · simp [FCtx.isOptional, FieldArgs.isSkipped, h']

set_option maxHeartbeats 1000000 in
theorem impls_iff (x : FCtx) (τ : Ty) (hτ : declType x = .ok τ) (user err : Der → Bool) (d : Der) :
    impls user err (fun _ => true) τ d = true ↔ Has x user err d := by
  have hk := skipped_flags x
  revert hτ hk
  unfold declType syncType plainType builderWrapper useAsync Has wrap
  cases x.isSync <;> cases x.isLazy <;> cases x.isOptional <;> cases x.needsLock <;> cases x.isInnerMut <;>
    cases x.isFallible <;> cases hasErrorType x <;> cases x.field.isSkipped <;>
    simp [Bind.bind, Gen.bind, pure] <;> intro h <;> subst h <;> cases x.isAsync <;> cases d <;>
    simp [impls, wrapperClone]

/-- **C108.** A trait can be derived exactly if every field has it by what it was asked to be, and, if the struct is reference counted,
`Weak` has it. -/
theorem C108_derives_iff (s : StructArgs) (fs : List FieldArgs) (hg : Declared (prepare s fs)) (user err : String → Der → Bool)
    (d : Der) :
    derives (prepare s fs) user err d = true ↔
      (∀ f ∈ fs, Has ⟨prepare s fs, f⟩ (user f.ident) (err f.ident) d) ∧
      (s.isRefCounted = true → d = .clone ∨ d = .debug ∨ d = .default) := by
  have hf : ∀ f ∈ (prepare s fs).allFields, ∀ u e : Der → Bool,
      (match declType ⟨prepare s fs, f⟩ with | .ok τ => impls u e (fun _ => true) τ d | _ => true) = true ↔
        Has ⟨prepare s fs, f⟩ u e d := by
    intro f hm u e
    obtain ⟨τ, hτ⟩ := hg f hm
    rw [hτ]
    exact impls_iff _ τ hτ u e d
  unfold derives
  simp only [Bool.and_eq_true, List.all_eq_true]
  rw [and_comm]
  refine and_congr (forall_congr' fun f => forall_congr' fun hm => hf f (List.mem_append_right _ hm) _ _) ?_
  rcases extra_eq s fs with ⟨h1, h2⟩ | ⟨h1, n, h2⟩
  · rw [h2]; simp [h1]
  · have hm : hidden n ∈ (prepare s fs).allFields := List.mem_append_left _ (by rw [h2]; exact List.mem_singleton.2 rfl)
    rw [h2]
    simp only [List.mem_singleton, forall_eq, h1, forall_const]
    refine Iff.trans (hf _ hm _ _) ?_
    have hl : (FCtx.mk (prepare s fs) (hidden n)).isLazy = false := rfl
    cases d <;> simp [Has, hl, weakImpls]

/-- **C108.** If all types are `Clone` so is the struct, where no async field is lazy and error types are `Clone`. What is missing:
`C108_async_clone_false`, `C108_error_clone_false`. -/
theorem C108_clone_partial (s : StructArgs) (fs : List FieldArgs) (hg : Declared (prepare s fs)) (user err : String → Der → Bool)
    (hu : ∀ f ∈ fs, user f.ident .clone = true)
    (ha : ∀ f ∈ fs, (FCtx.mk (prepare s fs) f).isLazy = true → (FCtx.mk (prepare s fs) f).isAsync = false ∧
      ((FCtx.mk (prepare s fs) f).isFallible = true → err f.ident .clone = true)) :
    derives (prepare s fs) user err .clone = true :=
  (C108_derives_iff s fs hg user err .clone).2 ⟨fun f hf => ⟨hu f hf, fun _ hl => ha f hf hl⟩, fun _ => .inl rfl⟩

/-- **C108.** A struct to be serialised has to be `Clone`; if it is async with a lazy field that cannot be derived, whatever the types
are. -/
theorem C108_async_clone_false : ∃ (s : StructArgs) (fs : List FieldArgs) (out : List Piece),
    fxstruct true s fs {} = .code out [] ∧ asksClone (prepare s fs) = true ∧
    ∀ user err, derives (prepare s fs) user err .clone = false := by
  let s : StructArgs := { modeAsync := some true, serde := some {} }
  let fs : List FieldArgs := [{ ident := "a", lazy := some {} }]
  have hg : Declared (prepare s fs) := declared_of (by decide +kernel)
  refine ⟨s, fs, Verif.Proof.Expand.finalOut (prepare s fs) {}, by decide +kernel, by decide +kernel, fun user err => ?_⟩
  rw [Bool.eq_false_iff]
  intro h
  have := (((C108_derives_iff s fs hg user err .clone).1 h).1 _ (List.mem_singleton.2 rfl)).2 (by decide +kernel) (by decide +kernel)
  exact absurd this.1 (by decide +kernel)

/-- **C108.** A lazy field with a builder that may fail asks for `Clone` of the error type, of which it keeps no value. -/
theorem C108_error_clone_false : ∃ (s : StructArgs) (fs : List FieldArgs) (out : List Piece) (err : String → Der → Bool),
    fxstruct true s fs {} = .code out [] ∧ derives (prepare s fs) (fun _ _ => true) err .clone = false :=
  let s : StructArgs := { modeSync := some true }
  let fs : List FieldArgs := [{ ident := "a", lazy := some {}, fallible := some { error := some "E" } }]
  ⟨s, fs, Verif.Proof.Expand.finalOut (prepare s fs) {}, fun _ d => d != .clone, by decide +kernel, by decide +kernel⟩

/-- **C108.** A reference counted struct cannot derive `PartialEq`. -/
theorem C108_rc_eq_false : ∃ (s : StructArgs) (fs : List FieldArgs) (out : List Piece),
    fxstruct true s fs {} = .code out [] ∧ derives (prepare s fs) (fun _ _ => true) (fun _ _ => true) .partialEq = false :=
  let s : StructArgs := { rc := some {} }
  let fs : List FieldArgs := [{ ident := "a" }]
  ⟨s, fs, Verif.Proof.Expand.finalOut (prepare s fs) {}, by decide +kernel, by decide +kernel⟩

/-! ### Cases -/

/-- A sync struct, counted, with a lazy field, an optional one, one as it is, and a skipped one. -/
def exS : StructArgs := { modeSync := some true, rc := some {} }
def exF : List FieldArgs :=
  [{ ident := "a", lazy := some {} }, { ident := "b", optional := some true }, { ident := "c" }, { ident := "d", skip := true }]
theorem exDecl : Declared (prepare exS exF) := declared_of (by decide +kernel)

example : exF.map (fun f => wrap ⟨prepare exS exF, f⟩) = [.guarded, .guarded, .bare, .bare] := by decide +kernel
example : exS.isSync = some true ∧ ∀ f ∈ exF, f.isSync ≠ some false := by decide +kernel
example : structAuto (prepare exS exF) (fun _ _ => true) .send = true ∧ structAuto (prepare exS exF) (fun _ _ => true) .sync = true := by
  decide +kernel
/-- Counted, it is not even `Send` if one type is not `Sync`; otherwise it would be. -/
example : structAuto (prepare exS exF) (fun n t => n != "c" || t == .send) .send = false ∧
    structAuto (prepare { modeSync := some true } exF) (fun n t => n != "c" || t == .send) .send = true := by decide +kernel
/-- With `Rc` it is neither. -/
example : structAuto (prepare { rc := some {} } [{ ident := "a" }]) (fun _ _ => true) .send = false ∧
    structAuto (prepare {} [{ ident := "a" }]) (fun _ _ => true) .send = true := by decide +kernel
example : Coinductive (round (prepare exS exF) fun _ _ => true) .send :=
  (C107_auto exS exF exDecl _ _).1 (by decide +kernel)

/-- An async struct with a lazy field and a locked one. -/
def exA : StructArgs := { modeAsync := some true, rc := some {} }
def exG : List FieldArgs := [{ ident := "a", lazy := some {} }, { ident := "b", lock := some true }]
theorem exDeclA : Declared (prepare exA exG) := declared_of (by decide +kernel)

example : wellFormed (prepare exA exG) (fun _ _ => true) = true := by decide +kernel
example : ∃ f ∈ exG, (FCtx.mk (prepare exA exG) f).isSync = true ∧ (FCtx.mk (prepare exA exG) f).isAsync = true ∧
    (FCtx.mk (prepare exA exG) f).isLazy = true ∧ f.isSkipped = false := by decide +kernel
example : declType ⟨prepare exA exG, exG[0]⟩ = .ok (.proxy true false) ∧
    (awaits ⟨prepare exA exG, exG[0]⟩ (.proxy true false) .read).length = 3 ∧
    awaits ⟨prepare exA exG, exG[1]⟩ (.lock true .t) .store =
      [.both (.both (.ref .owner) .user) (.ref (.rwLock true .user))] := by decide +kernel
example : derives (prepare exS exF) (fun _ _ => true) (fun _ _ => true) .clone = true ∧
    derives (prepare exS exF) (fun _ _ => true) (fun _ _ => true) .default = false ∧
    derives (prepare {} exF) (fun _ _ => true) (fun _ _ => true) .eq = true ∧
    derives (prepare {} exF) (fun _ _ => true) (fun _ _ => true) .hash = false := by decide +kernel
example : ∀ f ∈ exF, (FCtx.mk (prepare exS exF) f).isLazy = true → (FCtx.mk (prepare exS exF) f).isAsync = false := by
  decide +kernel

end Verif.Props.Traits
