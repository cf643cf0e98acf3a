import Verif.Model.Serde
import Verif.Spec.Serde
import Verif.Props.Init
import Verif.Props.Builder
/-
Lemmas about the conversions between a struct and its serde shadow.
-/
namespace Verif.Proof.Serde
open Verif.Model.Args Verif.Model.Init Verif.Model.Serde Verif.Spec.InitTy Verif.Spec.Serde
open Verif.Proof.BuilderField Verif.Proof.InitTy Verif.Props.Init

variable {V : Type}

/-! ### One field -/

theorem serde_notSkipped {x : FCtx} (h : x.isSerde = true) : x.field.isSkipped = false := by
  unfold FCtx.isSerde at h
  revert h; cases x.field.isSkipped <;> simp

/-- The expression for a field in the conversion into the shadow keeps the content. -/
theorem into_eval (x : FCtx) (hk : x.field.isSkipped = false) {τ : Ty} (ht : declType x = .ok τ)
    (hn : ¬ OptionalNoLock x) (env : Env V) {a : Val V} (ha : ValTy a τ) :
    ∃ b, (eval (shadowType x) { env with me := a } none (intoShadow x)).1 = .ok b ∧ ValTy b (shadowType x) ∧
      content b = content a := by
  unfold OptionalNoLock at hn
  unfold declType syncType plainType builderWrapper at ht
  unfold intoShadow shadowType serdeOptional
  cases hsy : x.isSync <;> cases hz : x.isLazy <;> cases ho : x.isOptional <;> cases hi : x.isInnerMut <;>
    cases hl : x.needsLock <;> cases hf : (x.isFallible && !hasErrorType x) <;>
    simp [hsy, hz, ho, hi, hl, hf, hk, bind, Gen.bind, pure] at ht hn <;>
    subst ht <;> cases ha <;> simp_all [eval, content] <;>
    first
    | exact .val _
    | (rename_i h; cases h <;> first | exact .none | exact .some ‹_› | exact .val _)
    | exact .none
    | exact .some ‹_›

theorem content_opt {a : Val V} (h : ValTy a (.opt .t)) : (a = .none ∧ content a = none) ∨
    ∃ v, a = .some (.val v) ∧ content a = some v := by
  cases h with
  | none => exact .inl ⟨rfl, rfl⟩
  | some h => cases h with | val v => exact .inr ⟨v, rfl, rfl⟩

theorem content_t {a : Val V} (h : ValTy a .t) : ∃ v, a = .val v ∧ content a = some v := by
  cases h with | val v => exact ⟨v, rfl, rfl⟩

/-- What the conversion from the shadow makes of a content. -/
def received (x : FCtx) (env : Env V) (o : Option V) : Option V :=
  if x.isSync then o else match o with
    | some v => some v
    | none => defaultContent x env

theorem from_generated (x : FCtx) {τ : Ty} (ht : declType x = .ok τ) : ∃ e, fromShadow x = .ok e := by
  unfold declType syncType builderWrapper at ht
  unfold fromShadow serdeOptional syncWrap defaultWrap plainWrap defaultRepr syncType builderWrapper
  cases hsy : x.isSync <;> cases hz : x.isLazy <;> cases ho : x.isOptional <;> cases hi : x.isInnerMut <;>
    cases hl : x.needsLock <;> cases hf : (x.isFallible && !hasErrorType x) <;> cases hk : x.field.isSkipped <;>
    cases hd : x.defaultValue.isSome <;>
    simp [hsy, hz, ho, hf, hk, bind, Gen.bind, pure, VRepr.map] at ht ⊢

/-- The expression for a field in the conversion from the shadow. -/
theorem from_eval (x : FCtx) (hk : x.field.isSkipped = false) {τ : Ty} (ht : declType x = .ok τ) {e : IE}
    (he : fromShadow x = .ok e) (env : Env V) {a : Val V} (ha : ValTy a (shadowType x)) :
    ∃ b, (eval τ { env with shadow := a } none e).1 = .ok b ∧ ValTy b τ ∧ content b = received x env (content a) := by
  have hty := C23_fromShadow x hk ht he
  have hg := eval_sound hty { env with shadow := a } none
    ⟨by intro σ hσ; simp only [Option.some.injEq] at hσ; subst hσ; exact ha,
     by intro σ hσ; simp at hσ, by intro h; cases h⟩
  suffices h : ∃ b, (eval τ { env with shadow := a } none e).1 = .ok b ∧ content b = received x env (content a) by
    obtain ⟨b, h1, h2⟩ := h
    refine ⟨b, h1, ?_, h2⟩
    rw [h1] at hg; exact hg
  have ht' := ht
  unfold declType syncType plainType builderWrapper at ht
  unfold fromShadow at he
  unfold received
  cases hsy : x.isSync with
  | true =>
    rw [hsy] at he ht
    simp only [if_true] at he ht ⊢
    unfold syncWrap syncType builderWrapper at he
    cases hz : x.isLazy <;> cases ho : x.isOptional <;>
      cases hl : x.needsLock <;> cases hf : (x.isFallible && !hasErrorType x) <;>
      simp [hz, ho, hl, hf, hk, bind, Gen.bind, pure] at ht he <;>
      subst ht <;> subst he <;> simp [eval, Out.map, content]
  | false =>
    rw [hsy] at he
    simp only [Bool.false_eq_true, if_false] at he ⊢
    cases hso : serdeOptional x with
    | true =>
      have hst : shadowType x = .opt .t := by simp [shadowType, hso]
      rw [hst] at ha
      simp only [hso, if_true] at he
      obtain ⟨d, hd⟩ : ∃ d, defaultWrap x = .ok d := C23_default_generated x ht'
      cases hw : plainWrap x (.versatile .var) with
      | error => simp [hd, hw, bind, Gen.bind] at he
      | panic => simp [hd, hw, bind, Gen.bind] at he
      | ok v =>
        simp [hd, hw, bind, Gen.bind, pure] at he
        subst he
        rcases content_opt ha with ⟨rfl, hc⟩ | ⟨u, rfl, hc⟩
        · obtain ⟨b, h1, h2⟩ := default_eval x hk ht' hd { env with shadow := .none } none
          refine ⟨b, ?_, ?_⟩
          · simp [eval, h1]
          · rw [h2]; rfl
        · have hv : valueWrap x (.versatile .var) = .ok v := by unfold valueWrap; rw [hsy]; exact hw
          obtain ⟨b, h1, h2⟩ := (wrap_versatile x hk ht' hv
            { env with shadow := .some (.val u), var := some u } none).1 u none (by simp [eval])
          refine ⟨b, ?_, ?_⟩
          · simp [eval, h1]
          · rw [h2]; rfl
    | false =>
      have hst : shadowType x = .t := by simp [shadowType, hso]
      rw [hst] at ha
      obtain ⟨v, rfl, hc⟩ := content_t ha
      simp only [hso] at he
      unfold serdeOptional at hso
      unfold plainWrap at he
      rw [hsy] at ht
      cases hi : x.isInnerMut <;> cases hz : x.isLazy <;> cases ho : x.isOptional <;>
        simp [hi, hz, ho] at he ht hso <;> subst he <;> subst ht <;> simp [eval, Out.map, content]

/-- The default initialiser of any field, skipped ones included. -/
theorem default_any (x : FCtx) {τ : Ty} (ht : declType x = .ok τ) (hn : ¬ SkippedLock x) {e : IE}
    (he : defaultInit x = .ok e) (env : Env V) :
    ∃ b, (eval τ env none e).1 = .ok b ∧ ValTy b τ ∧ content b = defaultContent x env := by
  have hty := (C23_default_iff x ht he).mpr hn
  have hg := eval_sound hty env none
    ⟨by intro σ hσ; simp at hσ, by intro σ hσ; simp at hσ, by intro h; cases h⟩
  suffices h : ∃ b, (eval τ env none e).1 = .ok b ∧ content b = defaultContent x env by
    obtain ⟨b, h1, h2⟩ := h
    refine ⟨b, h1, ?_, h2⟩
    rw [h1] at hg; exact hg
  cases hk : x.field.isSkipped with
  | false =>
    obtain ⟨w, h1, h2⟩ := default_eval x hk ht he env none
    exact ⟨w, by rw [h1], h2⟩
  | true =>
    have hz := skip_lazy x hk
    have ho := skip_optional x hk
    unfold SkippedLock at hn
    unfold declType syncType plainType builderWrapper at ht
    unfold defaultInit defaultWrap syncWrap plainWrap defaultRepr at he
    unfold defaultContent
    cases hsy : x.isSync <;> cases hi : x.isInnerMut <;>
      cases hl : x.needsLock <;> cases hf : (x.isFallible && !hasErrorType x) <;> cases hd : x.defaultValue.isSome <;>
      simp [hsy, hz, ho, hi, hl, hf, hk, hd, bind, Gen.bind, pure, VRepr.map, fixup] at ht he hn <;>
      subst ht <;> subst he <;>
      simp [eval, Out.map, content, dfltAt, hz, ho]

/-- Values of a lazy field. -/
theorem lazy_val (x : FCtx) (hk : x.field.isSkipped = false) (hz : x.isLazy = true) {τ : Ty} (ht : declType x = .ok τ)
    {a : Val V} (ha : ValTy a τ) :
    (x.isSync = false ∧ ((a = .once .none ∧ content a = none) ∨ ∃ v, a = .once (.some (.val v)) ∧ content a = some v) ∧
      τ = .once .t) ∨
    (x.isSync = true ∧ ((a = .proxy x.isAsync .none ∧ content a = none) ∨
      ∃ v, a = .proxy x.isAsync (.some (.val v)) ∧ content a = some v) ∧ τ = .proxy x.isAsync x.isFallible) := by
  unfold declType syncType plainType builderWrapper useAsync at ht
  cases hsy : x.isSync <;> cases hf : (x.isFallible && !hasErrorType x) <;>
    simp [hsy, hf, hk, hz, bind, Gen.bind, pure] at ht <;> subst ht
  · cases ha with | once h =>
      rcases content_opt h with ⟨rfl, _⟩ | ⟨v, rfl, _⟩
      · exact .inl ⟨rfl, .inl ⟨rfl, rfl⟩, rfl⟩
      · exact .inl ⟨rfl, .inr ⟨v, rfl, rfl⟩, rfl⟩
  · cases ha with | once h =>
      rcases content_opt h with ⟨rfl, _⟩ | ⟨v, rfl, _⟩
      · exact .inl ⟨rfl, .inl ⟨rfl, rfl⟩, rfl⟩
      · exact .inl ⟨rfl, .inr ⟨v, rfl, rfl⟩, rfl⟩
  · cases ha with | proxy h =>
      rcases content_opt h with ⟨rfl, _⟩ | ⟨v, rfl, _⟩
      · exact .inr ⟨rfl, .inl ⟨rfl, rfl⟩, rfl⟩
      · exact .inr ⟨rfl, .inr ⟨v, rfl, rfl⟩, rfl⟩

/-! ### The conversion into the shadow -/

theorem typed_inPlace {c : Ctx} {o : Obj V} (h : Typed c o) : inPlace c o = true := by
  unfold inPlace
  rw [List.all_eq_true]
  intro f hf
  obtain ⟨_, a, _, h2, _⟩ := h f hf
  rw [h2]; rfl

theorem typed_all {c : Ctx} {o : Obj V} (h : Typed c o) : ∀ m ∈ c.allFields.map (·.ident), o m ≠ none := by
  intro m hm
  obtain ⟨f, hf, rfl⟩ := List.mem_map.mp hm
  obtain ⟨_, a, _, h2, _⟩ := h f hf
  rw [h2]; simp

theorem typed_put {c : Ctx} (hd : (c.allFields.map (·.ident)).Nodup) {o : Obj V} (h : Typed c o) {f : FieldArgs}
    (hf : f ∈ c.allFields) {τ : Ty} (ht : declType ⟨c, f⟩ = .ok τ) {a : Val V} (ha : ValTy a τ) :
    Typed c (o.put f.ident a) := by
  intro g hg
  by_cases hgf : g.ident = f.ident
  · have := Verif.Props.Builder.ident_inj _ g f hd hg hf hgf
    subst this
    exact ⟨τ, a, ht, by simp [Obj.put], ha⟩
  · obtain ⟨σ, b, h1, h2, h3⟩ := h g hg
    exact ⟨σ, b, h1, by simp [Obj.put, hgf, h2], h3⟩

/-- Does serialisation run the builder of the field: the builder of an async field is not run. -/
def forced (c : Ctx) (f : FieldArgs) : Bool :=
  (FCtx.mk c f).isLazy && !((FCtx.mk c f).isSync && (FCtx.mk c f).isAsync)

/-- One initialisation. -/
theorem runInit_spec {c : Ctx} (w : World V) (hd : (c.allFields.map (·.ident)).Nodup) (hb : Sound c w.bld) {o : Obj V}
    (ho : Typed c o) {f : FieldArgs} (hf : f ∈ c.allFields) (hk : f.isSkipped = false)
    (hz : (FCtx.mk c f).isLazy = true) :
    if forced c f then
      (runInit c w o f = .panic ∧ holds o f.ident = none ∧ (w.bld f.ident o).1 = .panic) ∨
      ∃ o1, runInit c w o f = .ok o1 ∧ Typed c o1 ∧ Force (c.allFields.map (·.ident)) w.bld f.ident o o1
    else runInit c w o f = .ok o := by
  obtain ⟨τ, a, ht, hoa, ha⟩ := ho f hf
  have hp := typed_inPlace ho
  have hall := typed_all ho
  have hbt : Typed c (w.bld f.ident o).2 := hb _ _ ho
  unfold forced runInit
  rw [hz, hp]
  simp only [Bool.true_and, if_true]
  rcases lazy_val ⟨c, f⟩ hk hz ht ha with ⟨hs, ⟨rfl, hc⟩ | ⟨v, rfl, hc⟩, rfl⟩ | ⟨hs, ⟨rfl, hc⟩ | ⟨v, rfl, hc⟩, rfl⟩
  · have hh : holds o f.ident = none := by simp [holds, hoa, hc]
    simp only [hs, hoa, Bool.false_and, Bool.not_false, if_true]
    unfold built
    cases hr : w.bld f.ident o with
    | mk r o' =>
      rw [hr] at hbt
      cases r with
      | ok v =>
        refine .inr ⟨_, rfl, typed_put hd hbt hf ht (.once (.some (.val v))), ?_⟩
        exact .built hh hall hr (by simp [holds, Obj.put, content]) (fun m hm => by simp [Obj.put, hm])
      | err => exact .inr ⟨_, rfl, hbt, .failed hh hall hr⟩
      | panic => exact .inl ⟨rfl, hh, by rfl⟩
  · have hh : holds o f.ident = some v := by simp [holds, hoa, content]
    simp only [hs, hoa, Bool.false_and, Bool.not_false, if_true]
    exact .inr ⟨o, rfl, ho, .full hh⟩
  · have hh : holds o f.ident = none := by simp [holds, hoa, hc]
    cases has : (FCtx.mk c f).isAsync with
    | true => rw [has] at hoa; simp [hs, hoa]
    | false =>
      rw [has] at hoa ht
      simp only [hs, hoa, Bool.and_false, Bool.not_false, if_true]
      unfold built
      cases hr : w.bld f.ident o with
      | mk r o' =>
        rw [hr] at hbt
        cases r with
        | ok v =>
          refine .inr ⟨_, rfl, typed_put hd hbt hf ht (.proxy (.some (.val v))), ?_⟩
          exact .built hh hall hr (by simp [holds, Obj.put, content]) (fun m hm => by simp [Obj.put, hm])
        | err => exact .inr ⟨_, rfl, hbt, .failed hh hall hr⟩
        | panic => exact .inl ⟨rfl, hh, by rfl⟩
  · have hh : holds o f.ident = some v := by simp [holds, hoa, content]
    cases has : (FCtx.mk c f).isAsync with
    | true => rw [has] at hoa; simp [hs, hoa]
    | false =>
      rw [has] at hoa
      simp only [hs, hoa, Bool.and_false, Bool.not_false, if_true]
      exact .inr ⟨o, rfl, ho, .full hh⟩

/-- All initialisations. -/
theorem exec_inits {c : Ctx} (w : World V) (hd : (c.allFields.map (·.ident)).Nodup) (hb : Sound c w.bld)
    (rest : List Stmt) (L : List FieldArgs)
    (hL : ∀ f ∈ L, f ∈ c.allFields ∧ f.isSkipped = false ∧ (FCtx.mk c f).isLazy = true) :
    ∀ o : Obj V, Typed c o →
      (exec c w (L.map .init ++ rest) o = .panic ∧
        ForcePanics (c.allFields.map (·.ident)) w.bld ((L.filter (forced c)).map (·.ident)) o) ∨
      ∃ o1, exec c w (L.map .init ++ rest) o = exec c w rest o1 ∧ Typed c o1 ∧
        ForceAll (c.allFields.map (·.ident)) w.bld ((L.filter (forced c)).map (·.ident)) o o1 := by
  induction L with
  | nil => intro o ho; exact .inr ⟨o, rfl, ho, .nil o⟩
  | cons f L ih =>
    intro o ho
    obtain ⟨hf, hk, hz⟩ := hL f (by simp)
    have ih := ih (fun g hg => hL g (by simp [hg]))
    have h := runInit_spec w hd hb ho hf hk hz
    simp only [List.map_cons, List.cons_append, exec, List.filter_cons]
    split at h
    · rename_i hfo
      simp only [hfo, if_true, List.map_cons]
      rcases h with ⟨h1, h2, h3⟩ | ⟨o1, h1, h2, h3⟩
      · rw [h1]; exact .inl ⟨rfl, .here h2 (typed_all ho) h3⟩
      · rw [h1]
        rcases ih o1 h2 with ⟨h4, h5⟩ | ⟨o2, h4, h5, h6⟩
        · exact .inl ⟨h4, .later h3 h5⟩
        · exact .inr ⟨o2, h4, h5, .cons h3 h6⟩
    · rename_i hfo
      simp only [hfo, Bool.false_eq_true, if_false]
      rw [h]
      exact ih o ho

/-- All moves. -/
theorem exec_moves {c : Ctx} (w : World V) (L : List FieldArgs) (hd : (L.map (·.ident)).Nodup)
    (hL : ∀ f ∈ L, f ∈ c.allFields ∧ f.isSkipped = false ∧ ¬ OptionalNoLock ⟨c, f⟩) :
    ∀ o : Obj V, (∀ f ∈ L, ∃ τ a, declType ⟨c, f⟩ = .ok τ ∧ o f.ident = some a ∧ ValTy a τ) →
      ∃ sh, exec c w (L.map .move) o = .ok sh ∧
        ∀ f ∈ L, ∃ b, sh.lookup f.ident = some b ∧ ValTy b (shadowType ⟨c, f⟩) ∧ content b = holds o f.ident := by
  induction L with
  | nil => intro o _; exact ⟨[], rfl, by simp⟩
  | cons f L ih =>
    intro o ho
    rw [List.map_cons, List.nodup_cons] at hd
    obtain ⟨hf, hk, hn⟩ := hL f (by simp)
    obtain ⟨τ, a, ht, hoa, ha⟩ := ho f (by simp)
    obtain ⟨b, h1, h2, h3⟩ := into_eval ⟨c, f⟩ hk ht hn (w.env f.ident) ha
    have hne : ∀ g ∈ L, g.ident ≠ f.ident := by
      intro g hg he
      exact hd.1 (by rw [← he]; exact List.mem_map_of_mem hg)
    obtain ⟨sh, h4, h5⟩ := ih hd.2 (fun g hg => hL g (by simp [hg])) (o.moved f.ident) (by
      intro g hg
      obtain ⟨σ, b, q1, q2, q3⟩ := ho g (by simp [hg])
      exact ⟨σ, b, q1, by simp [Obj.moved, hne g hg, q2], q3⟩)
    refine ⟨(f.ident, b) :: sh, ?_, ?_⟩
    · simp only [List.map_cons, exec, runMove, hoa, h1, h4]
    · intro g hg
      cases hg with
      | head => exact ⟨b, by simp [List.lookup], h2, by rw [h3]; simp [holds, hoa]⟩
      | tail _ hg =>
        obtain ⟨b', q1, q2, q3⟩ := h5 g hg
        refine ⟨b', ?_, q2, ?_⟩
        · have : (g.ident == f.ident) = false := by simpa using hne g hg
          simp [List.lookup, this, q1]
        · rw [q3]; simp [holds, Obj.moved, hne g hg]

/-! ### What is assumed of the struct -/

/-- The generated code compiles, as far as serde support is concerned. -/
structure Compiles (c : Ctx) : Prop where
  /-- field names are distinct -/
  distinct : (c.allFields.map (·.ident)).Nodup
  /-- serde support is on, both ways -/
  serde : c.args.isSerde = true
  ser : c.args.needsSerialize = true
  de : c.args.needsDeserialize = true
  /-- keys are distinct -/
  keys : ((shadowFields c).map key).Nodup
  /-- no field of the shadow is missing in the conversion into it -/
  into : ∀ f ∈ shadowFields c, (FCtx.mk c f).needsSerialize = true
  /-- there is a declaration for each field -/
  decl : ∀ f ∈ c.allFields, ∃ τ, declType ⟨c, f⟩ = .ok τ
  /-- the expressions in the conversion into the shadow are well-typed (C23) -/
  lock : ∀ f ∈ shadowFields c, ¬ OptionalNoLock ⟨c, f⟩
  /-- fields which are not deserialised come from `Default`, which is well-typed (C23) -/
  rest : ∀ f ∈ c.allFields, deserialised ⟨c, f⟩ = false → c.needsDefault = true ∧ ¬ SkippedLock ⟨c, f⟩
  /-- `serde(default)` needs a `Default` for the shadow -/
  shadowDefault : ∀ sh, c.args.serde = some sh → sh.hasDefault = true → sh.defaultValue = none → c.needsDefault = true

theorem mem_shadow {c : Ctx} {f : FieldArgs} (h : f ∈ shadowFields c) :
    f ∈ c.allFields ∧ (FCtx.mk c f).isSerde = true ∧ f.isSkipped = false := by
  obtain ⟨h1, h2⟩ := List.mem_filter.mp h
  exact ⟨h1, h2, serde_notSkipped (x := ⟨c, f⟩) h2⟩

theorem Compiles.serFields_eq {c : Ctx} (h : Compiles c) : serFields c = shadowFields c := by
  unfold serFields shadowFields
  apply List.filter_congr
  intro f hf
  cases hs : (FCtx.mk c f).isSerde with
  | false => rfl
  | true => rw [h.into f (List.mem_filter.mpr ⟨hf, hs⟩)]; rfl

theorem Compiles.complete {c : Ctx} (h : Compiles c) : intoComplete c = true := by
  unfold intoComplete
  rw [h.serFields_eq, List.all_eq_true]
  intro f hf
  exact List.contains_iff_mem.mpr hf

theorem Compiles.nodupShadow {c : Ctx} (h : Compiles c) : ((shadowFields c).map (·.ident)).Nodup :=
  (List.filter_sublist.map _).nodup h.distinct

/-- Lazy fields initialised by serialisation, in order. -/
def lazies (c : Ctx) : List String := ((shadowFields c).filter (forced c)).map (·.ident)

/-- The conversion into the shadow. -/
theorem into_spec {c : Ctx} (h : Compiles c) (w : World V) (hb : Sound c w.bld) {o : Obj V} (ho : Typed c o) :
    (intoShadowObj c w o = .panic ∧ ForcePanics (c.allFields.map (·.ident)) w.bld (lazies c) o) ∨
    ∃ o1 sh, intoShadowObj c w o = .ok sh ∧ Typed c o1 ∧
      ForceAll (c.allFields.map (·.ident)) w.bld (lazies c) o o1 ∧
      ∀ f ∈ shadowFields c, ∃ b, sh.lookup f.ident = some b ∧ ValTy b (shadowType ⟨c, f⟩) ∧
        content b = holds o1 f.ident := by
  unfold intoShadowObj
  rw [h.serde, h.ser, h.complete]
  simp only [Bool.and_true, if_true]
  unfold intoCode
  rw [h.serFields_eq]
  have hlz : ((shadowFields c).filter (fun f => (FCtx.mk c f).isLazy)).filter (forced c) =
      (shadowFields c).filter (forced c) := by
    rw [List.filter_filter]
    apply List.filter_congr
    intro f _
    unfold forced
    cases (FCtx.mk c f).isLazy <;> simp
  have := exec_inits w h.distinct hb ((shadowFields c).map .move)
    ((shadowFields c).filter (fun f => (FCtx.mk c f).isLazy)) (by
      intro f hf
      obtain ⟨h1, h2⟩ := List.mem_filter.mp hf
      obtain ⟨h3, h4, h5⟩ := mem_shadow h1
      exact ⟨h3, h5, h2⟩) o ho
  rw [hlz] at this
  rcases this with ⟨h1, h2⟩ | ⟨o1, h1, h2, h3⟩
  · exact .inl ⟨h1, h2⟩
  · obtain ⟨sh, h4, h5⟩ := exec_moves w (shadowFields c) h.nodupShadow (by
      intro f hf
      obtain ⟨q1, q2, q3⟩ := mem_shadow hf
      exact ⟨q1, q3, h.lock f hf⟩) o1 (fun f hf => h2 f (mem_shadow hf).1)
    exact .inr ⟨o1, sh, by rw [h1, h4], h2, h3, h5⟩

/-! ### Documents -/

theorem shadowType_cases (x : FCtx) : shadowType x = .t ∨ shadowType x = .opt .t := by
  unfold shadowType; cases serdeOptional x <;> simp

theorem toItem_spec {τ : Ty} (hτ : τ = .t ∨ τ = .opt .t) {b : Val V} (hb : ValTy b τ) :
    toItem b = some (itemOf (content b)) ∧ readItem τ (itemOf (content b)) = .ok b := by
  rcases hτ with rfl | rfl
  · obtain ⟨v, rfl, hc⟩ := content_t hb; exact ⟨rfl, rfl⟩
  · rcases content_opt hb with ⟨rfl, hc⟩ | ⟨v, rfl, hc⟩ <;> exact ⟨rfl, rfl⟩

theorem write_spec {c : Ctx} (sh : List (String × Val V)) (L : List FieldArgs) (o : Obj V)
    (hs : ∀ f ∈ L, skipAttr ⟨c, f⟩ ≠ .ser ∧ skipAttr ⟨c, f⟩ ≠ .all)
    (hL : ∀ f ∈ L, ∃ b, sh.lookup f.ident = some b ∧ ValTy b (shadowType ⟨c, f⟩) ∧ content b = holds o f.ident) :
    writeFields c sh L = .ok (L.map (fun f => (key f, itemOf (holds o f.ident)))) := by
  induction L with
  | nil => rfl
  | cons f L ih =>
    have ih := ih (fun g hg => hs g (by simp [hg])) (fun g hg => hL g (by simp [hg]))
    obtain ⟨b, h1, h2, h3⟩ := hL f (by simp)
    obtain ⟨h4, h5⟩ := hs f (by simp)
    have hit := (toItem_spec (shadowType_cases _) h2).1
    simp only [writeFields, h4, h5, or_self, if_false, h1, Option.bind_some, hit, ih, List.map_cons, h3]

theorem lookup_map (L : List FieldArgs) (g : FieldArgs → String) (h : FieldArgs → Item V) (hn : (L.map g).Nodup)
    {f : FieldArgs} (hf : f ∈ L) : (L.map (fun f => (g f, h f))).lookup (g f) = some (h f) := by
  induction L with
  | nil => cases hf
  | cons x L ih =>
    rw [List.map_cons, List.nodup_cons] at hn
    cases hf with
    | head => simp
    | tail _ hf =>
      have : (g f == g x) = false := by
        rw [beq_eq_false_iff_ne]
        intro he; exact hn.1 (by rw [← he]; exact List.mem_map_of_mem hf)
      simp [List.lookup, this, ih hn.2 hf]

theorem count_map (L : List FieldArgs) (g : FieldArgs → String) (h : FieldArgs → Item V) (hn : (L.map g).Nodup)
    (k : String) : repeated (L.map (fun f => (g f, h f))) k = false := by
  have : (L.map (fun f => (g f, h f))).countP (fun i => i.1 == k) ≤ 1 := by
    have e : (L.map (fun f => (g f, h f))).countP (fun i => i.1 == k) = (L.map g).count k := by
      rw [List.countP_map, List.count, List.countP_map]
      rfl
    rw [e]
    exact List.nodup_iff_count.mp hn k
  unfold repeated
  simpa using this

theorem not_repeated_of_lookup {d : Doc V} {k : String} (hl : d.lookup k = none) : repeated d k = false := by
  have : d.countP (fun i => i.1 == k) = 0 := by
    induction d with
    | nil => rfl
    | cons i d ih =>
      obtain ⟨n, a⟩ := i
      rw [List.lookup_cons] at hl
      cases hk : k == n with
      | true => rw [hk] at hl; cases hl
      | false =>
        rw [hk] at hl
        rw [List.countP_cons, ih hl]
        have : (n == k) = false := by
          rw [beq_eq_false_iff_ne] at hk ⊢
          exact fun e => hk e.symm
        simp [this]
  unfold repeated
  rw [this]; rfl

/-! ### The conversion from the shadow -/

/-- Serde defaults of the world have the types of their places. -/
structure WorldTyped (c : Ctx) (w : World V) : Prop where
  path : ∀ f ∈ shadowFields c, ValTy (w.path f.ident) (shadowType ⟨c, f⟩)
  whole : ∀ f ∈ shadowFields c, ValTy (w.whole f.ident) (shadowType ⟨c, f⟩)

theorem hasDefault_shadow (x : FCtx) : HasDefault (shadowType x) := by
  rcases shadowType_cases x with h | h <;> rw [h] <;> constructor

theorem envTy_empty (env : Env V) : EnvTy {} false env :=
  ⟨by intro σ hσ; simp at hσ, by intro σ hσ; simp at hσ, by intro h; cases h⟩

theorem shadowDefault_eval (x : FCtx) (env : Env V) : ∃ b, (eval (shadowType x) env none (shadowDefault x)).1 = .ok b ∧
    ValTy b (shadowType x) ∧ content b = defaultContent x env := by
  have hg := eval_sound (C23_shadowDefault x) env none (envTy_empty env)
  suffices h : ∃ b, (eval (shadowType x) env none (shadowDefault x)).1 = .ok b ∧ content b = defaultContent x env by
    obtain ⟨b, h1, h2⟩ := h
    exact ⟨b, h1, by rw [h1] at hg; exact hg, h2⟩
  unfold shadowDefault defaultRepr shadowType defaultContent shadowValue serdeOptional
  cases x.defaultValue.isSome <;> cases x.isLazy <;> cases x.isOptional <;>
    simp [VRepr.map, VRepr.unwrapOr, fixup, eval, Out.map, content, dfltAt]

theorem serdeDefaultFn_eval (x : FCtx) (env : Env V) : ∃ b, (eval (shadowType x) env none (serdeDefaultFn x)).1 = .ok b ∧
    ValTy b (shadowType x) ∧ content b = some env.sdv := by
  unfold serdeDefaultFn shadowType shadowValue serdeOptional
  cases x.isLazy <;> cases x.isOptional <;>
    simp [eval, Out.map, content] <;> first | exact .val _ | exact .some (.val _)

/-- The defaults serde uses are values of the shadow's types. -/
theorem defaults_typed {c : Ctx} (h : Compiles c) {w : World V} (hw : WorldTyped c w) {f : FieldArgs}
    (hf : f ∈ shadowFields c) {r : Out V} (hr : (fieldDefault w ⟨c, f⟩).or (containerDefault w ⟨c, f⟩) = some r) :
    ∃ b, r = .ok b ∧ ValTy b (shadowType ⟨c, f⟩) := by
  have h1 : ∀ r, fieldDefault w ⟨c, f⟩ = some r → ∃ b, r = .ok b ∧ ValTy b (shadowType ⟨c, f⟩) := by
    intro r hr
    unfold fieldDefault at hr
    split at hr
    · split at hr
      · split at hr
        · split at hr
          · cases hr; exact ⟨_, rfl, hw.path f hf⟩
          · obtain ⟨b, q1, q2, _⟩ := serdeDefaultFn_eval ⟨c, f⟩ (w.env f.ident)
            simp only [q1, Option.some.injEq] at hr
            exact ⟨b, hr.symm, q2⟩
        · obtain ⟨b, q1, q2⟩ := dfltAt_ty (w.env f.ident).dflt (hasDefault_shadow ⟨c, f⟩)
          simp only [q1, Option.some.injEq] at hr
          exact ⟨b, hr.symm, q2⟩
      · cases hr
    · cases hr
  have h2 : ∀ r, containerDefault w ⟨c, f⟩ = some r → ∃ b, r = .ok b ∧ ValTy b (shadowType ⟨c, f⟩) := by
    intro r hr
    unfold containerDefault at hr
    split at hr
    · rename_i sh hsh
      split at hr
      · rename_i hhd
        split at hr
        · cases hr; exact ⟨_, rfl, hw.whole f hf⟩
        · rename_i hdv
          have := h.shadowDefault sh hsh hhd hdv
          simp only [this, if_true] at hr
          obtain ⟨b, q1, q2, _⟩ := shadowDefault_eval ⟨c, f⟩ (w.env f.ident)
          simp only [q1, Option.some.injEq] at hr
          exact ⟨b, hr.symm, q2⟩
      · cases hr
    · cases hr
  cases hfd : fieldDefault w ⟨c, f⟩ with
  | some r' => rw [hfd] at hr; simp at hr; subst hr; exact h1 _ hfd
  | none => rw [hfd] at hr; simp at hr; exact h2 _ hr

/-- Reading one field gives a value of the shadow's type or an error, which happens only for a repeated, a
`null` or a missing item. -/
theorem readField_spec {c : Ctx} (h : Compiles c) {w : World V} (hw : WorldTyped c w) (d : Doc V) {f : FieldArgs}
    (hf : f ∈ shadowFields c) :
    (∃ b, readField w ⟨c, f⟩ d = .ok b ∧ ValTy b (shadowType ⟨c, f⟩)) ∨
    (readField w ⟨c, f⟩ d = .error ∧ deserialised ⟨c, f⟩ = true ∧ (repeated d (key f) = true ∨
      serdeOptional ⟨c, f⟩ = false ∧ (d.lookup (key f) = some .null ∨
       d.lookup (key f) = none ∧ fieldDefault w ⟨c, f⟩ = none ∧ containerDefault w ⟨c, f⟩ = none))) := by
  obtain ⟨hfa, hse, hsk⟩ := mem_shadow hf
  have hin := h.into f hf
  unfold readField
  split
  · left
    unfold skipped
    cases hr : (fieldDefault w ⟨c, f⟩).or (containerDefault w ⟨c, f⟩) with
    | some r =>
      obtain ⟨b, rfl, hb⟩ := defaults_typed h hw hf hr
      exact ⟨b, rfl, hb⟩
    | none =>
      obtain ⟨b, q1, q2⟩ := dfltAt_ty (w.env f.ident).dflt (hasDefault_shadow ⟨c, f⟩)
      exact ⟨b, by simp only [q1, DRes.ofOut], q2⟩
  · rename_i hnsk
    have hds : deserialised ⟨c, f⟩ = true := by
      unfold skipAttr at hnsk
      unfold deserialised
      rw [hse]
      cases hd : (FCtx.mk c f).needsDeserialize with
      | true => rfl
      | false => simp [h.serde, hse, hin, hd] at hnsk
    cases hrep : repeated d (key f) with
    | true => exact .inr ⟨by simp, hds, .inl rfl⟩
    | false =>
    simp only [Bool.false_eq_true, if_false]
    cases hl : d.lookup (key f) with
    | some it =>
      rcases shadowType_cases ⟨c, f⟩ with ht | ht
      · have hso : serdeOptional ⟨c, f⟩ = false := by
          revert ht; unfold shadowType; cases serdeOptional ⟨c, f⟩ <;> simp
        rw [ht]
        cases it with
        | null => exact .inr ⟨by simp [readItem], hds, .inr ⟨hso, .inl rfl⟩⟩
        | val v => exact .inl ⟨.val v, by simp [readItem], .val v⟩
      · rw [ht]
        cases it with
        | null => exact .inl ⟨.none, by simp [readItem], .none⟩
        | val v => exact .inl ⟨.some (.val v), by simp [readItem], .some (.val v)⟩
    | none =>
      simp only
      unfold missing
      cases hr : (fieldDefault w ⟨c, f⟩).or (containerDefault w ⟨c, f⟩) with
      | some r =>
        obtain ⟨b, rfl, hb⟩ := defaults_typed h hw hf hr
        exact .inl ⟨b, rfl, hb⟩
      | none =>
        rcases shadowType_cases ⟨c, f⟩ with ht | ht
        · have hso : serdeOptional ⟨c, f⟩ = false := by
            revert ht; unfold shadowType; cases serdeOptional ⟨c, f⟩ <;> simp
          rw [Option.or_eq_none_iff] at hr
          exact .inr ⟨by simp [ht], hds, .inr ⟨hso, .inr ⟨trivial, hr.1, hr.2⟩⟩⟩
        · exact .inl ⟨.none, by simp [ht], by rw [ht]; exact .none⟩

theorem readFields_spec {c : Ctx} (h : Compiles c) {w : World V} (hw : WorldTyped c w) (d : Doc V)
    (L : List FieldArgs) (hn : (L.map (·.ident)).Nodup) (hL : ∀ f ∈ L, f ∈ shadowFields c) :
    (readFields c w d L = .error ∧ ∃ f ∈ L, readField w ⟨c, f⟩ d = .error) ∨
    ∃ sh, readFields c w d L = .ok sh ∧ ∀ f ∈ L, ∃ b, readField w ⟨c, f⟩ d = .ok b ∧
      ValTy b (shadowType ⟨c, f⟩) ∧ sh.lookup f.ident = some b := by
  induction L with
  | nil => exact .inr ⟨[], rfl, by simp⟩
  | cons f L ih =>
    rw [List.map_cons, List.nodup_cons] at hn
    rcases readField_spec h hw d (hL f (by simp)) with ⟨b, h1, h2⟩ | ⟨h1, _⟩
    · rcases ih hn.2 (fun g hg => hL g (by simp [hg])) with ⟨h3, g, hg, h4⟩ | ⟨sh, h3, h4⟩
      · exact .inl ⟨by simp [readFields, h1, h3], g, by simp [hg], h4⟩
      · refine .inr ⟨(f.ident, b) :: sh, by simp [readFields, h1, h3], ?_⟩
        intro g hg
        cases hg with
        | head => exact ⟨b, h1, h2, by simp [List.lookup]⟩
        | tail _ hg =>
          obtain ⟨b', q1, q2, q3⟩ := h4 g hg
          have : (g.ident == f.ident) = false := by
            rw [beq_eq_false_iff_ne]
            intro he; exact hn.1 (by rw [← he]; exact List.mem_map_of_mem hg)
          exact ⟨b', q1, q2, by simp [List.lookup, this, q3]⟩
    · exact .inl ⟨by simp [readFields, h1], f, by simp, h1⟩

/-- What a field of the new object holds. -/
def Outcome (c : Ctx) (w : World V) (sh : List (String × Val V)) (f : FieldArgs) (a : Val V) : Prop :=
  (∃ τ, declType ⟨c, f⟩ = .ok τ ∧ ValTy a τ) ∧
  (deserialised ⟨c, f⟩ = false → content a = defaultContent ⟨c, f⟩ (w.env f.ident)) ∧
  (deserialised ⟨c, f⟩ = true → ∃ b, sh.lookup f.ident = some b ∧
    content a = received ⟨c, f⟩ (w.env f.ident) (content b))

theorem fromField_spec {c : Ctx} (h : Compiles c) (w : World V) (sh : List (String × Val V)) {f : FieldArgs}
    (hf : f ∈ c.allFields)
    (hsh : deserialised ⟨c, f⟩ = true → ∃ b, sh.lookup f.ident = some b ∧ ValTy b (shadowType ⟨c, f⟩)) :
    ∃ a, fromField c w sh f = .ok a ∧ Outcome c w sh f a := by
  obtain ⟨τ, ht⟩ := h.decl f hf
  unfold fromField
  rw [ht]
  cases hd : deserialised ⟨c, f⟩ with
  | true =>
    obtain ⟨b, h1, h2⟩ := hsh hd
    have hse : (FCtx.mk c f).isSerde = true := by
      unfold deserialised at hd; revert hd; cases (FCtx.mk c f).isSerde <;> simp
    obtain ⟨e, he⟩ := from_generated ⟨c, f⟩ ht
    obtain ⟨a, q1, q2, q3⟩ := from_eval ⟨c, f⟩ (serde_notSkipped hse) ht he (w.env f.ident) h2
    refine ⟨a, ?_, ⟨τ, ht, q2⟩, ?_, fun _ => ⟨b, h1, q3⟩⟩
    · simp only [he, h1, if_true, q1, DRes.ofOut]
    · rw [hd]; simp
  | false =>
    obtain ⟨h1, h2⟩ := h.rest f hf hd
    obtain ⟨e, he⟩ := C23_default_generated ⟨c, f⟩ ht
    obtain ⟨a, q1, q2, q3⟩ := default_any ⟨c, f⟩ ht h2 he (w.env f.ident)
    refine ⟨a, ?_, ⟨τ, ht, q2⟩, fun _ => q3, ?_⟩
    · simp [h1, he, q1, DRes.ofOut]
    · rw [hd]; simp

theorem fromFields_spec {c : Ctx} (h : Compiles c) (w : World V) (sh : List (String × Val V)) (L : List FieldArgs)
    (hn : (L.map (·.ident)).Nodup) (hL : ∀ f ∈ L, f ∈ c.allFields)
    (hsh : ∀ f ∈ L, deserialised ⟨c, f⟩ = true → ∃ b, sh.lookup f.ident = some b ∧ ValTy b (shadowType ⟨c, f⟩)) :
    ∃ l, fromFields c w sh L = .ok l ∧ ∀ f ∈ L, ∃ a, l.lookup f.ident = some a ∧ Outcome c w sh f a := by
  induction L with
  | nil => exact ⟨[], rfl, by simp⟩
  | cons f L ih =>
    rw [List.map_cons, List.nodup_cons] at hn
    obtain ⟨a, h1, h2⟩ := fromField_spec h w sh (hL f (by simp)) (hsh f (by simp))
    obtain ⟨l, h3, h4⟩ := ih hn.2 (fun g hg => hL g (by simp [hg])) (fun g hg => hsh g (by simp [hg]))
    refine ⟨(f.ident, a) :: l, by simp [fromFields, h1, h3], ?_⟩
    intro g hg
    cases hg with
    | head => exact ⟨a, by simp [List.lookup], h2⟩
    | tail _ hg =>
      obtain ⟨a', q1, q2⟩ := h4 g hg
      have : (g.ident == f.ident) = false := by
        rw [beq_eq_false_iff_ne]
        intro he; exact hn.1 (by rw [← he]; exact List.mem_map_of_mem hg)
      exact ⟨a', by simp [List.lookup, this, q1], q2⟩

/-- Deserialisation of any document. -/
theorem deserialise_spec {c : Ctx} (h : Compiles c) {w : World V} (hw : WorldTyped c w) (d : Doc V) :
    (deserialise c w d = .error ∧ ∃ f ∈ shadowFields c, readField w ⟨c, f⟩ d = .error) ∨
    ∃ l, deserialise c w d = .ok l ∧
      (∀ f ∈ shadowFields c, ∃ b, readField w ⟨c, f⟩ d = .ok b ∧ ValTy b (shadowType ⟨c, f⟩)) ∧
      ∀ f ∈ c.allFields, ∃ a, l.lookup f.ident = some a ∧ (∃ τ, declType ⟨c, f⟩ = .ok τ ∧ ValTy a τ) ∧
        (deserialised ⟨c, f⟩ = false → content a = defaultContent ⟨c, f⟩ (w.env f.ident)) ∧
        (deserialised ⟨c, f⟩ = true → ∃ b, readField w ⟨c, f⟩ d = .ok b ∧
          content a = received ⟨c, f⟩ (w.env f.ident) (content b)) := by
  unfold deserialise
  rcases readFields_spec h hw d (shadowFields c) h.nodupShadow (fun f hf => hf) with ⟨h1, h2⟩ | ⟨sh, h1, h2⟩
  · exact .inl ⟨by rw [h1], h2⟩
  · right
    have hmem : ∀ f ∈ c.allFields, deserialised ⟨c, f⟩ = true → f ∈ shadowFields c := by
      intro f hf hd
      refine List.mem_filter.mpr ⟨hf, ?_⟩
      unfold deserialised at hd; revert hd; cases (FCtx.mk c f).isSerde <;> simp
    obtain ⟨l, h3, h4⟩ := fromFields_spec h w sh c.allFields h.distinct (fun f hf => hf) (by
      intro f hf hd
      obtain ⟨b, _, q2, q3⟩ := h2 f (hmem f hf hd)
      exact ⟨b, q3, q2⟩)
    refine ⟨l, ?_, fun f hf => ?_, ?_⟩
    · rw [h1]; simp only [fromShadowObj, h.serde, h.de, Bool.and_self, if_true, h3]
    · obtain ⟨b, q1, q2, _⟩ := h2 f hf; exact ⟨b, q1, q2⟩
    · intro f hf
      obtain ⟨a, q1, q2, q3, q4⟩ := h4 f hf
      refine ⟨a, q1, q2, q3, fun hd => ?_⟩
      obtain ⟨b, r1, r2⟩ := q4 hd
      obtain ⟨b', s1, _, s3⟩ := h2 f (hmem f hf hd)
      rw [r1] at s3
      cases s3
      exact ⟨b, s1, r2⟩

end Verif.Proof.Serde
