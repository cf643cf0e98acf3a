import Verif.Spec.Expansion
import Verif.Props.Init
/-
Lemmas for C83: effects of the steps of a run.
-/
namespace Verif.Proof.Expand
open Verif.Model Verif.Model.Args Verif.Model.Init Verif.Model.Emit Verif.Model.Expand
open Verif.Spec.Expansion (NoErrorType Faulty DistinctNames FaultyWhole)

/-- The step ends with `g`, adds the pieces `o` and records the errors `e`, whatever the state. -/
def Does (m : M Unit) (g : Gen Unit) (o : List Piece) (e : List (Option String)) : Prop :=
  ∀ s, m s = (g, ⟨s.out ++ o, s.errs ++ e⟩)

/-- Forget the code. -/
def void {α : Type} : Gen α → Gen Unit
  | .ok _ => .ok ()
  | .error => .error
  | .panic => .panic

theorem does_pure : Does (pure ()) (.ok ()) [] [] := by
  intro s; simp [pure, M.ret]

theorem does_emit (p : Piece) : Does (emit p) (.ok ()) [p] [] := by
  intro s; simp [emit]

/-- One piece or none. -/
def opt (b : Bool) (p : Piece) : List Piece := if b then [p] else []

theorem does_emitIf (b : Bool) (p : Piece) : Does (emitIf b p) (.ok ()) (opt b p) [] := by
  cases b
  · exact does_pure
  · exact does_emit p

theorem does_tryGen {α : Type} (g : Gen α) : Does (tryGen g) (void g) [] [] := by
  intro s; cases g <;> simp [tryGen, void]

theorem does_bind {m : M Unit} {k : Unit → M Unit} {g : Gen Unit} {o o' : List Piece} {e e' : List (Option String)}
    (h : Does m (.ok ()) o e) (h' : Does (k ()) g o' e') : Does (m >>= k) g (o ++ o') (e ++ e') := by
  intro s
  show M.bind m k s = _
  simp only [M.bind, h s, h' _, List.append_assoc]

theorem does_bind_fail {m : M Unit} {k : Unit → M Unit} {g : Gen Unit} {o : List Piece} {e : List (Option String)}
    (h : Does m g o e) (hg : g ≠ .ok ()) : Does (m >>= k) g o e := by
  intro s
  show M.bind m k s = _
  cases g with
  | ok a => exact absurd rfl hg
  | error => simp only [M.bind, h s]
  | panic => simp only [M.bind, h s]

theorem does_record_ok {w : Option String} {m : M Unit} {o : List Piece} {e : List (Option String)}
    (h : Does m (.ok ()) o e) : Does (record w m) (.ok ()) o e := by
  intro s; simp only [record, h s]

theorem does_record_error {w : Option String} {m : M Unit} {o : List Piece} {e : List (Option String)}
    (h : Does m .error o e) : Does (record w m) (.ok ()) o (e ++ [w]) := by
  intro s; simp only [record, h s, List.append_assoc]

theorem does_record_panic {w : Option String} {m : M Unit} {o : List Piece} {e : List (Option String)}
    (h : Does m .panic o e) : Does (record w m) .panic o e := by
  intro s; simp only [record, h s]

theorem does_each {α : Type} {step : α → M Unit} {o : α → List Piece} {e : α → List (Option String)} (as : List α)
    (h : ∀ a ∈ as, Does (step a) (.ok ()) (o a) (e a)) :
    Does (each step as) (.ok ()) (as.flatMap o) (as.flatMap e) := by
  induction as with
  | nil => exact does_pure
  | cons a as ih =>
    exact does_bind (h a (List.mem_cons_self ..)) (ih fun b hb => h b (List.mem_cons_of_mem _ hb))

/-- If every step goes through or panics and one panics, the loop panics. -/
theorem each_panic {α : Type} {step : α → M Unit} {o : α → List Piece} {e : α → List (Option String)}
    {g : α → Gen Unit} (as : List α) (h : ∀ a ∈ as, Does (step a) (g a) (o a) (e a))
    (hg : ∀ a ∈ as, g a ≠ .error) (hp : ∃ a ∈ as, g a = .panic) (s : St) : (each step as s).1 = .panic := by
  induction as generalizing s with
  | nil => obtain ⟨_, h, _⟩ := hp; cases h
  | cons a as ih =>
    show (M.bind (step a) (fun _ => each step as) s).1 = .panic
    have ha := h a (List.mem_cons_self ..) s
    cases hga : g a with
    | error => exact absurd hga (hg a (List.mem_cons_self ..))
    | panic => simp only [M.bind, ha, hga]
    | ok u =>
      simp only [M.bind, ha, hga]
      refine ih (fun b hb => h b (List.mem_cons_of_mem _ hb)) (fun b hb => hg b (List.mem_cons_of_mem _ hb)) ?_ _
      obtain ⟨b, hb, hb'⟩ := hp
      rcases List.mem_cons.mp hb with rfl | hb
      · rw [hga] at hb'; cases hb'
      · exact ⟨b, hb, hb'⟩

/-! ### One field -/

theorem hasErrorType_iff (x : FCtx) : hasErrorType x = false ↔ NoErrorType x := by
  unfold hasErrorType NoErrorType
  cases h1 : x.field.fallible with
  | none =>
    cases h2 : x.ctx.args.fallible with
    | none => simp
    | some b => cases hb : b.error <;> simp [hb]
  | some a =>
    cases ha : a.error with
    | some e => simp [ha]
    | none =>
      cases h2 : x.ctx.args.fallible with
      | none => simp [ha]
      | some b => cases hb : b.error <;> simp [ha, hb]

/-- `Faulty` as a flag. -/
def faulty (x : FCtx) : Bool :=
  x.isFallible && !hasErrorType x && (x.isSync || (x.isLazy && (x.needsAccessor || x.needsAccessorMut)))

theorem faulty_iff (x : FCtx) : faulty x = true ↔ Faulty x := by
  unfold faulty Faulty
  rw [← hasErrorType_iff]
  simp [and_assoc]

instance (x : FCtx) : Decidable (Faulty x) := decidable_of_iff _ (faulty_iff x)

theorem void_declType (x : FCtx) :
    void (declType x) = if x.isSync && x.isFallible && !hasErrorType x then .error else .ok () := by
  unfold declType syncType builderWrapper
  cases x.isSync <;> cases x.isFallible <;> cases hasErrorType x <;> cases x.field.isSkipped <;> cases x.isLazy <;>
    simp [bind, Gen.bind, pure, void]

theorem void_defaultInit (x : FCtx) :
    void (defaultInit x) = if x.isSync && x.isLazy && x.isFallible && !hasErrorType x then .error else .ok () := by
  unfold defaultInit defaultWrap syncWrap syncType plainWrap defaultRepr builderWrapper useAsync
  generalize x.isLazy = lz at *
  generalize x.isOptional = op at *
  generalize x.isInnerMut = im at *
  generalize x.field.isSkipped = sk at *
  generalize x.isSync = sy at *
  generalize x.isAsync = as at *
  generalize x.isFallible = fa at *
  generalize hasErrorType x = er at *
  generalize x.needsLock = lk at *
  generalize x.defaultValue.isSome = dv at *
  revert lz op im sk sy as fa er lk dv
  decide +kernel

theorem void_fromShadow (x : FCtx) :
    void (fromShadow x) = if x.isSync && x.isLazy && x.isFallible && !hasErrorType x then .error else .ok () := by
  unfold fromShadow serdeOptional defaultWrap syncWrap syncType plainWrap defaultRepr builderWrapper useAsync
  generalize x.isLazy = lz at *
  generalize x.isOptional = op at *
  generalize x.isInnerMut = im at *
  generalize x.field.isSkipped = sk at *
  generalize x.isSync = sy at *
  generalize x.isAsync = as at *
  generalize x.isFallible = fa at *
  generalize hasErrorType x = er at *
  generalize x.needsLock = lk at *
  generalize x.defaultValue.isSome = dv at *
  revert lz op im sk sy as fa er lk dv
  decide +kernel

/-- Does the body fail to be written? -/
def bodyFails (x : FCtx) : Kind → Bool
  | .accessor =>
    x.isFallible && !hasErrorType x && (x.isLazy || (x.isSync && !x.isClone && !x.isCopy && !x.needsLock))
  | .accessorMut | .reader | .writer => x.isFallible && !hasErrorType x && x.isLazy
  | _ => false

theorem void_fallibleRet (x : FCtx) (a : Method.CTy) :
    void (Method.fallibleRet x a) = if x.isFallible && !hasErrorType x then .error else .ok () := by
  unfold Method.fallibleRet
  cases x.isFallible <;> cases hasErrorType x <;> rfl

theorem void_body (x : FCtx) (k : Kind) (hk : k ∈ methodKinds) (he : emits x k = true) :
    void (Method.body x k) = if bodyFails x k then .error else .ok () := by
  simp only [methodKinds, List.mem_cons, List.not_mem_nil, or_false] at hk
  rcases hk with rfl | rfl | rfl | rfl | rfl | rfl | rfl
  · unfold Method.body Method.syncAccessor Method.plainAccessor Method.syncReader Method.fallibleRet bodyFails
    cases x.isSync <;> cases x.isLazy <;> cases x.isFallible <;> cases hasErrorType x <;> cases x.isClone <;>
      cases x.isCopy <;> cases x.needsLock <;> cases x.isOptional <;> cases x.isInnerMut <;> cases x.accessorMode <;>
      rfl
  · unfold Method.body Method.syncAccessorMut Method.plainAccessorMut Method.fallibleRet bodyFails
    cases x.isSync <;> cases x.isLazy <;> cases x.isFallible <;> cases hasErrorType x <;>
      cases x.needsLock <;> cases x.isInnerMut <;> rfl
  · have hs : x.isSync = true := by
      unfold emits at he; split at he
      · cases he
      · simp at he; exact he.1
    unfold Method.body Method.syncReader Method.fallibleRet bodyFails
    rw [hs]
    cases x.isLazy <;> cases x.isFallible <;> cases hasErrorType x <;> cases x.isOptional <;> rfl
  · have hs : x.isSync = true := by
      unfold emits at he; split at he
      · cases he
      · simp at he; exact he.1
    unfold Method.body Method.syncWriter builderWrapper bodyFails
    rw [hs]
    cases x.isLazy <;> cases x.isFallible <;> cases hasErrorType x <;> rfl
  · unfold Method.body Method.syncSetter Method.plainSetter bodyFails
    cases x.isSync <;> cases x.isLazy <;> cases x.isOptional <;> cases x.needsLock <;> cases x.isInnerMut <;> rfl
  · unfold Method.body Method.syncClearer Method.plainClearer bodyFails
    cases x.isSync <;> cases x.isLazy <;> cases x.isInnerMut <;> rfl
  · unfold Method.body Method.syncPredicate Method.plainPredicate bodyFails
    cases x.isSync <;> cases x.isLazy <;> cases x.needsLock <;> cases x.isInnerMut <;> rfl

/-- The pieces of the methods. -/
def methodPieces (c : Ctx) (f : FieldArgs) : List Piece := (methodKinds.filter (emits ⟨c, f⟩)).map (.method f.ident)

/-- The pieces of the builder object. -/
def builderPieces (c : Ctx) (f : FieldArgs) : List Piece :=
  if c.needsBuilderStruct then opt (Builder.hasSetter ⟨c, f⟩) (.setter f.ident) ++ [.slot f.ident] else []

/-- All pieces of `field_methods`. -/
def allMethods (c : Ctx) (f : FieldArgs) : List Piece :=
  if f.isSkipped then []
  else methodPieces c f ++
    (opt ((FCtx.mk c f).isSync && (FCtx.mk c f).isLazy && useAsync ⟨c, f⟩) (.wrapper f.ident) ++ builderPieces c f)

/-- `field_default` fails. -/
def defaultFails (x : FCtx) : Bool := x.isSync && x.isLazy && x.isFallible && !hasErrorType x

/-- `field_methods` fails, after `field_default` went through. -/
def methodsFail (x : FCtx) : Bool :=
  x.isFallible && !hasErrorType x && !x.field.isSkipped &&
    ((!x.isSync && x.isLazy && (x.needsAccessor || x.needsAccessorMut)) ||
      (x.isSync && !x.isLazy && x.needsAccessor && !x.isClone && !x.isCopy && !x.needsLock))

/-- What `prepare_field` leaves behind. -/
def prepared (c : Ctx) (f : FieldArgs) : List Piece :=
  opt ((FCtx.mk c f).needsAccessor && (FCtx.mk c f).isCopy) (.copy f.ident) ++
    if defaultFails ⟨c, f⟩ then []
    else .dflt f.ident :: (if methodsFail ⟨c, f⟩ then [] else allMethods c f ++ (opt (!faulty ⟨c, f⟩) (.decl f.ident)))

/-- The error recorded for the field, if there is one. -/
def blame (b : Bool) (f : FieldArgs) : List (Option String) := if b then [some f.ident] else []

theorem emits_accessor (x : FCtx) (h : x.field.isSkipped = false) : emits x .accessor = x.needsAccessor := by
  simp [emits, h]

theorem emits_accessorMut (x : FCtx) (h : x.field.isSkipped = false) : emits x .accessorMut = x.needsAccessorMut := by
  simp [emits, h]

theorem does_genMethod_ok (c : Ctx) (f : FieldArgs) (k : Kind) (hk : k ∈ methodKinds)
    (h : emits ⟨c, f⟩ k = true → bodyFails ⟨c, f⟩ k = false) :
    Does (genMethod c f k) (.ok ()) (opt (emits ⟨c, f⟩ k) (.method f.ident k)) [] := by
  unfold genMethod
  cases he : emits ⟨c, f⟩ k with
  | false => exact does_pure
  | true =>
    have hv := void_body ⟨c, f⟩ k hk he
    rw [h he] at hv
    have := does_tryGen (Method.body ⟨c, f⟩ k)
    rw [hv] at this
    exact does_bind this (does_emit _)

theorem does_genMethod_error (c : Ctx) (f : FieldArgs) (k : Kind) (hk : k ∈ methodKinds)
    (he : emits ⟨c, f⟩ k = true) (h : bodyFails ⟨c, f⟩ k = true) :
    Does (genMethod c f k) .error [] [] := by
  unfold genMethod
  rw [if_pos he]
  have hv := void_body ⟨c, f⟩ k hk he
  rw [if_pos h] at hv
  have := does_tryGen (Method.body ⟨c, f⟩ k)
  rw [hv] at this
  exact does_bind_fail this (by simp)

theorem methodPieces_eq (c : Ctx) (f : FieldArgs) :
    methodKinds.flatMap (fun k => opt (emits ⟨c, f⟩ k) (.method f.ident k)) = methodPieces c f := by
  unfold methodPieces opt
  generalize methodKinds = ks
  induction ks with
  | nil => rfl
  | cons k ks ih =>
    rw [List.flatMap_cons, ih]
    cases h : emits ⟨c, f⟩ k <;> simp [h]

theorem does_methods_ok (c : Ctx) (f : FieldArgs)
    (h : ∀ k ∈ methodKinds, emits ⟨c, f⟩ k = true → bodyFails ⟨c, f⟩ k = false) :
    Does (each (genMethod c f) methodKinds) (.ok ()) (methodPieces c f) [] := by
  have := does_each methodKinds (step := genMethod c f) (e := fun _ => [])
    (fun k hk => does_genMethod_ok c f k hk (h k hk))
  rw [methodPieces_eq] at this
  exact this

/-- `field_methods` goes through. -/
theorem does_fieldMethods_ok (c : Ctx) (f : FieldArgs) (hd : defaultFails ⟨c, f⟩ = false)
    (hm : methodsFail ⟨c, f⟩ = false) : Does (fieldMethods c f) (.ok ()) (allMethods c f) [] := by
  unfold fieldMethods allMethods
  cases hk : f.isSkipped with
  | true => exact does_pure
  | false =>
    simp only [Bool.false_eq_true, if_false]
    refine does_bind (does_methods_ok c f ?_) (does_bind (e := []) (e' := []) ?_ ?_)
    · intro k _ he
      have hk' : (FCtx.mk c f).field.isSkipped = false := hk
      cases k with
      | accessor =>
        rw [emits_accessor _ hk'] at he
        unfold methodsFail at hm; unfold defaultFails at hd; unfold bodyFails
        rw [he, hk'] at hm
        revert hm hd
        cases (FCtx.mk c f).isSync <;> cases (FCtx.mk c f).isLazy <;> cases (FCtx.mk c f).isFallible <;>
          cases hasErrorType ⟨c, f⟩ <;> simp
      | accessorMut =>
        rw [emits_accessorMut _ hk'] at he
        unfold methodsFail at hm; unfold defaultFails at hd; unfold bodyFails
        rw [he, hk'] at hm
        revert hm hd
        cases (FCtx.mk c f).isSync <;> cases (FCtx.mk c f).isLazy <;> cases (FCtx.mk c f).isFallible <;>
          cases hasErrorType ⟨c, f⟩ <;> simp
      | reader =>
        have hs : (FCtx.mk c f).isSync = true := by
          simp only [emits, hk', Bool.false_eq_true, if_false, Bool.and_eq_true] at he; exact he.1
        unfold defaultFails at hd; unfold bodyFails
        rw [hs] at hd
        revert hd
        cases (FCtx.mk c f).isLazy <;> cases (FCtx.mk c f).isFallible <;> cases hasErrorType ⟨c, f⟩ <;> simp
      | writer =>
        have hs : (FCtx.mk c f).isSync = true := by
          simp only [emits, hk', Bool.false_eq_true, if_false, Bool.and_eq_true] at he; exact he.1
        unfold defaultFails at hd; unfold bodyFails
        rw [hs] at hd
        revert hd
        cases (FCtx.mk c f).isLazy <;> cases (FCtx.mk c f).isFallible <;> cases hasErrorType ⟨c, f⟩ <;> simp
      | _ => rfl
    · unfold genWrapper
      dsimp only
      cases hw : ((FCtx.mk c f).isSync && (FCtx.mk c f).isLazy && useAsync ⟨c, f⟩) with
      | false => exact does_pure
      | true =>
        have hv := void_fallibleRet ⟨c, f⟩ (.own .t)
        have hf : ((FCtx.mk c f).isFallible && !hasErrorType ⟨c, f⟩) = false := by
          unfold defaultFails at hd
          simp only [Bool.and_eq_true] at hw
          rw [hw.1.1, hw.1.2] at hd
          simpa using hd
        rw [hf] at hv
        have := does_tryGen (Method.fallibleRet ⟨c, f⟩ (.own .t))
        rw [hv] at this
        exact does_bind this (does_emit _)
    · unfold builderPieces
      cases c.needsBuilderStruct with
      | false => exact does_pure
      | true => exact does_bind (does_emitIf _ _) (does_emit _)

/-- `field_methods` fails before the first method. -/
theorem does_fieldMethods_error (c : Ctx) (f : FieldArgs) (hm : methodsFail ⟨c, f⟩ = true) :
    Does (fieldMethods c f) .error [] [] := by
  unfold methodsFail at hm
  simp only [Bool.and_eq_true, Bool.not_eq_true', Bool.or_eq_true] at hm
  obtain ⟨⟨⟨hfa, her⟩, hk⟩, hm⟩ := hm
  unfold fieldMethods
  have hk' : f.isSkipped = false := hk
  rw [hk']
  simp only [Bool.false_eq_true, if_false]
  refine does_bind_fail ?_ (by simp)
  unfold methodKinds each
  have hbm : (FCtx.mk c f).isLazy = true → bodyFails ⟨c, f⟩ .accessorMut = true := by
    intro hl; simp [bodyFails, hfa, her, hl]
  have hba : ((FCtx.mk c f).isLazy = true ∨ ((FCtx.mk c f).isSync = true ∧ (FCtx.mk c f).isClone = false ∧
      (FCtx.mk c f).isCopy = false ∧ (FCtx.mk c f).needsLock = false)) → bodyFails ⟨c, f⟩ .accessor = true := by
    rintro (hl | ⟨h1, h2, h3, h4⟩)
    · simp [bodyFails, hfa, her, hl]
    · simp [bodyFails, hfa, her, h1, h2, h3, h4]
  rcases hm with ⟨⟨hs, hl⟩, hn⟩ | ⟨⟨⟨⟨⟨hs, hl⟩, hn⟩, h2⟩, h3⟩, h4⟩
  · cases ha : (FCtx.mk c f).needsAccessor with
    | true =>
      exact does_bind_fail (does_genMethod_error c f .accessor (by simp [methodKinds])
        (by rw [emits_accessor _ hk, ha]) (hba (.inl hl))) (by simp)
    | false =>
      have hn' : (FCtx.mk c f).needsAccessorMut = true := by
        rcases hn with hn | hn
        · rw [ha] at hn; cases hn
        · exact hn
      have h1 := does_genMethod_ok c f .accessor (by simp [methodKinds])
        (by rw [emits_accessor _ hk, ha]; intro h; cases h)
      rw [emits_accessor _ hk, ha] at h1
      refine does_bind (o := []) (o' := []) (e := []) (e' := []) h1 ?_
      exact does_bind_fail (does_genMethod_error c f .accessorMut (by simp [methodKinds])
        (by rw [emits_accessorMut _ hk, hn']) (hbm hl)) (by simp)
  · exact does_bind_fail (does_genMethod_error c f .accessor (by simp [methodKinds])
      (by rw [emits_accessor _ hk, hn]) (hba (.inr ⟨hs, h2, h3, h4⟩))) (by simp)

/-- The run of `prepare_field` with its error recorded. -/
theorem does_prepare (c : Ctx) (f : FieldArgs) :
    Does (record (some f.ident) (prepareField c f)) (.ok ()) (prepared c f) (blame (faulty ⟨c, f⟩) f) := by
  have hdef := does_tryGen (defaultInit ⟨c, f⟩)
  rw [void_defaultInit] at hdef
  have hdecl := does_tryGen (declType ⟨c, f⟩)
  rw [void_declType] at hdecl
  have hlazy : (FCtx.mk c f).isLazy = true → f.isSkipped = false := by
    intro hl
    cases hk : f.isSkipped with
    | false => rfl
    | true => rw [Verif.Props.Init.skip_lazy ⟨c, f⟩ hk] at hl; cases hl
  unfold prepared
  cases hd : defaultFails ⟨c, f⟩ with
  | true =>
    have hd' := hd
    unfold defaultFails at hd'
    rw [if_pos hd'] at hdef
    have hfy : faulty ⟨c, f⟩ = true := by
      unfold faulty
      simp only [Bool.and_eq_true, Bool.not_eq_true'] at hd'
      simp [hd'.1.1.1, hd'.1.2, hd'.2]
    rw [hfy]
    refine does_record_error (e := []) ?_
    unfold prepareField
    exact does_bind (e := []) (e' := []) (does_emitIf _ _) (does_bind_fail hdef (by simp))
  | false =>
    have hd' := hd
    unfold defaultFails at hd'
    rw [hd'] at hdef
    simp only [Bool.false_eq_true, if_false]
    cases hm : methodsFail ⟨c, f⟩ with
    | true =>
      have hfy : faulty ⟨c, f⟩ = true := by
        unfold methodsFail at hm
        unfold faulty
        simp only [Bool.and_eq_true, Bool.or_eq_true, Bool.not_eq_true'] at hm ⊢
        obtain ⟨⟨⟨h1, h2⟩, h3⟩, h4⟩ := hm
        refine ⟨⟨h1, h2⟩, ?_⟩
        rcases h4 with h4 | h4
        · exact .inr ⟨h4.1.2, h4.2⟩
        · exact .inl h4.1.1.1.1.1
      rw [hfy]
      refine does_record_error (e := []) ?_
      unfold prepareField
      refine does_bind (e := []) (e' := []) (does_emitIf _ _) (does_bind (o := []) (e := []) hdef ?_)
      exact does_bind (o := [_]) (o' := []) (e := []) (e' := []) (does_emit _)
        (does_bind_fail (does_fieldMethods_error c f hm) (by simp))
    | false =>
      have hmeth := does_fieldMethods_ok c f hd hm
      simp only [Bool.false_eq_true, if_false]
      cases hfy : faulty ⟨c, f⟩ with
      | true =>
        refine does_record_error (e := []) ?_
        have hdc : ((FCtx.mk c f).isSync && (FCtx.mk c f).isFallible && !hasErrorType ⟨c, f⟩) = true := by
          unfold faulty at hfy
          unfold methodsFail at hm
          have hk := hlazy
          revert hfy hm hk
          show _ → _ → ((FCtx.mk c f).isLazy = true → (FCtx.mk c f).field.isSkipped = false) → _
          cases (FCtx.mk c f).isSync <;> cases (FCtx.mk c f).isLazy <;> cases (FCtx.mk c f).isFallible <;>
            cases hasErrorType ⟨c, f⟩ <;> cases (FCtx.mk c f).field.isSkipped <;> simp +contextual
        rw [if_pos hdc] at hdecl
        unfold prepareField
        refine does_bind (e := []) (e' := []) (does_emitIf _ _) (does_bind (o := []) (e := []) hdef ?_)
        refine does_bind (o := [_]) (e := []) (e' := []) (does_emit _) ?_
        exact does_bind (e := []) (e' := []) hmeth (does_bind_fail hdecl (by simp))
      | false =>
        refine does_record_ok ?_
        have hdc : ((FCtx.mk c f).isSync && (FCtx.mk c f).isFallible && !hasErrorType ⟨c, f⟩) = false := by
          unfold faulty at hfy
          revert hfy
          cases (FCtx.mk c f).isSync <;> cases (FCtx.mk c f).isFallible <;> cases hasErrorType ⟨c, f⟩ <;> simp
        rw [hdc] at hdecl
        unfold prepareField
        refine does_bind (e := []) (e' := []) (does_emitIf _ _) (does_bind (o := []) (e := []) hdef ?_)
        refine does_bind (o := [_]) (e := []) (e' := []) (does_emit _) ?_
        exact does_bind (e := []) (e' := []) hmeth (does_bind (o := []) (e := []) (e' := []) hdecl (does_emit _))

/-! ### The whole run -/

/-- The function made of the serde default of the field. -/
def serdeFnPieces (c : Ctx) (l : Lits) (f : FieldArgs) : List Piece :=
  opt (c.args.isSerde && f.serde.elim false (fun sh => sh.hasDefault && sh.defaultValue.isSome && !l.isPath f.ident))
    (.serdeFn f.ident)

def shadowPieces (c : Ctx) (l : Lits) (f : FieldArgs) : List Piece :=
  serdeFnPieces c l f ++ .shadow f.ident :: opt c.needsDefault (.shadowDflt f.ident)

/-- `FaultyWhole` as a flag. -/
def faultyWhole (c : Ctx) (l : Lits) : Bool :=
  c.args.isSerde && l.badWhole && c.args.serde.elim false (fun sh => sh.hasDefault && sh.defaultValue.isSome)

theorem faultyWhole_iff (c : Ctx) (l : Lits) : faultyWhole c l = true ↔ FaultyWhole c l := by
  unfold faultyWhole FaultyWhole
  cases c.args.serde <;> simp [and_assoc]

def wholePieces (c : Ctx) (l : Lits) : List Piece :=
  if c.args.isSerde && !faultyWhole c l then
    opt (c.args.serde.elim false (fun sh => sh.hasDefault && sh.defaultValue.isSome)) .wholeFn ++ [.shadowStruct]
  else []

/-- The fields of the conversion from the shadow. -/
def deFields (c : Ctx) : List FieldArgs := c.allFields.filter (fun f => Serde.deserialised ⟨c, f⟩)

def fromPieces (c : Ctx) : List Piece :=
  if c.args.isSerde && c.args.needsDeserialize then
    (deFields c).flatMap (fun f => opt (!defaultFails ⟨c, f⟩) (.fromShadow f.ident)) ++ [.fromImpl]
  else []

def fromErrs (c : Ctx) : List (Option String) :=
  if c.args.isSerde && c.args.needsDeserialize then (deFields c).flatMap (fun f => blame (defaultFails ⟨c, f⟩) f) else []

def intoPieces (c : Ctx) : List Piece :=
  if c.args.isSerde && c.args.needsSerialize then
    (Serde.serFields c).flatMap (fun f => opt (FCtx.mk c f).isLazy (.lazyInit f.ident) ++ [.intoShadow f.ident]) ++
      [.intoImpl]
  else []

theorem does_shadowField (c : Ctx) (l : Lits) (f : FieldArgs) :
    Does (shadowField c l f) (.ok ()) (shadowPieces c l f) [] := by
  unfold shadowField shadowPieces
  refine does_bind (e := []) (e' := []) (does_record_ok ?_)
    (does_bind (o := [_]) (e := []) (e' := []) (does_emit _) (does_emitIf _ _))
  unfold serdeAttribute serdeFnPieces
  cases c.args.isSerde with
  | false => exact does_pure
  | true =>
    cases f.serde with
    | none => exact does_pure
    | some sh => simpa using does_emitIf _ _

theorem flatMap_nil {α β : Type} (as : List α) : as.flatMap (fun _ => ([] : List β)) = [] := by
  induction as with
  | nil => rfl
  | cons a as ih => rw [List.flatMap_cons, ih]; rfl

theorem does_prepareStruct (c : Ctx) (l : Lits) :
    Does (prepareStruct c l) (.ok ())
      (c.allFields.flatMap (prepared c) ++ (Serde.shadowFields c).flatMap (shadowPieces c l))
      (c.allFields.flatMap (fun f => blame (faulty ⟨c, f⟩) f)) := by
  have h1 := does_each c.allFields (fun f _ => does_prepare c f)
  have h2 := does_each (Serde.shadowFields c) (e := fun _ => []) (fun f _ => does_shadowField c l f)
  rw [flatMap_nil] at h2
  have := does_bind (k := fun _ => serdePrepare c l) h1 h2
  rw [List.append_nil] at this
  exact this

theorem does_shadowStruct (c : Ctx) (l : Lits) :
    Does (record none (shadowStruct c l)) (.ok ()) (wholePieces c l) (if faultyWhole c l then [none] else []) := by
  unfold shadowStruct wholePieces
  cases hs : c.args.isSerde with
  | false =>
    have : faultyWhole c l = false := by simp [faultyWhole, hs]
    rw [this]
    exact does_record_ok does_pure
  | true =>
    unfold shadowDefaultFn
    cases hser : c.args.serde with
    | none =>
      have : faultyWhole c l = false := by simp [faultyWhole, hser]
      rw [this]
      exact does_record_ok (does_bind (o := []) (e := []) (e' := []) does_pure (does_emit _))
    | some sh =>
      cases hd : (sh.hasDefault && sh.defaultValue.isSome) with
      | false =>
        have : faultyWhole c l = false := by simp only [faultyWhole, hser, hs, Option.elim_some, hd]; simp
        rw [this]
        simp only [hd, Option.elim_some]
        exact does_record_ok (does_bind (o := []) (e := []) (e' := []) does_pure (does_emit _))
      | true =>
        cases hb : l.badWhole with
        | false =>
          have : faultyWhole c l = false := by simp [faultyWhole, hb]
          rw [this]
          simp only [hd, Option.elim_some]
          exact does_record_ok (does_bind (o := [_]) (e := []) (e' := []) (does_emit _) (does_emit _))
        | true =>
          have : faultyWhole c l = true := by simp only [faultyWhole, hser, hs, hb, Option.elim_some, hd]; simp
          rw [this]
          simp only [hd]
          refine does_record_error (e := []) (o := []) ?_
          exact does_bind_fail (does_tryGen (α := Unit) .error) (by simp [void])

theorem does_structFromShadow (c : Ctx) :
    Does (structFromShadow c) (.ok ()) (fromPieces c) (fromErrs c) := by
  unfold structFromShadow fromPieces fromErrs
  cases c.args.isSerde && c.args.needsDeserialize with
  | false => exact does_pure
  | true =>
    simp only [if_true]
    rw [← List.append_nil ((deFields c).flatMap fun f => blame (defaultFails ⟨c, f⟩) f)]
    refine does_bind (does_each _ fun f _ => ?_) (does_emit _)
    have hv := does_tryGen (fromShadow ⟨c, f⟩)
    rw [void_fromShadow] at hv
    cases hd : defaultFails ⟨c, f⟩ with
    | true =>
      unfold defaultFails at hd
      rw [if_pos hd] at hv
      exact does_record_error (o := []) (e := []) (does_bind_fail hv (by simp))
    | false =>
      unfold defaultFails at hd
      rw [hd] at hv
      exact does_record_ok (does_bind (o := []) (e := []) (e' := []) hv (does_emit _))

theorem does_structIntoShadow (c : Ctx) :
    Does (structIntoShadow c) (.ok ()) (intoPieces c) [] := by
  unfold structIntoShadow intoPieces
  cases c.args.isSerde && c.args.needsSerialize with
  | false => exact does_pure
  | true =>
    simp only [if_true]
    have h1 := does_each (Serde.serFields c) (step := fun f => record (some f.ident) do
        emitIf (FCtx.mk c f).isLazy (.lazyInit f.ident)
        emit (.intoShadow f.ident)) (e := fun _ => [])
      (o := fun f => opt (FCtx.mk c f).isLazy (.lazyInit f.ident) ++ [.intoShadow f.ident])
      (fun f _ => does_record_ok (does_bind (e := []) (e' := []) (does_emitIf _ _) (does_emit _)))
    rw [flatMap_nil] at h1
    exact does_bind (e := []) (e' := []) h1 (does_emit _)

/-- What is there before `finalize`. -/
def before (c : Ctx) (l : Lits) : List Piece :=
  (c.allFields.flatMap (prepared c) ++ (Serde.shadowFields c).flatMap (shadowPieces c l)) ++
    (opt c.needsDefault .newFn ++ (opt c.needsBuilderStruct .builderFn ++ (wholePieces c l ++ (fromPieces c ++ intoPieces c))))

/-- Errors before `finalize`. -/
def errsBefore (c : Ctx) (l : Lits) : List (Option String) :=
  c.allFields.flatMap (fun f => blame (faulty ⟨c, f⟩) f) ++ ((if faultyWhole c l then [none] else []) ++ fromErrs c)

theorem does_rewriteStruct (c : Ctx) (l : Lits) :
    Does (rewriteStruct c l) (.ok ())
      (opt c.needsDefault .newFn ++ (opt c.needsBuilderStruct .builderFn ++ (wholePieces c l ++ (fromPieces c ++ intoPieces c))))
      ((if faultyWhole c l then [none] else []) ++ fromErrs c) := by
  unfold rewriteStruct structExtras
  refine does_bind (e := []) (does_emitIf _ _) (does_bind (e := []) (does_emitIf _ _) (does_bind (does_shadowStruct c l) ?_))
  have := does_bind (k := fun _ => structIntoShadow c) (does_structFromShadow c) (does_structIntoShadow c)
  rw [List.append_nil] at this
  exact this

theorem rewrite_eq (c : Ctx) (l : Lits) :
    rewrite c l {} = (do defaultImpl c; builderStruct c : M Unit) ⟨before c l, errsBefore c l⟩ := by
  show M.bind (prepareStruct c l) (fun _ => M.bind (rewriteStruct c l) fun _ => M.bind (defaultImpl c) fun _ => builderStruct c) {} = _
  simp only [M.bind, does_prepareStruct c l _, does_rewriteStruct c l _]
  rfl

/-- The builder knows the field. -/
def slotReached (c : Ctx) (f : FieldArgs) : Bool :=
  c.needsBuilderStruct && !f.isSkipped && !defaultFails ⟨c, f⟩ && !methodsFail ⟨c, f⟩

theorem flatMap_opt {α β : Type} (as : List α) (p : α → Bool) (g : α → β) :
    as.flatMap (fun a => if p a then [g a] else []) = (as.filter p).map g := by
  induction as with
  | nil => rfl
  | cons a as ih => rw [List.flatMap_cons, ih]; cases h : p a <;> simp [h]

/-! ### Views -/

section views
variable {β : Type} (sel : Piece → Option β)

theorem filterMap_opt (b : Bool) (p : Piece) : (opt b p).filterMap sel = if b then (sel p).toList else [] := by
  cases b <;> simp [opt]
  cases h : sel p <;> simp [h]

theorem filterMap_flatMap' {α : Type} (as : List α) (o : α → List Piece) :
    (as.flatMap o).filterMap sel = as.flatMap (fun a => (o a).filterMap sel) := by
  rw [List.filterMap_flatMap]

theorem filterMap_one (p : Piece) : [p].filterMap sel = (sel p).toList := by
  cases h : sel p <;> simp [h]

theorem filterMap_cons' (p : Piece) (ps : List Piece) : (p :: ps).filterMap sel = (sel p).toList ++ ps.filterMap sel := by
  cases h : sel p <;> simp [h]

end views

theorem not_faulty (x : FCtx) (h : faulty x = false) : defaultFails x = false ∧ methodsFail x = false := by
  unfold faulty at h
  unfold defaultFails methodsFail
  revert h
  cases x.isSync <;> cases x.isLazy <;> cases x.isFallible <;> cases hasErrorType x <;> cases x.needsAccessor <;>
    cases x.needsAccessorMut <;> simp

/-- A view of what `prepare_field` leaves behind. -/
theorem view_prepared {β : Type} (sel : Piece → Option β) (c : Ctx) (f : FieldArgs) :
    (prepared c f).filterMap sel =
      (if (FCtx.mk c f).needsAccessor && (FCtx.mk c f).isCopy then (sel (.copy f.ident)).toList else []) ++
      (if defaultFails ⟨c, f⟩ then [] else
        (sel (.dflt f.ident)).toList ++
        (if methodsFail ⟨c, f⟩ then [] else
          (if f.isSkipped then [] else
            (methodKinds.filter (emits ⟨c, f⟩)).filterMap (fun k => sel (.method f.ident k)) ++
            (if (FCtx.mk c f).isSync && (FCtx.mk c f).isLazy && useAsync ⟨c, f⟩ then (sel (.wrapper f.ident)).toList else []) ++
            (if c.needsBuilderStruct then
              (if Builder.hasSetter ⟨c, f⟩ then (sel (.setter f.ident)).toList else []) ++ (sel (.slot f.ident)).toList
            else [])) ++
          (if !faulty ⟨c, f⟩ then (sel (.decl f.ident)).toList else []))) := by
  unfold prepared allMethods builderPieces methodPieces
  rw [List.filterMap_append, filterMap_opt]
  congr 1
  cases defaultFails ⟨c, f⟩ <;> simp only [Bool.false_eq_true, if_false, if_true, List.filterMap_nil]
  rw [filterMap_cons']
  congr 1
  cases methodsFail ⟨c, f⟩ <;> simp only [Bool.false_eq_true, if_false, if_true, List.filterMap_nil]
  rw [List.filterMap_append, filterMap_opt]
  congr 1
  cases f.isSkipped <;> simp only [Bool.false_eq_true, if_false, if_true, List.filterMap_nil]
  rw [List.filterMap_append, List.filterMap_append, filterMap_opt, List.filterMap_map, List.append_assoc]
  congr 2
  cases c.needsBuilderStruct <;> simp only [Bool.false_eq_true, if_false, if_true, List.filterMap_nil]
  rw [List.filterMap_append, filterMap_opt, filterMap_one]

/-- A view of everything before `finalize`. -/
theorem view_before {β : Type} (sel : Piece → Option β) (c : Ctx) (l : Lits) :
    (before c l).filterMap sel =
      c.allFields.flatMap (fun f => (prepared c f).filterMap sel) ++
      ((Serde.shadowFields c).flatMap (fun f => (shadowPieces c l f).filterMap sel) ++
      ((if c.needsDefault then (sel .newFn).toList else []) ++
      ((if c.needsBuilderStruct then (sel .builderFn).toList else []) ++
      ((wholePieces c l).filterMap sel ++ ((fromPieces c).filterMap sel ++ (intoPieces c).filterMap sel))))) := by
  unfold before
  simp only [List.filterMap_append, filterMap_flatMap', filterMap_opt, List.append_assoc]

theorem view_shadow {β : Type} (sel : Piece → Option β) (c : Ctx) (l : Lits) (f : FieldArgs) :
    (shadowPieces c l f).filterMap sel =
      (if c.args.isSerde && f.serde.elim false (fun sh => sh.hasDefault && sh.defaultValue.isSome && !l.isPath f.ident) then
        (sel (.serdeFn f.ident)).toList else []) ++
      ((sel (.shadow f.ident)).toList ++ (if c.needsDefault then (sel (.shadowDflt f.ident)).toList else [])) := by
  unfold shadowPieces serdeFnPieces
  rw [List.filterMap_append, filterMap_opt, filterMap_cons', filterMap_opt]

theorem view_whole {β : Type} (sel : Piece → Option β) (c : Ctx) (l : Lits) :
    (wholePieces c l).filterMap sel =
      if c.args.isSerde && !faultyWhole c l then
        (if c.args.serde.elim false (fun sh => sh.hasDefault && sh.defaultValue.isSome) then (sel .wholeFn).toList else []) ++
          (sel .shadowStruct).toList
      else [] := by
  unfold wholePieces
  cases c.args.isSerde && !faultyWhole c l <;> simp only [Bool.false_eq_true, if_false, if_true, List.filterMap_nil]
  rw [List.filterMap_append, filterMap_opt, filterMap_one]

theorem view_from {β : Type} (sel : Piece → Option β) (c : Ctx) :
    (fromPieces c).filterMap sel =
      if c.args.isSerde && c.args.needsDeserialize then
        (deFields c).flatMap (fun f => if !defaultFails ⟨c, f⟩ then (sel (.fromShadow f.ident)).toList else []) ++
          (sel .fromImpl).toList
      else [] := by
  unfold fromPieces
  cases c.args.isSerde && c.args.needsDeserialize <;>
    simp only [Bool.false_eq_true, if_false, if_true, List.filterMap_nil]
  simp only [List.filterMap_append, filterMap_flatMap', filterMap_opt, filterMap_one]

theorem view_into {β : Type} (sel : Piece → Option β) (c : Ctx) :
    (intoPieces c).filterMap sel =
      if c.args.isSerde && c.args.needsSerialize then
        (Serde.serFields c).flatMap (fun f =>
          (if (FCtx.mk c f).isLazy then (sel (.lazyInit f.ident)).toList else []) ++ (sel (.intoShadow f.ident)).toList) ++
          (sel .intoImpl).toList
      else [] := by
  unfold intoPieces
  cases c.args.isSerde && c.args.needsSerialize <;>
    simp only [Bool.false_eq_true, if_false, if_true, List.filterMap_nil]
  simp only [List.filterMap_append, filterMap_flatMap', filterMap_opt, filterMap_one]

theorem filterMap_none' {α β : Type} (as : List α) : as.filterMap (fun _ => (none : Option β)) = [] := by
  induction as with
  | nil => rfl
  | cons a as ih => simp

theorem slotsOf_eq (out : List Piece) : slotsOf out = Spec.Expansion.slots out := by
  unfold slotsOf Spec.Expansion.slots
  congr 1

theorem defaultsOf_eq (out : List Piece) : defaultsOf out = Spec.Expansion.defaulted out := by
  unfold defaultsOf Spec.Expansion.defaulted
  congr 1

theorem slots_before (c : Ctx) (l : Lits) :
    slotsOf (before c l) = (c.allFields.filter (slotReached c)).map (·.ident) := by
  rw [slotsOf_eq, ← flatMap_opt]
  unfold Spec.Expansion.slots
  rw [view_before, view_whole, view_from, view_into]
  simp only [view_shadow, view_prepared, Option.toList_none, Option.toList_some, ite_self, List.append_nil,
    flatMap_nil, List.nil_append, filterMap_none']
  congr 1
  funext f
  unfold slotReached
  cases defaultFails ⟨c, f⟩ <;> cases methodsFail ⟨c, f⟩ <;> cases f.isSkipped <;> cases c.needsBuilderStruct <;> simp

/-! ### `finalize` -/

theorem find_ident (all : List FieldArgs) (hn : (all.map (·.ident)).Nodup) {f : FieldArgs} (hf : f ∈ all) :
    all.find? (fun g => g.ident == f.ident) = some f := by
  induction all with
  | nil => cases hf
  | cons g all ih =>
    rw [List.map_cons, List.nodup_cons] at hn
    rcases List.mem_cons.mp hf with rfl | hf
    · simp
    · have : (g.ident == f.ident) = false := by
        rw [beq_eq_false_iff_ne]
        intro h
        exact hn.1 (h ▸ List.mem_map_of_mem hf)
      rw [List.find?_cons, this]
      exact ih hn.2 hf

theorem refind (all : List FieldArgs) (hn : (all.map (·.ident)).Nodup) (L : List FieldArgs) (hL : ∀ f ∈ L, f ∈ all) :
    (L.map (·.ident)).filterMap (fun n => all.find? (fun g => g.ident == n)) = L := by
  induction L with
  | nil => rfl
  | cons f L ih =>
    rw [List.map_cons, List.filterMap_cons, find_ident all hn (hL f (List.mem_cons_self ..))]
    simp only
    rw [ih fun g hg => hL g (List.mem_cons_of_mem _ hg)]

/-- `BareDefault` as a flag. -/
def bare (x : FCtx) : Bool := decide (Verif.Props.Init.BareDefault x)

theorem bare_iff (x : FCtx) : bare x = true ↔ Spec.Expansion.BareDefault x := by
  unfold bare
  rw [decide_eq_true_eq]
  unfold Verif.Props.Init.BareDefault Spec.Expansion.BareDefault FCtx.defaultValue FieldArgs.hasDefaultValue
  cases hd : x.field.default with
  | none => simp
  | some d => cases ht : d.isTrue <;> simp [ht, and_assoc]

theorem void_builderInit (c : Ctx) (f : FieldArgs) (h : slotReached c f = true) :
    void (builderInit ⟨c, f⟩) = if faulty ⟨c, f⟩ then .error else if bare ⟨c, f⟩ then .panic else .ok () := by
  unfold slotReached at h
  simp only [Bool.and_eq_true, Bool.not_eq_true'] at h
  obtain ⟨⟨⟨_, hk⟩, hd⟩, hm⟩ := h
  have hv := void_declType ⟨c, f⟩
  cases hfy : faulty ⟨c, f⟩ with
  | true =>
    have hs : (FCtx.mk c f).isSync = true ∧ (FCtx.mk c f).isFallible = true ∧ hasErrorType ⟨c, f⟩ = false := by
      unfold faulty at hfy
      unfold methodsFail at hm
      have hk' : (FCtx.mk c f).field.isSkipped = false := hk
      rw [hk'] at hm
      revert hfy hm
      cases (FCtx.mk c f).isSync <;> cases (FCtx.mk c f).isLazy <;> cases (FCtx.mk c f).isFallible <;>
        cases hasErrorType ⟨c, f⟩ <;> simp +contextual
    rw [if_pos rfl]
    unfold builderInit syncBuilderInit syncType builderWrapper
    simp [hs.1, hs.2.1, hs.2.2, bind, Gen.bind, void]
  | false =>
    rw [if_neg (by simp)]
    have hdc : ((FCtx.mk c f).isSync && (FCtx.mk c f).isFallible && !hasErrorType ⟨c, f⟩) = false := by
      unfold faulty at hfy
      revert hfy
      cases (FCtx.mk c f).isSync <;> cases (FCtx.mk c f).isFallible <;> cases hasErrorType ⟨c, f⟩ <;> simp
    rw [hdc, if_neg (by simp)] at hv
    cases ht : declType ⟨c, f⟩ with
    | ok τ =>
      rcases Verif.Props.Init.C23_builder_generated ⟨c, f⟩ ht with ⟨hb, he⟩ | ⟨hb, e, he⟩
      · rw [he]; simp [bare, hb, void]
      · rw [he]; simp [bare, hb, void]
    | error => rw [ht] at hv; cases hv
    | panic => rw [ht] at hv; cases hv

/-- The entries of the field in `build()`. -/
def buildPieces (c : Ctx) (f : FieldArgs) : List Piece :=
  opt (!faulty ⟨c, f⟩) (.build f.ident) ++ opt (Builder.hasChecker ⟨c, f⟩) (.checker f.ident)

theorem does_builderField_ok (c : Ctx) (f : FieldArgs) (h : slotReached c f = true)
    (hp : (!faulty ⟨c, f⟩ && bare ⟨c, f⟩) = false) :
    Does (builderField c f) (.ok ()) (buildPieces c f) (blame (faulty ⟨c, f⟩) f) := by
  unfold builderField buildPieces
  rw [← List.append_nil (blame _ f)]
  refine does_bind ?_ (does_emitIf _ _)
  have hv := does_tryGen (builderInit ⟨c, f⟩)
  rw [void_builderInit c f h] at hv
  cases hfy : faulty ⟨c, f⟩ with
  | true =>
    rw [hfy] at hv
    exact does_record_error (o := []) (e := []) (does_bind_fail hv (by simp))
  | false =>
    rw [hfy] at hv hp
    simp only [Bool.not_false, Bool.true_and] at hp
    rw [hp] at hv
    exact does_record_ok (does_bind (o := []) (e := []) (e' := []) hv (does_emit _))

theorem does_builderField_panic (c : Ctx) (f : FieldArgs) (h : slotReached c f = true)
    (hp : (!faulty ⟨c, f⟩ && bare ⟨c, f⟩) = true) : Does (builderField c f) .panic [] [] := by
  unfold builderField
  simp only [Bool.and_eq_true, Bool.not_eq_true'] at hp
  have hv := does_tryGen (builderInit ⟨c, f⟩)
  rw [void_builderInit c f h, hp.1, hp.2] at hv
  exact does_bind_fail (does_record_panic (does_bind_fail hv (by simp))) (by simp)

/-- Does the run panic? -/
def panics (c : Ctx) : Bool :=
  (c.allFields.filter (slotReached c)).any (fun f => !faulty ⟨c, f⟩ && bare ⟨c, f⟩)

/-- All pieces of a run that does not panic. -/
def finalOut (c : Ctx) (l : Lits) : List Piece :=
  before c l ++ (opt (c.needsDefault && !(defaultsOf (before c l)).isEmpty) .defaultImpl ++
    if c.needsBuilderStruct then (c.allFields.filter (slotReached c)).flatMap (buildPieces c) ++ [.builderStruct] else [])

/-- All errors of a run that does not panic. -/
def finalErrs (c : Ctx) (l : Lits) : List (Option String) :=
  errsBefore c l ++
    if c.needsBuilderStruct then (c.allFields.filter (slotReached c)).flatMap (fun f => blame (faulty ⟨c, f⟩) f) else []

theorem slotsOf_append_opt (o : List Piece) (b : Bool) : slotsOf (o ++ opt b .defaultImpl) = slotsOf o := by
  unfold slotsOf opt
  cases b <;> simp

theorem rewrite_cases (c : Ctx) (l : Lits) (hn : DistinctNames c) :
    (panics c = true ∧ (rewrite c l {}).1 = .panic) ∨
    (panics c = false ∧ rewrite c l {} = (.ok (), ⟨finalOut c l, finalErrs c l⟩)) := by
  rw [rewrite_eq]
  show (panics c = true ∧ (M.bind (defaultImpl c) (fun _ => builderStruct c) _).1 = .panic) ∨
    (panics c = false ∧ M.bind (defaultImpl c) (fun _ => builderStruct c) _ = _)
  have h1 : defaultImpl c ⟨before c l, errsBefore c l⟩ =
      (.ok (), ⟨before c l ++ opt (c.needsDefault && !(defaultsOf (before c l)).isEmpty) .defaultImpl, errsBefore c l⟩) := by
    unfold defaultImpl
    rw [does_emitIf _ _ _, List.append_nil]
  simp only [M.bind, h1]
  unfold builderStruct
  dsimp only
  rw [slotsOf_append_opt, slots_before, refind c.allFields hn _ (fun f hf => (List.mem_filter.mp hf).1)]
  have hsl : ∀ f ∈ c.allFields.filter (slotReached c), slotReached c f = true := fun f hf => (List.mem_filter.mp hf).2
  cases hb : c.needsBuilderStruct with
  | false =>
    right
    have hnil : c.allFields.filter (slotReached c) = [] := by
      rw [List.filter_eq_nil_iff]; intro f _; simp [slotReached, hb]
    refine ⟨by simp [panics, hnil], ?_⟩
    simp only [Bool.false_eq_true, if_false, finalOut, finalErrs, hb, List.append_nil]
    rfl
  | true =>
    cases hp : panics c with
    | true =>
      left
      refine ⟨rfl, ?_⟩
      simp only [if_true]
      have hpan := each_panic (step := builderField c) (c.allFields.filter (slotReached c))
        (g := fun f => if (!faulty ⟨c, f⟩ && bare ⟨c, f⟩) then .panic else .ok ())
        (o := fun f => if (!faulty ⟨c, f⟩ && bare ⟨c, f⟩) then [] else buildPieces c f)
        (e := fun f => if (!faulty ⟨c, f⟩ && bare ⟨c, f⟩) then [] else blame (faulty ⟨c, f⟩) f)
        (fun f hf => by
          cases hq : (!faulty ⟨c, f⟩ && bare ⟨c, f⟩) with
          | true => exact does_builderField_panic c f (hsl f hf) hq
          | false => exact does_builderField_ok c f (hsl f hf) hq)
        (fun f _ => by split <;> simp)
        (by
          unfold panics at hp
          rw [List.any_eq_true] at hp
          obtain ⟨f, hf, hq⟩ := hp
          exact ⟨f, hf, by simp [hq]⟩)
      show (M.bind (each (builderField c) _) (fun _ => emit .builderStruct) _).1 = .panic
      unfold M.bind
      generalize hr : each (builderField c) _ _ = r
      have := congrArg Prod.fst hr
      rw [hpan] at this
      obtain ⟨g, st⟩ := r
      dsimp only at this
      subst this
      rfl
    | false =>
      right
      refine ⟨rfl, ?_⟩
      simp only [if_true]
      have hok := does_each (step := builderField c) (o := buildPieces c) (e := fun f => blame (faulty ⟨c, f⟩) f)
        (c.allFields.filter (slotReached c)) (fun f hf => does_builderField_ok c f (hsl f hf) (by
          unfold panics at hp
          rw [List.any_eq_false] at hp
          simpa using hp f hf))
      have := does_bind (k := fun _ => emit .builderStruct) hok (does_emit _)
      rw [this _]
      simp only [finalOut, finalErrs, hb, if_true, List.append_nil, List.append_assoc]

/-- A view of the whole expansion. -/
theorem view_final {β : Type} (sel : Piece → Option β) (c : Ctx) (l : Lits) :
    (finalOut c l).filterMap sel =
      (before c l).filterMap sel ++
      ((if c.needsDefault && !(defaultsOf (before c l)).isEmpty then (sel .defaultImpl).toList else []) ++
      (if c.needsBuilderStruct then
        (c.allFields.filter (slotReached c)).flatMap (fun f =>
          (if !faulty ⟨c, f⟩ then (sel (.build f.ident)).toList else []) ++
          (if Builder.hasChecker ⟨c, f⟩ then (sel (.checker f.ident)).toList else [])) ++ (sel .builderStruct).toList
      else [])) := by
  unfold finalOut
  rw [List.filterMap_append, List.filterMap_append, filterMap_opt]
  congr 2
  cases c.needsBuilderStruct <;> simp only [Bool.false_eq_true, if_false, if_true, List.filterMap_nil]
  simp only [List.filterMap_append, filterMap_flatMap', filterMap_opt, filterMap_one, buildPieces]

/-- Is a piece there: by a view. -/
theorem contains_view (p : Piece) (out : List Piece) :
    out.contains p = !(out.filterMap (fun q => if q = p then some () else none)).isEmpty := by
  induction out with
  | nil => rfl
  | cons q out ih =>
    rw [List.contains_cons, ih, List.filterMap_cons]
    by_cases h : q = p
    · simp [h]
    · have h' : p ≠ q := fun e => h e.symm
      simp [h, h']

theorem flatMap_congr' {α β : Type} (as : List α) {g h : α → List β} (e : ∀ a ∈ as, g a = h a) :
    as.flatMap g = as.flatMap h := by
  induction as with
  | nil => rfl
  | cons a as ih =>
    rw [List.flatMap_cons, List.flatMap_cons, e a (List.mem_cons_self ..), ih fun b hb => e b (List.mem_cons_of_mem _ hb)]

theorem blame_flatMap (as : List FieldArgs) (p : FieldArgs → Bool) :
    as.flatMap (fun f => blame (p f) f) = (as.filter p).map (fun f => some f.ident) := by
  rw [← flatMap_opt]
  rfl

end Verif.Proof.Expand
