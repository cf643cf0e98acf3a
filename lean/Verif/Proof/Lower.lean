import Verif.Spec.Lower
import Verif.Props.Expand
/-
The expansion depends on the arguments through the answers of the getters only. Helpers for C122 to C129.
-/
namespace Verif.Proof.Lower
open Verif.Model.Args Verif.Model.Init Verif.Model.Emit Verif.Model Verif.Model.Expand
open Verif.Spec.Expansion Verif.Proof.Expand Verif.Props.Expand

/-- Two fields in their structs answer all questions of the generators alike; those for `reader` and `writer` if `q`. -/
structure AlikeIf (q : Prop) (x y : FCtx) : Prop where
  skip : y.field.skip = x.field.skip
  ident : y.field.ident = x.field.ident
  default : y.field.default = x.field.default
  serde : y.field.serde = x.field.serde
  rc : y.ctx.args.isRefCounted = x.ctx.args.isRefCounted
  lazy : y.isLazy = x.isLazy
  innerMut : y.isInnerMut = x.isInnerMut
  accessor : y.needsAccessor = x.needsAccessor
  accessorMut : x.field.skip = false → y.needsAccessorMut = x.needsAccessorMut
  setter : x.field.skip = false → y.needsSetter = x.needsSetter
  reader : q → x.field.skip = false → y.needsReader = x.needsReader
  writer : q → x.field.skip = false → y.needsWriter = x.needsWriter
  clearer : x.field.skip = false → y.needsClearer = x.needsClearer
  predicate : x.field.skip = false → y.needsPredicate = x.needsPredicate
  builder : y.needsBuilder = x.needsBuilder
  forced : y.forcedBuilder = x.forcedBuilder
  required : y.isBuilderRequired = x.isBuilderRequired
  optional : y.isOptional = x.isOptional
  lock : y.needsLock = x.needsLock
  ser : y.needsSerialize = x.needsSerialize
  de : y.needsDeserialize = x.needsDeserialize
  isSerde : y.isSerde = x.isSerde
  sync : y.isSync = x.isSync
  async : y.isAsync = x.isAsync
  fallible : y.isFallible = x.isFallible
  error : x.isFallible = true → hasErrorType y = hasErrorType x
  copy : y.isCopy = x.isCopy
  clone : y.isClone = x.isClone
  mode : y.accessorMode = x.accessorMode
  setterInto : y.isSetterInto = x.isSetterInto
  builderInto : y.isBuilderInto = x.isBuilderInto
  vis : ∀ k, y.publicMode k = x.publicMode k
  attrs : ∀ k, attributesFn y k = attributesFn x k

/-- All questions. -/
abbrev Alike := AlikeIf True

namespace AlikeIf
variable {q : Prop} {x y : FCtx} (h : AlikeIf q x y)
include h

theorem skipped : y.field.isSkipped = x.field.isSkipped := h.skip
theorem hasDefault : y.field.hasDefaultValue = x.field.hasDefaultValue := by unfold FieldArgs.hasDefaultValue; rw [h.default]
theorem value : y.defaultValue = x.defaultValue := by unfold FCtx.defaultValue; rw [h.hasDefault, h.default]
theorem repr : defaultRepr y = defaultRepr x := by unfold defaultRepr; rw [h.value, h.lazy, h.optional]
theorem wrapper : builderWrapper y = builderWrapper x := by
  unfold builderWrapper; rw [h.fallible]; cases hf : x.isFallible <;> simp [h.error, hf]
theorem use : useAsync y = useAsync x := h.async
theorem plainTy : plainType y = plainType x := by unfold plainType; rw [h.lazy, h.optional, h.innerMut]
theorem syncTy : syncType y = syncType x := by
  unfold syncType; rw [h.wrapper, h.skipped, h.lazy, h.use, h.fallible, h.optional, h.lock]
theorem decl : declType y = declType x := by unfold declType; rw [h.sync, h.syncTy, h.plainTy]
theorem plainWr (r : VRepr) : plainWrap y r = plainWrap x r := by unfold plainWrap; rw [h.lazy, h.optional, h.innerMut]
theorem syncWr (r : VRepr) : syncWrap y r = syncWrap x r := by
  unfold syncWrap; rw [h.lazy, h.optional, h.syncTy, h.wrapper, h.use, h.fallible, h.lock]
theorem wrap (r : VRepr) : valueWrap y r = valueWrap x r := by unfold valueWrap; rw [h.sync, h.syncWr, h.plainWr]
theorem dwrap : defaultWrap y = defaultWrap x := by unfold defaultWrap; rw [h.sync, h.repr, h.syncWr, h.plainWr]
theorem init : defaultInit y = defaultInit x := h.dwrap
theorem forSet : builderValueForSet y = builderValueForSet x := by
  unfold builderValueForSet; rw [h.hasDefault, h.dwrap, h.optional, h.required, h.wrap, h.wrap, h.wrap]
theorem plainBuild : plainBuilderInit y = plainBuilderInit x := by
  unfold plainBuilderInit; rw [h.dwrap, h.forced, h.builder, h.lazy, h.optional, h.required, h.innerMut, h.forSet]
theorem syncBuild : syncBuilderInit y = syncBuilderInit x := by
  unfold syncBuilderInit
  simp only [h.syncTy, h.repr, h.hasDefault, h.forced, h.builder, h.syncWr, h.lazy, h.wrapper, h.use, h.fallible, h.lock,
    h.forSet, h.optional]
theorem build : builderInit y = builderInit x := by unfold builderInit; rw [h.sync, h.syncBuild, h.plainBuild]
theorem sopt : serdeOptional y = serdeOptional x := by unfold serdeOptional; rw [h.optional, h.lazy]
theorem shTy : shadowType y = shadowType x := by unfold shadowType; rw [h.sopt]
theorem shVal : shadowValue y = shadowValue x := by funext e; unfold shadowValue; rw [h.sopt]
theorem shDef : shadowDefault y = shadowDefault x := by unfold shadowDefault; rw [h.repr, h.shVal, h.sopt]
theorem fromSh : fromShadow y = fromShadow x := by
  unfold fromShadow; rw [h.sync, h.syncWr, h.sopt, h.dwrap, h.plainWr, h.plainWr, h.innerMut]
theorem intoSh : intoShadow y = intoShadow x := by
  unfold intoShadow; rw [h.sync, h.sopt, h.lock, h.lazy, h.innerMut]

theorem mopt : Method.maybeOpt y = Method.maybeOpt x := by unfold Method.maybeOpt; rw [h.optional]
theorem fret (a : Method.CTy) : Method.fallibleRet y a = Method.fallibleRet x a := by
  unfold Method.fallibleRet; rw [h.fallible]; cases hf : x.isFallible <;> simp [h.error, hf]
theorem body (k : Kind) : Method.body y k = Method.body x k := by
  have hrc : Method.rc y = Method.rc x := h.rc
  have h1 : Method.shortcut y = Method.shortcut x := by unfold Method.shortcut; rw [h.fallible]
  have h2 : Method.okReturn y = Method.okReturn x := by unfold Method.okReturn; rw [h.fallible]
  have h3 : Method.awaitCall y = Method.awaitCall x := by unfold Method.awaitCall; rw [h.async]
  have h4 : Method.plainLazyInit y = Method.plainLazyInit x := by unfold Method.plainLazyInit; rw [h.fallible, hrc]
  have h5 : Method.plainMeth y = Method.plainMeth x := by unfold Method.plainMeth; rw [h.mode]
  have h6 : Method.mappedRead y = Method.mappedRead x := by unfold Method.mappedRead; rw [h.async]
  have h7 : Method.syncCMethod y = Method.syncCMethod x := by unfold Method.syncCMethod; rw [h.copy, h.optional]
  have hr : Method.syncReader y = Method.syncReader x := by
    unfold Method.syncReader; simp only [h.lazy, h.fret, h6, h.async, hrc, h.fallible, h3, h.optional]
  cases k <;> unfold Method.body <;> simp only [h.sync]
  · unfold Method.syncAccessor Method.plainAccessor
    simp only [h.clone, h.copy, h.lazy, h.fret, h.async, hrc, h.fallible, h3, h1, h7, h2, h.lock, h.mopt, h.optional, hr, h.mode,
      h4, h5, h.innerMut]
  · unfold Method.syncAccessorMut Method.plainAccessorMut
    simp only [h.lazy, h.fret, h.async, hrc, h.fallible, h3, h.lock, h.mopt, h4, h1, h2, h.innerMut]
  · unfold Method.syncClearer Method.plainClearer
    simp only [h.lazy, h.async, h3, h.innerMut, h.mopt]
  · unfold Method.syncPredicate Method.plainPredicate
    simp only [h.lazy, h.async, h3, h.innerMut, h.lock, h.fallible]
  · rw [hr]
  · unfold Method.syncSetter Method.plainSetter
    simp only [h.lazy, h.async, h3, h.innerMut, h.lock, h.optional, h.mopt]
  · unfold Method.syncWriter
    simp only [h.lazy, h.async, h3, h.wrapper, h.mopt]

theorem code : Spec.Skip.code y = Spec.Skip.code x := by
  unfold Spec.Skip.code
  simp only [h.decl, h.init, h.build, h.body, h.shTy, h.shDef, h.fromSh, h.intoSh, h.skip]

theorem sheet : Spec.Lower.sheet y = Spec.Lower.sheet x := by
  unfold Spec.Lower.sheet
  have h1 : y.publicMode = x.publicMode := funext h.vis
  have h2 : emittedAttrs y = emittedAttrs x := by
    funext k; cases k <;> simp only [emittedAttrs, h.attrs, h.sync]
  rw [h.code, h.setterInto, h.builderInto, h1, h2]

omit h in
theorem notLazy (hk : x.field.skip = true) : x.isLazy = false := by
  simp [FCtx.isLazy, FieldArgs.isLazy, FieldArgs.isSkipped, hk]

theorem isFaulty : faulty y = faulty x := by
  unfold faulty
  have he := h.error
  rw [h.fallible, h.sync, h.lazy, h.accessor]
  cases hf : x.isFallible
  · simp
  rw [he hf]
  cases hk : x.field.skip
  · rw [h.accessorMut hk]
  · simp [notLazy hk]
theorem dFails : defaultFails y = defaultFails x := by
  unfold defaultFails; rw [h.sync, h.lazy, h.fallible]; cases hf : x.isFallible <;> simp [h.error, hf]
theorem mFail : methodsFail y = methodsFail x := by
  unfold methodsFail
  have he := h.error
  rw [h.fallible, h.skipped, h.sync, h.lazy, h.accessor, h.clone, h.copy, h.lock]
  cases hf : x.isFallible
  · simp
  rw [he hf]
  cases hk : x.field.skip
  · rw [h.accessorMut hk]
  · simp [FieldArgs.isSkipped, hk]
theorem isBare : Verif.Proof.Expand.bare y = Verif.Proof.Expand.bare x := by
  rw [Bool.eq_iff_iff, bare_iff, bare_iff]
  unfold BareDefault
  rw [h.sync, h.default, h.lazy, h.optional]

end AlikeIf

/-- Two lists, related one by one. -/
inductive Both {α β : Type} (R : α → β → Prop) : List α → List β → Prop
  | nil : Both R [] []
  | cons {a b as bs} : R a b → Both R as bs → Both R (a :: as) (b :: bs)

namespace Both
variable {α β γ : Type} {R : α → β → Prop}

theorem map {as : List α} {u : α → β} (h : ∀ a ∈ as, R a (u a)) : Both R as (as.map u) := by
  induction as with
  | nil => exact .nil
  | cons a as ih => exact .cons (h a (by simp)) (ih fun b hb => h b (by simp [hb]))

theorem append {as as' : List α} {bs bs' : List β} (h : Both R as bs) (h' : Both R as' bs') :
    Both R (as ++ as') (bs ++ bs') := by
  induction h with
  | nil => exact h'
  | cons h _ ih => exact .cons h ih

theorem over {as : List α} {bs : List β} (hb : Both R as bs) {P : α → Bool} {P' : β → Bool} {F : α → List γ} {F' : β → List γ}
    (hP : ∀ a b, R a b → P' b = P a) (hF : ∀ a b, R a b → F' b = F a) :
    (bs.filter P').flatMap F' = (as.filter P).flatMap F := by
  induction hb with
  | nil => rfl
  | @cons a b _ _ h _ ih =>
    simp only [List.filter_cons, hP a b h]
    cases P a
    · simpa using ih
    · simp only [if_true, List.flatMap_cons, ih, hF a b h]

theorem all {as : List α} {bs : List β} (hb : Both R as bs) {F : α → List γ} {F' : β → List γ}
    (hF : ∀ a b, R a b → F' b = F a) : bs.flatMap F' = as.flatMap F := by
  induction hb with
  | nil => rfl
  | @cons a b _ _ h _ ih => simp only [List.flatMap_cons, ih, hF a b h]

theorem each {as : List α} {bs : List β} (hb : Both R as bs) {F : α → γ} {F' : β → γ}
    (hF : ∀ a b, R a b → F' b = F a) : bs.map F' = as.map F := by
  induction hb with
  | nil => rfl
  | @cons a b _ _ h _ ih => simp only [List.map_cons, ih, hF a b h]

theorem some {as : List α} {bs : List β} (hb : Both R as bs) {P F : α → Bool} {P' F' : β → Bool}
    (hP : ∀ a b, R a b → P' b = P a) (hF : ∀ a b, R a b → F' b = F a) :
    (bs.filter P').any F' = (as.filter P).any F := by
  induction hb with
  | nil => rfl
  | @cons a b _ _ h _ ih =>
    simp only [List.filter_cons, hP a b h]
    cases P a
    · simpa using ih
    · simp only [if_true, List.any_cons, ih, hF a b h]

end Both

/-- Two structs answer alike, and so do their fields. -/
structure AlikeStructIf (q : Prop) (c d : Ctx) : Prop where
  builder : d.needsBuilderStruct = c.needsBuilderStruct
  default : d.needsDefault = c.needsDefault
  serde : d.args.serde = c.args.serde
  fields : Both (fun f g => AlikeIf q ⟨c, f⟩ ⟨d, g⟩) c.allFields d.allFields

abbrev AlikeStruct := AlikeStructIf True

namespace AlikeStructIf
variable {q : Prop} {c d : Ctx} (h : AlikeStructIf q c d) (l : Lits)
include h

theorem isSerde : d.args.isSerde = c.args.isSerde := by unfold StructArgs.isSerde; rw [h.serde]
theorem ser : d.args.needsSerialize = c.args.needsSerialize := by unfold StructArgs.needsSerialize; rw [h.serde]
theorem de : d.args.needsDeserialize = c.args.needsDeserialize := by unfold StructArgs.needsDeserialize; rw [h.serde]

theorem prepared_eq (hq : q) {f g : FieldArgs} (a : AlikeIf q ⟨c, f⟩ ⟨d, g⟩) : prepared d g = prepared c f := by
  have hs : g.isSkipped = f.isSkipped := a.skip
  have hi : g.ident = f.ident := a.ident
  have he : emits ⟨d, g⟩ = emits ⟨c, f⟩ := by
    funext k
    unfold emits
    rw [a.skipped]
    cases hk : (FCtx.mk c f).field.skip
    · cases k <;> simp only [a.accessor, a.accessorMut hk, a.sync, a.reader hq hk, a.writer hq hk, a.setter hk, a.clearer hk,
        a.predicate hk, a.lazy, a.optional, a.forced, a.builder, h.builder]
    · rw [show (FCtx.mk c f).field.isSkipped = true from hk]; rfl
  have hm : allMethods d g = allMethods c f := by
    unfold allMethods methodPieces builderPieces Builder.hasSetter
    rw [hs, he, hi, a.sync, a.lazy, a.use, h.builder, a.forced, a.builder]
  unfold prepared
  rw [a.accessor, a.copy, hi, a.dFails, a.mFail, hm, a.isFaulty]

theorem blame_eq {f g : FieldArgs} (a : AlikeIf q ⟨c, f⟩ ⟨d, g⟩) (b : Bool) : blame b g = blame b f := by
  have hi : g.ident = f.ident := a.ident
  unfold blame; rw [hi]

theorem shadow_eq {f g : FieldArgs} (a : AlikeIf q ⟨c, f⟩ ⟨d, g⟩) : shadowPieces d l g = shadowPieces c l f := by
  have hi : g.ident = f.ident := a.ident
  have hs : g.serde = f.serde := a.serde
  unfold shadowPieces serdeFnPieces
  rw [h.isSerde, hs, hi, h.default]

theorem whole_eq : faultyWhole d l = faultyWhole c l ∧ wholePieces d l = wholePieces c l := by
  have : faultyWhole d l = faultyWhole c l := by unfold faultyWhole; rw [h.isSerde, h.serde]
  refine ⟨this, ?_⟩
  unfold wholePieces
  rw [h.isSerde, this, h.serde]

theorem from_eq : fromPieces d = fromPieces c ∧ fromErrs d = fromErrs c := by
  have hP : ∀ f g, AlikeIf q ⟨c, f⟩ ⟨d, g⟩ → Serde.deserialised ⟨d, g⟩ = Serde.deserialised ⟨c, f⟩ := fun f g a => by
    unfold Serde.deserialised; rw [a.isSerde, a.de]
  constructor
  · unfold fromPieces deFields
    rw [h.isSerde, h.de, h.fields.over hP (F := fun f => opt (!defaultFails ⟨c, f⟩) (.fromShadow f.ident))
      (fun f g a => by rw [a.dFails]; exact congrArg _ (congrArg Piece.fromShadow a.ident))]
  · unfold fromErrs deFields
    rw [h.isSerde, h.de, h.fields.over hP (F := fun f => blame (defaultFails ⟨c, f⟩) f)
      (fun f g a => by rw [a.dFails]; exact h.blame_eq a _)]

theorem into_eq : intoPieces d = intoPieces c := by
  unfold intoPieces Serde.serFields
  rw [h.isSerde, h.ser, h.fields.over (P := fun f => (FCtx.mk c f).isSerde && (FCtx.mk c f).needsSerialize)
    (fun f g a => by rw [a.isSerde, a.ser])
    (F := fun f => opt (FCtx.mk c f).isLazy (.lazyInit f.ident) ++ [.intoShadow f.ident])
    (fun f g a => by
      have hi : g.ident = f.ident := a.ident
      rw [a.lazy, hi])]

theorem before_eq (hq : q) : before d l = before c l := by
  unfold before Serde.shadowFields
  rw [h.fields.all (F := prepared c) (fun f g a => h.prepared_eq hq a),
    h.fields.over (P := fun f => (FCtx.mk c f).isSerde) (fun f g a => a.isSerde) (F := shadowPieces c l)
      (fun f g a => h.shadow_eq l a),
    h.default, h.builder, (h.whole_eq l).2, h.from_eq.1, h.into_eq]

theorem errsBefore_eq : errsBefore d l = errsBefore c l := by
  unfold errsBefore
  rw [h.fields.all (F := fun f => blame (faulty ⟨c, f⟩) f) (fun f g a => by rw [a.isFaulty]; exact h.blame_eq a _),
    (h.whole_eq l).1, h.from_eq.2]

theorem reached {f g : FieldArgs} (a : AlikeIf q ⟨c, f⟩ ⟨d, g⟩) : slotReached d g = slotReached c f := by
  have hs : g.isSkipped = f.isSkipped := a.skip
  unfold slotReached
  rw [h.builder, hs, a.dFails, a.mFail]

theorem final (hq : q) : finalOut d l = finalOut c l ∧ finalErrs d l = finalErrs c l ∧ panics d = panics c := by
  refine ⟨?_, ?_, ?_⟩
  · unfold finalOut
    rw [h.before_eq l hq, h.default, h.builder, h.fields.over (P := slotReached c) (fun f g a => h.reached a) (F := buildPieces c)
      (fun f g a => by
        have hi : g.ident = f.ident := a.ident
        unfold buildPieces Builder.hasChecker
        rw [a.isFaulty, hi, a.required, a.builder, a.lazy, a.optional, a.hasDefault])]
  · unfold finalErrs
    rw [h.errsBefore_eq, h.builder, h.fields.over (P := slotReached c) (fun f g a => h.reached a)
      (F := fun f => blame (faulty ⟨c, f⟩) f) (fun f g a => by rw [a.isFaulty]; exact h.blame_eq a _)]
  · unfold panics
    exact h.fields.some (fun f g a => h.reached a) (fun f g a => by rw [a.isFaulty, a.isBare])

end AlikeStructIf

/-- Structs which answer alike, and are accepted both, are written alike. -/
theorem whole_eq {s t : StructArgs} {fs gs : List FieldArgs} (l : Lits) (h : AlikeStruct (Structs.prepare s fs) (Structs.prepare t gs))
    (hn : DistinctNames (Structs.prepare s fs)) (ha : Accepted true s fs) (hb : Accepted true t gs) :
    Spec.Lower.whole t gs l = Spec.Lower.whole s fs l := by
  have hn' : DistinctNames (Structs.prepare t gs) := by
    unfold DistinctNames
    rw [h.fields.each (F := fun f => f.ident) (fun f g a => a.ident)]
    exact hn
  obtain ⟨e1, e2, e3⟩ := h.final l trivial
  have hx : fxstruct true t gs l = fxstruct true s fs l := by
    rcases outcome (parsed := true) (l := l) hn with ⟨k, -⟩ | ⟨-, hp, h'⟩ | ⟨-, hp, h'⟩
    · exact absurd ha k
    · rcases outcome (parsed := true) (l := l) hn' with ⟨k, -⟩ | ⟨-, kp, k'⟩ | ⟨-, kp, k'⟩
      · exact absurd hb k
      · rw [h', k']
      · exact absurd ((panics_iff _).mp (e3.trans ((panics_iff _).mpr hp))) kp
    · rcases outcome (parsed := true) (l := l) hn' with ⟨k, -⟩ | ⟨-, kp, k'⟩ | ⟨-, kp, k'⟩
      · exact absurd hb k
      · exact absurd ((panics_iff _).mp (e3.symm.trans ((panics_iff _).mpr kp))) hp
      · rw [h', k', e1, e2]
  unfold Spec.Lower.whole
  rw [hx, h.fields.each (F := fun f => Spec.Lower.sheet ⟨Structs.prepare s fs, f⟩) (fun f g a => a.sheet)]

end Verif.Proof.Lower
