import Verif.Spec.Skip
import Verif.Props.Expand
import Verif.Props.Exclusive
/-
C121: what is respected of a skipped field.
-/
namespace Verif.Props.Skip
open Verif.Model.Args Verif.Model.Init Verif.Model.Emit Verif.Model Verif.Model.Expand Verif.Model.Exclusive
open Verif.Spec.Skip Verif.Spec.Expansion Verif.Proof.Expand Verif.Props.Expand
open Verif.Model.Structs (prepare)

/-- A field with other values of the ignored arguments. -/
def other (f g : FieldArgs) : FieldArgs :=
  { f with attrsFn := g.attrsFn, lazy := g.lazy, baseName := g.baseName, accessorMut := g.accessorMut, setter := g.setter,
           optional := g.optional, pub := g.pub, priv := g.priv, into := g.into, serde := g.serde }

theorem drop_other (S : Arg → Bool) (hS : ∀ a ∈ heeded, S a = false) (f : FieldArgs) : drop S f = other f (drop S f) := by
  simp only [heeded, List.forall_mem_cons] at hS
  obtain ⟨h1, h2, h3, h4, h5, h6, h7, h8, h9, h10, h11, h12, h13, h14, -⟩ := hS
  simp [drop, other, h1, h2, h3, h4, h5, h6, h7, h8, h9, h10, h11, h12, h13, h14]

/-- One field of the struct changed into another, or not. -/
def Twin (f f' : FieldArgs) : Prop := f' = f ∨ (f.skip = true ∧ ∃ g, f' = other f g)

theorem Twin.isSync {f f' : FieldArgs} (h : Twin f f') : f'.isSync = f.isSync := by
  rcases h with rfl | ⟨-, g, rfl⟩ <;> rfl

theorem Twin.ident {f f' : FieldArgs} (h : Twin f f') : f'.ident = f.ident := by
  rcases h with rfl | ⟨-, g, rfl⟩ <;> rfl

theorem Twin.skip {f f' : FieldArgs} (h : Twin f f') : f'.isSkipped = f.isSkipped := by
  rcases h with rfl | ⟨-, g, rfl⟩ <;> rfl

section
variable (s : StructArgs) (fs ex : List FieldArgs) (u : FieldArgs → FieldArgs) (hu : ∀ f, Twin f (u f))
include hu

private theorem rather : (Ctx.mk s (fs.map u) ex).isRatherSync = (Ctx.mk s fs ex).isRatherSync := by
  unfold Ctx.isRatherSync Ctx.allFields
  simp only [List.findSome?_append, List.findSome?_map]
  have : ((fun f : FieldArgs => f.isSync) ∘ u) = fun f : FieldArgs => f.isSync := funext fun f => (hu f).isSync
  rw [this]

private theorem builds : (Ctx.mk s (fs.map u) ex).needsBuilderStruct = (Ctx.mk s fs ex).needsBuilderStruct := by
  unfold Ctx.needsBuilderStruct
  simp only [List.any_map]
  have : ((fun f : FieldArgs => f.needsBuilder == some true) ∘ u) = fun f : FieldArgs => f.needsBuilder == some true := by
    funext f
    rcases hu f with h | ⟨-, g, h⟩ <;> simp only [Function.comp, h] <;> rfl
  rw [this]

private theorem lazy_eq (f : FieldArgs) : (u f).isLazy = f.isLazy := by
  rcases hu f with h | ⟨hk, g, h⟩ <;> rw [h]
  simp [FieldArgs.isLazy, FieldArgs.isSkipped, other, hk]

private theorem defaults : (Ctx.mk s (fs.map u) ex).needsDefault = (Ctx.mk s fs ex).needsDefault := by
  unfold Ctx.needsDefault
  rw [rather s fs ex u hu]
  simp only [List.any_map]
  have : ((fun f : FieldArgs => f.hasDefaultValue || ((Ctx.mk s fs ex).isRatherSync && f.isLazy.getD false)) ∘ u) =
      fun f : FieldArgs => f.hasDefaultValue || ((Ctx.mk s fs ex).isRatherSync && f.isLazy.getD false) := by
    funext f
    simp only [Function.comp, lazy_eq u hu f]
    rcases hu f with h | ⟨hk, g, h⟩ <;> rw [h] <;> rfl
  rw [this]

end

/-- All that the code of a field depends on, besides the arguments of the struct. -/
private theorem sees {s : StructArgs} {fs fs' ex : List FieldArgs}
    (hr : (Ctx.mk s fs' ex).isRatherSync = (Ctx.mk s fs ex).isRatherSync) (f : FieldArgs) :
    (FCtx.mk ⟨s, fs', ex⟩ f).isSync = (FCtx.mk ⟨s, fs, ex⟩ f).isSync := by
  unfold FCtx.isSync; rw [hr]

section
variable {s : StructArgs} {fs fs' ex : List FieldArgs} {f f' : FieldArgs}
  (hr : (Ctx.mk s fs' ex).isRatherSync = (Ctx.mk s fs ex).isRatherSync)
include hr

private theorem code_self : code ⟨⟨s, fs', ex⟩, f⟩ = code ⟨⟨s, fs, ex⟩, f⟩ := by
  have h := sees hr f
  have h1 : declType ⟨⟨s, fs', ex⟩, f⟩ = declType ⟨⟨s, fs, ex⟩, f⟩ := by unfold declType; rw [h]; rfl
  have h2 : defaultInit ⟨⟨s, fs', ex⟩, f⟩ = defaultInit ⟨⟨s, fs, ex⟩, f⟩ := by
    unfold defaultInit defaultWrap; rw [h]; rfl
  have h3 : builderInit ⟨⟨s, fs', ex⟩, f⟩ = builderInit ⟨⟨s, fs, ex⟩, f⟩ := by
    have hv : builderValueForSet ⟨⟨s, fs', ex⟩, f⟩ = builderValueForSet ⟨⟨s, fs, ex⟩, f⟩ := by
      unfold builderValueForSet defaultWrap valueWrap; rw [h]; rfl
    have hp : plainBuilderInit ⟨⟨s, fs', ex⟩, f⟩ = plainBuilderInit ⟨⟨s, fs, ex⟩, f⟩ := by
      unfold plainBuilderInit; rw [hv, show defaultWrap ⟨⟨s, fs', ex⟩, f⟩ = defaultWrap ⟨⟨s, fs, ex⟩, f⟩ from h2]; rfl
    have hs : syncBuilderInit ⟨⟨s, fs', ex⟩, f⟩ = syncBuilderInit ⟨⟨s, fs, ex⟩, f⟩ := by
      unfold syncBuilderInit; rw [hv]; rfl
    unfold builderInit; rw [h, hp, hs]
  have h4 : ∀ k, Method.body ⟨⟨s, fs', ex⟩, f⟩ k = Method.body ⟨⟨s, fs, ex⟩, f⟩ k := by
    intro k
    cases k <;> unfold Method.body <;> simp only [h] <;> rfl
  have h5 : fromShadow ⟨⟨s, fs', ex⟩, f⟩ = fromShadow ⟨⟨s, fs, ex⟩, f⟩ := by
    unfold fromShadow; rw [h, show defaultWrap ⟨⟨s, fs', ex⟩, f⟩ = defaultWrap ⟨⟨s, fs, ex⟩, f⟩ from h2]; rfl
  have h6 : intoShadow ⟨⟨s, fs', ex⟩, f⟩ = intoShadow ⟨⟨s, fs, ex⟩, f⟩ := by unfold intoShadow; rw [h]; rfl
  unfold code
  rw [h1, h2, h3, h5, h6]
  simp only [h4]
  rfl

/-- The getters of a skipped field. -/
private theorem getters (g : FieldArgs) (hk : f.skip = true) :
    let x : FCtx := ⟨⟨s, fs, ex⟩, f⟩
    let y : FCtx := ⟨⟨s, fs', ex⟩, other f g⟩
    y.isSync = x.isSync ∧ y.isLazy = false ∧ x.isLazy = false ∧ y.isOptional = false ∧ x.isOptional = false ∧
      y.needsAccessor = x.needsAccessor ∧ y.needsLock = x.needsLock := by
  have hl : (other f g).isLazy = some false := by simp [FieldArgs.isLazy, FieldArgs.isSkipped, other, hk]
  have hl' : f.isLazy = some false := by simp [FieldArgs.isLazy, FieldArgs.isSkipped, hk]
  have e1 : (FCtx.mk ⟨s, fs', ex⟩ (other f g)).isLazy = false := by simp [FCtx.isLazy, hl]
  have e2 : (FCtx.mk ⟨s, fs, ex⟩ f).isLazy = false := by simp [FCtx.isLazy, hl']
  have e3 : (FCtx.mk ⟨s, fs', ex⟩ (other f g)).isOptional = false := by
    simp [FCtx.isOptional, FieldArgs.isSkipped, other, hk]
  have e4 : (FCtx.mk ⟨s, fs, ex⟩ f).isOptional = false := by simp [FCtx.isOptional, FieldArgs.isSkipped, hk]
  refine ⟨?_, e1, e2, e3, e4, ?_, ?_⟩
  · rw [sees hr]; rfl
  · unfold FCtx.needsAccessor; rw [e1, e2]; rfl
  · unfold FCtx.needsLock; rw [e3, e4]; rfl

private theorem code_skipped (g : FieldArgs) (hk : f.skip = true) :
    code ⟨⟨s, fs', ex⟩, other f g⟩ = code ⟨⟨s, fs, ex⟩, f⟩ := by
  obtain ⟨hs, hl, hl', ho, ho', ha, hk'⟩ := getters hr g hk
  have h1 : declType ⟨⟨s, fs', ex⟩, other f g⟩ = declType ⟨⟨s, fs, ex⟩, f⟩ := by
    unfold declType syncType plainType
    rw [hs, hl, hl', ho, ho', hk']; rfl
  have h2 : defaultInit ⟨⟨s, fs', ex⟩, other f g⟩ = defaultInit ⟨⟨s, fs, ex⟩, f⟩ := by
    unfold defaultInit defaultWrap syncWrap plainWrap defaultRepr
    rw [hs, hl, hl', ho, ho', hk']; rfl
  unfold code
  rw [h1, h2]
  simp [other, hk]

private theorem code_eq (ht : Twin f f') : code ⟨⟨s, fs', ex⟩, f'⟩ = code ⟨⟨s, fs, ex⟩, f⟩ := by
  rcases ht with rfl | ⟨hk, g, rfl⟩
  · exact code_self hr
  · exact code_skipped hr g hk

/-- The flags the run depends on. -/
private theorem flags (ht : Twin f f') :
    let x : FCtx := ⟨⟨s, fs, ex⟩, f⟩
    let y : FCtx := ⟨⟨s, fs', ex⟩, f'⟩
    y.isSync = x.isSync ∧ y.isLazy = x.isLazy ∧ y.isOptional = x.isOptional ∧ y.needsAccessor = x.needsAccessor ∧
      y.needsLock = x.needsLock ∧ y.isCopy = x.isCopy ∧ y.isFallible = x.isFallible ∧ hasErrorType y = hasErrorType x ∧
      y.isSerde = x.isSerde := by
  rcases ht with rfl | ⟨hk, g, rfl⟩
  · exact ⟨sees hr _, rfl, rfl, rfl, rfl, rfl, rfl, rfl, rfl⟩
  · obtain ⟨hs, hl, hl', ho, ho', ha, hk'⟩ := getters hr g hk
    exact ⟨hs, hl.trans hl'.symm, ho.trans ho'.symm, ha, hk', rfl, rfl, rfl, by simp [FCtx.isSerde, FieldArgs.isSkipped, other, hk]⟩

private theorem defaultFails_eq (ht : Twin f f') : defaultFails ⟨⟨s, fs', ex⟩, f'⟩ = defaultFails ⟨⟨s, fs, ex⟩, f⟩ := by
  obtain ⟨h1, h2, h3, h4, h5, h6, h7, h8, h9⟩ := flags hr ht
  unfold defaultFails; rw [h1, h2, h7, h8]

private theorem methodsFail_eq (ht : Twin f f') : methodsFail ⟨⟨s, fs', ex⟩, f'⟩ = methodsFail ⟨⟨s, fs, ex⟩, f⟩ := by
  rcases ht with rfl | ⟨hk, g, rfl⟩
  · unfold methodsFail; rw [sees hr]; rfl
  · simp [methodsFail, other, FieldArgs.isSkipped, hk]

private theorem faulty_eq (ht : Twin f f') : faulty ⟨⟨s, fs', ex⟩, f'⟩ = faulty ⟨⟨s, fs, ex⟩, f⟩ := by
  rcases ht with rfl | ⟨hk, g, rfl⟩
  · unfold faulty; rw [sees hr]; rfl
  · obtain ⟨h1, h2, h2', h4, h5, h6, h7⟩ := getters hr g hk
    unfold faulty; rw [h1, h2, h2']; rfl

variable (hb : (Ctx.mk s fs' ex).needsBuilderStruct = (Ctx.mk s fs ex).needsBuilderStruct)
include hb

private theorem prepared_eq (ht : Twin f f') : prepared ⟨s, fs', ex⟩ f' = prepared ⟨s, fs, ex⟩ f := by
  obtain ⟨h1, h2, h3, h4, h5, h6, h7, h8, h9⟩ := flags hr ht
  unfold prepared
  rw [h4, h6, ht.ident, defaultFails_eq hr ht, methodsFail_eq hr ht, faulty_eq hr ht]
  have : allMethods ⟨s, fs', ex⟩ f' = allMethods ⟨s, fs, ex⟩ f := by
    rcases ht with rfl | ⟨hk, g, rfl⟩
    · unfold allMethods builderPieces
      have he : methodPieces ⟨s, fs', ex⟩ f' = methodPieces ⟨s, fs, ex⟩ f' := by
        unfold methodPieces
        have : emits ⟨⟨s, fs', ex⟩, f'⟩ = emits ⟨⟨s, fs, ex⟩, f'⟩ := by
          funext k; unfold emits; rw [sees hr]; cases k <;> first | rfl | (dsimp only; rw [hb]; rfl)
        rw [this]
      rw [he, hb, sees hr]; rfl
    · simp [allMethods, other, FieldArgs.isSkipped, hk]
  rw [this]

private theorem slotReached_eq (ht : Twin f f') : slotReached ⟨s, fs', ex⟩ f' = slotReached ⟨s, fs, ex⟩ f := by
  unfold slotReached
  rw [hb, ht.skip, defaultFails_eq hr ht, methodsFail_eq hr ht]

private theorem kept (ht : Twin f f') (h : f.isSkipped = false) : f' = f := by
  rcases ht with h' | ⟨hk, -⟩
  · exact h'
  · exact absurd hk (by rw [show f.skip = false from h]; simp)

private theorem reached_kept (ht : Twin f f') (h : slotReached ⟨s, fs, ex⟩ f = true) : f' = f := by
  apply kept hr hb ht
  unfold slotReached at h
  simp only [Bool.and_eq_true, Bool.not_eq_true'] at h
  exact h.1.1.2

private theorem bare_eq (f : FieldArgs) : Verif.Proof.Expand.bare ⟨⟨s, fs', ex⟩, f⟩ = Verif.Proof.Expand.bare ⟨⟨s, fs, ex⟩, f⟩ := by
  rw [Bool.eq_iff_iff, bare_iff, bare_iff]
  unfold Spec.Expansion.BareDefault
  rw [sees hr]
  exact Iff.rfl

end

private theorem over {u : FieldArgs → FieldArgs} (hu : ∀ f, Twin f (u f)) {β : Type} {P P' : FieldArgs → Bool}
    {F F' : FieldArgs → List β} (hP : ∀ f f', Twin f f' → P' f' = P f)
    (hF : ∀ f f', Twin f f' → P f = true → F' f' = F f) (ex fs : List FieldArgs) :
    ((ex ++ fs.map u).filter P').flatMap F' = ((ex ++ fs).filter P).flatMap F := by
  have one : ∀ (v : FieldArgs → FieldArgs), (∀ f, Twin f (v f)) → ∀ as : List FieldArgs,
      ((as.map v).filter P').flatMap F' = (as.filter P).flatMap F := by
    intro v hv as
    induction as with
    | nil => rfl
    | cons a as ih =>
      simp only [List.map_cons, List.filter_cons, hP _ _ (hv a)]
      by_cases h : P a = true
      · rw [if_pos h, if_pos h, List.flatMap_cons, List.flatMap_cons, ih, hF _ _ (hv a) h]
      · rw [if_neg h, if_neg h, ih]
  rw [List.filter_append, List.flatMap_append, List.filter_append, List.flatMap_append, one u hu]
  have := one id (fun f => .inl rfl) ex
  rw [List.map_id] at this
  rw [this]

private theorem overAll {u : FieldArgs → FieldArgs} (hu : ∀ f, Twin f (u f)) {β : Type}
    {F F' : FieldArgs → List β} (hF : ∀ f f', Twin f f' → F' f' = F f) (ex fs : List FieldArgs) :
    (ex ++ fs.map u).flatMap F' = (ex ++ fs).flatMap F := by
  have := over hu (P := fun _ => true) (P' := fun _ => true) (fun _ _ _ => rfl) (fun f f' h _ => hF f f' h) ex fs
  have e : ∀ as : List FieldArgs, as.filter (fun _ => true) = as := fun as => List.filter_eq_self.mpr (fun _ _ => rfl)
  rwa [e, e] at this

private theorem any_flatMap {α : Type} (as : List α) (p : α → Bool) : as.any p = !(as.flatMap (fun a => if p a then [()] else [])).isEmpty := by
  induction as with
  | nil => rfl
  | cons a as ih => cases h : p a <;> simp [h, ih]

section
variable (s : StructArgs) (fs ex : List FieldArgs) (u : FieldArgs → FieldArgs) (hu : ∀ f, Twin f (u f)) (l : Lits)
include hu

private theorem before_eq : before ⟨s, fs.map u, ex⟩ l = before ⟨s, fs, ex⟩ l := by
  have hr := rather s fs ex u hu
  have hb := builds s fs ex u hu
  have hd := defaults s fs ex u hu
  have h1 : (Ctx.mk s (fs.map u) ex).allFields.flatMap (prepared ⟨s, fs.map u, ex⟩) =
      (Ctx.mk s fs ex).allFields.flatMap (prepared ⟨s, fs, ex⟩) :=
    overAll hu (fun f f' ht => prepared_eq hr hb ht) ex fs
  have hP : ∀ f f', Twin f f' → (FCtx.mk ⟨s, fs.map u, ex⟩ f').isSerde = (FCtx.mk ⟨s, fs, ex⟩ f).isSerde :=
    fun f f' ht => (flags hr ht).2.2.2.2.2.2.2.2
  have hK : ∀ f f', Twin f f' → (FCtx.mk ⟨s, fs, ex⟩ f).isSerde = true → f' = f := fun f f' ht h => by
    apply kept hr hb ht
    unfold FCtx.isSerde at h
    simp only [Bool.and_eq_true, Bool.not_eq_true'] at h
    exact h.1
  have h2 : (Serde.shadowFields (Ctx.mk s (fs.map u) ex)).flatMap (shadowPieces ⟨s, fs.map u, ex⟩ l) =
      (Serde.shadowFields (Ctx.mk s fs ex)).flatMap (shadowPieces ⟨s, fs, ex⟩ l) :=
    over hu hP (fun f f' ht h => by rw [hK f f' ht h]; unfold shadowPieces; rw [hd]; rfl) ex fs
  have hP' : ∀ f f', Twin f f' → Serde.deserialised ⟨⟨s, fs.map u, ex⟩, f'⟩ = Serde.deserialised ⟨⟨s, fs, ex⟩, f⟩ := by
    intro f f' ht
    unfold Serde.deserialised
    rw [hP f f' ht]
    by_cases h : (FCtx.mk ⟨s, fs, ex⟩ f).isSerde = true
    · rw [hK f f' ht h]; rfl
    · simp [h]
  have hP'' : ∀ f f', Twin f f' → ((FCtx.mk ⟨s, fs.map u, ex⟩ f').isSerde && (FCtx.mk ⟨s, fs.map u, ex⟩ f').needsSerialize) =
      ((FCtx.mk ⟨s, fs, ex⟩ f).isSerde && (FCtx.mk ⟨s, fs, ex⟩ f).needsSerialize) := by
    intro f f' ht
    rw [hP f f' ht]
    by_cases h : (FCtx.mk ⟨s, fs, ex⟩ f).isSerde = true
    · rw [hK f f' ht h]; rfl
    · simp [h]
  have h3 : fromPieces ⟨s, fs.map u, ex⟩ = fromPieces ⟨s, fs, ex⟩ := by
    unfold fromPieces
    have : (deFields ⟨s, fs.map u, ex⟩).flatMap (fun f => opt (!defaultFails ⟨⟨s, fs.map u, ex⟩, f⟩) (.fromShadow f.ident)) =
        (deFields ⟨s, fs, ex⟩).flatMap (fun f => opt (!defaultFails ⟨⟨s, fs, ex⟩, f⟩) (.fromShadow f.ident)) :=
      over hu hP' (fun f f' ht h => by rw [defaultFails_eq hr ht, ht.ident]) ex fs
    rw [this]
  have h4 : intoPieces ⟨s, fs.map u, ex⟩ = intoPieces ⟨s, fs, ex⟩ := by
    unfold intoPieces
    have : (Serde.serFields ⟨s, fs.map u, ex⟩).flatMap
          (fun f => opt (FCtx.mk ⟨s, fs.map u, ex⟩ f).isLazy (.lazyInit f.ident) ++ [.intoShadow f.ident]) =
        (Serde.serFields ⟨s, fs, ex⟩).flatMap
          (fun f => opt (FCtx.mk ⟨s, fs, ex⟩ f).isLazy (.lazyInit f.ident) ++ [Piece.intoShadow f.ident]) :=
      over hu hP'' (fun f f' ht h => by rw [(flags hr ht).2.1, ht.ident]) ex fs
    rw [this]
  unfold before
  rw [h1, h2, h3, h4, hd, hb]
  rfl

private theorem errsBefore_eq : errsBefore ⟨s, fs.map u, ex⟩ l = errsBefore ⟨s, fs, ex⟩ l := by
  have hr := rather s fs ex u hu
  have hb := builds s fs ex u hu
  have h1 : (Ctx.mk s (fs.map u) ex).allFields.flatMap (fun f => blame (faulty ⟨⟨s, fs.map u, ex⟩, f⟩) f) =
      (Ctx.mk s fs ex).allFields.flatMap (fun f => blame (faulty ⟨⟨s, fs, ex⟩, f⟩) f) :=
    overAll hu (fun f f' ht => by rw [faulty_eq hr ht]; unfold blame; rw [ht.ident]) ex fs
  have hP : ∀ f f', Twin f f' → Serde.deserialised ⟨⟨s, fs.map u, ex⟩, f'⟩ = Serde.deserialised ⟨⟨s, fs, ex⟩, f⟩ := by
    intro f f' ht
    unfold Serde.deserialised
    rw [(flags hr ht).2.2.2.2.2.2.2.2]
    by_cases h : (FCtx.mk ⟨s, fs, ex⟩ f).isSerde = true
    · have : f' = f := by
        apply kept hr hb ht
        unfold FCtx.isSerde at h
        simp only [Bool.and_eq_true, Bool.not_eq_true'] at h
        exact h.1
      rw [this]; rfl
    · simp [h]
  have h2 : fromErrs ⟨s, fs.map u, ex⟩ = fromErrs ⟨s, fs, ex⟩ := by
    unfold fromErrs
    have : (deFields ⟨s, fs.map u, ex⟩).flatMap (fun f => blame (defaultFails ⟨⟨s, fs.map u, ex⟩, f⟩) f) =
        (deFields ⟨s, fs, ex⟩).flatMap (fun f => blame (defaultFails ⟨⟨s, fs, ex⟩, f⟩) f) :=
      over hu hP (fun f f' ht h => by rw [defaultFails_eq hr ht]; unfold blame; rw [ht.ident]) ex fs
    rw [this]
  unfold errsBefore
  rw [h1, h2]
  rfl

private theorem final_eq : finalOut ⟨s, fs.map u, ex⟩ l = finalOut ⟨s, fs, ex⟩ l ∧
    finalErrs ⟨s, fs.map u, ex⟩ l = finalErrs ⟨s, fs, ex⟩ l ∧ panics ⟨s, fs.map u, ex⟩ = panics ⟨s, fs, ex⟩ := by
  have hr := rather s fs ex u hu
  have hb := builds s fs ex u hu
  have hd := defaults s fs ex u hu
  have hP : ∀ f f', Twin f f' → slotReached ⟨s, fs.map u, ex⟩ f' = slotReached ⟨s, fs, ex⟩ f :=
    fun f f' ht => slotReached_eq hr hb ht
  refine ⟨?_, ?_, ?_⟩
  · unfold finalOut
    have : ((Ctx.mk s (fs.map u) ex).allFields.filter (slotReached ⟨s, fs.map u, ex⟩)).flatMap (buildPieces ⟨s, fs.map u, ex⟩) =
        ((Ctx.mk s fs ex).allFields.filter (slotReached ⟨s, fs, ex⟩)).flatMap (buildPieces ⟨s, fs, ex⟩) :=
      over hu hP (fun f f' ht h => by
        rw [reached_kept hr hb ht h]
        unfold buildPieces
        rw [faulty_eq hr (.inl rfl)]
        rfl) ex fs
    rw [this, before_eq s fs ex u hu l, hb, hd]
  · unfold finalErrs
    have : ((Ctx.mk s (fs.map u) ex).allFields.filter (slotReached ⟨s, fs.map u, ex⟩)).flatMap
          (fun f => blame (faulty ⟨⟨s, fs.map u, ex⟩, f⟩) f) =
        ((Ctx.mk s fs ex).allFields.filter (slotReached ⟨s, fs, ex⟩)).flatMap (fun f => blame (faulty ⟨⟨s, fs, ex⟩, f⟩) f) :=
      over hu hP (fun f f' ht h => by rw [faulty_eq hr ht]; unfold blame; rw [ht.ident]) ex fs
    rw [this, errsBefore_eq s fs ex u hu l, hb]
  · unfold panics
    rw [any_flatMap, any_flatMap]
    refine congrArg (fun b : List Unit => !b.isEmpty) ?_
    exact over hu hP (fun f f' ht h => by
      rw [reached_kept hr hb ht h, faulty_eq hr (.inl rfl), bare_eq hr hb]) ex fs

end

/-! ### Acceptance -/

private theorem gone {α : Type} {b : Bool} {o : Option α} {a : α} (h : (if b then none else o) = some a) : o = some a := by
  cases b <;> simp_all

private theorem there {α : Type} {b : Bool} {o : Option α} (h : (if b then none else o) ≠ none) : o ≠ none := by
  cases b <;> simp_all

private theorem goneOn {b : Bool} {o : Option Helper} (h : Verif.Props.Exclusive.On (if b then none else o)) :
    Verif.Props.Exclusive.On o := by
  obtain ⟨a, h, h'⟩ := h
  exact ⟨a, gone h, h'⟩

private theorem accept_drop (S : Arg → Bool) (f : FieldArgs) (h : acceptFieldFull f = true) :
    acceptFieldFull (drop S f) = true := by
  cases hd : acceptFieldFull (drop S f) with
  | true => rfl
  | false =>
    rw [Verif.Props.Exclusive.C39_field_full_iff] at hd
    have : acceptFieldFull f = false := by
      rw [Verif.Props.Exclusive.C39_field_full_iff]
      rcases hd with hd | ⟨k, hk, hc⟩ | ⟨a, ha, hc⟩ | ⟨b, hb, hc⟩ | ⟨v, hv, hc⟩
      · left
        cases hd with
        | vis h1 h2 => exact .vis (there h1) (gone h2)
        | copyClone h1 h2 => exact .copyClone (gone h1) (gone h2)
        | lazyOptional h1 h2 => exact .lazyOptional (goneOn h1) (gone h2)
        | lazyInner h1 h2 => exact .lazyInner (goneOn h1) (gone h2)
        | fallible a h1 h2 h3 => exact .fallible a (gone h1) h2 (h3.imp gone (Or.imp gone gone))
        | syncAsync h1 h2 => exact .syncAsync (gone h1) (gone h2)
        | syncInner h1 h2 => exact .syncInner (gone h1) (gone h2)
        | syncMode h1 h2 => exact .syncMode (gone h1) (there h2)
        | asyncInner h1 h2 => exact .asyncInner (gone h1) (gone h2)
        | asyncMode h1 h2 => exact .asyncMode (gone h1) (there h2)
        | innerMode h1 h2 => exact .innerMode (gone h1) (there h2)
      · refine .inr (.inl ⟨k, ?_, hc⟩)
        rcases hk with hk | hk | ⟨z, hk, hz⟩ | hk | hk | hk | hk
        · exact .inl (gone hk)
        · exact .inr (.inl (gone hk))
        · exact .inr (.inr (.inl ⟨z, gone hk, hz⟩))
        · exact .inr (.inr (.inr (.inl (gone hk))))
        · exact .inr (.inr (.inr (.inr (.inl (gone hk)))))
        · exact .inr (.inr (.inr (.inr (.inr (.inl (gone hk))))))
        · exact .inr (.inr (.inr (.inr (.inr (.inr (gone hk))))))
      · exact .inr (.inr (.inl ⟨a, gone ha, hc⟩))
      · exact .inr (.inr (.inr (.inl ⟨b, gone hb, hc⟩)))
      · exact .inr (.inr (.inr (.inr ⟨v, gone hv, hc⟩)))
    rw [h] at this
    cases this

/-! ### The rule -/

/-- **C121** (partial). Arguments of skipped fields may be dropped, any number of them, at any of the skipped fields, as long
as they are of the ignored ones: the expansion, its errors, and the code of every field stay as they are.

Missing: the documentation says this of every argument but `default`, which is not so (`C121_fails`). -/
theorem C121_partial (S : Arg → Bool) (hS : ∀ a ∈ heeded, S a = false) (parsed : Bool) (s : StructArgs) (fs : List FieldArgs)
    (l : Lits) (p : FieldArgs → Bool) (hn : ((prepare s fs).allFields.map (·.ident)).Nodup)
    (ha : ∀ f ∈ fs, acceptFieldFull f = true) : whole parsed s (dropAt S p fs) l = whole parsed s fs l := by
  let u : FieldArgs → FieldArgs := fun f => if f.skip && p f then drop S f else f
  have hu : ∀ f, Twin f (u f) := by
    intro f
    by_cases h : (f.skip && p f) = true
    · refine .inr ⟨?_, drop S f, ?_⟩
      · simp only [Bool.and_eq_true] at h; exact h.1
      · simp only [u, if_pos h]; exact drop_other S hS f
    · exact .inl (by simp only [u, if_neg h])
  show whole parsed s (fs.map u) l = whole parsed s fs l
  let ex := (prepare s fs).extra
  have hc : prepare s (fs.map u) = ⟨s, fs.map u, ex⟩ := rfl
  have hr := rather s fs ex u hu
  have hn' : DistinctNames (prepare s (fs.map u)) := by
    unfold DistinctNames
    rw [hc]
    have : (Ctx.mk s (fs.map u) ex).allFields.map (·.ident) = (prepare s fs).allFields.map (·.ident) := by
      show (ex ++ fs.map u).map _ = (ex ++ fs).map _
      simp only [List.map_append, List.map_map]
      congr 1
      exact List.map_congr_left fun f _ => (hu f).ident
    rw [this]; exact hn
  have ha' : ∀ f ∈ fs.map u, acceptFieldFull f = true := by
    intro f hf
    obtain ⟨g, hg, rfl⟩ := List.mem_map.mp hf
    by_cases h : (g.skip && p g) = true
    · simp only [u, if_pos h]; exact accept_drop S g (ha g hg)
    · simp only [u, if_neg h]; exact ha g hg
  obtain ⟨e1, e2, e3⟩ := final_eq s fs ex u hu l
  have hx : fxstruct parsed s (fs.map u) l = fxstruct parsed s fs l := by
    rcases outcome (parsed := parsed) (l := l) hn with ⟨h, h'⟩ | ⟨h, hp, h'⟩ | ⟨h, hp, h'⟩ <;>
      rcases outcome (parsed := parsed) (l := l) hn' with ⟨k, k'⟩ | ⟨k, kp, k'⟩ | ⟨k, kp, k'⟩ <;> rw [h', k']
    · exact absurd ⟨k.1, k.2.1, ha⟩ h
    · exact absurd ⟨k.1, k.2.1, ha⟩ h
    · exact absurd ⟨h.1, h.2.1, ha'⟩ k
    · exact absurd ((panics_iff _).mp (e3.trans ((panics_iff _).mpr hp))) kp
    · exact absurd ⟨h.1, h.2.1, ha'⟩ k
    · exact absurd ((panics_iff _).mp (e3.symm.trans ((panics_iff _).mpr kp))) hp
    · show Expansion.code (finalOut ⟨s, fs.map u, ex⟩ l) (finalErrs ⟨s, fs.map u, ex⟩ l) = _
      rw [e1, e2]; rfl
  unfold whole
  rw [hx]
  refine congrArg (Prod.mk _) ?_
  show (ex ++ fs.map u).map (fun f => code ⟨⟨s, fs.map u, ex⟩, f⟩) = (ex ++ fs).map (fun f => code ⟨⟨s, fs, ex⟩, f⟩)
  simp only [List.map_append, List.map_map]
  congr 1
  · exact List.map_congr_left fun f _ => code_eq hr (.inl rfl)
  · exact List.map_congr_left fun f _ => code_eq hr (hu f)

/-- A lazy field; its type tells the mode of the struct. -/
def probe : FieldArgs := { ident := "b", lazy := some {} }

/-- For each argument which is not ignored: a struct and a skipped field. -/
def witness : Arg → StructArgs × List FieldArgs
  | .mode => ({}, [{ ident := "a", skip := true, mode := some .sync }, probe])
  | .sync => ({}, [{ ident := "a", skip := true, modeSync := some true }, probe])
  | .async => ({}, [{ ident := "a", skip := true, modeAsync := some true }, probe])
  | .lock => ({}, [{ ident := "a", skip := true, lock := some true }, probe])
  | .reader => ({}, [{ ident := "a", skip := true, reader := some {} }, probe])
  | .writer => ({}, [{ ident := "a", skip := true, writer := some {} }, probe])
  | .innerMut => ({}, [{ ident := "a", skip := true, innerMut := some true }])
  | .fallible => ({ modeSync := some true }, [{ ident := "a", skip := true, fallible := some {} }])
  | .get => ({ copy := some true }, [{ ident := "a", skip := true, accessor := some {} }])
  | .clearer => ({ copy := some true }, [{ ident := "a", skip := true, clearer := some {} }])
  | .predicate => ({ copy := some true }, [{ ident := "a", skip := true, predicate := some {} }])
  | .clone => ({ copy := some true, accessor := some {} }, [{ ident := "a", skip := true, clone := some true }])
  | .copy => ({ accessor := some {} }, [{ ident := "a", skip := true, copy := some true }])
  | .builder => ({}, [{ ident := "a", skip := true, builder := some {} }])
  | _ => ({}, [])

/-- **C121.** Exactly these arguments of a skipped field are ignored: `attributes_fn`, `lazy`, `rename`, `get_mut`, `set`,
`optional`, `public`, `private`, `into`, `serde`. -/
theorem C121_iff (a : Arg) : Ignored a ↔ a ∉ heeded := by
  constructor
  · intro h ha
    have key : ∀ a ∈ heeded, ((prepare (witness a).1 (witness a).2).allFields.map (·.ident)).Nodup ∧
        (∀ f ∈ (witness a).2, acceptFieldFull f = true) ∧
        (fxstruct true (witness a).1 (dropAt (· == a) (fun _ => true) (witness a).2) {},
          (prepare (witness a).1 (dropAt (· == a) (fun _ => true) (witness a).2)).allFields.map fun f =>
            declType ⟨prepare (witness a).1 (dropAt (· == a) (fun _ => true) (witness a).2), f⟩) ≠
        (fxstruct true (witness a).1 (witness a).2 {},
          (prepare (witness a).1 (witness a).2).allFields.map fun f => declType ⟨prepare (witness a).1 (witness a).2, f⟩) := by
      decide +kernel
    obtain ⟨h1, h2, h3⟩ := key a ha
    apply h3
    have := h true (witness a).1 (witness a).2 {} (fun _ => true) h1 h2
    unfold whole at this
    have e1 := congrArg Prod.fst this
    have e2 := congrArg (fun w => w.2.map Code.decl) this
    simp only [List.map_map] at e2
    exact Prod.ext e1 e2
  · intro ha parsed s fs l p hn hacc
    refine C121_partial (· == a) ?_ parsed s fs l p hn hacc
    intro b hb
    simp only [beq_eq_false_iff_ne, ne_eq]
    rintro rfl
    exact ha hb

/-- **C121**, the documented sentence: no argument but `default` is respected. It is false of the code. -/
theorem C121_fails : ¬∀ a, Ignored a := fun h => (C121_iff .builder).mp (h .builder) (by decide)

/-- A skipped field is declared with the type it was given, unless it is a plain one which is `inner_mut`, or a sync one
which is fallible with no error type known. -/
theorem C121_type_iff (x : FCtx) (hk : x.field.skip = true) :
    declType x = .ok .t ↔
      ¬(x.isSync = false ∧ x.isInnerMut = true) ∧ ¬(x.isSync = true ∧ x.isFallible = true ∧ NoErrorType x) := by
  have hl : x.isLazy = false := by simp [FCtx.isLazy, FieldArgs.isLazy, FieldArgs.isSkipped, hk]
  have ho : x.isOptional = false := by simp [FCtx.isOptional, FieldArgs.isSkipped, hk]
  have hk' : x.field.isSkipped = true := hk
  rw [← hasErrorType_iff]
  unfold declType plainType syncType builderWrapper
  rw [hl, ho, hk']
  cases x.isSync <;> cases x.isInnerMut <;> cases x.isFallible <;> cases hasErrorType x <;> simp [bind, Gen.bind, pure]

/-- A skipped field starts with the value of its `default`, or with `Default::default()`, unless the value is put into a
lock or a cell: into a lock if the field is sync and asks for one, into a cell if it is a plain one which is `inner_mut`
and has a default value. -/
theorem C121_init_iff (x : FCtx) (hk : x.field.skip = true) :
    (∃ own, defaultInit x = .ok (if x.defaultValue.isSome then .dv own else .dflt)) ↔
      ¬(x.isSync = true ∧ x.needsLock = true) ∧
      ¬(x.isSync = false ∧ x.isInnerMut = true ∧ x.defaultValue.isSome = true) := by
  have hl : x.isLazy = false := by simp [FCtx.isLazy, FieldArgs.isLazy, FieldArgs.isSkipped, hk]
  have ho : x.isOptional = false := by simp [FCtx.isOptional, FieldArgs.isSkipped, hk]
  unfold defaultInit defaultWrap plainWrap syncWrap defaultRepr
  rw [hl, ho]
  cases x.isSync <;> cases x.isInnerMut <;> cases x.needsLock <;> cases x.defaultValue.isSome <;>
    simp [bind, Gen.bind, pure, VRepr.map, fixup]

/-! ### Cases -/

/-- A struct with a skipped field that has every ignored argument, next to a lazy field with an accessor. -/
def exStruct : StructArgs := { modeSync := some true, builder := some {}, serde := some {} }

def exFields : List FieldArgs :=
  [{ ident := "a", skip := true, lazy := some {}, attrsFn := some ["inline"], baseName := some "z", accessorMut := some {},
     setter := some {}, pub := some .all, into := some true, serde := some {}, default := some { value := some "1" } },
   { ident := "b", lazy := some {}, accessor := some {} }]

def allIgnored (a : Arg) : Bool := !heeded.contains a

example : whole true exStruct (dropAt allIgnored (fun _ => true) exFields) {} = whole true exStruct exFields {} ∧
    dropAt allIgnored (fun _ => true) exFields =
      [{ ident := "a", skip := true, default := some { value := some "1" } }, { ident := "b", lazy := some {}, accessor := some {} }] ∧
    (fxstruct true exStruct exFields {}) ≠ .refused :=
  ⟨C121_partial allIgnored (by decide) true exStruct exFields {} (fun _ => true) (by decide) (by decide), by decide, by decide +kernel⟩

example : Ignored .lazy ∧ Ignored .serde ∧ ¬Ignored .builder ∧ ¬Ignored .innerMut ∧ ¬Ignored .copy :=
  ⟨(C121_iff _).mpr (by decide), (C121_iff _).mpr (by decide), fun h => (C121_iff _).mp h (by decide),
   fun h => (C121_iff _).mp h (by decide), fun h => (C121_iff _).mp h (by decide)⟩

/-- The field of /repo/fieldx/tests/skip.rs 17: there `get`, `predicate` and `clearer` do nothing either. -/
def exTested : FieldArgs :=
  { ident := "bare_field", skip := true, default := some { value := some "321.654" }, lazy := some {}, accessor := some {},
    setter := some {}, predicate := some {}, clearer := some {} }

/-- Lines 12-19 of the test. -/
def exFooN (f : FieldArgs) : Expansion :=
  fxstruct true { lazy := some {}, accessor := some { clone := true } } [{ ident := "bar", attrsFn := some ["allow"] }, f] {}

example : exFooN exTested = exFooN (drop (fun _ => true) exTested) ∧
    exFooN exTested = .code [.dflt "bar", .method "bar" .accessor, .decl "bar", .dflt "bare_field", .decl "bare_field",
      .newFn, .defaultImpl] [] := by
  decide +kernel

/-- `inner_mut` changes the type of a skipped field; so does nothing else when it is plain. -/
example : declType ⟨{}, { skip := true, innerMut := some true }⟩ = .ok (.cell .t) ∧
    declType ⟨{}, { skip := true, lazy := some {}, optional := some true }⟩ = .ok .t :=
  ⟨by decide, (C121_type_iff _ rfl).mpr ⟨by decide, fun h => absurd h.1 (by decide)⟩⟩

example : defaultInit ⟨{}, { skip := true, lock := some true }⟩ ≠ .ok .dflt ∧
    ∃ own, defaultInit ⟨{}, { skip := true, default := some { value := some "1" } }⟩ = .ok (.dv own) :=
  ⟨by decide, (C121_init_iff _ rfl).mpr (by decide)⟩

end Verif.Props.Skip
