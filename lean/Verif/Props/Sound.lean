import Verif.Props.Idents
import Verif.Props.MethodTy
import Verif.Props.Generics
import Verif.Props.Build
import Verif.Props.Features
import Verif.Props.Names
import Verif.Props.Exclusive
/-
C94: everything an expansion holds passes every check, put together from the judgements of C23, C52, C54, C68, C69, C70,
C72, C76, C82 and C93 over the pieces of a run.
-/
namespace Verif.Props.Sound
open Verif.Model.Args Verif.Model.Expand Verif.Model.Init Verif.Spec.Expansion
open Verif.Model.Emit (emits)
open Verif.Model.Structs (prepare hidden myselfField)
open Verif.Spec.Lexical (Letters Ident Usable)
open Verif.Model.Generics (Generics Param)

/-- What surrounds the arguments of a struct: its name, its generic parameters, what its field types mention, the method and
the error conversions of the user, the crate it is in. -/
structure World where
  letters  : Letters
  name     : Ident
  generics : Generics
  isStr    : String → Bool
  mentions : String → List String
  /-- does the default expression of the field say `Self`? -/
  saysSelf : String → Bool
  sig      : String → Option Verif.Spec.BuildTy.BTy
  variants : String → Option String
  conv     : Option String → Option String → Prop
  site     : Verif.Spec.Gated.Site
  lits     : Lits
  /-- running numbers of the serde functions -/
  count    : Piece → Nat

/-- Parameters which have to be used in the fields: types and lifetimes. -/
def mustUse (g : Generics) : List String :=
  g.params.filterMap fun | .life n _ => some n | .type n _ _ => some n | .const _ _ _ => none

/-- The pieces of an expansion pass every check. -/
structure Sound (w : World) (s : StructArgs) (fs : List FieldArgs) (out : List Piece) : Prop where
  /-- each field is declared, with a type -/
  fields : ∀ f ∈ (prepare s fs).allFields, f.ident ∈ declared out ∧ ∃ τ, declType ⟨prepare s fs, f⟩ = .ok τ
  /-- the body of each helper fits its signature and the type of the field -/
  methods : ∀ f ∈ (prepare s fs).allFields, ∀ k, (f.ident, k) ∈ methods out → ∃ τ b, declType ⟨prepare s fs, f⟩ = .ok τ ∧
    Verif.Model.Method.body ⟨prepare s fs, f⟩ k = .ok b ∧
    Verif.Spec.MethodTy.BodyTy τ (Verif.Props.MethodTy.wantsCopy ⟨prepare s fs, f⟩) b
  /-- initialisers are of the type of the field, in `Default`, -/
  default : Piece.defaultImpl ∈ out → ∀ f ∈ (prepare s fs).allFields, ∃ τ e, declType ⟨prepare s fs, f⟩ = .ok τ ∧
    defaultInit ⟨prepare s fs, f⟩ = .ok e ∧ Verif.Spec.InitTy.HasTy {} false e τ
  /-- in `build()`, where `Self` has to be the user's struct, -/
  build : Piece.builderStruct ∈ out → ∀ f ∈ (prepare s fs).allFields, f.ident ∈ built out → ∃ τ e,
    declType ⟨prepare s fs, f⟩ = .ok τ ∧ builderInit ⟨prepare s fs, f⟩ = .ok e ∧
    Verif.Spec.InitTy.HasTy { slot := true } false e τ ∧
    (w.saysSelf f.ident = true → selfOk false e = true)
  /-- and from and into the shadow -/
  fromShadow : Piece.fromImpl ∈ out → ∀ f ∈ (prepare s fs).allFields, f.ident ∈ fromShadowed out → ∃ τ e,
    declType ⟨prepare s fs, f⟩ = .ok τ ∧ fromShadow ⟨prepare s fs, f⟩ = .ok e ∧
    Verif.Spec.InitTy.HasTy { shadow := some (shadowType ⟨prepare s fs, f⟩) } false e τ
  intoShadow : Piece.intoImpl ∈ out → ∀ f ∈ (prepare s fs).allFields, f.ident ∈ intoShadowed out → ∃ τ,
    declType ⟨prepare s fs, f⟩ = .ok τ ∧
    Verif.Spec.InitTy.HasTy { me := some τ } false (intoShadow ⟨prepare s fs, f⟩) (shadowType ⟨prepare s fs, f⟩)
  /-- the hidden self reference is the `Weak` it is taken for -/
  self : s.isRefCounted = true → ∀ n, myselfField s = some n → Verif.Props.Structs.SelfOk (prepare s fs) n
  /-- struct expressions name every field once, or have a rest -/
  exprs : ∀ e ∈ exprsOf (prepare s fs) out, Verif.Spec.Structs.Complete (namesOf (prepare s fs) out e.of)
    (Verif.Model.Structs.hasDefault (prepare s fs) e.of) e
  /-- headers declare the parameters of the struct and apply types to them -/
  headers : ∀ h ∈ Verif.Model.Generics.headers w.isStr (prepare s fs) w.generics,
    Verif.Spec.Generics.Right (Verif.Spec.Generics.own w.generics) w.generics.wh h
  /-- no struct has a parameter its fields do not use -/
  params : Verif.Props.Structs.AllUsed (prepare s fs) w.mentions (mustUse w.generics)
  /-- `build()` returns what it says -/
  buildFn : Piece.builderStruct ∈ out →
    Verif.Spec.BuildTy.Typed w.sig w.variants w.conv (Verif.Model.Build.buildFn (prepare s fs))
  /-- modules and crates named exist -/
  paths : ∀ f ∈ (prepare s fs).allFields, ∀ p ∈ Verif.Model.Features.names w.site.feat ⟨prepare s fs, f⟩,
    Verif.Spec.Gated.Resolves w.site p
  /-- identifiers are made, and can name something -/
  idents : ∀ o ∈ Verif.Model.Idents.idents w.letters w.name (prepare s fs) w.count out, ∃ i, o = some i ∧ Usable w.letters i

/-- The same, said of the arguments. -/
structure Conditions (w : World) (s : StructArgs) (fs : List FieldArgs) : Prop where
  /-- no helper is among those of C54 -/
  methods : ∀ f ∈ fs, ∀ k, Verif.Props.MethodTy.isHelper k = true → emits ⟨prepare s fs, f⟩ k = true →
    Verif.Props.MethodTy.refused ⟨prepare s fs, f⟩ k = false
  /-- with `Default`, no skipped field is under a struct-wide lock -/
  skipped : (prepare s fs).needsDefault = true → ∀ f ∈ fs, f.skip = true →
    (FCtx.mk (prepare s fs) f).isSync = true → (FCtx.mk (prepare s fs) f).needsLock = false
  /-- a reference counted struct is not under a struct-wide lock, nor under `inner_mut` -/
  self : s.isRefCounted = true → if (prepare s fs).isRatherSync = true then
      (prepare s fs).needsDefault = true → ¬Verif.Props.Structs.StructLock s
    else s.isInnerMut.getD false = false
  /-- `Self` is in no default which `build()` writes as it is -/
  says : (prepare s fs).needsBuilderStruct = true → ∀ f ∈ fs, f.skip = false → w.saysSelf f.ident = true →
    ¬Verif.Props.Init.RawSelf ⟨prepare s fs, f⟩
  /-- serialisation meets no optional field without its lock -/
  into : s.isSerde = true → s.needsSerialize = true → ∀ f ∈ fs, (FCtx.mk (prepare s fs) f).isSerde = true →
    (FCtx.mk (prepare s fs) f).needsSerialize = true → ¬Verif.Props.Init.OptionalNoLock ⟨prepare s fs, f⟩
  /-- with `Default` there is a field -/
  any : (prepare s fs).needsDefault = true → fs ≠ [] ∨ s.isRefCounted = true
  /-- with a builder, `rc` is not switched off and nothing is skipped -/
  builds : (prepare s fs).needsBuilderStruct = true → (∀ h, s.rc = some h → h.isTrue = true) ∧ ∀ f ∈ fs, f.skip = false
  /-- with serialisation, every field in the shadow is serialised -/
  serialises : s.isSerde = true → s.needsSerialize = true → ∀ f ∈ fs, (FCtx.mk (prepare s fs) f).isSerde = true →
    (FCtx.mk (prepare s fs) f).needsSerialize = true
  /-- with deserialisation and no `Default`, every field is deserialised -/
  deserialises : s.isSerde = true → s.needsDeserialize = true → (prepare s fs).needsDefault = true ∨
    (s.isRefCounted = false ∧ ∀ f ∈ fs, (FCtx.mk (prepare s fs) f).isSerde = true ∧
      (FCtx.mk (prepare s fs) f).needsDeserialize = true)
  /-- parameters: lifetimes first, no defaults, bare names, as C68 says -/
  lives : (∃ f ∈ fs, (FCtx.mk (prepare s fs) f).isSync = true ∧ (FCtx.mk (prepare s fs) f).isLazy = true) →
    Verif.Spec.Generics.LifeFirst w.generics
  builderParams : (prepare s fs).needsBuilderStruct = true → (∀ p ∈ w.generics.params, Verif.Spec.Generics.NoDefault p) ∧
    (s.isRefCounted = true → ∀ p ∈ w.generics.params, Verif.Spec.Generics.PlainParam p)
  serdeParams : s.isSerde = true → ∀ p ∈ w.generics.params, Verif.Spec.Generics.PlainParam p
  /-- parameters are used by fields of the builder and of the shadow -/
  builderUses : (prepare s fs).needsBuilderStruct = true → s.isRefCounted = true ∨
    ∀ p ∈ mustUse w.generics, ∃ f ∈ fs, f.skip = false ∧ p ∈ w.mentions f.ident
  serdeUses : s.isSerde = true → ∀ p ∈ mustUse w.generics, ∃ f ∈ fs, (FCtx.mk (prepare s fs) f).isSerde = true ∧
    p ∈ w.mentions f.ident
  /-- no `post_build` with an error type on a reference counted struct -/
  post : (prepare s fs).needsBuilderStruct = true →
    ¬ (Verif.Spec.BuildTy.Counted s ∧ (∃ m, Verif.Spec.BuildTy.PostNamed s m) ∧ ∃ e, Verif.Spec.BuildTy.ErrorNamed s e)
  /-- the feature for the containers, and the crate for the guards, are there -/
  backed : ∀ f ∈ (prepare s fs).allFields, Verif.Props.Features.Backed w.site.feat ⟨prepare s fs, f⟩
  guards : ∀ f ∈ fs, (FCtx.mk (prepare s fs) f).isSync = true →
    Verif.Spec.Gated.Guarded (emits ⟨prepare s fs, f⟩) (FCtx.mk (prepare s fs) f).isLazy (FCtx.mk (prepare s fs) f).needsLock
      ((FCtx.mk (prepare s fs) f).isClone || (FCtx.mk (prepare s fs) f).isCopy) →
    (if (FCtx.mk (prepare s fs) f).isAsync then w.site.tokio else w.site.parkingLot) = true
  /-- no name is made of a keyword or of two halves of `r#` -/
  words : ∀ f ∈ fs, Verif.Props.Idents.KeywordField w.letters f → f.skip = false →
    (FCtx.mk (prepare s fs) f).needsAccessor = false ∧
    ((prepare s fs).needsBuilderStruct = true → Verif.Model.Builder.hasSetter ⟨prepare s fs, f⟩ = false)
  raws : ∀ f ∈ fs, (w.name.raw = true ∨ Verif.Props.Idents.RawField w.letters f) →
    (FCtx.mk (prepare s fs) f).isSerde = true →
    ∀ sh, f.serde = some sh → sh.hasDefault = true → sh.defaultValue.isSome = true → w.lits.isPath f.ident = true

/-! ### Helper lemmas -/

section
variable {s : StructArgs} {fs : List FieldArgs} {l : Lits} {out : List Piece} {parsed : Bool}

theorem mem_all {f : FieldArgs} : f ∈ (prepare s fs).allFields ↔
    (s.isRefCounted = true ∧ ∃ n, myselfField s = some n ∧ f = hidden n) ∨ f ∈ fs := by
  simp only [prepare, Ctx.allFields, List.mem_append]
  refine or_congr ?_ Iff.rfl
  cases s.isRefCounted <;> simp [eq_comm]

theorem typed (hn : DistinctNames (prepare s fs)) (h : fxstruct parsed s fs l = .code out []) :
    ∀ f ∈ (prepare s fs).allFields, ∃ τ, declType ⟨prepare s fs, f⟩ = .ok τ := by
  intro f hf
  have hy := (Verif.Props.Expand.clean_flags hn h).1 f hf
  have hv := Verif.Proof.Expand.void_declType ⟨prepare s fs, f⟩
  rw [if_neg] at hv
  · revert hv
    cases hd : declType ⟨prepare s fs, f⟩ <;> simp [Verif.Proof.Expand.void]
  · unfold Verif.Proof.Expand.faulty at hy
    intro hc
    simp only [Bool.and_eq_true] at hc
    simp [hc.1.1, hc.1.2, hc.2] at hy

theorem bodied (hn : DistinctNames (prepare s fs)) (h : fxstruct parsed s fs l = .code out []) :
    ∀ f ∈ (prepare s fs).allFields, ∀ k, Verif.Props.MethodTy.isHelper k = true → emits ⟨prepare s fs, f⟩ k = true →
      ∃ b, Verif.Model.Method.body ⟨prepare s fs, f⟩ k = .ok b := by
  intro f hf k hk he
  have hy := (Verif.Props.Expand.clean_flags hn h).1 f hf
  have hm : k ∈ methodKinds := by cases k <;> first | decide | cases hk
  have hv := Verif.Proof.Expand.void_body _ k hm he
  rw [if_neg] at hv
  · revert hv
    cases hd : Verif.Model.Method.body ⟨prepare s fs, f⟩ k <;> simp [Verif.Proof.Expand.void]
  · intro hc
    unfold Verif.Proof.Expand.faulty at hy
    unfold emits at he
    split at he
    · cases he
    · clear hv hm h hn
      revert hc he hy hk
      cases k <;> simp only [Verif.Proof.Expand.bodyFails] <;>
        generalize (FCtx.mk (prepare s fs) f).isFallible = a <;> generalize hasErrorType ⟨prepare s fs, f⟩ = b <;>
        generalize (FCtx.mk (prepare s fs) f).isSync = c <;> generalize (FCtx.mk (prepare s fs) f).isLazy = d <;>
        cases a <;> cases b <;> cases c <;> cases d <;> simp_all

theorem no_panic (hn : DistinctNames (prepare s fs)) (h : fxstruct parsed s fs l = .code out [])
    (hb : (prepare s fs).needsBuilderStruct = true) (f : FieldArgs) (hf : f ∈ (prepare s fs).allFields) (hk : f.skip = false) :
    ∃ e, builderInit ⟨prepare s fs, f⟩ = .ok e := by
  obtain ⟨τ, ht⟩ := typed hn h f hf
  rcases Verif.Props.Init.C23_builder_generated _ ht with ⟨hB, _⟩ | ⟨_, h'⟩
  · exfalso
    rcases Verif.Props.Expand.outcome (parsed := parsed) (l := l) hn with ⟨_, h'⟩ | ⟨_, _, h'⟩ | ⟨_, hp, _⟩
    · rw [h'] at h; cases h
    · rw [h'] at h; cases h
    · refine hp ⟨hb, f, hf, hk, ((Verif.Props.Expand.C83_clean_iff hn h).mp rfl).1 f hf, ?_⟩
      rw [← Verif.Proof.Expand.bare_iff]
      exact decide_eq_true hB
  · exact h'

theorem from_ok (hn : DistinctNames (prepare s fs)) (h : fxstruct parsed s fs l = .code out [])
    (f : FieldArgs) (hf : f ∈ (prepare s fs).allFields) : ∃ e, fromShadow ⟨prepare s fs, f⟩ = .ok e := by
  have hy := (Verif.Props.Expand.clean_flags hn h).1 f hf
  have hv := Verif.Proof.Expand.void_fromShadow ⟨prepare s fs, f⟩
  rw [if_neg] at hv
  · revert hv
    cases hd : fromShadow ⟨prepare s fs, f⟩ <;> simp [Verif.Proof.Expand.void]
  · unfold Verif.Proof.Expand.faulty at hy
    intro hc
    simp only [Bool.and_eq_true] at hc
    simp_all

end

/-! ### C94 -/

/-- **C94.** An expansion without errors passes every check exactly under the conditions. Given: the fields have different
names; nothing has an explicit name; names are written as Rust asks for; the method and the conversions of the user are as
documented; every parameter is used by a field of the user's struct. -/
theorem C94_sound_iff (w : World) {parsed : Bool} {s : StructArgs} {fs : List FieldArgs} {out : List Piece}
    (hn : DistinctNames (prepare s fs)) (hu : Verif.Props.Idents.NoNames s fs) (hname : Usable w.letters w.name)
    (hf : Verif.Props.Idents.Source w.letters fs) (hs : Verif.Spec.BuildTy.DocSig s w.sig)
    (he : Verif.Spec.BuildTy.DocErr s w.variants w.conv) (hp : ∀ p ∈ mustUse w.generics, ∃ f ∈ fs, p ∈ w.mentions f.ident)
    (h : fxstruct parsed s fs w.lits = .code out []) :
    Sound w s fs out ↔ Conditions w s fs := by
  have ht := typed hn h
  have hsk : ∀ f ∈ (prepare s fs).allFields, f.skip = false → f ∈ fs := by
    intro f hf hk
    rcases mem_all.mp hf with ⟨_, n, _, rfl⟩ | hf
    · cases hk
    · exact hf
  have hin : ∀ f ∈ fs, f ∈ (prepare s fs).allFields := fun f hf => mem_all.mpr (.inr hf)
  have hser : ∀ f ∈ (prepare s fs).allFields, (FCtx.mk (prepare s fs) f).isSerde = true → f.skip = false := by
    intro f _ hx
    cases hk : f.skip with
    | false => rfl
    | true => simp [FCtx.isSerde, FieldArgs.isSkipped, hk] at hx
  obtain ⟨i1, i2, i3, i4, i5, i6, i7, -⟩ := Verif.Props.Expand.C84_items hn h
  have hall : (prepare s fs).needsDefault = true → ∀ f ∈ (prepare s fs).allFields, Piece.defaultImpl ∈ out :=
    fun hd f hf => i1.mpr ⟨hd, List.ne_nil_of_mem hf⟩
  have em : ∀ f ∈ (prepare s fs).allFields, ∀ k, emits ⟨prepare s fs, f⟩ k = true → f.skip = false := by
    intro f _ k he
    cases hk : f.skip with
    | false => rfl
    | true => simp [emits, FieldArgs.isSkipped, hk] at he
  constructor
  · intro S
    obtain ⟨e1, e2, e3, e4⟩ := (Verif.Props.Expand.C84_complete_iff hn h).mp S.exprs
    obtain ⟨g1, g2, g3⟩ := (Verif.Props.Generics.C68_headers_iff w.isStr _ w.generics ht).mp S.headers
    obtain ⟨u1, u2⟩ := (Verif.Props.Structs.C72_used_iff s fs hn w.mentions (mustUse w.generics) hp).mp S.params
    obtain ⟨p1, p2⟩ := (Verif.Props.Features.C82_exists_iff w.site _ ht).mp S.paths
    have hid := (Verif.Props.Idents.C93_clean_iff hname hu hf hn h w.count).mp S.idents
    refine ⟨?_, ?_, ?_, ?_, ?_, e1, e2, fun a b => e3 ⟨a, b⟩, fun a b => e4 ⟨a, b⟩, ?_, g2, g3, u1, u2, ?_, p1, ?_, ?_, ?_⟩
    · intro f hf k hk he
      have hm : (f.ident, k) ∈ methods out := (Verif.Props.Expand.C84_methods_iff hn h f (hin f hf) k).mpr
        ⟨⟨fun hh => (by subst hh; cases hk), fun hh => (by subst hh; cases hk)⟩, he, em f (hin f hf) k he⟩
      obtain ⟨τ, b, hτ, hb, hB⟩ := S.methods f (hin f hf) k hm
      exact (Verif.Props.MethodTy.helper_typechecks_partial _ k τ b hk he hτ hb).mp hB
    · intro hd f hf hk hsy
      obtain ⟨τ, e, hτ, he, hT⟩ := S.default (hall hd f (hin f hf)) f (hin f hf)
      have := (Verif.Props.Init.C23_default_iff _ hτ he).mp hT
      cases hl : (FCtx.mk (prepare s fs) f).needsLock with
      | false => rfl
      | true => exact absurd ⟨hsy, hk, hl⟩ this
    · intro hr
      cases hm : myselfField s with
      | none => simp [myselfField, StructArgs.isRefCounted] at hm hr; simp [hm] at hr
      | some n =>
        have := (Verif.Props.Structs.C70_self_iff s fs n).mp (S.self hr n hm)
        by_cases hsy : (prepare s fs).isRatherSync = true
        · rw [if_pos hsy] at this ⊢; exact this.2
        · rw [if_neg hsy] at this ⊢; exact this
    · intro hb f hf hk hsay
      obtain ⟨τ, e, hτ, he, _, hself⟩ := S.build (i4.mpr hb) f (hin f hf)
        ((Verif.Props.Expand.C84_builder hn h hb f (hin f hf)).2.2.mpr hk)
      exact (Verif.Props.Init.C52_builder_iff _ he).mp (hself hsay)
    · intro hsd hse f hf hfs hfe
      obtain ⟨τ, hτ, hT⟩ := S.intoShadow (i7.mpr ⟨hsd, hse⟩) f (hin f hf)
        (((Verif.Props.Expand.C84_serde hn h hsd f (hin f hf)).2.1 hse).mpr ⟨hfs, hfe⟩)
      exact (Verif.Props.Init.C23_intoShadow_iff ⟨prepare s fs, f⟩ (hser f (hin f hf) hfs) hτ).mp hT
    · rintro ⟨f, hf, hx⟩
      exact g1 ⟨f, hin f hf, hx⟩
    · intro hb
      exact (Verif.Props.Build.C76_typed_iff (prepare s fs) hs he).mp (S.buildFn (i4.mpr hb))
    · exact fun f hf => p2 f (hin f hf)
    · exact fun f hf => (hid f (hin f hf)).1
    · exact fun f hf => (hid f (hin f hf)).2
  · intro C
    refine ⟨?_, ?_, ?_, ?_, ?_, ?_, ?_, ?_, ?_, ?_, ?_, ?_, ?_⟩
    · intro f hf
      refine ⟨?_, ht f hf⟩
      have := Verif.Props.Expand.C84_fields hn h .own rfl
      simp only [namesOf] at this
      rw [this]
      simp only [Verif.Model.Structs.fieldsOf, List.map_map, List.mem_map]
      exact ⟨f, hf, rfl⟩
    · intro f hf k hm
      obtain ⟨⟨n1, n2⟩, he, hk⟩ := (Verif.Props.Expand.C84_methods_iff hn h f hf k).mp hm
      have hH : Verif.Props.MethodTy.isHelper k = true := by cases k <;> first | rfl | exact absurd rfl n1 | exact absurd rfl n2
      obtain ⟨τ, hτ⟩ := ht f hf
      obtain ⟨b, hb⟩ := bodied hn h f hf k hH he
      exact ⟨τ, b, hτ, hb, (Verif.Props.MethodTy.helper_typechecks_partial _ k τ b hH he hτ hb).mpr
        (C.methods f (hsk f hf hk) k hH he)⟩
    · intro hd f hf
      obtain ⟨τ, hτ⟩ := ht f hf
      obtain ⟨e, he⟩ := Verif.Props.Init.C23_default_generated _ hτ
      refine ⟨τ, e, hτ, he, (Verif.Props.Init.C23_default_iff _ hτ he).mpr ?_⟩
      rintro ⟨hsy, hk, hl⟩
      have hd := (i1.mp hd).1
      rcases mem_all.mp hf with ⟨hr, n, hm, rfl⟩ | hf'
      · have := C.self hr
        rw [Verif.Props.Structs.hidden_sync] at hsy
        rw [if_pos hsy] at this
        exact this hd ((Verif.Props.Structs.hidden_lock _ n).mp hl)
      · exact absurd (C.skipped hd f hf' hk hsy) (by simp [hl])
    · intro hb f hf hB
      have hb := i4.mp hb
      have hk := (Verif.Props.Expand.C84_builder hn h hb f hf).2.2.mp hB
      obtain ⟨τ, hτ⟩ := ht f hf
      obtain ⟨e, he⟩ := no_panic hn h hb f hf hk
      exact ⟨τ, e, hτ, he, Verif.Props.Init.C23_builder ⟨prepare s fs, f⟩ hk hτ he,
        fun hS => (Verif.Props.Init.C52_builder_iff _ he).mpr (C.says hb f (hsk f hf hk) hk hS)⟩
    · intro hi f hf hF
      obtain ⟨hsd, hde⟩ := i6.mp hi
      have hx := (((Verif.Props.Expand.C84_serde hn h hsd f hf).1 hde).mp hF).1
      obtain ⟨τ, hτ⟩ := ht f hf
      obtain ⟨e, he⟩ := from_ok hn h f hf
      exact ⟨τ, e, hτ, he, Verif.Props.Init.C23_fromShadow ⟨prepare s fs, f⟩ (hser f hf hx) hτ he⟩
    · intro hi f hf hF
      obtain ⟨hsd, hde⟩ := i7.mp hi
      obtain ⟨hx, hy⟩ := ((Verif.Props.Expand.C84_serde hn h hsd f hf).2.1 hde).mp hF
      obtain ⟨τ, hτ⟩ := ht f hf
      exact ⟨τ, hτ, (Verif.Props.Init.C23_intoShadow_iff ⟨prepare s fs, f⟩ (hser f hf hx) hτ).mpr
        (C.into hsd hde f (hsk f hf (hser f hf hx)) hx hy)⟩
    · intro hr n hm
      rw [Verif.Props.Structs.C70_self_iff]
      have hF := ((Verif.Props.Expand.C83_clean_iff hn h).mp rfl).1 (hidden n) (mem_all.mpr (.inl ⟨hr, n, hm, rfl⟩))
      have := C.self hr
      split at this
      · rename_i hsy
        rw [if_pos hsy]
        refine ⟨fun hfa => ?_, this⟩
        cases he : s.fallible.bind (·.error) with
        | some _ => rfl
        | none =>
          exfalso
          refine hF ⟨by simpa [FCtx.isFallible, FieldArgs.isFallible, hidden, prepare] using hfa, ⟨by simp [hidden], ?_⟩, .inl ?_⟩
          · intro a ha
            have ha : s.fallible = some a := ha
            simpa [ha] using he
          · rw [Verif.Props.Structs.hidden_sync]; exact hsy
      · rename_i hsy
        rw [if_neg hsy]
        exact this
    · exact (Verif.Props.Expand.C84_complete_iff hn h).mpr
        ⟨C.any, C.builds, fun a => C.serialises a.1 a.2, fun a => C.deserialises a.1 a.2⟩
    · refine (Verif.Props.Generics.C68_headers_iff w.isStr _ w.generics ht).mpr ⟨?_, C.builderParams, C.serdeParams⟩
      rintro ⟨f, hf, hsy, hz⟩
      refine C.lives ⟨f, hsk f hf ?_, hsy, hz⟩
      cases hk : f.skip with
      | false => rfl
      | true => simp [FCtx.isLazy, FieldArgs.isLazy, FieldArgs.isSkipped, hk] at hz
    · exact (Verif.Props.Structs.C72_used_iff s fs hn w.mentions (mustUse w.generics) hp).mpr ⟨C.builderUses, C.serdeUses⟩
    · intro hb
      exact (Verif.Props.Build.C76_typed_iff (prepare s fs) hs he).mpr (C.post (i4.mp hb))
    · refine (Verif.Props.Features.C82_exists_iff w.site _ ht).mpr ⟨C.backed, ?_⟩
      intro f hf hsy hG
      refine C.guards f (hsk f hf ?_) hsy hG
      rcases hG with hG | ⟨hG, _⟩ | ⟨hG, _⟩ | ⟨hG, _⟩ <;> exact em f hf _ hG
    · refine (Verif.Props.Idents.C93_clean_iff hname hu hf hn h w.count).mpr fun f hf => ⟨?_, ?_⟩
      · intro hw hk
        exact C.words f (hsk f hf hk) hw hk
      · intro hw hx
        exact C.raws f (hsk f hf (hser f hf hx)) hw hx

/-- A struct of the ordinary kind: what most users write. Sync or plain; lazy, optional by clearers and predicates, locked or
none of these; helpers of any sort; builder, serde, reference counting. -/
structure Common (w : World) (s : StructArgs) (fs : List FieldArgs) : Prop where
  accepted : Verif.Model.Exclusive.acceptStructFull s = true ∧ ∀ f ∈ fs, Verif.Model.Exclusive.acceptFieldFull f = true
  /-- field names are there, differ, are not written with `r#`, and are not made like those of helpers -/
  any : fs ≠ []
  distinct : (fs.map (·.ident)).Nodup
  clean : ∀ f ∈ fs, Verif.Props.Names.Clean f.ident ∧ f.ident ≠ "__weak_myself"
  words : ∀ f ∈ fs, ∃ j, Usable w.letters j ∧ Verif.Props.Idents.Written f j ∧ j.raw = false
  name : Usable w.letters w.name ∧ w.name.raw = false
  unnamed : Verif.Props.Idents.NoNames s fs
  /-- none of `fallible`, `async`, `inner_mut`, `skip`, `optional`, `as_ref`, `lock(off)` -/
  fallible : s.fallible = none ∧ ∀ f ∈ fs, f.fallible = none
  async : s.modeAsync = none ∧ s.mode = none ∧ ∀ f ∈ fs, f.modeAsync = none ∧ f.mode = none
  inner : s.innerMut = none ∧ ∀ f ∈ fs, f.innerMut = none
  skip : ∀ f ∈ fs, f.skip = false
  optional : s.optional = none ∧ ∀ f ∈ fs, f.optional = none
  asRef : ∀ f ∈ fs, (FCtx.mk (prepare s fs) f).accessorMode ≠ .asRef
  lock : s.lock ≠ some false ∧ ∀ f ∈ fs, f.lock ≠ some false
  /-- `default` has a value, which does not say `Self` -/
  default : ∀ f ∈ fs, w.saysSelf f.ident = false ∧ ∀ d, f.default = some d → d.value ≠ none
  /-- a reference counted struct is not under a lock of its own -/
  rc : s.rc = none ∨ ∃ h, s.rc = some h ∧ h.isTrue = true ∧ s.lock = none ∧ s.reader = none ∧ s.writer = none
  /-- serde is asked for by the struct; its default can be used -/
  serde : (∀ f ∈ fs, f.serde = none) ∧ w.lits.badWhole = false
  /-- parameters are bare names, lifetimes first, each used by a field -/
  params : (∀ p ∈ w.generics.params, Verif.Spec.Generics.PlainParam p) ∧ Verif.Spec.Generics.LifeFirst w.generics ∧
    ∀ p ∈ mustUse w.generics, ∃ f ∈ fs, p ∈ w.mentions f.ident
  /-- the user's methods are as documented, without `post_build` for a reference counted struct with an error type -/
  doc : Verif.Spec.BuildTy.DocSig s w.sig ∧ Verif.Spec.BuildTy.DocErr s w.variants w.conv
  post : ¬ (Verif.Spec.BuildTy.Counted s ∧ (∃ m, Verif.Spec.BuildTy.PostNamed s m) ∧ ∃ e, Verif.Spec.BuildTy.ErrorNamed s e)
  /-- the feature `sync` and the crate `parking_lot` are there -/
  site : w.site.feat.sync = true ∧ w.site.parkingLot = true

theorem plain_noDefault {p : Param} (h : Verif.Spec.Generics.PlainParam p) : Verif.Spec.Generics.NoDefault p := by
  cases p <;> simp_all [Verif.Spec.Generics.PlainParam, Verif.Spec.Generics.NoDefault]

theorem serde_no_rc {s : StructArgs} (ha : Verif.Model.Exclusive.acceptStructFull s = true) (hs : s.isSerde = true) :
    s.isRefCounted = false := by
  have hA : Verif.Model.Exclusive.acceptStruct s = true := by
    unfold Verif.Model.Exclusive.acceptStructFull at ha
    simp only [Bool.and_eq_true] at ha
    exact ha.1.1.1.1.1.1.1.1.1.1.1
  cases hr : s.isRefCounted with
  | false => rfl
  | true =>
    have hS : s.serde.elim false (·.isTrue) = true := by
      unfold StructArgs.isSerde at hs
      cases hz : s.serde with
      | none => simp [hz] at hs
      | some z => cases hi : z.isTrue <;> simp_all [Serde.isSerde]
    exfalso
    rw [← Bool.not_eq_false, Verif.Props.Exclusive.C39_struct_rejected_iff] at hA
    refine hA ?_
    cases hz : s.serde with
    | none => simp [hz] at hS
    | some z =>
      refine .serdeRc z hz (by simpa [hz, Serde.isTrue] using hS) ?_
      unfold StructArgs.isRefCounted at hr
      cases hc : s.rc with
      | none => simp [hc] at hr
      | some r => exact ⟨r, rfl, by simpa [hc, Helper.isTrue] using hr⟩

theorem weak_clean : Verif.Props.Names.Clean "__weak_myself" := by
  refine ⟨?_, ?_, ?_, ?_⟩ <;> decide +kernel

/-- **C94.** An ordinary struct is expanded without errors, the expansion passes every check, and no two methods of the
struct or of its builder have the same name. -/
theorem C94_common (w : World) (s : StructArgs) (fs : List FieldArgs) (h : Common w s fs) :
    ∃ out, fxstruct true s fs w.lits = .code out [] ∧ Sound w s fs out ∧
      (Verif.Model.Names.structMethods (prepare s fs)).Nodup ∧ (Verif.Model.Names.builderMethods (prepare s fs)).Nodup := by
  have hin : ∀ f ∈ fs, f ∈ (prepare s fs).allFields := fun f hf => mem_all.mpr (.inr hf)
  have hself : ∀ n, myselfField s = some n → n = "__weak_myself" := by
    intro n hm
    unfold myselfField at hm
    cases hr : s.rc with
    | none => simp [hr] at hm
    | some r =>
      have := h.unnamed.rc r hr
      simp [hr, this] at hm
      exact hm.symm.trans (by decide +kernel)
  have hn : DistinctNames (prepare s fs) := by
    unfold DistinctNames
    have he : (prepare s fs).allFields.map (·.ident) =
        (if s.isRefCounted then (myselfField s).toList else []) ++ fs.map (·.ident) := by
      unfold prepare Ctx.allFields
      cases s.isRefCounted <;> simp [Function.comp_def, hidden]
    rw [he, List.nodup_append]
    refine ⟨?_, h.distinct, ?_⟩
    · split
      · cases myselfField s <;> simp
      · simp
    · rintro a ha b hb rfl
      obtain ⟨f, hf, rfl⟩ := List.mem_map.mp hb
      split at ha
      · exact (h.clean f hf).2 (hself _ (by simpa using ha))
      · cases ha
  have hfal : ∀ f ∈ (prepare s fs).allFields, (FCtx.mk (prepare s fs) f).isFallible = false := by
    intro f hf
    have h1 : s.isFallible = none := by simp [StructArgs.isFallible, h.fallible.1]
    rcases mem_all.mp hf with ⟨_, n, _, rfl⟩ | hf
    · simp [FCtx.isFallible, FieldArgs.isFallible, hidden, prepare, h1]
    · simp [FCtx.isFallible, FieldArgs.isFallible, h.fallible.2 f hf, prepare, h1]
  have hac : Verif.Props.Expand.Accepted true s fs := ⟨rfl, h.accepted⟩
  have hpan : ¬Verif.Props.Expand.Panics (prepare s fs) := by
    rintro ⟨_, f, hf, hk, _, _, ⟨d, hd, _, hv⟩, _⟩
    rcases mem_all.mp hf with ⟨_, n, _, rfl⟩ | hf
    · cases hk
    · exact (h.default f hf).2 d hd hv
  obtain ⟨out, errs, hcode⟩ : ∃ out errs, fxstruct true s fs w.lits = .code out errs := by
    rcases Verif.Props.Expand.outcome (parsed := true) (l := w.lits) hn with ⟨hx, _⟩ | ⟨_, hx, _⟩ | ⟨_, _, hx⟩
    · exact absurd hac hx
    · exact absurd hx hpan
    · exact ⟨_, _, hx⟩
  have herr : errs = [] := (Verif.Props.Expand.C83_clean_iff hn hcode).mpr
    ⟨fun f hf hF => absurd hF.1 (by simp [hfal f hf]), fun hF => absurd hF.2.1 (by simp [h.serde.2])⟩
  subst herr
  have ht := typed hn hcode
  have hasync : ∀ f ∈ fs, (FCtx.mk (prepare s fs) f).isAsync = false := by
    intro f hf
    simp [FCtx.isAsync, FieldArgs.isAsync, StructArgs.isAsync, h.async.1, h.async.2.1, (h.async.2.2 f hf).1,
      (h.async.2.2 f hf).2, prepare]
  have hhasync : ∀ f ∈ (prepare s fs).allFields, (FCtx.mk (prepare s fs) f).isAsync = false := by
    intro f hf
    rcases mem_all.mp hf with ⟨_, n, _, rfl⟩ | hf
    · simp [FCtx.isAsync, FieldArgs.isAsync, StructArgs.isAsync, h.async.1, h.async.2.1, hidden, prepare]
    · exact hasync f hf
  have hserde : ∀ f ∈ fs, (FCtx.mk (prepare s fs) f).isSerde = s.isSerde ∧
      (FCtx.mk (prepare s fs) f).needsSerialize = s.isSerde ∧ (FCtx.mk (prepare s fs) f).needsDeserialize = s.isSerde := by
    intro f hf
    refine ⟨?_, ?_, ?_⟩
    · simp [FCtx.isSerde, FieldArgs.isSkipped, h.skip f hf, FieldArgs.isSerde, h.serde.1 f hf, prepare]
    · simp [FCtx.needsSerialize, FieldArgs.needsSerialize, h.serde.1 f hf, prepare]
    · simp [FCtx.needsDeserialize, FieldArgs.needsDeserialize, h.serde.1 f hf, prepare]
  have hb : ∀ f ∈ (prepare s fs).allFields, Verif.Spec.ArgRead.base f = f.ident := by
    intro f hf
    rcases mem_all.mp hf with ⟨_, n, _, rfl⟩ | hf
    · rfl
    · simp [Verif.Spec.ArgRead.base, (h.unnamed.fields f hf).base]
  have hbase : ((prepare s fs).allFields.map Verif.Spec.ArgRead.base).Nodup := by
    rw [List.map_congr_left hb]; exact hn
  have hclean : ∀ f ∈ (prepare s fs).allFields, Verif.Props.Names.Clean (Verif.Spec.ArgRead.base f) := by
    intro f hf
    rw [hb f hf]
    rcases mem_all.mp hf with ⟨_, n, hm, rfl⟩ | hf
    · rw [hself n hm]; exact weak_clean
    · exact (h.clean f hf).1
  have hnone : ∀ o : Option Helper, (∀ a, o = some a → a.name = none) → o.bind (·.name) = none := by
    intro o ho
    cases o with
    | none => rfl
    | some a => exact ho a rfl
  have hnn : Verif.Props.Names.NoNames (prepare s fs) := by
    refine ⟨fun f hf k => ?_, fun k => hnone _ (h.unnamed.struct k), hnone _ h.unnamed.rc⟩
    rcases mem_all.mp hf with ⟨_, n, _, rfl⟩ | hf
    · cases k <;> rfl
    · exact hnone _ ((h.unnamed.fields f hf).field k)
  refine ⟨out, hcode, (C94_sound_iff w hn h.unnamed h.name.1 (fun f hf => ?_) h.doc.1 h.doc.2 h.params.2.2 hcode).mpr ?_, ?_, ?_⟩
  · obtain ⟨j, h1, h2, _⟩ := h.words f hf
    exact ⟨j, h1, h2⟩
  · constructor
    · intro f hf k hk he
      obtain ⟨τ, hτ⟩ := ht f (hin f hf)
      obtain ⟨b, hb⟩ := bodied hn hcode f (hin f hf) k hk he
      exact (Verif.Props.MethodTy.helper_typechecks_partial _ k τ b hk he hτ hb).mp
        (Verif.Props.MethodTy.helper_typechecks_common ⟨prepare s fs, f⟩ k τ b hk he hτ hb
          ⟨h.fallible.2 f hf, h.fallible.1⟩ ⟨(h.async.2.2 f hf).1, (h.async.2.2 f hf).2, h.async.1, h.async.2.1⟩
          ⟨h.inner.2 f hf, h.inner.1⟩ ⟨h.lock.2 f hf, h.lock.1⟩ ⟨h.optional.2 f hf, h.optional.1⟩ (h.asRef f hf))
    · intro _ f hf hk
      rw [h.skip f hf] at hk
      cases hk
    · intro hr
      have hl : ¬Verif.Props.Structs.StructLock s := by
        rcases h.rc with h0 | ⟨r, _, _, h1, h2, h3⟩
        · simp [StructArgs.isRefCounted, h0] at hr
        · simp [Verif.Props.Structs.StructLock, h1, h2, h3, StructArgs.needsReader, StructArgs.needsWriter]
      split
      · exact fun _ => hl
      · simp [StructArgs.isInnerMut, h.inner.1]
    · intro _ f hf _ hS
      simp [(h.default f hf).1] at hS
    · rintro _ _ f hf _ _ ⟨_, ho, _, hl⟩
      have : (FCtx.mk (prepare s fs) f).needsLock = true := by
        unfold FCtx.needsLock
        rw [ho]
        have h1 := h.lock.1
        have h2 := h.lock.2 f hf
        simp only [FieldArgs.needsLock, StructArgs.needsLock, prepare, Bool.or_true]
        revert h1 h2
        generalize f.lock = a
        generalize s.lock = b
        rcases a with _ | _ | _ <;> rcases b with _ | _ | _ <;> decide
      rw [this] at hl
      cases hl
    · exact fun _ => .inl h.any
    · refine fun _ => ⟨fun r hr => ?_, h.skip⟩
      rcases h.rc with h0 | ⟨r', h0, h1, _⟩
      · rw [h0] at hr; cases hr
      · rw [h0] at hr; cases hr; exact h1
    · intro hs _ f hf _
      rw [(hserde f hf).2.1, hs]
    · intro hs _
      refine .inr ⟨serde_no_rc h.accepted.1 hs, fun f hf => ?_⟩
      · rw [(hserde f hf).1, (hserde f hf).2.2, hs]; exact ⟨rfl, rfl⟩
    · exact fun _ => h.params.2.1
    · exact fun _ => ⟨fun p hp => plain_noDefault (h.params.1 p hp), fun _ => h.params.1⟩
    · exact fun _ => h.params.1
    · exact fun _ => .inr fun p hp => by
        obtain ⟨f, hf, hm⟩ := h.params.2.2 p hp
        exact ⟨f, hf, h.skip f hf, hm⟩
    · intro hs p hp
      obtain ⟨f, hf, hm⟩ := h.params.2.2 p hp
      exact ⟨f, hf, (hserde f hf).1.trans hs, hm⟩
    · exact fun _ => h.post
    · intro f hf _ _
      rw [hhasync f hf]
      exact h.site.1
    · intro f hf _ _
      rw [hasync f hf]
      exact h.site.2
    · intro f hf hw _
      obtain ⟨j, hj, hjw, hr⟩ := h.words f hf
      obtain ⟨i, hi, hiw, hk⟩ := hw
      have := Verif.Props.Idents.written_unique hi hj.1 hiw hjw
      subst this
      exact absurd hk (hj.2 hr).1
    · intro f hf hw hx sh hsh
      rw [h.serde.1 f hf] at hsh
      cases hsh
  · exact Verif.Props.Names.C37_distinct_partial _ hnn hbase hclean
  · refine Verif.Props.Names.C37_builder_distinct_partial _ hnn hbase fun f hf => ⟨fun he => ?_, fun he => ?_⟩
    · exact (hclean f hf).res (by rw [he]; decide +kernel)
    · exact (hclean f hf).preMut ['b', 'u', 'i', 'l', 'd', '_'] (by decide) (by rw [he]; decide +kernel)

/-! Examples -/

/-- `struct Conf<'a, T>`, the crate with everything it needs. -/
def exWorld : World where
  letters := ⟨fun _ => false, fun _ => false⟩
  name := ⟨false, "Conf"⟩
  generics := { params := [.life "a" [], .type "T" [] none] }
  isStr := fun _ => false
  mentions := fun f => if f = "one" then ["a", "T"] else []
  saysSelf := fun _ => false
  sig := fun m => if m = "post_build" then some (.res .self (some "Oops")) else none
  variants := fun _ => none
  conv := fun a b => a = b ∨ b = some "Oops"
  site := ⟨⟨true, false, true⟩, true, false⟩
  lits := {}
  count := fun _ => 0

/-- `#[fxstruct(sync, get, builder(post_build, error(Oops)), serde)]` -/
def exSync : StructArgs :=
  { modeSync := some true, accessor := some {}, serde := some {}
    builder := some { postBuild := some none, error := some ("Oops", none) } }

/-- A lazy field with a clearer, one under a lock with reader and writer, an optional one, one with a default and a setter. -/
def exSyncFields : List FieldArgs :=
  [{ ident := "one", lazy := some {}, clearer := some {} },
   { ident := "two", reader := some {}, writer := some {} },
   { ident := "three", predicate := some {}, clearer := some {}, lock := some true },
   { ident := "four", setter := some {}, default := some { value := some "4" }, accessor := some { copy := true } }]

/-- `#[fxstruct(rc, get, builder)]` -/
def exCounted : StructArgs := { rc := some {}, accessor := some {}, builder := some {} }

def exCountedFields : List FieldArgs :=
  [{ ident := "one", lazy := some {} }, { ident := "two", predicate := some {}, setter := some {} }]

theorem exUsable {t : String} (h1 : Verif.Model.Idents.validWord exWorld.letters t.toList = true)
    (h2 : t ∉ Verif.Spec.Lexical.keywords ∧ t ≠ "_") : Usable exWorld.letters ⟨false, t⟩ :=
  ⟨⟨(Verif.Proof.Idents.validWord_iff _).mp h1, fun h => by cases h⟩, fun _ => h2⟩

theorem exWritten (f : FieldArgs) (h1 : Verif.Model.Idents.validWord exWorld.letters f.ident.toList = true)
    (h2 : f.ident ∉ Verif.Spec.Lexical.keywords ∧ f.ident ≠ "_") :
    ∃ j, Usable exWorld.letters j ∧ Verif.Props.Idents.Written f j ∧ j.raw = false :=
  ⟨⟨false, f.ident⟩, exUsable h1 h2, rfl, rfl⟩

instance (b : String) : Decidable (Verif.Props.Names.Clean b) :=
  decidable_of_iff ((∀ p ∈ Verif.Proof.Names.prefixes, ¬ p <+: b.toList) ∧
      (∀ p ∈ Verif.Proof.Names.prefixes, ¬ p <+: b.toList ++ ['_', 'm', 'u', 't']) ∧ ¬ ['_', 'm', 'u', 't'] <:+ b.toList ∧
      b ∉ Verif.Props.Names.reserved)
    ⟨fun ⟨h1, h2, h3, h4⟩ => ⟨h1, h2, h3, h4⟩, fun h => ⟨h.pre, h.preMut, h.suf, h.res⟩⟩

theorem exDocErr : Verif.Spec.BuildTy.DocErr exSync exWorld.variants exWorld.conv := by
  refine ⟨fun x => .inl rfl, fun e he => ⟨?_, fun _ => .inr ?_⟩⟩
  · rintro v ⟨b, e', hb, hv⟩
    cases hb
    cases hv
  · obtain ⟨b, v, hb, hv⟩ := he
    cases hb
    cases hv
    rfl

example : Common exWorld exSync exSyncFields where
  accepted := by decide +kernel
  any := by decide
  distinct := by decide +kernel
  clean := by decide +kernel
  words := by
    intro f hf
    refine exWritten f ?_ ?_ <;> revert f <;> decide +kernel
  name := ⟨exUsable (by decide +kernel) (by decide +kernel), rfl⟩
  unnamed := by
    refine ⟨fun f hf => ⟨?_, ?_, ?_⟩, ?_, ?_, ?_⟩
    · intro k h; cases k <;> simp [exSync, Verif.Spec.ArgRead.structRaw] <;> rintro rfl <;> rfl
    · intro k h
      simp only [exSyncFields, List.mem_cons, List.not_mem_nil, or_false] at hf
      rcases hf with rfl | rfl | rfl | rfl <;> cases k <;> simp [Verif.Spec.ArgRead.fieldArg] <;> rintro rfl <;> rfl
    · revert f; decide +kernel
    · intro k h; cases k <;> simp [exSync, Verif.Spec.ArgRead.structRaw] <;> rintro rfl <;> rfl
    · intro sh h; cases h; rfl
    · intro h hr; cases hr
  fallible := by decide +kernel
  async := by decide +kernel
  inner := by decide +kernel
  skip := by decide +kernel
  optional := by decide +kernel
  asRef := by decide +kernel
  lock := by decide +kernel
  default := by
    intro f hf
    refine ⟨rfl, ?_⟩
    simp only [exSyncFields, List.mem_cons, List.not_mem_nil, or_false] at hf
    rcases hf with rfl | rfl | rfl | rfl <;> intro d hd <;> cases hd <;> decide
  rc := .inl rfl
  serde := by decide +kernel
  params := by
    refine ⟨?_, ?_, ?_⟩
    · intro p hp
      simp only [exWorld, List.mem_cons, List.not_mem_nil, or_false] at hp
      rcases hp with rfl | rfl <;> simp [Verif.Spec.Generics.PlainParam]
    · exact ⟨[.life "a" []], [.type "T" [] none], rfl, by decide +kernel, by decide +kernel⟩
    · decide +kernel
  doc := by
    refine ⟨fun m hm => ⟨fun e he => ?_, fun he => ?_⟩, exDocErr⟩
    · obtain ⟨b, hb, hm⟩ := hm
      obtain ⟨b', v, hb', hv⟩ := he
      cases hb
      cases hb'
      cases hv
      rcases hm with hm | ⟨_, rfl⟩
      · cases hm
      · rfl
    · exact absurd ⟨_, _, rfl, rfl⟩ (he "Oops")
  post := by
    rintro ⟨⟨r, hr, _⟩, _⟩
    cases hr
  site := ⟨rfl, rfl⟩

/-- A reference counted one. -/
example : Common exWorld exCounted exCountedFields where
  accepted := by decide +kernel
  any := by decide
  distinct := by decide +kernel
  clean := by decide +kernel
  words := by
    intro f hf
    refine exWritten f ?_ ?_ <;> revert f <;> decide +kernel
  name := ⟨exUsable (by decide +kernel) (by decide +kernel), rfl⟩
  unnamed := by
    refine ⟨fun f hf => ⟨?_, ?_, ?_⟩, ?_, ?_, ?_⟩
    · intro k h; cases k <;> simp [exCounted, Verif.Spec.ArgRead.structRaw] <;> rintro rfl <;> rfl
    · intro k h
      simp only [exCountedFields, List.mem_cons, List.not_mem_nil, or_false] at hf
      rcases hf with rfl | rfl <;> cases k <;> simp [Verif.Spec.ArgRead.fieldArg] <;> rintro rfl <;> rfl
    · revert f; decide +kernel
    · intro k h; cases k <;> simp [exCounted, Verif.Spec.ArgRead.structRaw] <;> rintro rfl <;> rfl
    · intro sh h; cases h
    · intro h hr; cases hr; rfl
  fallible := by decide +kernel
  async := by decide +kernel
  inner := by decide +kernel
  skip := by decide +kernel
  optional := by decide +kernel
  asRef := by decide +kernel
  lock := by decide +kernel
  default := by
    intro f hf
    refine ⟨rfl, ?_⟩
    simp only [exCountedFields, List.mem_cons, List.not_mem_nil, or_false] at hf
    rcases hf with rfl | rfl <;> intro d hd <;> cases hd
  rc := .inr ⟨{}, rfl, rfl, rfl, rfl, rfl⟩
  serde := by decide +kernel
  params := by
    refine ⟨?_, ?_, ?_⟩
    · intro p hp
      simp only [exWorld, List.mem_cons, List.not_mem_nil, or_false] at hp
      rcases hp with rfl | rfl <;> simp [Verif.Spec.Generics.PlainParam]
    · exact ⟨[.life "a" []], [.type "T" [] none], rfl, by decide +kernel, by decide +kernel⟩
    · decide +kernel
  doc := by
    refine ⟨?_, fun x => .inl rfl, ?_⟩
    · rintro m ⟨b, hb, hm⟩
      cases hb
      rcases hm with hm | ⟨hm, _⟩ <;> cases hm
    · rintro e ⟨b, v, hb, hv⟩
      cases hb
      cases hv
  post := by
    rintro ⟨_, ⟨m, b, hb, hm⟩, _⟩
    cases hb
    rcases hm with hm | ⟨hm, _⟩ <;> cases hm
  site := ⟨rfl, rfl⟩

/-- `#[fxstruct(sync, rc, lock)]` -/
def exLocked : StructArgs := { modeSync := some true, rc := some {}, lock := some true }

/-- **C94.** "Whatever is accepted and expanded without errors passes every check" is false, whatever surrounds the struct. -/
theorem C94_full_false (w : World) (hl : w.lits = {}) :
    Verif.Props.Expand.Accepted true exLocked [{ ident := "one" }] ∧
    ∃ out, fxstruct true exLocked [{ ident := "one" }] w.lits = .code out [] ∧ ¬Sound w exLocked [{ ident := "one" }] out := by
  refine ⟨by decide +kernel, Verif.Proof.Expand.finalOut (prepare exLocked [{ ident := "one" }]) {}, ?_, fun h => ?_⟩
  · rw [hl]; decide +kernel
  · have := (Verif.Props.Structs.C70_self_iff _ _ _).mp (h.self rfl _ rfl)
    rw [if_pos (by decide +kernel)] at this
    exact this.2 (by decide +kernel) (by unfold Verif.Props.Structs.StructLock; decide +kernel)

/-- Outside `Common`, but within the conditions: an optional field behind `as_ref`, an async lazy field by reference, an
`inner_mut` one. -/
def exMore : List FieldArgs :=
  [{ ident := "one", modeSync := some false, optional := some true, accessor := some { asRef := true } },
   { ident := "two", modeAsync := some true, lazy := some {}, clearer := some {}, predicate := some {} },
   { ident := "three", innerMut := some true, setter := some {} }]

example : Verif.Props.Expand.Accepted true {} exMore ∧ ∃ out, fxstruct true {} exMore {} = .code out [] ∧
    ∀ f ∈ exMore, ∀ k, Verif.Props.MethodTy.isHelper k = true → emits ⟨prepare {} exMore, f⟩ k = true →
      Verif.Props.MethodTy.refused ⟨prepare {} exMore, f⟩ k = false := by
  refine ⟨by decide +kernel, Verif.Proof.Expand.finalOut (prepare {} exMore) {}, by decide +kernel, ?_⟩
  intro f hf k
  cases k <;> revert f <;> decide +kernel

end Verif.Props.Sound
