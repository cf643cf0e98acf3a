import Verif.Model.SerdeDerive
import Verif.Props.Expand
import Verif.Props.Attrs
import Verif.Model.Generics
/-!
C104: the derives and attributes fieldx writes for serde agree with the conversions it generates.
-/

namespace Verif.Props.SerdeDerive
open Verif.Model.Args Verif.Model.Serde Verif.Model.SerdeDerive Verif.Spec.SerdeDerive Verif.Model.Init
open Verif.Model.Expand Verif.Spec.Expansion Verif.Model.Structs
open Verif.Props.Expand

/-! ### Helper lemmas -/

theorem on_ser (h : Serde) : h.needsSerialize.getD true = true ↔ On h.serialize h.deserialize := by
  unfold Serde.needsSerialize On
  rcases h.serialize with _ | _ | _ <;> rcases h.deserialize with _ | _ | _ <;> simp

theorem on_de (h : Serde) : h.needsDeserialize.getD true = true ↔ On h.deserialize h.serialize := by
  unfold Serde.needsDeserialize On
  rcases h.serialize with _ | _ | _ <;> rcases h.deserialize with _ | _ | _ <;> simp

theorem on_any (h : Serde) : h.isSerde.getD true = true ↔
    h.off = false ∧ (On h.serialize h.deserialize ∨ On h.deserialize h.serialize) := by
  unfold Serde.isSerde Serde.isTrue On
  cases h.off <;> rcases h.serialize with _ | _ | _ <;> rcases h.deserialize with _ | _ | _ <;> simp

theorem isSerde_iff (s : StructArgs) : s.isSerde = true ↔ ∃ h, s.serde = some h ∧ h.off = false ∧
    (On h.serialize h.deserialize ∨ On h.deserialize h.serialize) := by
  unfold StructArgs.isSerde
  cases s.serde with
  | none => simp
  | some h => simp [on_any]

/-! ### Directions -/

/-- **C104.** `Serialize` and `Deserialize` are derived exactly if the argument `serde` of the struct is there, not off, and
asks for the direction. -/
theorem C104_directions (s : StructArgs) :
    (Tr.ser ∈ traits s ↔ ∃ h, s.serde = some h ∧ h.off = false ∧ On h.serialize h.deserialize) ∧
    (Tr.de ∈ traits s ↔ ∃ h, s.serde = some h ∧ h.off = false ∧ On h.deserialize h.serialize) ∧
    (traits s).Nodup := by
  unfold traits
  cases hs : s.isSerde with
  | false =>
    have hn : ¬ ∃ h, s.serde = some h ∧ h.off = false ∧ (On h.serialize h.deserialize ∨ On h.deserialize h.serialize) := by
      rw [← isSerde_iff, hs]; simp
    simp only [Bool.false_eq_true, if_false, List.not_mem_nil, false_iff, List.nodup_nil, and_true]
    exact ⟨fun ⟨h, h1, h2, h3⟩ => hn ⟨h, h1, h2, .inl h3⟩, fun ⟨h, h1, h2, h3⟩ => hn ⟨h, h1, h2, .inr h3⟩⟩
  | true =>
    obtain ⟨h, h1, h2, _⟩ := (isSerde_iff s).1 hs
    have e1 := on_ser h
    have e2 := on_de h
    simp only [if_true, h1, Option.bind_some, Option.some.injEq]
    rw [show (∃ k, h = k ∧ k.off = false ∧ On k.serialize k.deserialize) ↔ On h.serialize h.deserialize from
        ⟨by rintro ⟨_, rfl, _, h3⟩; exact h3, fun h3 => ⟨h, rfl, h2, h3⟩⟩,
      show (∃ k, h = k ∧ k.off = false ∧ On k.deserialize k.serialize) ↔ On h.deserialize h.serialize from
        ⟨by rintro ⟨_, rfl, _, h3⟩; exact h3, fun h3 => ⟨h, rfl, h2, h3⟩⟩, ← e1, ← e2]
    generalize h.needsSerialize.getD true = a
    generalize h.needsDeserialize.getD true = b
    cases a <;> cases b <;> simp

/-- **C104.** The struct is always written and read through the shadow. -/
theorem C104_through (c : Ctx) :
    (Tr.ser ∈ (ofStruct c).derives ↔ WrittenThrough (ofStruct c)) ∧
    (Tr.de ∈ (ofStruct c).derives ↔ ReadThrough (ofStruct c)) ∧
    ∀ t, t ∈ (ofStruct c).derives ↔ ∀ isPath, t ∈ (ofShadow isPath c).derives := by
  refine ⟨⟨fun h => ⟨h, ?_⟩, fun h => h.1⟩, ⟨fun h => ⟨h, ?_⟩, fun h => h.1⟩,
    fun t => ⟨fun h _ => h, fun h => h fun _ => true⟩⟩ <;>
  · unfold ofStruct structArgs traits at *
    cases hs : c.args.isSerde <;> simp only [hs, Bool.false_eq_true, if_false, if_true, List.not_mem_nil] at h ⊢
    cases h1 : (c.args.serde.bind (·.needsSerialize)).getD true <;>
      cases h2 : (c.args.serde.bind (·.needsDeserialize)).getD true <;> simp_all

theorem traits_ser (s : StructArgs) : Tr.ser ∈ traits s ↔ s.isSerde = true ∧ s.needsSerialize = true := by
  unfold traits
  cases hs : s.isSerde with
  | false => simp
  | true =>
    obtain ⟨h, h1, _⟩ := (isSerde_iff s).1 hs
    unfold StructArgs.needsSerialize
    simp only [h1, Option.bind_some, Option.elim_some, if_true, true_and]
    generalize h.needsSerialize.getD true = b
    generalize h.needsDeserialize.getD true = d
    cases b <;> cases d <;> simp

theorem traits_de (s : StructArgs) : Tr.de ∈ traits s ↔ s.isSerde = true ∧ s.needsDeserialize = true := by
  unfold traits
  cases hs : s.isSerde with
  | false => simp
  | true =>
    obtain ⟨h, h1, _⟩ := (isSerde_iff s).1 hs
    unfold StructArgs.needsDeserialize
    simp only [h1, Option.bind_some, Option.elim_some, if_true, true_and]
    generalize h.needsSerialize.getD true = b
    generalize h.needsDeserialize.getD true = d
    cases b <;> cases d <;> simp

theorem traits_nil (s : StructArgs) : traits s = [] ↔ s.isSerde = false := by
  constructor
  · intro h
    cases hs : s.isSerde with
    | false => rfl
    | true =>
      obtain ⟨k, h1, h2, h3⟩ := (isSerde_iff s).1 hs
      rcases h3 with h3 | h3
      · have := ((C104_directions s).1).2 ⟨k, h1, h2, h3⟩; rw [h] at this; cases this
      · have := ((C104_directions s).2.1).2 ⟨k, h1, h2, h3⟩; rw [h] at this; cases this
  · intro h; simp [traits, h]

/-- **C104.** Without errors: the conversion `into` asks for is generated exactly if `Serialize` is derived, the conversion
`from` asks for exactly if `Deserialize` is, and the shadow struct exactly if one of them is. -/
theorem C104_items {parsed : Bool} {s : StructArgs} {fs : List FieldArgs} {l : Lits} {out : List Piece}
    (hn : DistinctNames (prepare s fs)) (h : fxstruct parsed s fs l = .code out []) :
    (Piece.intoImpl ∈ out ↔ Tr.ser ∈ traits s) ∧ (Piece.fromImpl ∈ out ↔ Tr.de ∈ traits s) ∧
    (Piece.shadowStruct ∈ out ↔ traits s ≠ []) := by
  obtain ⟨_, _, _, _, h5, h6, h7, _⟩ := C84_items hn h
  refine ⟨h7.trans (traits_ser s).symm, h6.trans (traits_de s).symm, h5.trans ?_⟩
  rw [Ne, traits_nil]; simp

/-! ### Fields -/

/-- **C104.** The shadow has the fields which are not skipped, whose argument `serde` is not off and does not switch off both
directions; none if the struct has no serde. -/
theorem C104_shadow_fields (c : Ctx) (f : FieldArgs) : f ∈ shadowFields c ↔
    f ∈ c.allFields ∧ traits c.args ≠ [] ∧ f.skip = false ∧
      ∀ h, f.serde = some h → h.off = false ∧ (On h.serialize h.deserialize ∨ On h.deserialize h.serialize) := by
  unfold shadowFields
  rw [List.mem_filter, Ne, traits_nil]
  refine and_congr_right fun _ => ?_
  unfold FCtx.isSerde FieldArgs.isSkipped FieldArgs.isSerde
  cases hsk : f.skip <;> cases hs : c.args.isSerde <;> cases hf : f.serde <;> simp [on_any]

/-- **C104.** A field of the shadow is written, and read, exactly as its argument says, and has the documented name; without
the argument both ways, under its own name. -/
theorem C104_field (isPath : String → Bool) (c : Ctx) (f : FieldArgs) (hf : f ∈ shadowFields c) :
    (Written (fieldArgs isPath ⟨c, f⟩) ↔ ∀ h, f.serde = some h → On h.serialize h.deserialize) ∧
    (Read (fieldArgs isPath ⟨c, f⟩) ↔ ∀ h, f.serde = some h → On h.deserialize h.serialize) ∧
    ∀ n, NameIs f.ident (fieldArgs isPath ⟨c, f⟩) n ↔ n = f.baseName.getD f.ident := by
  obtain ⟨_, ht, hk, ho⟩ := (C104_shadow_fields c f).1 hf
  have hs : c.args.isSerde = true := by
    cases hs : c.args.isSerde with
    | true => rfl
    | false => exact absurd ((traits_nil _).2 hs) ht
  have hx : (FCtx.mk c f).isSerde = true := (List.mem_filter.mp hf).2
  have hd : ∀ a ∈ defaultArgs isPath ⟨c, f⟩, a = .dflt ∨ a = .dfltPath ∨ a = .dfltFn := by
    intro a ha
    unfold defaultArgs at ha
    split at ha
    · split at ha
      · split at ha
        · split at ha <;> simp at ha <;> simp [ha]
        · simp at ha; simp [ha]
      · cases ha
    · cases ha
  have hser : (FCtx.mk c f).needsSerialize = true ↔ ∀ h, f.serde = some h → On h.serialize h.deserialize := by
    unfold FCtx.needsSerialize FieldArgs.needsSerialize
    cases hf : f.serde with
    | none => simp [hs]
    | some h => simp [hs, on_ser]
  have hde : (FCtx.mk c f).needsDeserialize = true ↔ ∀ h, f.serde = some h → On h.deserialize h.serialize := by
    unfold FCtx.needsDeserialize FieldArgs.needsDeserialize
    cases hf : f.serde with
    | none => simp [hs]
    | some h => simp [hs, on_de]
  have hone : (FCtx.mk c f).needsSerialize = true ∨ (FCtx.mk c f).needsDeserialize = true := by
    rw [hser, hde]
    cases hf : f.serde with
    | none => left; intro h h'; cases h'
    | some h =>
      rcases (ho h hf).2 with h1 | h1
      · left; rintro _ ⟨⟩; exact h1
      · right; rintro _ ⟨⟩; exact h1
  have hskip : skipArgs ⟨c, f⟩ = if (FCtx.mk c f).needsSerialize = false then [.skipSer] else
      if (FCtx.mk c f).needsDeserialize = false then [.skipDe] else [] := by
    unfold skipArgs skipAttr
    rw [hs, hx]
    cases (FCtx.mk c f).needsSerialize <;> cases (FCtx.mk c f).needsDeserialize <;> rfl
  have hmem : ∀ a, a ∈ fieldArgs isPath ⟨c, f⟩ ↔
      a ∈ skipArgs ⟨c, f⟩ ∨ a ∈ defaultArgs isPath ⟨c, f⟩ ∨ a ∈ f.baseName.toList.map FArg.rename := by
    intro a
    unfold fieldArgs
    simp only [hs, if_true, List.mem_append, or_assoc]
  have hren : ∀ n, FArg.rename n ∈ fieldArgs isPath ⟨c, f⟩ ↔ f.baseName = some n := by
    intro n
    rw [hmem]
    constructor
    · rintro (h | h | h)
      · rw [hskip] at h; split at h
        · simp at h
        · split at h <;> simp at h
      · rcases hd _ h with h | h | h <;> cases h
      · cases hb : f.baseName with
        | none => simp [hb] at h
        | some b => simp [hb] at h; rw [h]
    · intro h; right; right; simp [h]
  have hno : ∀ a, (∀ n, a ≠ FArg.rename n) → (a ≠ .dflt ∧ a ≠ .dfltPath ∧ a ≠ .dfltFn) →
      (a ∈ fieldArgs isPath ⟨c, f⟩ ↔ a ∈ skipArgs ⟨c, f⟩) := by
    intro a h1 h2
    rw [hmem]
    constructor
    · rintro (h | h | h)
      · exact h
      · rcases hd _ h with h | h | h
        · exact absurd h h2.1
        · exact absurd h h2.2.1
        · exact absurd h h2.2.2
      · obtain ⟨n, _, he⟩ := List.mem_map.mp h; exact absurd he.symm (h1 n)
    · exact .inl
  refine ⟨?_, ?_, fun n => ?_⟩
  · rw [← hser]
    unfold Written
    rw [hno _ (by simp) (by simp), hno _ (by simp) (by simp), hskip]
    cases h1 : (FCtx.mk c f).needsSerialize <;> cases h2 : (FCtx.mk c f).needsDeserialize <;> simp
  · rw [← hde]
    unfold Read
    rw [hno _ (by simp) (by simp), hno _ (by simp) (by simp), hskip]
    rcases hone with h1 | h1 <;> rw [h1]
    · cases h2 : (FCtx.mk c f).needsDeserialize <;> simp
    · cases h2 : (FCtx.mk c f).needsSerialize <;> simp
  · unfold NameIs
    rw [hren]
    cases hb : f.baseName with
    | none =>
      have : ∀ m, FArg.rename m ∉ fieldArgs isPath ⟨c, f⟩ := fun m hm => by rw [hren, hb] at hm; cases hm
      simp [this]
    | some b =>
      have : ¬ ∀ m, FArg.rename m ∉ fieldArgs isPath ⟨c, f⟩ := fun hm => hm b ((hren b).2 hb)
      simp only [Option.some.injEq, this, false_and, or_false, Option.getD_some]
      exact eq_comm

/-! ### What serde's code refers to -/

/-- What the user has: `Clone` for the struct, `Default` for the types of fields. -/
structure User where
  clone : Bool
  dflt  : String → Bool

/-- What there is for serde's code to refer to. The impl of `Default` for the shadow comes with it if the struct has one
(serde.rs 309-322); `Option` has a `Default` for any type. -/
def Has (c : Ctx) (l : Lits) (out : List Piece) (u : User) : Need → Prop
  | .clone => u.clone = true
  | .into => Piece.intoImpl ∈ out
  | .from => Piece.fromImpl ∈ out
  | .standIn t => Piece.shadowStruct ∈ out ∧ t ∈ (ofShadow l.isPath c).derives
  | .dflt => Piece.shadowStruct ∈ out ∧ c.needsDefault = true
  | .dfltFn => Piece.wholeFn ∈ out
  | .fieldDflt f => u.dflt f = true ∨ ∃ g ∈ c.allFields, g.ident = f ∧ shadowType ⟨c, g⟩ = .opt .t
  | .fieldFn f => f ∈ serdeFns out

/-- The serde default of a field or struct, as written: `default` alone. -/
def Bare (o : Option Serde) : Prop := ∃ h, o = some h ∧ h.hasDefault = true ∧ h.defaultValue = none

/-- With a value. -/
def Valued (o : Option Serde) : Prop := ∃ h, o = some h ∧ h.hasDefault = true ∧ h.defaultValue.isSome = true

theorem dflt_mem (isPath : String → Bool) (x : FCtx) :
    (FArg.dflt ∈ defaultArgs isPath x ↔ Bare x.field.serde) ∧
    (FArg.dfltFn ∈ defaultArgs isPath x ↔ Valued x.field.serde ∧ isPath x.field.ident = false) ∧
    (FArg.dfltPath ∈ defaultArgs isPath x ↔ Valued x.field.serde ∧ isPath x.field.ident = true) := by
  unfold defaultArgs Bare Valued
  cases x.field.serde with
  | none => simp
  | some h =>
    cases hh : h.hasDefault <;> cases hv : h.defaultValue <;> cases isPath x.field.ident <;> simp [hh, hv]

theorem cont_mem (s : StructArgs) :
    (CArg.dflt ∈ shadowArgs s ↔ Bare s.serde) ∧ (CArg.dfltFn ∈ shadowArgs s ↔ Valued s.serde) := by
  unfold shadowArgs Bare Valued
  cases s.serde with
  | none => simp
  | some h => cases hh : h.hasDefault <;> cases hv : h.defaultValue <;> simp [hh, hv]

theorem fieldArgs_mem (isPath : String → Bool) (c : Ctx) (f : FieldArgs) (hf : f ∈ shadowFields c) (a : FArg)
    (h1 : a = .dflt ∨ a = .dfltFn ∨ a = .dfltPath) :
    a ∈ fieldArgs isPath ⟨c, f⟩ ↔ a ∈ defaultArgs isPath ⟨c, f⟩ := by
  have hs : c.args.isSerde = true := by
    have := (List.mem_filter.mp hf).2
    unfold FCtx.isSerde at this
    simp at this; exact this.2.1
  unfold fieldArgs skipArgs
  rw [if_pos hs]
  rcases h1 with rfl | rfl | rfl <;> cases skipAttr ⟨c, f⟩ <;> simp

/-- **C104.** Without errors everything serde's derives on the struct and the shadow refer to is there, exactly if: the struct
is `Clone` when it is serialised; it has a `Default` when its `serde(default)` has no value; fields with a bare serde default,
and fields which are not read and have no serde default (nor has the struct), are optional or lazy or their type has a
`Default`. And the function made of the struct's serde default compiles for an object of the struct itself exactly if the
struct is serialised as well. -/
theorem C104_needs_iff {parsed : Bool} {s : StructArgs} {fs : List FieldArgs} {l : Lits} {out : List Piece}
    (hn : DistinctNames (prepare s fs)) (h : fxstruct parsed s fs l = .code out []) (u : User) :
    ((∀ n, Needs (ofStruct (prepare s fs)) n ∨ Needs (ofShadow l.isPath (prepare s fs)) n →
        Has (prepare s fs) l out u n) ↔
      (Tr.ser ∈ traits s → u.clone = true) ∧
      (Tr.de ∈ traits s → Bare s.serde → (prepare s fs).needsDefault = true) ∧
      (Tr.de ∈ traits s → ∀ f ∈ shadowFields (prepare s fs),
        (Bare f.serde ∨ (∃ h, f.serde = some h ∧ ¬ On h.deserialize h.serialize) ∧ ¬ Bare f.serde ∧ ¬ Valued f.serde ∧
          ¬ Bare s.serde ∧ ¬ Valued s.serde) →
        (FCtx.mk (prepare s fs) f).isLazy = true ∨ (FCtx.mk (prepare s fs) f).isOptional = true ∨
          u.dflt f.ident = true)) ∧
    (Piece.wholeFn ∈ out → (Piece.intoImpl ∈ out ↔ Tr.ser ∈ traits s)) := by
  obtain ⟨i1, i2, i3⟩ := C104_items hn h
  obtain ⟨_, _, _, _, _, _, _, i8, _, _, i11⟩ := C84_items hn h
  refine ⟨?_, fun _ => i1⟩
  have hsh : ∀ f, f ∈ shadowFields (prepare s fs) → f ∈ (prepare s fs).allFields := fun f hf => (List.mem_filter.mp hf).1
  have hopt : ∀ f, shadowType ⟨prepare s fs, f⟩ = .opt .t ↔
      (FCtx.mk (prepare s fs) f).isLazy = true ∨ (FCtx.mk (prepare s fs) f).isOptional = true := by
    intro f
    unfold shadowType serdeOptional
    cases (FCtx.mk (prepare s fs) f).isLazy <;> cases (FCtx.mk (prepare s fs) f).isOptional <;> simp
  have hone : ∀ f ∈ (prepare s fs).allFields,
      (∃ g ∈ (prepare s fs).allFields, g.ident = f.ident ∧ shadowType ⟨prepare s fs, g⟩ = .opt .t) ↔
      shadowType ⟨prepare s fs, f⟩ = .opt .t := by
    intro f hf
    constructor
    · rintro ⟨g, hg, he, ht⟩; rwa [ident_inj hn hg hf he] at ht
    · intro ht; exact ⟨f, hf, rfl, ht⟩
  have hargs : (prepare s fs).args = s := rfl
  have hmem : ∀ {f : String} {la : List FArg}, (f, la) ∈ (ofShadow l.isPath (prepare s fs)).fields →
      ∃ g ∈ shadowFields (prepare s fs), g.ident = f ∧ la = fieldArgs l.isPath ⟨prepare s fs, g⟩ := by
    intro f la hm
    obtain ⟨g, hg, he⟩ := List.mem_map.mp hm
    cases he
    exact ⟨g, hg, rfl, rfl⟩
  have hin : ∀ g ∈ shadowFields (prepare s fs),
      (g.ident, fieldArgs l.isPath ⟨prepare s fs, g⟩) ∈ (ofShadow l.isPath (prepare s fs)).fields :=
    fun g hg => List.mem_map.mpr ⟨g, hg, rfl⟩
  have hread : ∀ g ∈ shadowFields (prepare s fs),
      (FArg.skip ∈ fieldArgs l.isPath ⟨prepare s fs, g⟩ ∨ FArg.skipDe ∈ fieldArgs l.isPath ⟨prepare s fs, g⟩) ↔
      ∃ h, g.serde = some h ∧ ¬ On h.deserialize h.serialize := by
    intro g hg
    have hr := (C104_field l.isPath _ g hg).2.1
    unfold Read at hr
    constructor
    · intro ho
      by_cases hc : ∃ h, g.serde = some h ∧ ¬ On h.deserialize h.serialize
      · exact hc
      · have := hr.2 fun h hh => Classical.byContradiction fun hx => hc ⟨h, hh, hx⟩
        rcases ho with ho | ho
        · exact absurd ho this.1
        · exact absurd ho this.2
    · rintro ⟨h, hh, hx⟩
      by_cases ha : FArg.skip ∈ fieldArgs l.isPath ⟨prepare s fs, g⟩
      · exact .inl ha
      · refine .inr (Classical.byContradiction fun hb => hx (hr.1 ⟨ha, hb⟩ h hh))
  have hth := C104_through (prepare s fs)
  constructor
  · intro hall
    refine ⟨fun ht => ?_, fun ht hb => ?_, fun ht f hf hc => ?_⟩
    · have := hth.1.1 ht
      exact hall .clone (.inl (.clone this.1 this.2))
    · exact (hall .dflt (.inr (.dflt ht ((cont_mem s).1.2 hb)))).2
    · have hx : Has (prepare s fs) l out u (.fieldDflt f.ident) := by
        refine hall _ (.inr ?_)
        rcases hc with hb | ⟨hd, hb, hv, hb', hv'⟩
        · exact .fieldDflt ht (hin f hf) ((fieldArgs_mem l.isPath _ f hf _ (.inl rfl)).2 ((dflt_mem _ _).1.2 hb))
        · refine .skipped ht (hin f hf) ((hread f hf).2 hd) ?_ ?_
          · intro a ha
            refine ⟨?_, ?_, ?_⟩ <;> rintro rfl
            · rw [fieldArgs_mem l.isPath _ f hf _ (.inl rfl)] at ha
              exact hb ((dflt_mem _ _).1.1 ha)
            · rw [fieldArgs_mem l.isPath _ f hf _ (.inr (.inr rfl))] at ha
              exact hv ((dflt_mem _ _).2.2.1 ha).1
            · rw [fieldArgs_mem l.isPath _ f hf _ (.inr (.inl rfl))] at ha
              exact hv ((dflt_mem _ _).2.1.1 ha).1
          · intro a ha
            refine ⟨?_, ?_⟩ <;> rintro rfl
            · exact hb' ((cont_mem s).1.1 ha)
            · exact hv' ((cont_mem s).2.1 ha)
      rcases hx with hx | hx
      · exact .inr (.inr hx)
      · rw [hone f (hsh f hf), hopt] at hx
        rcases hx with hx | hx
        · exact .inl hx
        · exact .inr (.inl hx)
  · rintro ⟨h1, h2, h3⟩ n hneed
    have hfd : ∀ g ∈ shadowFields (prepare s fs), (FCtx.mk (prepare s fs) g).isLazy = true ∨
        (FCtx.mk (prepare s fs) g).isOptional = true ∨ u.dflt g.ident = true →
        Has (prepare s fs) l out u (.fieldDflt g.ident) := by
      intro g hg hh
      rcases hh with hh | hh | hh
      · exact .inr ((hone g (hsh g hg)).2 ((hopt g).2 (.inl hh)))
      · exact .inr ((hone g (hsh g hg)).2 ((hopt g).2 (.inr hh)))
      · exact .inl hh
    have hex : ∀ {t : Tr}, t ∈ traits s → Piece.shadowStruct ∈ out := by
      intro t ht
      refine i3.2 fun h0 => ?_
      rw [h0] at ht; cases ht
    rcases hneed with hneed | hneed
    · cases hneed with
      | clone ha hb => exact h1 ha
      | into ha hb => exact i1.2 ha
      | intoSer ha hb => exact ⟨hex ha, ha⟩
      | «from» ha hb => exact i2.2 ha
      | fromDe ha hb => exact ⟨hex ha, ha⟩
      | dflt ha hb =>
        exfalso
        unfold ofStruct structArgs at hb
        simp only at hb
        split at hb
        · rcases List.mem_append.mp hb with hb | hb <;> split at hb <;> simp at hb
        · cases hb
      | dfltFn ha hb =>
        exfalso
        unfold ofStruct structArgs at hb
        simp only at hb
        split at hb
        · rcases List.mem_append.mp hb with hb | hb <;> split at hb <;> simp at hb
        · cases hb
      | fieldDflt _ hm _ => cases hm
      | fieldFn _ hm _ => cases hm
      | skipped _ hm _ _ _ => cases hm
    · have hno : ∀ a ∈ (ofShadow l.isPath (prepare s fs)).args, a = .dflt ∨ a = .dfltFn := by
        intro a ha
        unfold ofShadow shadowArgs at ha
        simp only at ha
        split at ha
        · split at ha
          · split at ha <;> simp at ha <;> simp [ha]
          · cases ha
        · cases ha
      cases hneed with
      | clone ha hb => rcases hno _ hb with h | h <;> cases h
      | into ha hb => rcases hno _ hb with h | h <;> cases h
      | intoSer ha hb => rcases hno _ hb with h | h <;> cases h
      | «from» ha hb => rcases hno _ hb with h | h <;> cases h
      | fromDe ha hb => rcases hno _ hb with h | h <;> cases h
      | dflt ha hb => exact ⟨hex ha, h2 ha ((cont_mem s).1.1 hb)⟩
      | dfltFn ha hb =>
        refine i8.2 ⟨?_, (cont_mem s).2.1 hb⟩
        exact ((traits_de s).1 ha).1
      | fieldDflt ha hm hd =>
        obtain ⟨g, hg, rfl, rfl⟩ := hmem hm
        refine hfd g hg (h3 ha g hg (.inl ?_))
        exact (dflt_mem _ _).1.1 ((fieldArgs_mem l.isPath _ g hg _ (.inl rfl)).1 hd)
      | fieldFn ha hm hd =>
        obtain ⟨g, hg, rfl, rfl⟩ := hmem hm
        obtain ⟨hv, hp⟩ := (dflt_mem _ _).2.1.1 ((fieldArgs_mem l.isPath _ g hg _ (.inr (.inl rfl))).1 hd)
        exact (i11 g (hsh g hg)).2 ⟨(List.mem_filter.mp hg).2, ((traits_de s).1 ha).1, hp, hv⟩
      | skipped ha hm hs hl hc =>
        obtain ⟨g, hg, rfl, rfl⟩ := hmem hm
        refine hfd g hg (h3 ha g hg (.inr ⟨(hread g hg).1 hs, ?_, ?_, ?_, ?_⟩))
        · intro hb
          exact (hl _ ((fieldArgs_mem l.isPath _ g hg _ (.inl rfl)).2 ((dflt_mem _ _).1.2 hb))).1 rfl
        · intro hv
          cases hp : l.isPath g.ident with
          | false =>
            exact (hl _ ((fieldArgs_mem l.isPath _ g hg _ (.inr (.inl rfl))).2 ((dflt_mem _ _).2.1.2 ⟨hv, hp⟩))).2.2 rfl
          | true =>
            exact (hl _ ((fieldArgs_mem l.isPath _ g hg _ (.inr (.inr rfl))).2 ((dflt_mem _ _).2.2.2 ⟨hv, hp⟩))).2.1 rfl
        · intro hb; exact (hc _ ((cont_mem s).1.2 hb)).1 rfl
        · intro hv; exact (hc _ ((cont_mem s).2.2 hv)).2 rfl

/-! ### The attributes as placed (C79, C80), the functions as counted (C68) -/

open Verif.Model.Attrs (Mark place isDerive)

/-- **C104.** On the struct: the derive, then the user's derives, then the attribute for serde, then the rest of the user's, in
order; the first and the third are there exactly if something is derived. -/
theorem C104_struct_marks (c : Ctx) (sattrs : List Verif.Model.Attrs.Attr)
    (fattrs : String → List Verif.Model.Attrs.Attr) :
    place c sattrs fattrs .struct =
      (if traits c.args = [] then [] else [.made "derive"]) ++ (sattrs.filter (·.path == "derive")).map .own ++
      (if structArgs c.args = [] then [] else [.made "serde"]) ++ (sattrs.filter (·.path != "derive")).map .own := by
  have hst : structArgs c.args = [] ↔ traits c.args = [] := by
    unfold structArgs traits
    cases c.args.isSerde <;> simp only [Bool.false_eq_true, if_false, if_true]
    generalize (c.args.serde.bind (·.needsSerialize)).getD true = b
    generalize (c.args.serde.bind (·.needsDeserialize)).getD true = d
    cases b <;> cases d <;> simp
  have hfil : ∀ q : Bool → Bool, ((sattrs.map Mark.own).filter fun a => q (isDerive a)) =
      (sattrs.filter fun a => q (a.path == "derive")).map .own := by
    intro q; rw [List.filter_map]; rfl
  have hmade : Verif.Model.Attrs.madeStruct c.args =
      if traits c.args = [] then [] else [.made "derive", .made "serde"] := by
    unfold Verif.Model.Attrs.madeStruct traits
    cases c.args.isSerde <;> simp only [Bool.false_eq_true, if_false, if_true]
    generalize (c.args.serde.bind (·.needsSerialize)).getD true = b
    generalize (c.args.serde.bind (·.needsDeserialize)).getD true = d
    cases b <;> cases d <;> simp
  show Verif.Model.Attrs.sortBy Verif.Model.Attrs.markCmp _ = _
  rw [Verif.Props.Attrs.sorted, List.filter_append, List.filter_append,
    show (sattrs.map Mark.own).filter isDerive = (sattrs.filter fun a => a.path == "derive").map .own from hfil fun b => b,
    hfil (fun b => !b), hmade]
  have h1 : isDerive (.made "derive") = true := by decide
  have h2 : isDerive (.made "serde") = false := by decide
  by_cases ht : traits c.args = []
  · rw [if_pos ht, if_pos ht, if_pos (hst.2 ht)]
    simp only [List.filter_nil, List.nil_append, List.append_nil]
    rfl
  · rw [if_neg ht, if_neg ht, if_neg (mt hst.1 ht)]
    simp only [List.filter_cons, List.filter_nil, h1, h2]
    simp only [if_true, Bool.false_eq_true, if_false, Bool.not_true, Bool.not_false, List.append_assoc]
    rfl

/-- **C104.** On the shadow, where there is one: the derive, the default if given, then the user's. -/
theorem C104_shadow_marks (c : Ctx) (h : traits c.args ≠ []) (sattrs : List Verif.Model.Attrs.Attr)
    (fattrs : String → List Verif.Model.Attrs.Attr) :
    place c sattrs fattrs .shadowStruct =
      .made "derive" :: (if shadowArgs c.args = [] then [] else [.made "serde"]) ++
        ((c.args.serde.bind (·.attributes)).getD []).map .arg := by
  show Verif.Model.Attrs.madeShadow c.args ++ Verif.Model.Attrs.ofArg _ = _
  unfold Verif.Model.Attrs.madeShadow Verif.Model.Attrs.ofArg
  have hs : c.args.isSerde = true := by
    cases hs : c.args.isSerde with
    | true => rfl
    | false => exact absurd ((traits_nil _).2 hs) h
  have hor : ((c.args.serde.bind (·.needsSerialize)).getD true || (c.args.serde.bind (·.needsDeserialize)).getD true) = true := by
    unfold traits at h
    rw [if_pos hs] at h
    cases h1 : (c.args.serde.bind (·.needsSerialize)).getD true <;>
      cases h2 : (c.args.serde.bind (·.needsDeserialize)).getD true <;> simp_all
  have hd : (c.args.serde.elim false fun h => h.default.elim false (·.isTrue)) = true ↔ shadowArgs c.args ≠ [] := by
    unfold shadowArgs
    cases c.args.serde with
    | none => simp
    | some k =>
      show k.hasDefault = true ↔ (if k.hasDefault = true then (if k.defaultValue.isSome = true then _ else _) else _) ≠ []
      by_cases h1 : k.hasDefault = true <;> by_cases h2 : k.defaultValue.isSome = true <;> simp [h1, h2]
  rw [if_pos hor]
  by_cases ha : shadowArgs c.args = []
  · rw [if_neg (fun h => hd.1 h ha), if_pos ha]; rfl
  · rw [if_pos (hd.2 ha), if_neg ha]; rfl

/-- **C104.** On a field of the shadow fieldx writes an attribute exactly if it has an argument to write. -/
theorem C104_field_marks (isPath : String → Bool) (c : Ctx) (sattrs : List Verif.Model.Attrs.Attr)
    (fattrs : String → List Verif.Model.Attrs.Attr) (f : FieldArgs) (hf : f ∈ shadowFields c) :
    Mark.made "serde" ∈ place c sattrs fattrs (.shadowField f) ↔ fieldArgs isPath ⟨c, f⟩ ≠ [] := by
  have hs : c.args.isSerde = true := by
    have := (List.mem_filter.mp hf).2
    unfold FCtx.isSerde at this
    simp at this; exact this.2.1
  have h1 : Mark.made "serde" ∈ place c sattrs fattrs (.shadowField f) ↔ Verif.Model.Attrs.madeSerde ⟨c, f⟩ = true := by
    show _ ∈ (if _ then _ else _) ++ Verif.Model.Attrs.ofArg _ ++ _ ↔ _
    unfold Verif.Model.Attrs.ofArg
    cases Verif.Model.Attrs.madeSerde ⟨c, f⟩ <;> simp
  rw [h1]
  unfold Verif.Model.Attrs.madeSerde fieldArgs skipArgs defaultArgs
  rw [if_pos hs]
  cases skipAttr ⟨c, f⟩ <;> cases hb : f.baseName <;> cases hh : f.serde <;> simp [Serde.hasDefault]
  all_goals
    rename_i k
    cases k.default.elim false (·.isTrue) <;> cases k.defaultValue <;> cases isPath f.ident <;> simp

/-- **C104.** A function is made, and named with the parameters of the struct, for exactly the fields whose attribute calls
one. -/
theorem C104_functions (isPath : String → Bool) (c : Ctx) (f : FieldArgs) (hf : f ∈ c.allFields) :
    Verif.Model.Generics.serdeDefaultFn isPath c f = true ↔
      f ∈ shadowFields c ∧ FArg.dfltFn ∈ fieldArgs isPath ⟨c, f⟩ := by
  constructor
  · intro h
    unfold Verif.Model.Generics.serdeDefaultFn at h
    simp only [Bool.and_eq_true, Bool.not_eq_true'] at h
    obtain ⟨⟨⟨h1, h2⟩, h3⟩, h4⟩ := h
    have hm : f ∈ shadowFields c := List.mem_filter.mpr ⟨hf, h2⟩
    refine ⟨hm, (fieldArgs_mem isPath c f hm _ (.inr (.inl rfl))).2 ((dflt_mem _ _).2.1.2 ⟨?_, h4⟩)⟩
    cases hh : f.serde with
    | none => simp [hh] at h3
    | some k =>
      rw [hh] at h3
      refine ⟨k, rfl, ?_, h3⟩
      simp only [Option.elim_some] at h3
      unfold Serde.defaultValue at h3
      cases hd : k.hasDefault with
      | true => rfl
      | false => simp [hd] at h3
  · rintro ⟨hm, hd⟩
    obtain ⟨⟨k, h1, _, h3⟩, hp⟩ := (dflt_mem _ _).2.1.1 ((fieldArgs_mem isPath c f hm _ (.inr (.inl rfl))).1 hd)
    have h2 := (List.mem_filter.mp hm).2
    have hs : c.args.isSerde = true := by
      unfold FCtx.isSerde at h2
      simp at h2; exact h2.2.1
    have hp' : isPath f.ident = false := hp
    have h1' : f.serde = some k := h1
    unfold Verif.Model.Generics.serdeDefaultFn
    simp [hs, h2, h1', h3, hp']

/-! ### The documented use of the struct's default, and a bare default, can fail -/

/-- The struct only reads documents, and its serde default is an object of its own. -/
def readOnly : StructArgs := { serde := some { deserialize := some true, default := some { value := some "Self::d()" } } }

/-- **C104.** "This allows you to use the original struct as the trait implementation is automatically generated for it"
(lib.rs 422-423) is false of a struct which is only deserialised: the function is made, the conversion it calls is not. -/
theorem C104_own_default_false : ∃ (s : StructArgs) (fs : List FieldArgs) (out : List Piece),
    Verif.Model.Exclusive.acceptStructFull s = true ∧ DistinctNames (prepare s fs) ∧ fxstruct true s fs {} = .code out [] ∧
    Valued s.serde ∧ Tr.de ∈ traits s ∧ Piece.wholeFn ∈ out ∧ Piece.intoImpl ∉ out := by
  have hk : ∃ out, fxstruct true readOnly [{ ident := "a" }] {} = .code out [] ∧ Piece.wholeFn ∈ out ∧
      Piece.intoImpl ∉ out := by
    refine ⟨_, rfl, ?_, ?_⟩ <;> decide +kernel
  obtain ⟨out, h1, h2, h3⟩ := hk
  exact ⟨readOnly, [{ ident := "a" }], out, by decide +kernel, by unfold DistinctNames; decide +kernel, h1, ⟨_, rfl, rfl, rfl⟩, by decide +kernel, h2, h3⟩

/-- **C104.** `serde(default)` on a struct without `Default` is accepted, and does not compile. -/
theorem C104_bare_default_false : ∃ (s : StructArgs) (fs : List FieldArgs) (out : List Piece),
    Verif.Model.Exclusive.acceptStructFull s = true ∧ DistinctNames (prepare s fs) ∧ fxstruct true s fs {} = .code out [] ∧
    ∀ u, ¬ ∀ n, Needs (ofStruct (prepare s fs)) n ∨ Needs (ofShadow (fun _ => false) (prepare s fs)) n →
      Has (prepare s fs) {} out u n := by
  let s : StructArgs := { serde := some { default := some {} }, default := some false }
  have hk : ∃ out, fxstruct true s [{ ident := "a" }] {} = .code out [] := ⟨_, rfl⟩
  obtain ⟨out, h1⟩ := hk
  have hn : DistinctNames (prepare s [{ ident := "a" }]) := by unfold DistinctNames; decide +kernel
  refine ⟨s, [{ ident := "a" }], out, by decide +kernel, hn, h1, fun u hall => ?_⟩
  have := ((C104_needs_iff hn h1 u).1.1 hall).2.1 (by decide +kernel) ⟨_, rfl, rfl, rfl⟩
  revert this
  decide +kernel

/-! ### Cases -/

/-- A struct both ways, with a renamed field, one that is only written, one with a default by name. -/
def exArgs : StructArgs := { serde := some { default := some {} } }
def exFields : List FieldArgs :=
  [{ ident := "a", baseName := some "x" }, { ident := "b", serde := some { serialize := some true } },
   { ident := "c", serde := some { default := some { value := some "f()" } } },
   { ident := "d", serde := some { off := true } }]

example : traits exArgs = [.ser, .de] ∧ structArgs exArgs = [.from, .into] ∧ shadowArgs exArgs = [.dflt] := by
  decide +kernel
example : (shadowFields (prepare exArgs exFields)).map (fun f => (f.ident, fieldArgs (fun _ => false) ⟨prepare exArgs exFields, f⟩)) =
    [("a", [.rename "x"]), ("b", [.skipDe]), ("c", [.dfltFn])] := by decide +kernel
example : ∃ out, fxstruct true exArgs exFields {} = .code out [] ∧ DistinctNames (prepare exArgs exFields) ∧
    Piece.intoImpl ∈ out ∧ Piece.fromImpl ∈ out ∧ serdeFns out = ["c"] := by
  refine ⟨Verif.Proof.Expand.finalOut (prepare exArgs exFields) {}, by decide +kernel, by unfold DistinctNames; decide +kernel, ?_, ?_, ?_⟩ <;>
    decide +kernel
/-- All is there if the struct is `Clone` and the type of `b`, which has the struct's default, need not have one. -/
example : ∀ n, Needs (ofStruct (prepare exArgs exFields)) n ∨ Needs (ofShadow (fun _ => false) (prepare exArgs exFields)) n →
    Has (prepare exArgs exFields) {} (Verif.Proof.Expand.finalOut (prepare exArgs exFields) {}) ⟨true, fun _ => false⟩ n := by
  refine (C104_needs_iff (parsed := true) (s := exArgs) (fs := exFields) (l := {}) (by unfold DistinctNames; decide +kernel)
    (by decide +kernel) ⟨true, fun _ => false⟩).1.2 ⟨fun _ => rfl, fun _ _ => by decide +kernel, fun _ f hf hc => ?_⟩
  have hf : f = exFields[0] ∨ f = exFields[1] ∨ f = exFields[2] := by
    have : f ∈ [exFields[0], exFields[1], exFields[2]] := by
      have e : shadowFields (prepare exArgs exFields) = [exFields[0], exFields[1], exFields[2]] := by decide +kernel
      rwa [e] at hf
    simpa using this
  exfalso
  rcases hc with ⟨h, h1, h2, h3⟩ | ⟨_, _, _, h5, _⟩
  · rcases hf with rfl | rfl | rfl
    · cases h1
    · cases h1; exact absurd h2 (by decide +kernel)
    · cases h1; exact absurd h3 (by decide +kernel)
  · exact h5 ⟨_, rfl, rfl, rfl⟩
example : traits { serde := some { deserialize := some false } } = [.ser] := by decide
example : traits { serde := some { serialize := some false, deserialize := some false } } = [] := by decide
example : traits readOnly = [.de] := by decide
example : place (prepare exArgs exFields) [⟨"doc", "x"⟩, ⟨"derive", "Clone"⟩] (fun _ => []) .struct =
    [.made "derive", .own ⟨"derive", "Clone"⟩, .made "serde", .own ⟨"doc", "x"⟩] := by decide +kernel

end Verif.Props.SerdeDerive
