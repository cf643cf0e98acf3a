import Verif.Proof.Serde
import Verif.Model.Exclusive
/-
C32-C35: serialisation and deserialisation through the shadow struct.

`Force`, `ForceAll` and `holds` are specified in `Verif.Spec.Serde`; `Holds` (default of a field) in
`Verif.Props.Builder`.
-/
namespace Verif.Props.Serde
open Verif.Model.Args Verif.Model.Init Verif.Model.Serde Verif.Model.Exclusive Verif.Spec.InitTy Verif.Spec.Serde
open Verif.Proof.BuilderField Verif.Proof.Serde Verif.Props.Init
open Verif.Props.Builder (Holds holds_default)

variable {V : Type}

/-- Names of all fields. -/
def names (c : Ctx) : List String := c.allFields.map (·.ident)

/-- The field is serialised and its lazy builder can be run by serialisation (the container is not async). -/
def LazySerialised (c : Ctx) (f : FieldArgs) : Prop :=
  f ∈ c.allFields ∧ (FCtx.mk c f).isSerde = true ∧ (FCtx.mk c f).isLazy = true ∧
    ¬ ((FCtx.mk c f).isSync = true ∧ (FCtx.mk c f).isAsync = true)

theorem mem_lazies {c : Ctx} {n : String} : n ∈ lazies c ↔ ∃ f, LazySerialised c f ∧ f.ident = n := by
  unfold lazies LazySerialised forced shadowFields
  simp only [List.mem_map, List.mem_filter]
  constructor
  · rintro ⟨f, ⟨⟨h1, h2⟩, h3⟩, h4⟩
    refine ⟨f, ⟨h1, h2, ?_, ?_⟩, h4⟩
    · revert h3; cases (FCtx.mk c f).isLazy <;> simp
    · rintro ⟨h5, h6⟩; simp [h5, h6] at h3
  · rintro ⟨f, ⟨h1, h2, h3, h5⟩, h4⟩
    refine ⟨f, ⟨⟨h1, h2⟩, ?_⟩, h4⟩
    rw [h3]
    revert h5
    cases (FCtx.mk c f).isSync <;> cases (FCtx.mk c f).isAsync <;> simp

/-! ### A decidable form of `Compiles`, for the examples -/

def compilesB (c : Ctx) : Bool :=
  decide ((c.allFields.map (·.ident)).Nodup) && c.args.isSerde && c.args.needsSerialize && c.args.needsDeserialize &&
  decide (((shadowFields c).map key).Nodup) &&
  (shadowFields c).all (fun f => (FCtx.mk c f).needsSerialize) &&
  c.allFields.all (fun f => match declType ⟨c, f⟩ with | .ok _ => true | _ => false) &&
  (shadowFields c).all (fun f => !((FCtx.mk c f).isSync && (FCtx.mk c f).isOptional && !(FCtx.mk c f).isLazy &&
    !(FCtx.mk c f).needsLock)) &&
  c.allFields.all (fun f => deserialised ⟨c, f⟩ || (c.needsDefault &&
    !((FCtx.mk c f).isSync && f.isSkipped && (FCtx.mk c f).needsLock))) &&
  c.needsDefault

theorem compiles_of {c : Ctx} (h : compilesB c = true) : Compiles c := by
  unfold compilesB at h
  simp only [Bool.and_eq_true, decide_eq_true_eq, List.all_eq_true] at h
  obtain ⟨⟨⟨⟨⟨⟨⟨⟨⟨h1, h2⟩, h3⟩, h4⟩, h5⟩, h6⟩, h7⟩, h8⟩, h9⟩, h10⟩ := h
  refine ⟨h1, h2, h3, h4, h5, h6, ?_, ?_, ?_, fun _ _ _ _ => h10⟩
  · intro f hf
    have := h7 f hf
    cases hd : declType ⟨c, f⟩ with
    | ok τ => exact ⟨τ, rfl⟩
    | error => simp [hd] at this
    | panic => simp [hd] at this
  · rintro f hf ⟨q1, q2, q3, q4⟩
    have := h8 f hf
    simp [q1, q2, q3, q4] at this
  · intro f hf hd
    have := h9 f hf
    rw [hd] at this
    simp only [Bool.false_or, Bool.and_eq_true] at this
    refine ⟨this.1, ?_⟩
    rintro ⟨q1, q2, q3⟩
    have := this.2
    simp [q1, q2, q3] at this

/-! ### C33 -/

/-- Serialisation of an object: the lazy fields are forced, in order of declaration, each builder running on an object
with all fields in place; then every serialised field is written with its content. It fails only by the panic of a
builder. Missing from the full claim: lazy fields of async containers are not forced (`C33_async_fails`). -/
theorem C33_serialise_partial {c : Ctx} (h : Compiles c) (w : World V) (hb : Sound c w.bld) {o : Obj V}
    (ho : Typed c o) :
    (serialise c w o = .panic ∧ ForcePanics (names c) w.bld (lazies c) o) ∨
    ∃ o1, ForceAll (names c) w.bld (lazies c) o o1 ∧ Typed c o1 ∧
      serialise c w o = .ok ((shadowFields c).map (fun f => (key f, itemOf (holds o1 f.ident)))) := by
  unfold serialise
  rcases into_spec h w hb ho with ⟨h1, h2⟩ | ⟨o1, sh, h1, h2, h3, h4⟩
  · exact .inl ⟨by rw [h1], h2⟩
  · refine .inr ⟨o1, h3, h2, ?_⟩
    rw [h1]
    refine write_spec sh (shadowFields c) o1 ?_ h4
    intro f hf
    have := h.into f hf
    unfold skipAttr
    rw [h.serde, (mem_shadow hf).2.1, this]
    cases (FCtx.mk c f).needsDeserialize <;> simp

/-- Builders leave the contents of other fields alone if there are any (reading a lazy field may give it a content). -/
def Keeps (bld : String → Obj V → BRes V × Obj V) : Prop :=
  ∀ n o m v, holds o m = some v → holds (bld n o).2 m = some v

theorem force_keeps {ns : List String} {bld : String → Obj V → BRes V × Obj V} (hk : Keeps bld) {n : String}
    {o o1 : Obj V} (h : Force ns bld n o o1) {m : String} {v : V} (hv : holds o m = some v) : holds o1 m = some v := by
  cases h with
  | full _ => exact hv
  | built h1 _ h2 h3 h4 =>
    have hne : m ≠ n := by rintro rfl; rw [h1] at hv; cases hv
    have := hk n o m v hv
    rw [h2] at this
    unfold holds at this ⊢
    rw [h4 m hne]; exact this
  | failed h1 _ h2 =>
    have := hk n o m v hv
    rw [h2] at this
    exact this

theorem forceAll_keeps {ns : List String} {bld : String → Obj V → BRes V × Obj V} (hk : Keeps bld) {l : List String}
    {o o1 : Obj V} (h : ForceAll ns bld l o o1) {m : String} {v : V} (hv : holds o m = some v) :
    holds o1 m = some v := by
  induction h with
  | nil o => exact hv
  | cons h _ ih => exact ih (force_keeps hk h hv)

/-- Each field of the list is forced at some moment. -/
theorem forceAll_split {ns : List String} {bld : String → Obj V → BRes V × Obj V} {l : List String}
    {o o1 : Obj V} (h : ForceAll ns bld l o o1) {n : String} (hn : n ∈ l) :
    ∃ pre post oa ob, l = pre ++ n :: post ∧ ForceAll ns bld pre o oa ∧ Force ns bld n oa ob ∧
      ForceAll ns bld post ob o1 := by
  induction h with
  | nil o => cases hn
  | @cons m ms o o1 o2 h hr ih =>
    cases hn with
    | head => exact ⟨[], ms, o, o1, rfl, .nil o, h, hr⟩
    | tail _ hn =>
      obtain ⟨pre, post, oa, ob, h1, h2, h3, h4⟩ := ih hn
      exact ⟨m :: pre, post, oa, ob, by rw [h1]; rfl, .cons h h2, h3, h4⟩

/-- A serialised lazy field is written with its content; if it is empty, with what its builder gives on an object with
all fields in place; it is written as `null` only if the builder failed. -/
theorem C33_lazy_partial {c : Ctx} (h : Compiles c) (w : World V) (hb : Sound c w.bld) (hk : Keeps w.bld) {o : Obj V}
    (ho : Typed c o) {d : Doc V} (hd : serialise c w o = .ok d) {f : FieldArgs} (hf : LazySerialised c f) :
    (∃ v, holds o f.ident = some v ∧ d.lookup (key f) = some (.val v)) ∨
    (∃ oa v, (∀ m ∈ names c, oa m ≠ none) ∧ (w.bld f.ident oa).1 = .ok v ∧ d.lookup (key f) = some (.val v)) ∨
    (∃ oa v, (∀ m v, holds o m = some v → holds oa m = some v) ∧ holds o f.ident = none ∧ holds oa f.ident = some v ∧
      d.lookup (key f) = some (.val v)) ∨
    (∃ oa, (∀ m ∈ names c, oa m ≠ none) ∧ (w.bld f.ident oa).1 = .err) := by
  rcases C33_serialise_partial h w hb ho with ⟨h1, _⟩ | ⟨o1, h1, h2, h3⟩
  · rw [hd] at h1; cases h1
  · rw [hd] at h3; cases h3
    have hm : f ∈ shadowFields c := List.mem_filter.mpr ⟨hf.1, hf.2.1⟩
    have hl := lookup_map (shadowFields c) key (fun f => itemOf (holds o1 f.ident)) h.keys hm
    obtain ⟨pre, post, oa, ob, _, q2, q3, q4⟩ := forceAll_split h1 (mem_lazies.mpr ⟨f, hf, rfl⟩)
    have hfin : ∀ v, holds ob f.ident = some v →
        ((shadowFields c).map (fun f => (key f, itemOf (holds o1 f.ident)))).lookup (key f) = some (.val v) := by
      intro v hv
      rw [hl, forceAll_keeps hk q4 hv]; rfl
    cases q3 with
    | full hv =>
      rename_i v
      cases hoo : holds o f.ident with
      | some u =>
        left
        have := forceAll_keeps hk q2 hoo
        rw [hv] at this; cases this
        exact ⟨v, rfl, hfin v hv⟩
      | none => exact .inr (.inr (.inl ⟨oa, v, fun m u hu => forceAll_keeps hk q2 hu, rfl, hv, hfin v hv⟩))
    | built e1 e2 e3 e4 e5 => exact .inr (.inl ⟨oa, _, e2, by rw [e3], hfin _ e4⟩)
    | failed e1 e2 e3 => exact .inr (.inr (.inr ⟨oa, e2, by rw [e3]⟩))

/-! ### C34 -/

/-- If no builder fails, every serialised lazy field (outside async containers) has a value in the document, and
serialisation of a fallible field loses nothing. Missing from the full claim: a failing builder (`C34_fails`). -/
theorem C34_no_failure_partial {c : Ctx} (h : Compiles c) (w : World V) (hb : Sound c w.bld) (hk : Keeps w.bld)
    (hne : ∀ n o, (w.bld n o).1 ≠ .err) {o : Obj V} (ho : Typed c o) {d : Doc V} (hd : serialise c w o = .ok d)
    {f : FieldArgs} (hf : LazySerialised c f) : ∃ v, d.lookup (key f) = some (.val v) := by
  rcases C33_lazy_partial h w hb hk ho hd hf with ⟨v, _, h1⟩ | ⟨_, v, _, _, h1⟩ | ⟨_, v, _, _, _, h1⟩ | ⟨oa, _, h1⟩
  · exact ⟨v, h1⟩
  · exact ⟨v, h1⟩
  · exact ⟨v, h1⟩
  · exact absurd h1 (hne _ _)

/-! ### C32 -/

/-- Round trip. The document written for an object can be read back; in the new object each field that is deserialised
holds what it held after serialisation had forced the lazy fields; the others hold their defaults. Missing from the full
claim: an empty field of a plain struct with a declared default (`C32_fails`), fields that are not serialised
(`C32_serialize_off_ill`), lazy fields of async containers are not forced (`C33_async_fails`). -/
theorem C32_round_trip_partial {c : Ctx} (h : Compiles c) {w : World V} (hw : WorldTyped c w) (hb : Sound c w.bld)
    {o : Obj V} (ho : Typed c o) {d : Doc V} (hd : serialise c w o = .ok d) :
    ∃ o1 l, ForceAll (names c) w.bld (lazies c) o o1 ∧ deserialise c w d = .ok l ∧
      ∀ f ∈ c.allFields, ∃ a τ, l.lookup f.ident = some a ∧ declType ⟨c, f⟩ = .ok τ ∧ ValTy a τ ∧
        ((FCtx.mk c f).isSerde = true → (FCtx.mk c f).needsDeserialize = true →
          ¬ (holds o1 f.ident = none ∧ (FCtx.mk c f).isSync = false ∧ (FCtx.mk c f).defaultValue ≠ none) →
          content a = holds o1 f.ident) ∧
        (¬ ((FCtx.mk c f).isSerde = true ∧ (FCtx.mk c f).needsDeserialize = true) →
          Holds ⟨c, f⟩ (w.env f.ident) none (content a)) := by
  rcases C33_serialise_partial h w hb ho with ⟨h1, _⟩ | ⟨o1, h1, h2, h3⟩
  · rw [hd] at h1; cases h1
  rw [hd] at h3; cases h3
  have hread : ∀ f ∈ shadowFields c, deserialised ⟨c, f⟩ = true →
      ∃ b, readField w ⟨c, f⟩ ((shadowFields c).map (fun f => (key f, itemOf (holds o1 f.ident)))) = .ok b ∧
        content b = holds o1 f.ident ∧ ValTy b (shadowType ⟨c, f⟩) := by
    intro f hf hds
    obtain ⟨hfa, hse, hsk⟩ := mem_shadow hf
    have hl := lookup_map (shadowFields c) key (fun f => itemOf (holds o1 f.ident)) h.keys hf
    obtain ⟨τ, a, ht, hoa, ha⟩ := h2 f hfa
    obtain ⟨b, q1, q2, q3⟩ := into_eval ⟨c, f⟩ hsk ht (h.lock f hf) (w.env f.ident) ha
    have hc : content b = holds o1 f.ident := by rw [q3]; simp [holds, hoa]
    refine ⟨b, ?_, hc, q2⟩
    have hns : ¬ (skipAttr ⟨c, f⟩ = .de ∨ skipAttr ⟨c, f⟩ = .all) := by
      unfold deserialised at hds
      have hnd : (FCtx.mk c f).needsDeserialize = true := by
        revert hds; cases (FCtx.mk c f).needsDeserialize <;> simp
      unfold skipAttr
      rw [h.serde, hse, h.into f hf, hnd]
      simp
    unfold readField
    rw [if_neg hns, if_neg (by rw [count_map (shadowFields c) key _ h.keys]; simp)]
    simp only [hl]
    rw [← hc]
    exact (toItem_spec (shadowType_cases _) q2).2
  rcases deserialise_spec h hw ((shadowFields c).map (fun f => (key f, itemOf (holds o1 f.ident)))) with
    ⟨_, f, hf, he⟩ | ⟨l, h4, _, h6⟩
  · exfalso
    rcases readField_spec h hw ((shadowFields c).map (fun f => (key f, itemOf (holds o1 f.ident)))) hf with
      ⟨b, hb, _⟩ | ⟨_, hds, _⟩
    · rw [he] at hb; cases hb
    · obtain ⟨b, hb, _⟩ := hread f hf hds
      rw [he] at hb; cases hb
  · refine ⟨o1, l, h1, h4, ?_⟩
    intro f hf
    obtain ⟨a, q1, ⟨τ, ht, hty⟩, q2, q3⟩ := h6 f hf
    refine ⟨a, τ, q1, ht, hty, ?_, ?_⟩
    · intro hse hnd hno
      have hds : deserialised ⟨c, f⟩ = true := by unfold deserialised; rw [hse, hnd]; rfl
      have hm : f ∈ shadowFields c := List.mem_filter.mpr ⟨hf, hse⟩
      obtain ⟨b, r1, r2⟩ := q3 hds
      obtain ⟨b', s1, s2, s3⟩ := hread f hm hds
      rw [r1] at s1; cases s1
      rw [r2, s2]
      unfold received
      cases hsy : (FCtx.mk c f).isSync with
      | true => rfl
      | false =>
        cases hho : holds o1 f.ident with
        | some v => rfl
        | none =>
          simp only [Bool.false_eq_true, if_false]
          have hdv : (FCtx.mk c f).defaultValue = none := by
            cases hdv : (FCtx.mk c f).defaultValue with
            | none => rfl
            | some v => exact absurd ⟨hho, hsy, by rw [hdv]; simp⟩ hno
          rw [hho] at s2
          unfold defaultContent
          rw [hdv]
          have : serdeOptional ⟨c, f⟩ = true := by
            cases hso : serdeOptional ⟨c, f⟩ with
            | true => rfl
            | false =>
              unfold shadowType at s3
              rw [hso] at s3
              obtain ⟨v, rfl, hv⟩ := content_t (by simpa using s3)
              rw [hv] at s2; cases s2
          unfold serdeOptional at this
          rw [Bool.or_comm] at this
          simp [this]
    · intro hno
      have hds : deserialised ⟨c, f⟩ = false := by
        unfold deserialised
        revert hno
        cases (FCtx.mk c f).isSerde <;> cases (FCtx.mk c f).needsDeserialize <;> simp
      rw [q2 hds]
      exact holds_default _ _

/-- A field that belongs to the shadow but is not serialised (`serde(serialize(off))`, `serde(deserialize)`) is missing
from the struct expression of the conversion into the shadow: the generated code does not compile, whatever the rest. -/
theorem C32_serialize_off_ill {c : Ctx} (w : World V) {f : FieldArgs} (hf : f ∈ c.allFields)
    (hs : (FCtx.mk c f).isSerde = true) (hn : (FCtx.mk c f).needsSerialize = false) (o : Obj V) :
    serialise c w o = .ill := by
  have : intoComplete c = false := by
    cases hc : intoComplete c with
    | false => rfl
    | true =>
      unfold intoComplete at hc
      rw [List.all_eq_true] at hc
      have := hc f (List.mem_filter.mpr ⟨hf, hs⟩)
      have := (List.mem_filter.mp (List.contains_iff_mem.mp this)).2
      rw [hn] at this
      simp at this
  unfold serialise intoShadowObj
  rw [this]
  simp

/-! ### C35 -/

/-- There is a `default` among the serde arguments. -/
def HasSerdeDefault (s : Option Serde) : Prop := ∃ sh, s = some sh ∧ sh.hasDefault = true

/-- What a field missing from the document should hold: the value of its serde default (an expression, or a function
named by a string); without one, the default of the field. -/
inductive WhenMissing (w : World V) (x : FCtx) : Option V → Prop
  | expr {sh e} : x.field.serde = some sh → sh.defaultValue = some e → w.isPath x.field.ident = false →
      WhenMissing w x (some (w.env x.field.ident).sdv)
  | path {sh e} : x.field.serde = some sh → sh.defaultValue = some e → w.isPath x.field.ident = true →
      WhenMissing w x (content (w.path x.field.ident))
  | none {r} : ¬ HasSerdeDefault x.field.serde → Holds x (w.env x.field.ident) none r → WhenMissing w x r

theorem fieldDefault_none {w : World V} {x : FCtx} : fieldDefault w x = none ↔ ¬ HasSerdeDefault x.field.serde := by
  unfold fieldDefault HasSerdeDefault
  cases hs : x.field.serde with
  | none => simp
  | some sh =>
    cases hd : sh.hasDefault with
    | false => simp [hd]
    | true =>
      simp only [if_true, Option.some.injEq, exists_eq_left', hd, not_true, iff_false]
      split
      · split <;> simp
      · simp

theorem containerDefault_none {w : World V} {x : FCtx} :
    containerDefault w x = none ↔ ¬ HasSerdeDefault x.ctx.args.serde := by
  unfold containerDefault HasSerdeDefault
  cases hs : x.ctx.args.serde with
  | none => simp
  | some sh =>
    cases hd : sh.hasDefault with
    | false => simp [hd]
    | true =>
      simp only [if_true, Option.some.injEq, exists_eq_left', hd, not_true, iff_false]
      split
      · simp
      · split <;> simp

/-- Reading a missing field. -/
theorem readField_missing {c : Ctx} (h : Compiles c) {w : World V} {d : Doc V} {f : FieldArgs} (hf : f ∈ shadowFields c)
    (hds : deserialised ⟨c, f⟩ = true) (hl : d.lookup (key f) = none) : readField w ⟨c, f⟩ d = missing w ⟨c, f⟩ := by
  obtain ⟨hfa, hse, hsk⟩ := mem_shadow hf
  have hns : ¬ (skipAttr ⟨c, f⟩ = .de ∨ skipAttr ⟨c, f⟩ = .all) := by
    unfold deserialised at hds
    have hnd : (FCtx.mk c f).needsDeserialize = true := by
      revert hds; cases (FCtx.mk c f).needsDeserialize <;> simp
    unfold skipAttr
    rw [h.serde, hse, h.into f hf, hnd]
    simp
  unfold readField
  rw [if_neg hns, if_neg (by rw [not_repeated_of_lookup hl]; simp)]
  simp only [hl]

/-- A missing field gets its serde default, else its declared default, else is empty, in plain and sync structs alike,
provided the serde default (if any) has a value, and without one: either the struct has `serde(default)`, or the struct
has no serde default and the field is plain or without a declared default. Missing from the full claim:
`C35_fails_sync`, `C35_fails_required`. -/
theorem C35_missing_partial {c : Ctx} (h : Compiles c) {w : World V} (hw : WorldTyped c w) {d : Doc V}
    {l : List (String × Val V)} (hd : deserialise c w d = .ok l) {f : FieldArgs} (hf : f ∈ c.allFields)
    (hse : (FCtx.mk c f).isSerde = true) (hnd : (FCtx.mk c f).needsDeserialize = true)
    (hl : d.lookup (key f) = none)
    (hval : ∀ sh, f.serde = some sh → sh.hasDefault = true → sh.defaultValue ≠ none)
    (hpath : HasSerdeDefault f.serde → w.isPath f.ident = true → content (w.path f.ident) = none →
      (FCtx.mk c f).isSync = true)
    (hno : ¬ HasSerdeDefault f.serde →
      (∃ sh, c.args.serde = some sh ∧ sh.hasDefault = true ∧ sh.defaultValue = none) ∨
      (¬ HasSerdeDefault c.args.serde ∧ ((FCtx.mk c f).isSync = false ∨ (FCtx.mk c f).defaultValue = none))) :
    ∃ a, l.lookup f.ident = some a ∧ WhenMissing w ⟨c, f⟩ (content a) := by
  have hm : f ∈ shadowFields c := List.mem_filter.mpr ⟨hf, hse⟩
  have hds : deserialised ⟨c, f⟩ = true := by unfold deserialised; rw [hse, hnd]; rfl
  rcases deserialise_spec h hw d with ⟨h1, _⟩ | ⟨l', h1, _, h2⟩
  · rw [hd] at h1; cases h1
  rw [hd] at h1; cases h1
  obtain ⟨a, q1, _, _, q3⟩ := h2 f hf
  obtain ⟨b, r1, r2⟩ := q3 hds
  refine ⟨a, q1, ?_⟩
  rw [readField_missing h hm hds hl] at r1
  unfold missing at r1
  have hrs : ∀ v, received ⟨c, f⟩ (w.env f.ident) (some v) = some v := by intro v; unfold received; split <;> rfl
  by_cases hsd : HasSerdeDefault f.serde
  · obtain ⟨sh, hsh, hhd⟩ := hsd
    cases hdv : sh.defaultValue with
    | none => exact absurd hdv (hval sh hsh hhd)
    | some e =>
      have hfd : fieldDefault w ⟨c, f⟩ = if w.isPath f.ident then some (.ok (w.path f.ident))
          else some (eval (shadowType ⟨c, f⟩) (w.env f.ident) none (serdeDefaultFn ⟨c, f⟩)).1 := by
        simp [fieldDefault, hsh, hhd, hdv]
      cases hp : w.isPath f.ident with
      | true =>
        rw [hp] at hfd
        simp only [if_true] at hfd
        rw [hfd] at r1
        simp only [Option.some_or, DRes.ofOut, DRes.ok.injEq] at r1
        subst r1
        have : content a = content (w.path f.ident) := by
          rw [r2]
          cases hc : content (w.path f.ident) with
          | some v => exact hrs v
          | none =>
            unfold received
            have := hpath ⟨sh, hsh, hhd⟩ hp hc
            simp [this]
        rw [this]
        exact .path hsh hdv hp
      | false =>
        rw [hp] at hfd
        obtain ⟨b', s1, s2, s3⟩ := serdeDefaultFn_eval ⟨c, f⟩ (w.env f.ident)
        rw [s1] at hfd
        simp only [Bool.false_eq_true, if_false] at hfd
        rw [hfd] at r1
        simp only [Option.some_or, DRes.ofOut, DRes.ok.injEq] at r1
        subst r1
        rw [r2, s3, hrs]
        exact .expr hsh hdv hp
  · have hfd := (fieldDefault_none (w := w) (x := ⟨c, f⟩)).mpr hsd
    suffices hh : content a = defaultContent ⟨c, f⟩ (w.env f.ident) by
      rw [hh]; exact .none hsd (holds_default _ _)
    rw [hfd] at r1
    rcases hno hsd with ⟨sh, hsh, hhd, hdv⟩ | ⟨hnc, hpd⟩
    · have hcd : containerDefault w ⟨c, f⟩ =
          some (eval (shadowType ⟨c, f⟩) (w.env f.ident) none (shadowDefault ⟨c, f⟩)).1 := by
        simp [containerDefault, hsh, hhd, hdv, h.shadowDefault sh hsh hhd hdv]
      obtain ⟨b', s1, s2, s3⟩ := shadowDefault_eval ⟨c, f⟩ (w.env f.ident)
      rw [hcd, s1] at r1
      simp only [Option.none_or, DRes.ofOut, DRes.ok.injEq] at r1
      subst r1
      rw [r2, s3]
      unfold received
      cases hdc : defaultContent ⟨c, f⟩ (w.env f.ident) with
      | none => simp
      | some v => simp
    · have hcd := (containerDefault_none (w := w) (x := ⟨c, f⟩)).mpr hnc
      rw [hcd] at r1
      simp only [Option.or_none] at r1
      split at r1
      · rename_i hst
        cases r1
        have hso : serdeOptional ⟨c, f⟩ = true := by
          revert hst; unfold shadowType; cases serdeOptional ⟨c, f⟩ <;> simp
        rw [r2]
        unfold received
        cases hsy : (FCtx.mk c f).isSync with
        | false => simp [content]
        | true =>
          have hdn : (FCtx.mk c f).defaultValue = none := by
            rcases hpd with hpd | hpd
            · rw [hsy] at hpd; cases hpd
            · exact hpd
          unfold serdeOptional at hso
          rw [Bool.or_comm] at hso
          simp [content, defaultContent, hdn, hso]
      · cases r1

/-- When deserialisation reports an error: a deserialised field is given twice; or one neither optional nor lazy is
`null`, or it is missing and there is no serde default, of the field or of the struct, to take. (The declared default is
not looked at.) In all other cases the document is accepted, among them one which repeats the key of a field which is not
deserialised, or a key of no field at all. -/
theorem C35_error_iff {c : Ctx} (h : Compiles c) {w : World V} (hw : WorldTyped c w) (d : Doc V) :
    (deserialise c w d = .error ↔ ∃ f ∈ c.allFields, (FCtx.mk c f).isSerde = true ∧
      (FCtx.mk c f).needsDeserialize = true ∧ (2 ≤ (d.filter fun i => i.1 = key f).length ∨
      (FCtx.mk c f).isOptional = false ∧ (FCtx.mk c f).isLazy = false ∧
      (d.lookup (key f) = some .null ∨
       d.lookup (key f) = none ∧ ¬ HasSerdeDefault f.serde ∧ ¬ HasSerdeDefault c.args.serde))) ∧
    deserialise c w d ≠ .ill := by
  have hrp : ∀ k, repeated d k = true ↔ 2 ≤ (d.filter fun i => i.1 = k).length := by
    intro k
    unfold repeated
    rw [List.countP_eq_length_filter, decide_eq_true_iff]
    exact Iff.rfl
  have hso : ∀ f, serdeOptional ⟨c, f⟩ = false ↔ (FCtx.mk c f).isOptional = false ∧ (FCtx.mk c f).isLazy = false := by
    intro f; unfold serdeOptional; simp
  have hds : ∀ f, deserialised ⟨c, f⟩ = true ↔
      (FCtx.mk c f).isSerde = true ∧ (FCtx.mk c f).needsDeserialize = true := by
    intro f; unfold deserialised; simp
  rcases deserialise_spec h hw d with ⟨h1, f, hf, he⟩ | ⟨l, h1, h2, _⟩
  · refine ⟨⟨fun _ => ?_, fun _ => h1⟩, by rw [h1]; simp⟩
    rcases readField_spec h hw d hf with ⟨b, hb, _⟩ | ⟨_, q1, q2 | ⟨q2, q3⟩⟩
    · rw [he] at hb; cases hb
    · obtain ⟨r1, r2⟩ := (hds f).mp q1
      exact ⟨f, (mem_shadow hf).1, r1, r2, .inl ((hrp _).mp q2)⟩
    · obtain ⟨r1, r2⟩ := (hds f).mp q1
      obtain ⟨s1, s2⟩ := (hso f).mp q2
      refine ⟨f, (mem_shadow hf).1, r1, r2, .inr ⟨s1, s2, ?_⟩⟩
      rw [fieldDefault_none, containerDefault_none] at q3
      exact q3
  · refine ⟨⟨fun h' => (by rw [h1] at h'; cases h'), ?_⟩, by rw [h1]; simp⟩
    rintro ⟨f, hf, r1, r2, hall⟩
    exfalso
    have hm : f ∈ shadowFields c := List.mem_filter.mpr ⟨hf, r1⟩
    obtain ⟨b, hb, _⟩ := h2 f hm
    have hns : ¬ (skipAttr ⟨c, f⟩ = .de ∨ skipAttr ⟨c, f⟩ = .all) := by
      unfold skipAttr
      rw [h.serde, r1, h.into f hm, r2]
      simp
    cases hrep : repeated d (key f) with
    | true =>
      unfold readField at hb
      rw [if_neg hns, if_pos hrep] at hb
      cases hb
    | false =>
    rcases hall with hall | ⟨s1, s2, hc⟩
    · rw [(hrp _).mpr hall] at hrep; cases hrep
    have hst : shadowType ⟨c, f⟩ = .t := by unfold shadowType; rw [(hso f).mpr ⟨s1, s2⟩]; rfl
    rcases hc with hc | ⟨hc, h3, h4⟩
    · unfold readField at hb
      rw [if_neg hns, hrep, if_neg (by simp)] at hb
      simp [hc, hst, readItem] at hb
    · rw [readField_missing h hm ((hds f).mpr ⟨r1, r2⟩) hc] at hb
      have e1 := (fieldDefault_none (w := w) (x := ⟨c, f⟩)).mpr h3
      have e2 := (containerDefault_none (w := w) (x := ⟨c, f⟩)).mpr h4
      simp [missing, e1, e2, hst] at hb

/-! ### Examples and counterexamples -/

/-- `#[fxstruct(serde)] struct S { #[fieldx(lazy)] a, #[fieldx(lazy, rename("bee"))] b, #[fieldx(optional, default(7))] c,
#[fieldx(default(3), serde(deserialize(off)))] d, #[fieldx(serde(default(9)))] e }` -/
def exCtx : Ctx :=
  { args := { serde := some {} }
    fields := [{ ident := "a", lazy := some {} },
               { ident := "b", lazy := some {}, baseName := some "bee" },
               { ident := "c", optional := some true, default := some { value := some "7" } },
               { ident := "d", default := some { value := some "3" }, serde := some { deserialize := some false } },
               { ident := "e", serde := some { default := some { value := some "9" } } }] }

/-- The default expressions. -/
def exEnv (n : String) : Env Nat :=
  { dv := if n = "c" then 7 else 3, sdv := 9, dflt := 0, shadow := .none, me := .none }

/-- The builder of `a` reads `b` (and so initialises it); that of `b` gives 5; nothing else has one. -/
def exBld (n : String) (o : Obj Nat) : BRes Nat × Obj Nat :=
  if n = "a" then
    match holds o "b" with
    | some v => (.ok (v + 1), o)
    | none => (.ok 6, o.put "b" (.once (.some (.val 5))))
  else if n = "b" then (.ok 5, o)
  else (.err, o)

def exWorld : World Nat :=
  { env := exEnv, bld := exBld, isPath := fun _ => false, path := fun _ => .val 0, whole := fun _ => .val 0 }

/-- The same with values of the right type where they are never used. -/
def exTyped (c : Ctx) (w : World Nat) : World Nat :=
  let dummy (n : String) : Val Nat :=
    match c.allFields.find? (fun f => f.ident == n) with
    | some f => if serdeOptional ⟨c, f⟩ then .none else .val 0
    | none => .val 0
  { w with path := dummy, whole := dummy }

theorem find_self (L : List FieldArgs) (hn : (L.map (·.ident)).Nodup) {f : FieldArgs} (hf : f ∈ L) :
    L.find? (fun g => g.ident == f.ident) = some f := by
  induction L with
  | nil => cases hf
  | cons x L ih =>
    rw [List.map_cons, List.nodup_cons] at hn
    cases hf with
    | head => simp
    | tail _ hf =>
      have : (x.ident == f.ident) = false := by
        rw [beq_eq_false_iff_ne]
        intro he; exact hn.1 (by rw [he]; exact List.mem_map_of_mem hf)
      simp [List.find?, this, ih hn.2 hf]

theorem exTyped_typed {c : Ctx} (h : Compiles c) (w : World Nat) : WorldTyped c (exTyped c w) := by
  have key : ∀ f ∈ shadowFields c, ValTy (match c.allFields.find? (fun g => g.ident == f.ident) with
    | some f => if serdeOptional ⟨c, f⟩ then Val.none else .val 0
    | none => .val 0) (shadowType ⟨c, f⟩) := by
    intro f hf
    rw [find_self _ h.distinct (mem_shadow hf).1]
    unfold shadowType
    cases hs : serdeOptional ⟨c, f⟩ <;> simp [hs]
    · exact .val 0
    · exact .none
  exact ⟨key, key⟩

def exObj : Obj Nat := fun n =>
  if n = "a" ∨ n = "b" then some (.once .none)
  else if n = "c" then some (.some (.val 1))
  else if n = "d" then some (.val 2)
  else if n = "e" then some (.val 4)
  else none

theorem exCompiles : Compiles exCtx := compiles_of (by decide +kernel)

theorem exAccepted : acceptStructFull exCtx.args = true ∧ ∀ f ∈ exCtx.fields, acceptFieldFull f = true := by
  decide +kernel

theorem exObj_typed : Typed exCtx exObj := by
  intro f hf
  simp only [exCtx, Ctx.allFields, List.nil_append, List.mem_cons, List.not_mem_nil, or_false] at hf
  rcases hf with rfl | rfl | rfl | rfl | rfl
  · exact ⟨.once .t, .once .none, by decide +kernel, rfl, .once .none⟩
  · exact ⟨.once .t, .once .none, by decide +kernel, rfl, .once .none⟩
  · exact ⟨.opt .t, .some (.val 1), by decide +kernel, rfl, .some (.val 1)⟩
  · exact ⟨.t, .val 2, by decide +kernel, rfl, .val 2⟩
  · exact ⟨.t, .val 4, by decide +kernel, rfl, .val 4⟩

theorem exSound : Sound exCtx exBld := by
  intro n o ho
  unfold exBld
  split
  · split
    · exact ho
    · exact typed_put (f := { ident := "b", lazy := some {}, baseName := some "bee" }) exCompiles.distinct ho
        (by simp [exCtx, Ctx.allFields]) (τ := .once .t) (by decide +kernel) (.once (.some (.val 5)))
  · split
    · exact ho
    · exact ho

theorem exKeeps : Keeps exBld := by
  intro n o m v hv
  unfold exBld
  split
  · split
    · exact hv
    · rename_i hb
      have : m ≠ "b" := by rintro rfl; rw [hv] at hb; cases hb
      simp only [holds, Obj.put, this, if_false]
      exact hv
  · split <;> exact hv

/-- The object serialises to this document, in which both lazy fields have values; the builder of `a` ran first and
initialised `b`. -/
theorem exSer : serialise exCtx (exTyped exCtx exWorld) exObj =
    .ok [("a", .val 6), ("bee", .val 5), ("c", .val 1), ("d", .val 2), ("e", .val 4)] := by decide +kernel

/-- C32, C33, C34 apply to this object. -/
example : LazySerialised exCtx { ident := "a", lazy := some {} } := by
  refine ⟨by simp [exCtx, Ctx.allFields], by decide +kernel, by decide +kernel, ?_⟩
  rintro ⟨h, _⟩; exact absurd h (by decide +kernel)

example := C32_round_trip_partial exCompiles (exTyped_typed exCompiles exWorld) exSound exObj_typed exSer
example := C33_serialise_partial exCompiles exWorld exSound exObj_typed
example := fun f hf => C33_lazy_partial (f := f) exCompiles (exTyped exCtx exWorld) exSound exKeeps exObj_typed exSer hf

/-- It is read back with `d` at its default. -/
example : deserialise exCtx (exTyped exCtx exWorld)
      [("a", .val 6), ("bee", .val 5), ("c", .val 1), ("d", .val 2), ("e", .val 4)] =
    .ok [("a", .once (.some (.val 6))), ("b", .once (.some (.val 5))), ("c", .some (.val 1)), ("d", .val 3),
      ("e", .val 4)] := by decide +kernel

/-- Everything missing: `c` gets its declared default, `e` its serde default. -/
example : deserialise exCtx (exTyped exCtx exWorld) [] =
    .ok [("a", .once .none), ("b", .once .none), ("c", .some (.val 7)), ("d", .val 3), ("e", .val 9)] := by
  decide +kernel

/-- `d`, which is not deserialised, and an unknown key may be given twice, `c` may not. -/
example :
    deserialise exCtx (exTyped exCtx exWorld) [("d", .val 1), ("z", .val 1), ("d", .val 2), ("z", .null)] =
      .ok [("a", .once .none), ("b", .once .none), ("c", .some (.val 7)), ("d", .val 3), ("e", .val 9)] ∧
    deserialise exCtx (exTyped exCtx exWorld) [("c", .val 1), ("d", .val 1), ("c", .val 1)] = .error := by
  decide +kernel

/-- The hypotheses of `C35_missing_partial` for `c`. -/
example := C35_missing_partial (V := Nat) exCompiles (exTyped_typed exCompiles exWorld) (d := [])
  (l := [("a", .once .none), ("b", .once .none), ("c", .some (.val 7)), ("d", .val 3), ("e", .val 9)])
  (by decide +kernel)
  (f := { ident := "c", optional := some true, default := some { value := some "7" } })
  (by simp [exCtx, Ctx.allFields]) (by decide +kernel) (by decide +kernel) rfl (by simp) (by rintro ⟨_, h, _⟩; cases h)
  (fun _ => .inr ⟨by rintro ⟨sh, h, h'⟩; cases h; exact absurd h' (by decide), .inl (by decide +kernel)⟩)

/-- An empty optional field of a plain struct with a declared default is written as `null` and comes back with the
default: the round trip does not keep it. -/
theorem C32_fails : ∃ (c : Ctx) (w : World Nat) (o : Obj Nat) (d : Doc Nat) (l : List (String × Val Nat))
    (f : FieldArgs), acceptStructFull c.args = true ∧ (∀ f ∈ c.fields, acceptFieldFull f = true) ∧ Compiles c ∧
    WorldTyped c w ∧ Sound c w.bld ∧ Typed c o ∧ serialise c w o = .ok d ∧ deserialise c w d = .ok l ∧
    f ∈ c.allFields ∧ (FCtx.mk c f).isSerde = true ∧ (FCtx.mk c f).needsSerialize = true ∧
    (FCtx.mk c f).needsDeserialize = true ∧ holds o f.ident = none ∧ (l.lookup f.ident).bind content = some 7 := by
  refine ⟨exCtx, exTyped exCtx exWorld, fun n => if n = "c" then some .none else exObj n,
    [("a", .val 6), ("bee", .val 5), ("c", .null), ("d", .val 2), ("e", .val 4)],
    [("a", .once (.some (.val 6))), ("b", .once (.some (.val 5))), ("c", .some (.val 7)), ("d", .val 3), ("e", .val 4)],
    { ident := "c", optional := some true, default := some { value := some "7" } },
    exAccepted.1, exAccepted.2, exCompiles, exTyped_typed exCompiles exWorld, exSound, ?_, by decide +kernel,
    by decide +kernel, by simp [exCtx, Ctx.allFields], by decide +kernel, by decide +kernel, by decide +kernel, rfl, rfl⟩
  intro f hf
  by_cases h : f.ident = "c"
  · simp only [exCtx, Ctx.allFields, List.nil_append, List.mem_cons, List.not_mem_nil, or_false] at hf
    rcases hf with rfl | rfl | rfl | rfl | rfl
    · exact absurd h (by decide)
    · exact absurd h (by decide)
    · exact ⟨.opt .t, .none, by decide +kernel, rfl, .none⟩
    · exact absurd h (by decide)
    · exact absurd h (by decide)
  · obtain ⟨τ, a, h1, h2, h3⟩ := exObj_typed f hf
    exact ⟨τ, a, h1, by simp [h, h2], h3⟩

/-- `C32_serialize_off_ill` applies: `serde(serialize(off))` on a field. -/
example : (FCtx.mk { exCtx with fields := [{ ident := "a", serde := some { serialize := some false } }] }
      { ident := "a", serde := some { serialize := some false } }).isSerde = true ∧
    (FCtx.mk { exCtx with fields := [{ ident := "a", serde := some { serialize := some false } }] }
      { ident := "a", serde := some { serialize := some false } }).needsSerialize = false := by decide +kernel

/-- `#[fxstruct(sync, serde)] struct S { #[fieldx(lazy)] a }` and the same for `async`. -/
def oneCtx (f : FieldArgs) (args : StructArgs) : Ctx := { args := { args with serde := some {} }, fields := [f] }

def oneWorld (b : BRes Nat) : World Nat :=
  { env := exEnv, bld := fun _ o => (b, o), isPath := fun _ => false, path := fun _ => .val 0, whole := fun _ => .val 0 }

/-- In an async struct the lazy field is not initialised: it is written as `null` although its builder would give a
value. -/
theorem C33_async_fails : ∃ (c : Ctx) (w : World Nat) (o : Obj Nat) (d : Doc Nat) (f : FieldArgs),
    acceptStructFull c.args = true ∧ (∀ f ∈ c.fields, acceptFieldFull f = true) ∧ Compiles c ∧ Sound c w.bld ∧
    Keeps w.bld ∧ Typed c o ∧ f ∈ c.allFields ∧ (FCtx.mk c f).isSerde = true ∧ (FCtx.mk c f).isLazy = true ∧
    (∀ o, (w.bld f.ident o).1 = .ok 5) ∧ serialise c w o = .ok d ∧ d.lookup (key f) = some .null := by
  refine ⟨oneCtx { ident := "a", lazy := some {} } { modeAsync := some true }, oneWorld (.ok 5),
    fun n => if n = "a" then some (.proxy true .none) else none, [("a", .null)], { ident := "a", lazy := some {} },
    by decide +kernel, by decide +kernel, compiles_of (by decide +kernel), fun _ _ h => h, fun _ _ _ _ h => h, ?_,
    by simp [oneCtx, Ctx.allFields], by decide +kernel, by decide +kernel, fun _ => rfl, by decide +kernel, rfl⟩
  intro f hf
  simp only [oneCtx, Ctx.allFields, List.nil_append, List.mem_singleton] at hf
  subst hf
  exact ⟨.proxy true false, .proxy true .none, by decide +kernel, rfl, .proxy .none⟩

/-- A failing builder: serialisation succeeds, the field is `null`, the failure is lost; in a plain and in a sync
struct. -/
theorem C34_fails : ∀ sync : Bool, ∃ (c : Ctx) (w : World Nat) (o : Obj Nat) (d : Doc Nat) (f : FieldArgs),
    acceptStructFull c.args = true ∧ (∀ f ∈ c.fields, acceptFieldFull f = true) ∧ Compiles c ∧ Sound c w.bld ∧
    Keeps w.bld ∧ Typed c o ∧ LazySerialised c f ∧ (FCtx.mk c f).isFallible = true ∧ (FCtx.mk c f).isSync = sync ∧
    (∀ o, (w.bld f.ident o).1 = .err) ∧ serialise c w o = .ok d ∧ d.lookup (key f) = some .null := by
  intro sync
  cases sync with
  | false =>
    refine ⟨oneCtx { ident := "a", lazy := some {}, fallible := some { error := some "E" } } {}, oneWorld .err,
      fun n => if n = "a" then some (.once .none) else none, [("a", .null)],
      { ident := "a", lazy := some {}, fallible := some { error := some "E" } },
      by decide +kernel, by decide +kernel, compiles_of (by decide +kernel), fun _ _ h => h, fun _ _ _ _ h => h, ?_,
      ⟨by simp [oneCtx, Ctx.allFields], by decide +kernel, by decide +kernel, by decide +kernel⟩, by decide +kernel,
      by decide +kernel, fun _ => rfl, by decide +kernel, rfl⟩
    intro f hf
    simp only [oneCtx, Ctx.allFields, List.nil_append, List.mem_singleton] at hf
    subst hf
    exact ⟨.once .t, .once .none, by decide +kernel, rfl, .once .none⟩
  | true =>
    refine ⟨oneCtx { ident := "a", lazy := some {}, fallible := some { error := some "E" } } { modeSync := some true },
      oneWorld .err, fun n => if n = "a" then some (.proxy false .none) else none, [("a", .null)],
      { ident := "a", lazy := some {}, fallible := some { error := some "E" } },
      by decide +kernel, by decide +kernel, compiles_of (by decide +kernel), fun _ _ h => h, fun _ _ _ _ h => h, ?_,
      ⟨by simp [oneCtx, Ctx.allFields], by decide +kernel, by decide +kernel, by decide +kernel⟩, by decide +kernel,
      by decide +kernel, fun _ => rfl, by decide +kernel, rfl⟩
    intro f hf
    simp only [oneCtx, Ctx.allFields, List.nil_append, List.mem_singleton] at hf
    subst hf
    exact ⟨.proxy false true, .proxy false .none, by decide +kernel, rfl, .proxy .none⟩

/-- The hypotheses of `C34_no_failure_partial`. -/
example : ∃ v, ([("a", .val 5)] : Doc Nat).lookup "a" = some (.val v) := by
  have := C34_no_failure_partial (V := Nat) (c := oneCtx { ident := "a", lazy := some {} } { modeSync := some true })
    (compiles_of (by decide +kernel)) (oneWorld (.ok 5)) (fun _ _ h => h) (fun _ _ _ _ h => h)
    (by intro n o h; cases h) (o := fun n => if n = "a" then some (.proxy false .none) else none)
    (by
      intro f hf
      simp only [oneCtx, Ctx.allFields, List.nil_append, List.mem_singleton] at hf
      subst hf
      exact ⟨.proxy false false, .proxy false .none, by decide +kernel, rfl, .proxy .none⟩)
    (d := [("a", .val 5)]) (by decide +kernel) (f := { ident := "a", lazy := some {} })
    ⟨by simp [oneCtx, Ctx.allFields], by decide +kernel, by decide +kernel, by decide +kernel⟩
  exact this

/-- A lazy field with a declared default, missing from the document: a plain struct gives it the default, a sync struct
leaves it empty. -/
theorem C35_fails_sync : ∃ (f : FieldArgs) (w : Bool → World Nat) (c : Bool → Ctx),
    (∀ b, acceptStructFull (c b).args = true ∧ Compiles (c b) ∧ WorldTyped (c b) (w b) ∧ f ∈ (c b).allFields ∧
      (FCtx.mk (c b) f).isSync = b ∧ deserialised ⟨c b, f⟩ = true) ∧ acceptFieldFull f = true ∧
    (∃ l, deserialise (c false) (w false) [] = .ok l ∧ (l.lookup f.ident).bind content = some 3) ∧
    (∃ l, deserialise (c true) (w true) [] = .ok l ∧ (l.lookup f.ident).bind content = none) := by
  let f : FieldArgs := { ident := "a", lazy := some {}, default := some { value := some "3" } }
  let c : Bool → Ctx := fun b => oneCtx f { modeSync := if b then some true else none }
  have hc : ∀ b, Compiles (c b) := by intro b; cases b <;> exact compiles_of (by decide +kernel)
  refine ⟨f, fun b => exTyped (c b) (oneWorld (.ok 5)), c, ?_, by decide +kernel,
    ⟨[("a", .once (.some (.val 3)))], by decide +kernel, rfl⟩, ⟨[("a", .proxy false .none)], by decide +kernel, rfl⟩⟩
  intro b
  refine ⟨by cases b <;> decide +kernel, hc b, exTyped_typed (hc b) _, by cases b <;> simp [c, oneCtx, Ctx.allFields],
    by cases b <;> decide +kernel, by cases b <;> decide +kernel⟩

/-- A field with a declared default which is neither optional nor lazy, missing from the document: an error, not the
default. -/
theorem C35_fails_required : ∃ (c : Ctx) (w : World Nat) (f : FieldArgs), acceptStructFull c.args = true ∧
    acceptFieldFull f = true ∧ Compiles c ∧ WorldTyped c w ∧ c.allFields = [f] ∧ f.default = some { value := some "3" } ∧
    deserialise c w [] = .error := by
  let f : FieldArgs := { ident := "a", default := some { value := some "3" } }
  have hc : Compiles (oneCtx f {}) := compiles_of (by decide +kernel)
  exact ⟨oneCtx f {}, exTyped (oneCtx f {}) (oneWorld (.ok 5)), f, by decide +kernel, by decide +kernel, hc,
    exTyped_typed hc _, rfl, rfl, by decide +kernel⟩

/-! ### C62 names of fields in documents -/

theorem docName_key {f : FieldArgs} (hs : NoSerdeName f) {n : String} : DocName f n ↔ n = key f := by
  unfold key
  constructor
  · intro h
    cases h with
    | serde h1 h2 => rw [hs _ h1] at h2; cases h2
    | rename _ h2 => rw [h2]; rfl
    | own _ h2 => rw [h2]; rfl
  · rintro rfl
    cases hb : f.baseName with
    | some m => exact .rename hs hb
    | none => exact .own hs hb

/-- The document written for an object has the content of each serialised field under the documented name of the field,
and nothing under any other key. Missing from the full claim: fields whose `serde` argument gives a name
(`C62_serde_name_ignored`). -/
theorem C62_written_partial {c : Ctx} (h : Compiles c) (w : World V) (hb : Sound c w.bld) {o : Obj V} (ho : Typed c o)
    {d : Doc V} (hd : serialise c w o = .ok d) (hs : ∀ f ∈ c.allFields, NoSerdeName f) :
    ∃ o1, ForceAll (names c) w.bld (lazies c) o o1 ∧
      (∀ f ∈ c.allFields, (FCtx.mk c f).isSerde = true → ∀ n, DocName f n →
        d.lookup n = some (itemOf (holds o1 f.ident))) ∧
      ∀ n it, (n, it) ∈ d → ∃ f ∈ c.allFields, (FCtx.mk c f).isSerde = true ∧ DocName f n := by
  rcases C33_serialise_partial h w hb ho with ⟨h1, _⟩ | ⟨o1, h1, h2, h3⟩
  · rw [hd] at h1; cases h1
  rw [hd] at h3; cases h3
  refine ⟨o1, h1, ?_, ?_⟩
  · intro f hf hse n hn
    rw [(docName_key (hs f hf)).1 hn]
    exact lookup_map (shadowFields c) key (fun f => itemOf (holds o1 f.ident)) h.keys (List.mem_filter.mpr ⟨hf, hse⟩)
  · intro n it hm
    obtain ⟨f, hf, he⟩ := List.mem_map.1 hm
    obtain ⟨hfa, hse, _⟩ := mem_shadow hf
    simp only [Prod.mk.injEq] at he
    exact ⟨f, hfa, hse, (docName_key (hs f hfa)).2 he.1.symm⟩

/-- What a document has under the documented name of a deserialised field gets into that field. -/
theorem C62_read_partial {c : Ctx} (h : Compiles c) {w : World V} (hw : WorldTyped c w) {d : Doc V}
    {l : List (String × Val V)} (hd : deserialise c w d = .ok l) {f : FieldArgs} (hf : f ∈ c.allFields)
    (hse : (FCtx.mk c f).isSerde = true) (hde : (FCtx.mk c f).needsDeserialize = true) (hs : NoSerdeName f) {n : String}
    (hn : DocName f n) {v : V} (hv : d.lookup n = some (.val v)) : ∃ a, l.lookup f.ident = some a ∧ content a = some v := by
  have hm : f ∈ shadowFields c := List.mem_filter.mpr ⟨hf, hse⟩
  rw [(docName_key hs).1 hn] at hv
  rcases deserialise_spec h hw d with ⟨he, _⟩ | ⟨l', h4, _, h6⟩
  · rw [hd] at he; cases he
  rw [hd] at h4; cases h4
  obtain ⟨a, q1, _, _, q3⟩ := h6 f hf
  obtain ⟨b, r1, r2⟩ := q3 (by unfold deserialised; rw [hse, hde]; rfl)
  refine ⟨a, q1, ?_⟩
  have hns : ¬ (skipAttr ⟨c, f⟩ = .de ∨ skipAttr ⟨c, f⟩ = .all) := by
    unfold skipAttr
    rw [h.serde, hse, h.into f hm, hde]
    simp
  unfold readField at r1
  rw [if_neg hns] at r1
  split at r1
  · cases r1
  simp only [hv] at r1
  have hb : content b = some v := by
    rcases shadowType_cases ⟨c, f⟩ with ht | ht <;> rw [ht] at r1 <;> simp [readItem] at r1 <;> subst r1 <;> rfl
  rw [r2, hb]
  unfold received
  split <;> rfl

/-- A field with `serde("b")` is written as `a`, its own name, and not read from `b`. -/
theorem C62_serde_name_ignored : ∃ (c : Ctx) (f : FieldArgs) (w : World Nat) (o : Obj Nat),
    acceptStructFull c.args = true ∧ acceptFieldFull f = true ∧ Compiles c ∧ WorldTyped c w ∧ Typed c o ∧
    c.allFields = [f] ∧ DocName f "b" ∧ serialise c w o = .ok [("a", .val 7)] ∧
    deserialise c w [("b", .val 7)] = .error := by
  let f : FieldArgs := { ident := "a", serde := some { shadowName := some "b" } }
  have hc : Compiles (oneCtx f {}) := compiles_of (by decide +kernel)
  refine ⟨oneCtx f {}, f, exTyped (oneCtx f {}) (oneWorld (.ok 5)), fun n => if n = "a" then some (.val 7) else none,
    by decide +kernel, by decide +kernel, hc, exTyped_typed hc _, ?_, rfl, .serde rfl rfl, by decide +kernel,
    by decide +kernel⟩
  intro g hg
  simp only [oneCtx, Ctx.allFields, List.nil_append, List.mem_singleton] at hg
  subst hg
  exact ⟨.t, .val 7, by decide +kernel, rfl, .val 7⟩

/-- The hypotheses of the two theorems, for a renamed field. -/
example : ∃ (c : Ctx) (f : FieldArgs) (w : World Nat) (o : Obj Nat) (d : Doc Nat) (l : List (String × Val Nat)),
    Compiles c ∧ WorldTyped c w ∧ Sound c w.bld ∧ Typed c o ∧ c.allFields = [f] ∧ NoSerdeName f ∧ DocName f "b" ∧
    (FCtx.mk c f).isSerde = true ∧ (FCtx.mk c f).needsDeserialize = true ∧ serialise c w o = .ok d ∧
    d.lookup "b" = some (.val 7) ∧ deserialise c w d = .ok l ∧ (l.lookup "a").bind content = some 7 := by
  let f : FieldArgs := { ident := "a", baseName := some "b" }
  have hc : Compiles (oneCtx f {}) := compiles_of (by decide +kernel)
  refine ⟨oneCtx f {}, f, exTyped (oneCtx f {}) (oneWorld (.ok 5)), fun n => if n = "a" then some (.val 7) else none,
    [("b", .val 7)], [("a", .val 7)], hc, exTyped_typed hc _, fun _ _ h => h, ?_, rfl, (by intro s h; cases h),
    .rename (by intro s h; cases h) rfl, by decide +kernel, by decide +kernel, by decide +kernel, rfl, by decide +kernel, rfl⟩
  intro g hg
  simp only [oneCtx, Ctx.allFields, List.nil_append, List.mem_singleton] at hg
  subst hg
  exact ⟨.t, .val 7, by decide +kernel, rfl, .val 7⟩

end Verif.Props.Serde
