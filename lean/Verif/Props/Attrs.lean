import Verif.Spec.Placement
/-!
C79, C80: where attributes are written.
-/

namespace Verif.Props.Attrs
open Verif.Model.Args Verif.Model.Attrs Verif.Spec.Prec Verif.Spec.Placement

/-! ### Helper lemmas -/

theorem fromArgs_append (l m : List Mark) : fromArgs (l ++ m) = fromArgs l ++ fromArgs m := by simp [fromArgs]
theorem fromUser_append (l m : List Mark) : fromUser (l ++ m) = fromUser l ++ fromUser m := by simp [fromUser]

theorem fromArgs_ofArg (o : Option (List String)) : fromArgs (ofArg o) = o.getD [] := by
  unfold fromArgs ofArg
  induction o.getD [] with
  | nil => rfl
  | cons x xs ih => simpa using ih

theorem fromUser_ofArg (o : Option (List String)) : fromUser (ofArg o) = [] := by
  unfold fromUser ofArg
  induction o.getD [] with
  | nil => rfl
  | cons x xs ih => simp

theorem fromArgs_own (l : List Attr) : fromArgs (l.map .own) = [] := by
  unfold fromArgs
  induction l with
  | nil => rfl
  | cons x xs ih => simp

theorem fromUser_own (l : List Attr) : fromUser (l.map .own) = l := by
  unfold fromUser
  induction l with
  | nil => rfl
  | cons x xs ih => simpa using ih

theorem insert_derive (a : Mark) (ha : isDerive a = true) (l : List Mark) : insertBy markCmp a l = a :: l := by
  cases l with
  | nil => rfl
  | cons b l => cases hb : isDerive b <;> simp [insertBy, markCmp, ha, hb]

theorem insert_other (a : Mark) (ha : isDerive a = false) (l m : List Mark) (hl : ∀ x ∈ l, isDerive x = true)
    (hm : ∀ x ∈ m, isDerive x = false) : insertBy markCmp a (l ++ m) = l ++ a :: m := by
  induction l with
  | nil =>
    cases m with
    | nil => rfl
    | cons b m => simp [insertBy, markCmp, ha, hm b (by simp)]
  | cons b l ih =>
    have hb : markCmp a b = .gt := by simp [markCmp, ha, hl b (by simp)]
    simp only [List.cons_append, insertBy, hb, if_true, List.cons.injEq, true_and]
    exact ih fun x hx => hl x (by simp [hx])

/-- The sort puts `derive` first and keeps the order otherwise. -/
theorem sorted (l : List Mark) : sortBy markCmp l = l.filter isDerive ++ l.filter (fun a => !isDerive a) := by
  induction l with
  | nil => rfl
  | cons a l ih =>
    show insertBy markCmp a (sortBy markCmp l) = _
    rw [ih]
    cases ha : isDerive a with
    | true => rw [insert_derive a ha]; simp [ha]
    | false =>
      rw [insert_other a ha _ _ (by simp) (by simp)]
      simp [ha]

theorem own_filter (p : Mark → Bool) (l : List Attr) : fromUser ((l.map .own).filter p) = l.filter fun a => p (.own a) := by
  rw [List.filter_map, fromUser_own]
  rfl

theorem made_shadow (s : StructArgs) : fromArgs (madeShadow s) = [] ∧ fromUser (madeShadow s) = [] := by
  unfold madeShadow
  constructor <;> split <;> split <;> simp [fromArgs, fromUser]

theorem made_filter (p : Mark → Bool) (s : StructArgs) :
    fromArgs ((madeStruct s).filter p) = [] ∧ fromUser ((madeStruct s).filter p) = [] := by
  have h : ∀ m ∈ madeStruct s, ∃ t, m = .made t := by
    unfold madeStruct
    intro m hm
    split at hm
    · simp only at hm
      split at hm
      · simp at hm; rcases hm with rfl | rfl <;> exact ⟨_, rfl⟩
      · simp at hm
    · simp at hm
  constructor
  · unfold fromArgs
    rw [List.filterMap_eq_nil_iff]
    intro m hm
    obtain ⟨t, rfl⟩ := h m (List.mem_filter.mp hm).1
    rfl
  · unfold fromUser
    rw [List.filterMap_eq_nil_iff]
    intro m hm
    obtain ⟨t, rfl⟩ := h m (List.mem_filter.mp hm).1
    rfl

theorem args_own_filter (p : Mark → Bool) (l : List Attr) : fromArgs ((l.map .own).filter p) = [] := by
  rw [List.filter_map, fromArgs_own]

theorem decides1 {α : Type} (a : Option α) (d : α) : Decides [a] d (a.getD d) := by cases a <;> repeat constructor
theorem decides2' {α : Type} (a b : Option α) (d : α) : Decides [a, b] d ((a.or b).getD d) := by
  cases a <;> cases b <;> repeat constructor
theorem decides3 {α : Type} (a b c : Option α) (d : α) : Decides [a, b, c] d (((a.or b).or c).getD d) := by
  cases a <;> cases b <;> cases c <;> repeat constructor

theorem decides_fun {α : Type} {l : List (Option α)} {d r r' : α} (h : Decides l d r) (h' : Decides l d r') : r = r' := by
  induction h with
  | dflt => cases h'; rfl
  | here => cases h'; rfl
  | next _ ih => cases h' with | next h' => exact ih h'

theorem args_shadowField (c : Ctx) (sattrs : List Attr) (fattrs : String → List Attr) (f : FieldArgs) :
    fromArgs (place c sattrs fattrs (.shadowField f)) = ((f.serde.bind (·.attributes)).or c.args.attributes).getD [] := by
  simp only [place, fromArgs_append, fromArgs_ofArg, fromArgs_own, shadowUser]
  split <;> simp [fromArgs]

theorem args_shadowStruct (c : Ctx) (sattrs : List Attr) (fattrs : String → List Attr) :
    fromArgs (place c sattrs fattrs .shadowStruct) = (c.args.serde.bind (·.attributes)).getD [] := by
  simp only [place, fromArgs_append, fromArgs_ofArg, (made_shadow _).1, List.nil_append]

theorem user_shadowField (c : Ctx) (sattrs : List Attr) (fattrs : String → List Attr) (f : FieldArgs) :
    fromUser (place c sattrs fattrs (.shadowField f)) = shadowOwn ⟨c, f⟩ (fattrs f.ident) := by
  simp only [place, fromUser_append, fromUser_ofArg, fromUser_own]
  split <;> simp [fromUser]

/-! ### C79 -/

theorem args_method (c : Ctx) (sattrs : List Attr) (fattrs : String → List Attr) (f : FieldArgs) (k : Kind) :
    fromArgs (place c sattrs fattrs (.method f k)) = (Verif.Model.Emit.emittedAttrs ⟨c, f⟩ k).getD [] :=
  fromArgs_ofArg _

theorem attributesFn_getD (c : Ctx) (f : FieldArgs) (k : Kind) :
    Decides (sources c.args (.method f k)) [] ((Verif.Model.Emit.attributesFn ⟨c, f⟩ k).getD []) := by
  unfold Verif.Model.Emit.attributesFn
  rw [Verif.Spec.ArgRead.getHelper_field, Verif.Spec.ArgRead.getHelper_struct]
  exact decides3 _ _ _ _

/-- Attributes given as arguments are where the documentation puts them, on every item but those of the serde shadow and the
mutable accessors of sync and async fields. -/
theorem C79_args (c : Ctx) (sattrs : List Attr) (fattrs : String → List Attr) (i : Item) (h : i ≠ .shadowStruct)
    (h' : ∀ f, i ≠ .shadowField f) (hm : ∀ f, i = .method f .accessorMut → genMode ⟨c, f⟩ = .plain) : ArgsRight c.args i (place c sattrs fattrs i) := by
  unfold ArgsRight
  cases i with
  | struct =>
    have : fromArgs (place c sattrs fattrs .struct) = [] := by
      show fromArgs (sortBy markCmp _) = _
      rw [sorted, List.filter_append, List.filter_append, fromArgs_append, fromArgs_append, fromArgs_append,
        (made_filter _ _).1, (made_filter _ _).1, args_own_filter, args_own_filter]
      rfl
    rw [this]; exact .dflt _
  | structField f => rw [show fromArgs (place c sattrs fattrs (.structField f)) = [] from fromArgs_own _]; exact .dflt _
  | structImpl => simp only [place, fromArgs_ofArg]; exact decides1 _ _
  | method f k =>
    have : Verif.Model.Emit.emittedAttrs ⟨c, f⟩ k = Verif.Model.Emit.attributesFn ⟨c, f⟩ k := by
      cases k <;> try rfl
      have hs : FCtx.isSync ⟨c, f⟩ = false := by
        have := hm f rfl
        unfold genMode at this
        cases hs : FCtx.isSync ⟨c, f⟩ with
        | false => rfl
        | true => rw [hs] at this; revert this; cases FCtx.isAsync ⟨c, f⟩ <;> simp
      simp [Verif.Model.Emit.emittedAttrs, hs]
    rw [args_method, this]; exact attributesFn_getD c f k
  | builderStruct => simp only [place, fromArgs_ofArg]; exact decides2' _ _ _
  | builderImpl => simp only [place, fromArgs_ofArg]; exact decides2' _ _ _
  | builderField f =>
    have : fromArgs (place c sattrs fattrs (.builderField f)) = (f.builder.bind (·.attributes)).getD [] := by
      simp only [place, fromArgs_append, fromArgs_ofArg]
      split <;> simp [fromArgs]
    rw [this]; exact decides1 _ _
  | builderSetter f =>
    have : fromArgs (place c sattrs fattrs (.builderSetter f)) =
        (((f.builder.bind (·.attrsFn)).or f.attrsFn).or (c.args.builder.bind (·.attrsFn))).getD [] := by
      have h1 : fromArgs (place c sattrs fattrs (.builderSetter f)) =
          fromArgs (ofArg (Verif.Model.Emit.attributesFn ⟨c, f⟩ .builder)) := rfl
      rw [h1, fromArgs_ofArg]
      unfold Verif.Model.Emit.attributesFn
      simp only [FieldArgs.getHelper, StructArgs.getHelper]
      cases f.builder <;> cases c.args.builder <;> rfl
    rw [this]; exact decides3 _ _ _ _
  | shadowStruct => exact absurd rfl h
  | shadowField f => exact absurd rfl (h' f)

/-- The mutable accessor of a sync or async field is as documented exactly if its own sources and those of the accessor come
to the same attributes. -/
theorem C79_sync_get_mut_iff (c : Ctx) (sattrs : List Attr) (fattrs : String → List Attr) (f : FieldArgs)
    (hm : genMode ⟨c, f⟩ ≠ .plain) :
    ArgsRight c.args (.method f .accessorMut) (place c sattrs fattrs (.method f .accessorMut)) ↔
      ∃ l, Decides (sources c.args (.method f .accessor)) [] l ∧ Decides (sources c.args (.method f .accessorMut)) [] l := by
  have hs : FCtx.isSync ⟨c, f⟩ = true := by
    cases h' : FCtx.isSync ⟨c, f⟩ with
    | true => rfl
    | false => exact absurd (by simp [genMode, h']) hm
  have he : Verif.Model.Emit.emittedAttrs ⟨c, f⟩ .accessorMut = Verif.Model.Emit.attributesFn ⟨c, f⟩ .accessor := by
    simp [Verif.Model.Emit.emittedAttrs, hs]
  unfold ArgsRight
  rw [args_method, he]
  have ha := attributesFn_getD c f .accessor
  constructor
  · intro h; exact ⟨_, ha, h⟩
  · rintro ⟨l, h1, h2⟩
    rw [decides_fun ha h1]; exact h2

/-- The shadow struct never takes the struct's `attributes`: it is as documented exactly if it has its own, or there is
nothing to fall back on. -/
theorem C79_shadow_struct_iff (c : Ctx) (sattrs : List Attr) (fattrs : String → List Attr) :
    ArgsRight c.args .shadowStruct (place c sattrs fattrs .shadowStruct) ↔
      (∃ l, c.args.serde.bind (·.attributes) = some l) ∨ c.args.attributes.getD [] = [] := by
  unfold ArgsRight sources
  rw [args_shadowStruct]
  have hd := decides2' (c.args.serde.bind (·.attributes)) c.args.attributes ([] : List String)
  constructor
  · intro h
    have := decides_fun h hd
    cases hs : c.args.serde.bind (·.attributes) with
    | some l => exact .inl ⟨l, rfl⟩
    | none => right; rw [hs] at this; simpa using this.symm
  · rintro (⟨l, hl⟩ | h)
    · rw [hl]; exact .here _ _ _
    · cases hs : c.args.serde.bind (·.attributes) with
      | some l => exact .here _ _ _
      | none =>
        refine .next ?_
        cases ha : c.args.attributes with
        | none => exact .next (.dflt _)
        | some l => rw [ha] at h; simp at h; subst h; exact .here _ _ _

/-- A field of the shadow takes the struct's `attributes` in their place: it is as documented exactly if the field has its
own, or there is nothing to take. -/
theorem C79_shadow_field_iff (c : Ctx) (sattrs : List Attr) (fattrs : String → List Attr) (f : FieldArgs) :
    ArgsRight c.args (.shadowField f) (place c sattrs fattrs (.shadowField f)) ↔
      (∃ l, f.serde.bind (·.attributes) = some l) ∨ c.args.attributes.getD [] = [] := by
  unfold ArgsRight sources
  rw [args_shadowField]
  show Decides [f.serde.bind (·.attributes)] [] _ ↔ _
  have hd := decides1 (f.serde.bind (·.attributes)) ([] : List String)
  constructor
  · intro h
    have := decides_fun h hd
    cases hs : f.serde.bind (·.attributes) with
    | some l => exact .inl ⟨l, rfl⟩
    | none => right; rw [hs] at this; simpa using this
  · rintro (⟨l, hl⟩ | h)
    · rw [hl]; exact .here _ _ _
    · cases hs : f.serde.bind (·.attributes) with
      | some l => exact .here _ _ _
      | none =>
        refine .next ?_
        rw [show ((none : Option (List String)).or c.args.attributes).getD [] = [] from h]
        exact .dflt _

/-- Without struct level `attributes`, all attributes from arguments are where they should be; missing: the mutable accessors
of sync and async fields. -/
theorem C79_args_partial (c : Ctx) (sattrs : List Attr) (fattrs : String → List Attr) (h : c.args.attributes = none)
    (i : Item) (hm : ∀ f, i = .method f .accessorMut → genMode ⟨c, f⟩ = .plain) : ArgsRight c.args i (place c sattrs fattrs i) := by
  cases i with
  | shadowStruct => exact (C79_shadow_struct_iff c sattrs fattrs).mpr (.inr (by rw [h]; rfl))
  | shadowField f => exact (C79_shadow_field_iff c sattrs fattrs f).mpr (.inr (by rw [h]; rfl))
  | _ => exact C79_args c sattrs fattrs _ (by simp) (by simp) hm

/-- `#[fxstruct(serde, attributes(derive(Debug)))] struct S { a: T }` -/
def fallCtx : Ctx := { args := { serde := some {}, attributes := some ["derive(Debug)"] }, fields := [{ ident := "a" }] }

/-- The full claim is false: the shadow struct of the struct above goes without the attribute, and its field, where a derive
cannot stand, gets it. -/
theorem C79_full_false :
    ¬ (∀ (c : Ctx) (sattrs : List Attr) (fattrs : String → List Attr) (i : Item),
      ArgsRight c.args i (place c sattrs fattrs i)) ∧
    place fallCtx [] (fun _ => []) .shadowStruct = [.made "derive"] ∧
    place fallCtx [] (fun _ => []) (.shadowField { ident := "a" }) = [.arg "derive(Debug)"] := by
  refine ⟨fun h => ?_, by decide +kernel, by decide +kernel⟩
  have := (C79_shadow_struct_iff fallCtx [] fun _ => []).mp (h _ _ _ _)
  rcases this with ⟨l, hl⟩ | h
  · cases hl
  · cases h

/-- `#[fxstruct] struct S { #[fieldx(sync, get_mut(attributes_fn(cfg(test))))] a: T }` -/
def mutCtx : Ctx :=
  { fields := [{ ident := "a", modeSync := some true, accessorMut := some { attrsFn := some ["cfg(test)"] } }] }

/-- The attribute of this mutable accessor is lost. -/
theorem C79_get_mut_false :
    place mutCtx [] (fun _ => []) (.method mutCtx.fields[0] .accessorMut) = [.made "inline(always)"] ∧
    ¬ ArgsRight mutCtx.args (.method mutCtx.fields[0] .accessorMut)
      (place mutCtx [] (fun _ => []) (.method mutCtx.fields[0] .accessorMut)) := by
  refine ⟨by decide +kernel, fun h => ?_⟩
  have := decides_fun h (attributesFn_getD mutCtx mutCtx.fields[0] .accessorMut)
  revert this; decide +kernel

/-- A struct with attributes everywhere. -/
def richCtx : Ctx :=
  { args := { serde := some { attributes := some ["allow(unused)"], forwardAttrs := some ["doc"] },
              builder := some { attributes := some ["derive(Debug)"] }, attributesImpl := some ["cfg(test)"] }
    fields := [{ ident := "a", builder := some { attributes := some ["deprecated"] } }] }

example : place richCtx [] (fun _ => []) .builderStruct = [.arg "derive(Debug)"] := by decide +kernel
example : place richCtx [] (fun _ => []) .builderImpl = [.arg "cfg(test)"] := by decide +kernel
example : place richCtx [] (fun _ => []) (.builderField richCtx.fields[0]) = [.arg "deprecated"] := by decide +kernel
example : place richCtx [] (fun _ => []) .shadowStruct = [.made "derive", .arg "allow(unused)"] := by decide +kernel
example : place richCtx [⟨"derive", "Clone"⟩, ⟨"allow", "x"⟩, ⟨"derive", "Eq"⟩] (fun _ => []) .struct =
    [.made "derive", .own ⟨"derive", "Clone"⟩, .own ⟨"derive", "Eq"⟩, .made "serde", .own ⟨"allow", "x"⟩] := by
  decide +kernel

/-! ### C80 -/

/-- The attributes the user has put on the struct and on its fields stay there, and no generated item but the fields of the
shadow gets any. -/
theorem C80_user (c : Ctx) (sattrs : List Attr) (fattrs : String → List Attr) (i : Item) (h : ∀ f, i ≠ .shadowField f) :
    UserRight c.args sattrs fattrs i (place c sattrs fattrs i) := by
  cases i with
  | struct =>
    show fromUser (sortBy markCmp _) = _
    rw [sorted, List.filter_append, List.filter_append, fromUser_append, fromUser_append, fromUser_append,
      (made_filter _ _).2, (made_filter _ _).2, own_filter, own_filter]
    simp only [isDerive, List.nil_append, decide_not]
    rfl
  | structField f => exact fromUser_own _
  | structImpl => exact fromUser_ofArg _
  | builderStruct => exact fromUser_ofArg _
  | builderImpl => exact fromUser_ofArg _
  | builderField f =>
    show fromUser (place c sattrs fattrs (.builderField f)) = []
    simp only [place, fromUser_append, fromUser_ofArg]
    split <;> simp [fromUser]
  | builderSetter f => exact fromUser_ofArg _
  | method f k => exact fromUser_ofArg _
  | shadowStruct =>
    show fromUser (place c sattrs fattrs .shadowStruct) = []
    simp only [place, fromUser_append, fromUser_ofArg, (made_shadow _).2, List.nil_append]
  | shadowField f => exact absurd rfl (h f)

/-- The list in force: that of the field's `serde` argument if it has one, else that of the struct's. -/
def ListedAt (a : StructArgs) (f : FieldArgs) : Prop :=
  (∃ h l, f.serde = some h ∧ h.forwardAttrs = some l) ∨ (f.serde = none ∧ ∃ h l, a.serde = some h ∧ h.forwardAttrs = some l)

/-- A field of the shadow has the attributes it should exactly if its `serde` argument (or without one that of the struct)
has a list, or none of its attributes is to be left out. -/
theorem C80_shadow_field_iff (c : Ctx) (hs : c.args.serde ≠ none) (sattrs : List Attr) (fattrs : String → List Attr)
    (f : FieldArgs) :
    UserRight c.args sattrs fattrs (.shadowField f) (place c sattrs fattrs (.shadowField f)) ↔
      ListedAt c.args f ∨ ∃ fw, Forwarded c.args f fw ∧ ∀ x ∈ fattrs f.ident, x.path = "serde" ∨ x.path ∈ fw := by
  show (∃ fw, _) ↔ _
  rw [user_shadowField]
  obtain ⟨g, hg⟩ := Option.ne_none_iff_exists'.mp hs
  have hall : ∀ (p : Attr → Bool) (l : List Attr), (l = l.filter p) ↔ ∀ x ∈ l, p x = true := by
    intro p l
    rw [eq_comm, List.filter_eq_self]
  have huse : ∀ fw, Forwarded c.args f fw ↔ fw = ((f.serde.bind (·.forwardAttrs)).or (c.args.serde.bind (·.forwardAttrs))).getD [] := by
    intro fw
    constructor
    · intro h; exact decides_fun h (decides2' _ _ _)
    · rintro rfl; exact decides2' _ _ _
  simp only [huse, exists_eq_left]
  -- the argument asked for a list, and whether it has one
  obtain ⟨h, hh, hl⟩ : ∃ h : Serde, f.serde.or c.args.serde = some h ∧
      (ListedAt c.args f ↔ h.forwardAttrs ≠ none) ∧
      (∀ l, h.forwardAttrs = some l → ((f.serde.bind (·.forwardAttrs)).or (c.args.serde.bind (·.forwardAttrs))).getD [] = l) := by
    unfold ListedAt
    cases hf : f.serde with
    | some h =>
      refine ⟨h, rfl, ?_, ?_⟩
      · cases hfa : h.forwardAttrs <;> simp [hfa]
      · intro l hl; simp [hl]
    | none =>
      refine ⟨g, by simp [hg], ?_, ?_⟩
      · cases hfa : g.forwardAttrs <;> simp [hg, hfa]
      · intro l hl; simp [hg, hl]
  rw [hl.1]
  unfold shadowOwn
  simp only [hh, Option.elim_some, acceptsAttr]
  cases hfa : h.forwardAttrs with
  | some l =>
    rw [hl.2 l hfa]
    simp only [Option.elim_some, ne_eq, reduceCtorEq, not_false_eq_true, true_or, iff_true]
    apply List.filter_congr
    intro x _
    rw [Bool.eq_iff_iff]
    simp
  | none =>
    have ht : (fattrs f.ident).filter (fun _ => true) = fattrs f.ident := by simp
    simp only [Option.elim_none, Bool.or_true, ne_eq, not_true, false_or]
    rw [ht, hall]
    simp

/-- With a list in the `serde` argument of the field, or of the struct if the field has no such argument, exactly the
attributes listed are forwarded, besides `serde` itself. -/
theorem C80_shadow_field_partial (c : Ctx) (hs : c.args.serde ≠ none) (sattrs : List Attr) (fattrs : String → List Attr)
    (f : FieldArgs) (h : ListedAt c.args f) :
    UserRight c.args sattrs fattrs (.shadowField f) (place c sattrs fattrs (.shadowField f)) :=
  (C80_shadow_field_iff c hs sattrs fattrs f).mpr (.inl h)

/-- Without such a list every attribute is forwarded. -/
theorem C80_unlisted_all (c : Ctx) (hs : c.args.serde ≠ none) (sattrs : List Attr) (fattrs : String → List Attr)
    (f : FieldArgs) (h : ¬ ListedAt c.args f) :
    fromUser (place c sattrs fattrs (.shadowField f)) = fattrs f.ident := by
  rw [user_shadowField]
  unfold ListedAt at h
  obtain ⟨g, hg⟩ := Option.ne_none_iff_exists'.mp hs
  unfold shadowOwn
  cases hf : f.serde with
  | some k =>
    have : k.forwardAttrs = none := by
      cases hk : k.forwardAttrs with
      | none => rfl
      | some l => exact absurd (.inl ⟨k, l, hf, hk⟩) h
    simp [acceptsAttr, this]
  | none =>
    have : g.forwardAttrs = none := by
      cases hk : g.forwardAttrs with
      | none => rfl
      | some l => exact absurd (.inr ⟨hf, g, l, hg, hk⟩) h
    simp [hg, acceptsAttr, this]

/-- The comparison handed to `sort_by` is one the standard library may be given: turning the arguments round turns the answer
round, and "not greater" is transitive. Otherwise `sort_by` may panic. -/
theorem C80_order (a b c : Mark) :
    markCmp b a = (markCmp a b).swap ∧ (markCmp a b ≠ .gt → markCmp b c ≠ .gt → markCmp a c ≠ .gt) ∧
      (markCmp a b = .eq ↔ (isDerive a = true ↔ isDerive b = true)) := by
  unfold markCmp
  cases isDerive a <;> cases isDerive b <;> cases isDerive c <;> decide

example : markCmp (.own ⟨"doc", "text"⟩) (.made "derive") = .gt := by decide +kernel

theorem made_struct (s : StructArgs) :
    madeStruct s = if s.isSerde = true then [.made "derive", .made "serde"] else [] := by
  unfold madeStruct StructArgs.isSerde Serde.isSerde Serde.needsSerialize Serde.needsDeserialize
  cases s.serde with
  | none => rfl
  | some h =>
    obtain hs | ⟨a, hs⟩ : h.serialize = none ∨ ∃ a, h.serialize = some a := by cases h.serialize <;> simp
    all_goals obtain hd | ⟨b, hd⟩ : h.deserialize = none ∨ ∃ b, h.deserialize = some b := by cases h.deserialize <;> simp
    all_goals cases h.isTrue <;> simp [hs, hd]
    all_goals first | (cases a <;> simp; done) | (cases b <;> simp; done) | (cases a <;> cases b <;> simp)

/-- The struct itself: with serde a `derive` is made and put before all the user's, and a `serde` attribute before those which are
no `derive`; the user's stay in their order, those which are `derive` before others. -/
theorem C80_struct (c : Ctx) (sattrs : List Attr) (fattrs : String → List Attr) :
    place c sattrs fattrs .struct =
      (if c.args.isSerde = true then [.made "derive"] else []) ++
        (sattrs.filter fun a => a.path = "derive").map .own ++
        (if c.args.isSerde = true then [.made "serde"] else []) ++
        (sattrs.filter fun a => a.path ≠ "derive").map .own := by
  show sortBy markCmp _ = _
  rw [sorted, List.filter_append, List.filter_append, List.filter_map, List.filter_map]
  have hd : (madeStruct c.args).filter isDerive = if c.args.isSerde = true then [.made "derive"] else [] := by
    rw [made_struct]; by_cases h : c.args.isSerde = true <;> simp [h, isDerive]
  have hs : (madeStruct c.args).filter (fun a => !isDerive a) = if c.args.isSerde = true then [.made "serde"] else [] := by
    rw [made_struct]; by_cases h : c.args.isSerde = true <;> simp [h, isDerive]
  have hf : (isDerive ∘ Mark.own) = fun a => decide (a.path = "derive") := by
    funext a; simp [isDerive, Function.comp]; rfl
  have hg : ((fun a => !isDerive a) ∘ Mark.own) = fun a => decide (a.path ≠ "derive") := by
    funext a; simp [isDerive, Function.comp]; rfl
  rw [hd, hs, hf, hg]
  simp only [List.append_assoc]

example : place richCtx [⟨"allow", "x"⟩, ⟨"derive", "Clone"⟩] (fun _ => []) .struct =
    [.made "derive", .own ⟨"derive", "Clone"⟩, .made "serde", .own ⟨"allow", "x"⟩] := by
  rw [C80_struct]; decide +kernel

/-- `#[fxstruct(serde)] struct S { #[doc = "text"] a: T }` and
`#[fxstruct(serde(forward_attrs(b)))] struct S { #[fieldx(serde("x"))] #[doc = "text"] a: T }` -/
def noList : Ctx := { args := { serde := some {} }, fields := [{ ident := "a" }] }
def lostList : Ctx :=
  { args := { serde := some { forwardAttrs := some ["b"] } }
    fields := [{ ident := "a", serde := some { shadowName := some "x" } }] }

/-- The full claim is false: without a list everything is forwarded, and a `serde` argument of the field without a list
takes the struct's list out of force. -/
theorem C80_full_false :
    place noList [] (fun _ => [⟨"doc", "text"⟩]) (.shadowField noList.fields[0]) = [.own ⟨"doc", "text"⟩] ∧
    ¬ UserRight noList.args [] (fun _ => [⟨"doc", "text"⟩]) (.shadowField noList.fields[0])
      (place noList [] (fun _ => [⟨"doc", "text"⟩]) (.shadowField noList.fields[0])) ∧
    ¬ UserRight lostList.args [] (fun _ => [⟨"doc", "text"⟩]) (.shadowField lostList.fields[0])
      (place lostList [] (fun _ => [⟨"doc", "text"⟩]) (.shadowField lostList.fields[0])) := by
  refine ⟨by decide +kernel, ?_, ?_⟩
  · rw [C80_shadow_field_iff _ (by simp [noList])]
    rintro ((⟨h, l, h1, h2⟩ | ⟨_, h, l, h1, h2⟩) | ⟨fw, h1, h2⟩)
    · cases h1
    · cases h1; cases h2
    · have : fw = [] := decides_fun h1 (decides2' _ _ _)
      subst this
      simpa using h2 ⟨"doc", "text"⟩ (by simp)
  · rw [C80_shadow_field_iff _ (by simp [lostList])]
    rintro ((⟨h, l, h1, h2⟩ | ⟨h1, _⟩) | ⟨fw, h1, h2⟩)
    · cases h1; cases h2
    · cases h1
    · have : fw = ["b"] := decides_fun h1 (decides2' _ _ _)
      subst this
      simpa using h2 ⟨"doc", "text"⟩ (by simp)

example : place richCtx [] (fun _ => [⟨"doc", "x"⟩, ⟨"serde", "y"⟩, ⟨"other", "z"⟩]) (.shadowField richCtx.fields[0]) =
    [.own ⟨"doc", "x"⟩, .own ⟨"serde", "y"⟩] := by decide +kernel
example : ListedAt richCtx.args richCtx.fields[0] := .inr ⟨rfl, _, _, rfl, rfl⟩

end Verif.Props.Attrs
