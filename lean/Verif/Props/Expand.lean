import Verif.Proof.Expand
import Verif.Props.Structs
/-
C83: errors of the expansion. C84: what an expansion without errors holds. C85: what is left of the struct next to errors.
-/
namespace Verif.Props.Expand
open Verif.Model.Args Verif.Model.Expand Verif.Model.Init Verif.Spec.Expansion Verif.Proof.Expand
open Verif.Model.Emit (emits)
open Verif.Model.Structs (prepare)
open Verif.Model (Structs.exprs Structs.fieldsOf Structs.Owner)
open Verif.Model.Exclusive (acceptFieldFull acceptStructFull)

/-- The input is read and accepted. -/
def Accepted (parsed : Bool) (s : StructArgs) (fs : List FieldArgs) : Prop :=
  parsed = true ∧ acceptStructFull s = true ∧ ∀ f ∈ fs, acceptFieldFull f = true

instance (parsed : Bool) (s : StructArgs) (fs : List FieldArgs) : Decidable (Accepted parsed s fs) := by
  unfold Accepted; infer_instance

instance (c : Ctx) : Decidable (DistinctNames c) := by unfold DistinctNames; infer_instance

/-- A field whose `build()` entry makes the macro panic. -/
def Panics (c : Ctx) : Prop :=
  c.needsBuilderStruct = true ∧
    ∃ f ∈ c.allFields, f.skip = false ∧ ¬Faulty ⟨c, f⟩ ∧ Spec.Expansion.BareDefault ⟨c, f⟩

theorem panics_iff (c : Ctx) : panics c = true ↔ Panics c := by
  unfold panics Panics
  simp only [List.any_eq_true, List.mem_filter, Bool.and_eq_true, Bool.not_eq_true']
  constructor
  · rintro ⟨f, ⟨hf, hs⟩, hy, hb⟩
    unfold slotReached at hs
    simp only [Bool.and_eq_true, Bool.not_eq_true'] at hs
    refine ⟨hs.1.1.1, f, hf, hs.1.1.2, ?_, (bare_iff _).mp hb⟩
    rw [← faulty_iff, hy]
    simp
  · rintro ⟨hn, f, hf, hk, hy, hb⟩
    have hy' : faulty ⟨c, f⟩ = false := by rw [← Bool.not_eq_true, faulty_iff]; exact hy
    refine ⟨f, ⟨hf, ?_⟩, hy', (bare_iff _).mpr hb⟩
    obtain ⟨h1, h2⟩ := not_faulty _ hy'
    have hk' : f.isSkipped = false := hk
    simp [slotReached, hn, hk', h1, h2]

section
variable {parsed : Bool} {s : StructArgs} {fs : List FieldArgs} {l : Lits}

/-- The three outcomes. -/
theorem outcome (hn : DistinctNames (prepare s fs)) :
    (¬Accepted parsed s fs ∧ fxstruct parsed s fs l = .refused) ∨
    (Accepted parsed s fs ∧ Panics (prepare s fs) ∧ fxstruct parsed s fs l = .panicked) ∨
    (Accepted parsed s fs ∧ ¬Panics (prepare s fs) ∧
      fxstruct parsed s fs l = .code (finalOut (prepare s fs) l) (finalErrs (prepare s fs) l)) := by
  unfold fxstruct
  by_cases ha : Accepted parsed s fs
  · have : (parsed && acceptStructFull s && fs.all acceptFieldFull) = true := by
      simp only [Bool.and_eq_true, List.all_eq_true]
      exact ⟨⟨ha.1, ha.2.1⟩, ha.2.2⟩
    rw [if_pos this]
    right
    rcases rewrite_cases (prepare s fs) l hn with ⟨hp, hr⟩ | ⟨hp, hr⟩
    · left
      refine ⟨ha, (panics_iff _).mp hp, ?_⟩
      generalize rewrite (prepare s fs) l {} = r at hr
      obtain ⟨g, st⟩ := r
      dsimp only at hr
      subst hr
      rfl
    · right
      refine ⟨ha, ?_, by rw [hr]⟩
      rw [← panics_iff, hp]
      simp
  · left
    refine ⟨ha, ?_⟩
    rw [if_neg]
    intro h
    simp only [Bool.and_eq_true, List.all_eq_true] at h
    exact ha ⟨h.1.1, h.1.2, h.2⟩

theorem of_code {out : List Piece} {errs : List (Option String)} (hn : DistinctNames (prepare s fs))
    (h : fxstruct parsed s fs l = .code out errs) :
    out = finalOut (prepare s fs) l ∧ errs = finalErrs (prepare s fs) l := by
  rcases outcome (parsed := parsed) (l := l) hn with ⟨_, h'⟩ | ⟨_, _, h'⟩ | ⟨_, _, h'⟩ <;> rw [h'] at h
  · cases h
  · cases h
  · injection h with h1 h2; exact ⟨h1.symm, h2.symm⟩

/-! ### C83 -/

/-- **C83.** The input is refused, with not even the struct written, exactly when it is not accepted. -/
theorem C83_refused_iff (hn : DistinctNames (prepare s fs)) :
    fxstruct parsed s fs l = .refused ↔ ¬Accepted parsed s fs := by
  rcases outcome (parsed := parsed) (l := l) hn with ⟨ha, h⟩ | ⟨ha, _, h⟩ | ⟨ha, _, h⟩ <;> simp [h, ha]

/-- **C83.** The macro panics exactly when a builder object is generated and an unskipped field, which is not at fault
itself, is marked with the bare keyword `default` (sync or async, lazy or optional). -/
theorem C83_panics_iff (hn : DistinctNames (prepare s fs)) (ha : Accepted parsed s fs) :
    fxstruct parsed s fs l = .panicked ↔
      (prepare s fs).needsBuilderStruct = true ∧ ∃ f ∈ (prepare s fs).allFields,
        f.skip = false ∧ ¬Faulty ⟨prepare s fs, f⟩ ∧ Spec.Expansion.BareDefault ⟨prepare s fs, f⟩ := by
  show _ ↔ Panics (prepare s fs)
  rcases outcome (parsed := parsed) (l := l) hn with ⟨ha', _⟩ | ⟨_, hp, h⟩ | ⟨_, hp, h⟩
  · exact absurd ha ha'
  · simp [h, hp]
  · simp [h, hp]

theorem mem_finalErrs (c : Ctx) (who : Option String) :
    who ∈ finalErrs c l ↔
      (∃ f ∈ c.allFields, Faulty ⟨c, f⟩ ∧ who = some f.ident) ∨ (FaultyWhole c l ∧ who = none) := by
  have hb : ∀ (as : List FieldArgs) (p : FieldArgs → Bool), (∀ f ∈ as, f ∈ c.allFields) →
      (∀ f, p f = true → faulty ⟨c, f⟩ = true) → who ∈ as.flatMap (fun f => blame (p f) f) →
      ∃ f ∈ c.allFields, Faulty ⟨c, f⟩ ∧ who = some f.ident := by
    intro as p hs hp h
    rw [blame_flatMap, List.mem_map] at h
    obtain ⟨f, hf, rfl⟩ := h
    obtain ⟨hf, hpf⟩ := List.mem_filter.mp hf
    exact ⟨f, hs f hf, (faulty_iff _).mp (hp f hpf), rfl⟩
  unfold finalErrs errsBefore fromErrs
  constructor
  · intro h
    rcases List.mem_append.mp h with h | h
    · rcases List.mem_append.mp h with h | h
      · exact .inl (hb _ _ (fun _ h => h) (fun _ h => h) h)
      · rcases List.mem_append.mp h with h | h
        · right
          cases hw : faultyWhole c l with
          | true => rw [hw] at h; exact ⟨(faultyWhole_iff c l).mp hw, by simpa using h⟩
          | false => rw [hw] at h; cases h
        · split at h
          · refine .inl (hb _ _ (fun f hf => (List.mem_filter.mp hf).1) (fun f hd => ?_) h)
            cases hy : faulty ⟨c, f⟩ with
            | true => rfl
            | false => rw [(not_faulty _ hy).1] at hd; cases hd
          · cases h
    · split at h
      · exact .inl (hb _ _ (fun f hf => (List.mem_filter.mp hf).1) (fun _ h => h) h)
      · cases h
  · rintro (⟨f, hf, hy, rfl⟩ | ⟨hw, rfl⟩)
    · refine List.mem_append_left _ (List.mem_append_left _ ?_)
      rw [blame_flatMap, List.mem_map]
      exact ⟨f, List.mem_filter.mpr ⟨hf, (faulty_iff _).mpr hy⟩, rfl⟩
    · refine List.mem_append_left _ (List.mem_append_right _ (List.mem_append_left _ ?_))
      rw [(faultyWhole_iff c l).mpr hw]
      simp

/-- **C83.** The errors of the expansion: every field at fault is named, the struct if its serde default cannot be used,
and nothing else. -/
theorem C83_reports_iff {out : List Piece} {errs : List (Option String)} (hn : DistinctNames (prepare s fs))
    (h : fxstruct parsed s fs l = .code out errs) (who : Option String) :
    who ∈ errs ↔
      (∃ f ∈ (prepare s fs).allFields, Faulty ⟨prepare s fs, f⟩ ∧ who = some f.ident) ∨
      (FaultyWhole (prepare s fs) l ∧ who = none) := by
  rw [(of_code hn h).2]
  exact mem_finalErrs _ _

/-- **C83.** The expansion has no error exactly when nothing is at fault. -/
theorem C83_clean_iff {out : List Piece} {errs : List (Option String)} (hn : DistinctNames (prepare s fs))
    (h : fxstruct parsed s fs l = .code out errs) :
    errs = [] ↔ (∀ f ∈ (prepare s fs).allFields, ¬Faulty ⟨prepare s fs, f⟩) ∧ ¬FaultyWhole (prepare s fs) l := by
  rw [List.eq_nil_iff_forall_not_mem]
  constructor
  · intro hall
    refine ⟨fun f hf hy => ?_, fun hw => ?_⟩
    · exact hall (some f.ident) ((C83_reports_iff hn h _).mpr (.inl ⟨f, hf, hy, rfl⟩))
    · exact hall none ((C83_reports_iff hn h _).mpr (.inr ⟨hw, rfl⟩))
  · rintro ⟨h1, h2⟩ who hw
    rcases (C83_reports_iff hn h who).mp hw with ⟨f, hf, hy, _⟩ | ⟨hw, _⟩
    · exact h1 f hf hy
    · exact h2 hw

end

/-! How often a field is named -/

theorem count_names (as : List FieldArgs) (p : FieldArgs → Bool) (hn : (as.map (·.ident)).Nodup) {f : FieldArgs}
    (hf : f ∈ as) : (as.flatMap (fun g => blame (p g) g)).count (some f.ident) = if p f then 1 else 0 := by
  rw [blame_flatMap]
  induction as with
  | nil => cases hf
  | cons g as ih =>
    rw [List.map_cons, List.nodup_cons] at hn
    have hrest : f.ident ∉ as.map (·.ident) → ((as.filter p).map (fun g => some g.ident)).count (some f.ident) = 0 := by
      intro hni
      rw [List.count_eq_zero]
      intro hm
      obtain ⟨k, hk, he⟩ := List.mem_map.mp hm
      injection he with he
      exact hni (List.mem_map.mpr ⟨k, (List.mem_filter.mp hk).1, he⟩)
    rcases List.mem_cons.mp hf with rfl | hf
    · rw [List.filter_cons]
      cases hp : p f with
      | true => simp only [if_true, List.map_cons, List.count_cons_self, hrest hn.1]
      | false => simpa using hrest hn.1
    · have hne : g.ident ≠ f.ident := fun h => hn.1 (h ▸ List.mem_map_of_mem hf)
      rw [List.filter_cons]
      cases hp : p g with
      | true =>
        simp only [if_true, List.map_cons]
        rw [List.count_cons_of_ne (by simpa using hne)]
        exact ih hn.2 hf
      | false => simpa using ih hn.2 hf

theorem count_absent (as : List FieldArgs) (p : FieldArgs → Bool) {f : FieldArgs} (hf : f.ident ∉ as.map (·.ident)) :
    (as.flatMap (fun g => blame (p g) g)).count (some f.ident) = 0 := by
  rw [blame_flatMap, List.count_eq_zero]
  intro hm
  obtain ⟨k, hk, he⟩ := List.mem_map.mp hm
  injection he with he
  exact hf (List.mem_map.mpr ⟨k, (List.mem_filter.mp hk).1, he⟩)

theorem ident_inj {as : List FieldArgs} (hn : (as.map (·.ident)).Nodup) {f g : FieldArgs} (hf : f ∈ as) (hg : g ∈ as)
    (h : f.ident = g.ident) : f = g := by
  have h1 := find_ident as hn hf
  have h2 := find_ident as hn hg
  rw [h] at h1
  rw [h1] at h2
  injection h2

theorem count_filtered (as : List FieldArgs) (q p : FieldArgs → Bool) (hn : (as.map (·.ident)).Nodup) {f : FieldArgs}
    (hf : f ∈ as) :
    ((as.filter q).flatMap (fun g => blame (p g) g)).count (some f.ident) = if q f && p f then 1 else 0 := by
  have hn' : ((as.filter q).map (·.ident)).Nodup := hn.sublist (List.filter_sublist.map _)
  cases hq : q f with
  | true => simpa using count_names _ p hn' (List.mem_filter.mpr ⟨hf, hq⟩)
  | false =>
    simp only [Bool.false_and, Bool.false_eq_true, if_false]
    refine count_absent _ p fun hm => ?_
    obtain ⟨g, hg, he⟩ := List.mem_map.mp hm
    obtain ⟨hg, hqg⟩ := List.mem_filter.mp hg
    rw [ident_inj hn hg hf he, hq] at hqg
    cases hqg

/-- `FaultyElsewhere` as a flag. -/
def elsewhere (c : Ctx) (f : FieldArgs) : Bool :=
  (c.args.isSerde && c.args.needsDeserialize && Verif.Model.Serde.deserialised ⟨c, f⟩ && defaultFails ⟨c, f⟩) ||
    slotReached c f

theorem elsewhere_iff (c : Ctx) (f : FieldArgs) (hy : Faulty ⟨c, f⟩) :
    elsewhere c f = true ↔ FaultyElsewhere ⟨c, f⟩ := by
  have hskip : f.isSkipped = true → (FCtx.mk c f).isLazy = false := Verif.Props.Init.skip_lazy ⟨c, f⟩
  have hy := (faulty_iff _).mpr hy
  unfold elsewhere slotReached defaultFails methodsFail FaultyElsewhere Verif.Model.Serde.deserialised
  unfold faulty at hy
  show _ ↔ (FCtx.mk c f).isSync = true ∧
    (((FCtx.mk c f).isLazy = true ∧ (c.args.isSerde = true ∧ c.args.needsDeserialize = true) ∧
      ((FCtx.mk c f).isSerde = true ∧ (FCtx.mk c f).needsDeserialize = true)) ∨
    ((FCtx.mk c f).isLazy = false ∧ c.needsBuilderStruct = true ∧ f.isSkipped = false ∧ _))
  have hk : (FCtx.mk c f).field.isSkipped = f.isSkipped := rfl
  rw [hk]
  generalize (FCtx.mk c f).isSync = sy at *
  generalize (FCtx.mk c f).isLazy = lz at *
  generalize (FCtx.mk c f).isFallible = fa at *
  generalize hasErrorType ⟨c, f⟩ = er at *
  generalize (FCtx.mk c f).needsAccessor = na at *
  generalize (FCtx.mk c f).needsAccessorMut = nm at *
  generalize (FCtx.mk c f).isClone = cl at *
  generalize (FCtx.mk c f).isCopy = cp at *
  generalize (FCtx.mk c f).needsLock = lk at *
  generalize (FCtx.mk c f).isSerde = se at *
  generalize (FCtx.mk c f).needsDeserialize = de at *
  generalize c.args.isSerde = cs at *
  generalize c.args.needsDeserialize = cd at *
  generalize c.needsBuilderStruct = bs at *
  generalize f.isSkipped = sk at *
  clear hk
  cases sy <;> cases lz <;> cases fa <;> cases er <;> cases sk <;> simp_all <;>
    (try cases na <;> cases cl <;> cases cp <;> cases lk <;> simp_all)

/-- **C83.** How often a field is named in the errors: never, if it is not at fault; otherwise once, and once more if
another part of the expansion needs its error type too. -/
theorem C83_count {parsed : Bool} {s : StructArgs} {fs : List FieldArgs} {l : Lits} {out : List Piece}
    {errs : List (Option String)} (hn : DistinctNames (prepare s fs)) (h : fxstruct parsed s fs l = .code out errs)
    (f : FieldArgs) (hf : f ∈ (prepare s fs).allFields) :
    (¬Faulty ⟨prepare s fs, f⟩ → errs.count (some f.ident) = 0) ∧
    (Faulty ⟨prepare s fs, f⟩ → ¬FaultyElsewhere ⟨prepare s fs, f⟩ → errs.count (some f.ident) = 1) ∧
    (Faulty ⟨prepare s fs, f⟩ → FaultyElsewhere ⟨prepare s fs, f⟩ → errs.count (some f.ident) = 2) := by
  rw [(of_code hn h).2]
  generalize prepare s fs = c at *
  have hcount : (finalErrs c l).count (some f.ident) =
      (if faulty ⟨c, f⟩ then 1 else 0) + (if faulty ⟨c, f⟩ && elsewhere c f then 1 else 0) := by
    have hnone : (if faultyWhole c l = true then [none] else []).count (some f.ident) = 0 := by
      cases faultyWhole c l <;> simp
    have hfrom : (fromErrs c).count (some f.ident) =
        if c.args.isSerde && c.args.needsDeserialize && Verif.Model.Serde.deserialised ⟨c, f⟩ && defaultFails ⟨c, f⟩ then 1
        else 0 := by
      unfold fromErrs
      cases c.args.isSerde && c.args.needsDeserialize with
      | false => simp
      | true => simpa [deFields] using count_filtered c.allFields _ _ hn hf
    have hbuild : (if c.needsBuilderStruct then
        (c.allFields.filter (slotReached c)).flatMap (fun f => blame (faulty ⟨c, f⟩) f) else []).count (some f.ident) =
        if slotReached c f && faulty ⟨c, f⟩ then 1 else 0 := by
      cases hb : c.needsBuilderStruct with
      | false => simp [slotReached, hb]
      | true => simpa using count_filtered c.allFields (slotReached c) _ hn hf
    unfold finalErrs errsBefore
    rw [List.count_append, List.count_append, List.count_append, count_names _ _ hn hf, hnone, hfrom, hbuild]
    unfold elsewhere slotReached
    cases hy : faulty ⟨c, f⟩ with
    | false => rw [(not_faulty _ hy).1]; simp
    | true =>
      cases hd : defaultFails ⟨c, f⟩ <;> simp
  cases hy : faulty ⟨c, f⟩ with
  | false =>
    have : ¬Faulty ⟨c, f⟩ := by rw [← faulty_iff, hy]; simp
    refine ⟨fun _ => by rw [hcount, hy]; rfl, fun h => absurd h this, fun h => absurd h this⟩
  | true =>
    have hyf : Faulty ⟨c, f⟩ := (faulty_iff _).mp hy
    refine ⟨fun h => absurd hyf h, fun _ he => ?_, fun _ he => ?_⟩
    · rw [← elsewhere_iff c f hyf, Bool.not_eq_true] at he
      rw [hcount, hy, he]; rfl
    · rw [← elsewhere_iff c f hyf] at he
      rw [hcount, hy, he]; rfl

/-- C83 as far as it is true: a field at fault which no other part of the expansion needs is named exactly once. -/
theorem C83_once_partial {parsed : Bool} {s : StructArgs} {fs : List FieldArgs} {l : Lits} {out : List Piece}
    {errs : List (Option String)} (hn : DistinctNames (prepare s fs)) (h : fxstruct parsed s fs l = .code out errs)
    (f : FieldArgs) (hf : f ∈ (prepare s fs).allFields) (hy : Faulty ⟨prepare s fs, f⟩)
    (he : ¬FaultyElsewhere ⟨prepare s fs, f⟩) : errs.count (some f.ident) = 1 :=
  (C83_count hn h f hf).2.1 hy he

/-! Examples -/

/-- Two lazy fallible fields of a sync struct with serde, the error type is only known for one. -/
def exArgs : StructArgs := { modeSync := some true, serde := some {}, builder := some {} }
def exFields : List FieldArgs :=
  [{ ident := "a", lazy := some {}, fallible := some {} },
   { ident := "b", lazy := some {}, fallible := some { error := some "E" } },
   { ident := "c" }]

example : Accepted true exArgs exFields ∧ DistinctNames (prepare exArgs exFields) := by decide +kernel

/-- **C83.** "A field at fault is named once" is false: the conversion from the shadow names it again. -/
theorem C83_once_false : ∃ out, fxstruct true exArgs exFields {} = .code out [some "a", some "a"] :=
  ⟨finalOut (prepare exArgs exFields) {}, by decide +kernel⟩

example : Faulty ⟨prepare exArgs exFields, exFields[0]⟩ ∧ ¬Faulty ⟨prepare exArgs exFields, exFields[1]⟩ := by
  decide +kernel

/-- Without serde it is named once. -/
example : ∃ out, fxstruct true { modeSync := some true, builder := some {} } exFields {} = .code out [some "a"] :=
  ⟨finalOut (prepare { modeSync := some true, builder := some {} } exFields) {}, by decide +kernel⟩

/-- Bare `default` next to a field at fault. -/
def exBare : List FieldArgs :=
  [{ ident := "a", lazy := some {}, fallible := some {} }, { ident := "b", lazy := some {}, default := some {} }]

example : Accepted true exArgs exBare ∧ DistinctNames (prepare exArgs exBare) := by decide +kernel

/-- **C83.** "Every fault is reported" is false of a run that panics: the error of `a` is lost. -/
theorem C83_lost_false :
    Faulty ⟨prepare exArgs exBare, exBare[0]⟩ ∧ fxstruct true exArgs exBare {} = .panicked := by decide +kernel

/-- The serde default of the struct cannot be used. -/
example : ∃ out, fxstruct true { serde := some { default := some { value := some "1" } } } [{ ident := "a" }]
    { badWhole := true } = .code out [none] :=
  ⟨finalOut (prepare { serde := some { default := some { value := some "1" } } } [{ ident := "a" }]) { badWhole := true },
    by decide +kernel⟩

/-! ### C84 -/

/-- Views that see no pieces but those of `prepare_field`. -/
theorem prepared_only {β : Type} (sel : Piece → Option β) (c : Ctx) (l : Lits)
    (h1 : ∀ f, sel (.serdeFn f) = none) (h2 : ∀ f, sel (.shadow f) = none) (h3 : ∀ f, sel (.shadowDflt f) = none)
    (h4 : sel .newFn = none) (h5 : sel .builderFn = none) (h6 : sel .wholeFn = none) (h7 : sel .shadowStruct = none)
    (h8 : ∀ f, sel (.fromShadow f) = none) (h9 : sel .fromImpl = none) (h10 : ∀ f, sel (.lazyInit f) = none)
    (h11 : ∀ f, sel (.intoShadow f) = none) (h12 : sel .intoImpl = none) (h13 : sel .defaultImpl = none)
    (h14 : ∀ f, sel (.checker f) = none) (h15 : ∀ f, sel (.build f) = none) (h16 : sel .builderStruct = none) :
    (finalOut c l).filterMap sel = c.allFields.flatMap (fun f => (prepared c f).filterMap sel) := by
  rw [view_final, view_before, view_whole, view_from, view_into]
  simp only [view_shadow, h1, h2, h3, h4, h5, h6, h7, h8, h9, h10, h11, h12, h13, h14, h15, h16, Option.toList_none,
    ite_self, List.append_nil, flatMap_nil]

theorem declared_final (c : Ctx) (l : Lits) :
    declared (finalOut c l) = (c.allFields.filter (fun f => !faulty ⟨c, f⟩)).map (·.ident) := by
  unfold declared
  rw [prepared_only _ c l (fun _ => rfl) (fun _ => rfl) (fun _ => rfl) rfl rfl rfl rfl (fun _ => rfl) rfl (fun _ => rfl)
    (fun _ => rfl) rfl rfl (fun _ => rfl) (fun _ => rfl) rfl, ← flatMap_opt]
  refine flatMap_congr' _ fun f _ => ?_
  rw [view_prepared]
  simp only [Option.toList_none, Option.toList_some, ite_self, List.append_nil, List.nil_append, filterMap_none']
  cases hy : faulty ⟨c, f⟩ with
  | true => simp
  | false => simp [not_faulty _ hy]

theorem defaulted_final (c : Ctx) (l : Lits) :
    defaulted (finalOut c l) = (c.allFields.filter (fun f => !defaultFails ⟨c, f⟩)).map (·.ident) := by
  unfold defaulted
  rw [prepared_only _ c l (fun _ => rfl) (fun _ => rfl) (fun _ => rfl) rfl rfl rfl rfl (fun _ => rfl) rfl (fun _ => rfl)
    (fun _ => rfl) rfl rfl (fun _ => rfl) (fun _ => rfl) rfl, ← flatMap_opt]
  refine flatMap_congr' _ fun f _ => ?_
  rw [view_prepared]
  simp only [Option.toList_none, Option.toList_some, ite_self, List.append_nil, List.nil_append, filterMap_none']
  cases defaultFails ⟨c, f⟩ <;> simp

section
variable {parsed : Bool} {s : StructArgs} {fs : List FieldArgs} {l : Lits} {out : List Piece}

/-- **C85.** The struct is written with exactly the fields which are not at fault, in order. -/
theorem C85_declared {errs : List (Option String)} (hn : DistinctNames (prepare s fs))
    (h : fxstruct parsed s fs l = .code out errs) :
    declared out = ((prepare s fs).allFields.filter (fun f => ¬Faulty ⟨prepare s fs, f⟩)).map (·.ident) := by
  rw [(of_code hn h).1, declared_final]
  congr 1
  refine List.filter_congr fun f _ => ?_
  cases hy : faulty ⟨prepare s fs, f⟩ with
  | true => simp [(faulty_iff _).mp hy]
  | false =>
    have : ¬Faulty ⟨prepare s fs, f⟩ := by rw [← faulty_iff, hy]; simp
    simp [this]

/-- **C85.** When does `Default` name a field the struct does not have: the field is at fault, and not both sync and lazy. -/
theorem C85_undeclared_iff {errs : List (Option String)} (hn : DistinctNames (prepare s fs))
    (h : fxstruct parsed s fs l = .code out errs) (f : FieldArgs) (hf : f ∈ (prepare s fs).allFields) :
    (f.ident ∈ defaulted out ∧ f.ident ∉ declared out) ↔
      Faulty ⟨prepare s fs, f⟩ ∧ ¬((FCtx.mk (prepare s fs) f).isSync = true ∧ (FCtx.mk (prepare s fs) f).isLazy = true) := by
  rw [(of_code hn h).1, declared_final, defaulted_final]
  generalize prepare s fs = c at *
  have hmem : ∀ p : FieldArgs → Bool, f.ident ∈ (c.allFields.filter p).map (·.ident) ↔ p f = true := by
    intro p
    constructor
    · intro hm
      obtain ⟨g, hg, he⟩ := List.mem_map.mp hm
      obtain ⟨hg, hp⟩ := List.mem_filter.mp hg
      rwa [ident_inj hn hg hf he] at hp
    · exact fun hp => List.mem_map.mpr ⟨f, List.mem_filter.mpr ⟨hf, hp⟩, rfl⟩
  rw [hmem, hmem, ← faulty_iff]
  unfold defaultFails faulty
  cases (FCtx.mk c f).isSync <;> cases (FCtx.mk c f).isLazy <;> cases (FCtx.mk c f).isFallible <;>
    cases hasErrorType ⟨c, f⟩ <;> cases (FCtx.mk c f).needsAccessor <;> simp

/-- C85 as far as it is true: the struct has a field which is not at fault, whatever the others do. -/
theorem C85_kept_partial {errs : List (Option String)} (hn : DistinctNames (prepare s fs))
    (h : fxstruct parsed s fs l = .code out errs) (f : FieldArgs) (hf : f ∈ (prepare s fs).allFields)
    (hy : ¬Faulty ⟨prepare s fs, f⟩) : f.ident ∈ declared out := by
  rw [C85_declared hn h]
  exact List.mem_map.mpr ⟨f, List.mem_filter.mpr ⟨hf, by simpa using hy⟩, rfl⟩

/-- Nothing is at fault. -/
theorem clean_flags (hn : DistinctNames (prepare s fs)) (h : fxstruct parsed s fs l = .code out []) :
    (∀ f ∈ (prepare s fs).allFields, faulty ⟨prepare s fs, f⟩ = false) ∧ faultyWhole (prepare s fs) l = false := by
  obtain ⟨h1, h2⟩ := (C83_clean_iff hn h).mp rfl
  refine ⟨fun f hf => ?_, ?_⟩
  · rw [← Bool.not_eq_true, faulty_iff]; exact h1 f hf
  · rw [← Bool.not_eq_true, faultyWhole_iff]; exact h2

end

/-- What is left of a field which is not at fault. -/
theorem view_clean {β : Type} (sel : Piece → Option β) (c : Ctx) (f : FieldArgs) (hy : faulty ⟨c, f⟩ = false) :
    (prepared c f).filterMap sel =
      (if (FCtx.mk c f).needsAccessor && (FCtx.mk c f).isCopy then (sel (.copy f.ident)).toList else []) ++
      ((sel (.dflt f.ident)).toList ++
        ((if f.isSkipped then [] else
            (methodKinds.filter (emits ⟨c, f⟩)).filterMap (fun k => sel (.method f.ident k)) ++
            (if (FCtx.mk c f).isSync && (FCtx.mk c f).isLazy && useAsync ⟨c, f⟩ then (sel (.wrapper f.ident)).toList else []) ++
            (if c.needsBuilderStruct then
              (if Verif.Model.Builder.hasSetter ⟨c, f⟩ then (sel (.setter f.ident)).toList else []) ++
                (sel (.slot f.ident)).toList
            else [])) ++
          (sel (.decl f.ident)).toList)) := by
  rw [view_prepared, (not_faulty _ hy).1, (not_faulty _ hy).2, hy]
  simp only [Bool.false_eq_true, if_false, Bool.not_false, if_true]

theorem slotReached_clean (c : Ctx) (f : FieldArgs) (hy : faulty ⟨c, f⟩ = false) :
    slotReached c f = (c.needsBuilderStruct && !f.isSkipped) := by
  unfold slotReached
  rw [(not_faulty _ hy).1, (not_faulty _ hy).2]
  simp

/-- The whole expansion without faults, seen through a view. -/
theorem final_clean {β : Type} (sel : Piece → Option β) (c : Ctx) (l : Lits)
    (hy : ∀ f ∈ c.allFields, faulty ⟨c, f⟩ = false) (hw : faultyWhole c l = false) :
    (finalOut c l).filterMap sel =
      c.allFields.flatMap (fun f => (prepared c f).filterMap sel) ++
      ((Verif.Model.Serde.shadowFields c).flatMap (fun f => (shadowPieces c l f).filterMap sel) ++
      ((if c.needsDefault then (sel .newFn).toList else []) ++
      ((if c.needsBuilderStruct then (sel .builderFn).toList else []) ++
      ((if c.args.isSerde then
        (if c.args.serde.elim false (fun sh => sh.hasDefault && sh.defaultValue.isSome) then (sel .wholeFn).toList else []) ++
          (sel .shadowStruct).toList
      else []) ++
      ((if c.args.isSerde && c.args.needsDeserialize then
        (deFields c).flatMap (fun f => (sel (.fromShadow f.ident)).toList) ++ (sel .fromImpl).toList
      else []) ++
      ((if c.args.isSerde && c.args.needsSerialize then
        (Verif.Model.Serde.serFields c).flatMap (fun f =>
          (if (FCtx.mk c f).isLazy then (sel (.lazyInit f.ident)).toList else []) ++ (sel (.intoShadow f.ident)).toList) ++
          (sel .intoImpl).toList
      else []) ++
      ((if c.needsDefault && !c.allFields.isEmpty then (sel .defaultImpl).toList else []) ++
      (if c.needsBuilderStruct then
        (Verif.Model.Builder.builderFields c).flatMap (fun f =>
          (sel (.build f.ident)).toList ++
          (if Verif.Model.Builder.hasChecker ⟨c, f⟩ then (sel (.checker f.ident)).toList else [])) ++
          (sel .builderStruct).toList
      else [])))))))) := by
  have hdef : (defaultsOf (before c l)).isEmpty = c.allFields.isEmpty := by
    have hd : defaultsOf (finalOut c l) = (c.allFields.filter (fun f => !defaultFails ⟨c, f⟩)).map (·.ident) := by
      rw [defaultsOf_eq]; exact defaulted_final c l
    have hb : defaultsOf (finalOut c l) = defaultsOf (before c l) := by
      unfold defaultsOf
      rw [view_final]
      simp only [Option.toList_none, ite_self, List.append_nil, flatMap_nil]
    rw [← hb, hd, List.filter_eq_self.mpr fun f hf => by simp [(not_faulty _ (hy f hf)).1]]
    cases c.allFields <;> rfl
  have hslots : c.needsBuilderStruct = true →
      c.allFields.filter (slotReached c) = Verif.Model.Builder.builderFields c := by
    intro hb
    refine List.filter_congr fun f hf => ?_
    rw [slotReached_clean c f (hy f hf), hb]
    rfl
  rw [view_final, view_before, view_whole, view_from, view_into, hdef, hw]
  simp only [List.append_assoc, Bool.not_false, Bool.and_true]
  congr 6
  · cases c.args.isSerde && c.args.needsDeserialize <;> simp only [Bool.false_eq_true, if_false, if_true]
    congr 1
    refine flatMap_congr' _ fun f hf => ?_
    rw [(not_faulty _ (hy f (List.mem_filter.mp hf).1)).1]
    rfl
  · congr 2
    cases hb : c.needsBuilderStruct <;> simp only [Bool.false_eq_true, if_false, if_true]
    rw [hslots hb]
    congr 1
    refine flatMap_congr' _ fun f hf => ?_
    rw [hy f (List.mem_filter.mp hf).1]
    rfl

theorem flatMap_one {α β : Type} (as : List α) (g : α → β) : as.flatMap (fun a => [g a]) = as.map g := by
  induction as with
  | nil => rfl
  | cons a as ih => rw [List.flatMap_cons, ih]; rfl

section clean
variable (c : Ctx) (l : Lits) (hy : ∀ f ∈ c.allFields, faulty ⟨c, f⟩ = false) (hw : faultyWhole c l = false)

set_option hygiene false in
local macro "view" : tactic => `(tactic| (
  rw [final_clean _ _ _ hy hw,
    flatMap_congr' _ fun f hf => view_clean _ _ f (hy f hf)]
  simp only [view_shadow, Option.toList_none, Option.toList_some, ite_self, List.append_nil, List.nil_append,
      filterMap_none', flatMap_nil, flatMap_one]))

include hy hw

theorem declared_clean : declared (finalOut c l) = c.allFields.map (·.ident) := by
  unfold declared
  view

theorem defaulted_clean : defaulted (finalOut c l) = c.allFields.map (·.ident) := by
  unfold defaulted
  view

theorem copy_clean : Spec.Expansion.copyChecked (finalOut c l) = (Verif.Model.Structs.copyChecked c).map (·.ident) := by
  unfold Spec.Expansion.copyChecked
  view
  exact flatMap_opt ..

theorem slots_clean (hb : c.needsBuilderStruct = true) :
    slots (finalOut c l) = (Verif.Model.Builder.builderFields c).map (·.ident) := by
  unfold slots
  rw [final_clean _ _ _ hy hw, flatMap_congr' _ fun f hf => view_clean _ _ f (hy f hf)]
  simp only [view_shadow, Option.toList_none, Option.toList_some, ite_self, List.append_nil, List.nil_append,
      filterMap_none', flatMap_nil, flatMap_one, hb, if_true]
  rw [Verif.Model.Builder.builderFields, ← flatMap_opt]
  refine flatMap_congr' _ fun f _ => ?_
  cases f.isSkipped <;> simp

theorem setters_clean (hb : c.needsBuilderStruct = true) :
    setters (finalOut c l) =
      ((Verif.Model.Builder.builderFields c).filter (fun f => Verif.Model.Builder.hasSetter ⟨c, f⟩)).map (·.ident) := by
  unfold setters
  rw [final_clean _ _ _ hy hw, flatMap_congr' _ fun f hf => view_clean _ _ f (hy f hf)]
  simp only [view_shadow, Option.toList_none, Option.toList_some, ite_self, List.append_nil, List.nil_append,
      filterMap_none', flatMap_nil, flatMap_one, hb, if_true]
  rw [Verif.Model.Builder.builderFields, List.filter_filter, ← flatMap_opt]
  refine flatMap_congr' _ fun f _ => ?_
  cases f.isSkipped <;> simp

theorem built_clean (hb : c.needsBuilderStruct = true) :
    built (finalOut c l) = (Verif.Model.Builder.builderFields c).map (·.ident) := by
  unfold built
  view
  simp only [hb, if_true]

theorem checked_clean (hb : c.needsBuilderStruct = true) :
    checked (finalOut c l) =
      ((Verif.Model.Builder.builderFields c).filter (fun f => Verif.Model.Builder.hasChecker ⟨c, f⟩)).map (·.ident) := by
  unfold checked
  view
  simp only [hb, if_true]
  exact flatMap_opt ..

theorem methods_clean : methods (finalOut c l) =
    (c.allFields.filter (fun f => !f.isSkipped)).flatMap (fun f => (methodKinds.filter (emits ⟨c, f⟩)).map (fun k => (f.ident, k))) := by
  unfold methods
  view
  generalize c.allFields = as
  induction as with
  | nil => rfl
  | cons f as ih =>
    rw [List.flatMap_cons, ih, List.filter_cons]
    cases f.isSkipped <;> simp

theorem shadowed_clean : shadowed (finalOut c l) = (Verif.Model.Serde.shadowFields c).map (·.ident) := by
  unfold shadowed
  view

theorem shadowDefaulted_clean (hd : c.needsDefault = true) :
    shadowDefaulted (finalOut c l) = (Verif.Model.Serde.shadowFields c).map (·.ident) := by
  unfold shadowDefaulted
  view
  simp only [hd, if_true, flatMap_one]

theorem fromShadowed_clean (hd : (c.args.isSerde && c.args.needsDeserialize) = true) :
    fromShadowed (finalOut c l) = (deFields c).map (·.ident) := by
  unfold fromShadowed
  view
  simp only [hd, if_true]

theorem intoShadowed_clean (hd : (c.args.isSerde && c.args.needsSerialize) = true) :
    intoShadowed (finalOut c l) = (Verif.Model.Serde.serFields c).map (·.ident) := by
  unfold intoShadowed
  view
  simp only [hd, if_true]

theorem lazyInited_clean (hd : (c.args.isSerde && c.args.needsSerialize) = true) :
    lazyInited (finalOut c l) =
      ((Verif.Model.Serde.serFields c).filter (fun f => (FCtx.mk c f).isLazy)).map (·.ident) := by
  unfold lazyInited
  view
  simp only [hd, if_true]
  exact flatMap_opt ..

theorem wrapped_clean : wrapped (finalOut c l) =
    (c.allFields.filter (fun f => !f.isSkipped && ((FCtx.mk c f).isSync && (FCtx.mk c f).isLazy && useAsync ⟨c, f⟩))).map
      (·.ident) := by
  unfold wrapped
  view
  rw [← flatMap_opt]
  refine flatMap_congr' _ fun f _ => ?_
  cases f.isSkipped <;> simp

theorem serdeFns_clean : serdeFns (finalOut c l) =
    ((Verif.Model.Serde.shadowFields c).filter (fun f => c.args.isSerde &&
      f.serde.elim false (fun sh => sh.hasDefault && sh.defaultValue.isSome && !l.isPath f.ident))).map (·.ident) := by
  unfold serdeFns
  view
  exact flatMap_opt ..

set_option hygiene false in
local macro "there" : tactic => `(tactic| (
  rw [contains_view, final_clean _ _ _ hy hw,
    flatMap_congr' _ fun f hf => view_clean _ _ f (hy f hf)]
  simp only [view_shadow, Option.toList_none, Option.toList_some, ite_self, List.append_nil, List.nil_append,
      filterMap_none', flatMap_nil, flatMap_one, reduceCtorEq, if_false, if_true]))

theorem newFn_clean : (finalOut c l).contains .newFn = c.needsDefault := by
  there
  cases c.needsDefault <;> rfl

theorem builderFn_clean : (finalOut c l).contains .builderFn = c.needsBuilderStruct := by
  there
  cases c.needsBuilderStruct <;> rfl

theorem builderStruct_clean : (finalOut c l).contains .builderStruct = c.needsBuilderStruct := by
  there
  cases c.needsBuilderStruct <;> rfl

theorem defaultImpl_clean : (finalOut c l).contains .defaultImpl = Verif.Model.Default.hasDefaultImpl c := by
  there
  unfold Verif.Model.Default.hasDefaultImpl
  cases c.needsDefault && !c.allFields.isEmpty <;> rfl

theorem shadowStruct_clean : (finalOut c l).contains .shadowStruct = c.args.isSerde := by
  there
  cases c.args.isSerde <;> rfl

theorem fromImpl_clean : (finalOut c l).contains .fromImpl = (c.args.isSerde && c.args.needsDeserialize) := by
  there
  cases c.args.isSerde && c.args.needsDeserialize <;> rfl

theorem intoImpl_clean : (finalOut c l).contains .intoImpl = (c.args.isSerde && c.args.needsSerialize) := by
  there
  cases c.args.isSerde && c.args.needsSerialize <;> rfl

theorem wholeFn_clean : (finalOut c l).contains .wholeFn =
    (c.args.isSerde && c.args.serde.elim false (fun sh => sh.hasDefault && sh.defaultValue.isSome)) := by
  there
  cases c.args.isSerde <;>
    cases c.args.serde.elim false (fun sh => sh.hasDefault && sh.defaultValue.isSome) <;> rfl

end clean

section
variable {parsed : Bool} {s : StructArgs} {fs : List FieldArgs} {l : Lits} {out : List Piece}

/-- **C84.** Without errors: the three structs have the fields of the declarative model. -/
theorem C84_fields (hn : DistinctNames (prepare s fs)) (h : fxstruct parsed s fs l = .code out []) (o : Structs.Owner)
    (ho : Verif.Model.Structs.declared (prepare s fs) o = true) :
    namesOf (prepare s fs) out o = (Structs.fieldsOf (prepare s fs) o).map (·.1) := by
  obtain ⟨hy, hw⟩ := clean_flags hn h
  rw [(of_code hn h).1]
  generalize prepare s fs = c at *
  cases o with
  | own =>
    show declared (finalOut c l) = _
    rw [declared_clean c l hy hw]
    simp [Structs.fieldsOf, Verif.Model.Structs.ownField, Function.comp_def]
  | builder =>
    show _ ++ slots (finalOut c l) = _
    rw [slots_clean c l hy hw ho]
    simp only [Structs.fieldsOf, List.map_append, List.map_map]
    cases c.args.isRefCounted <;> simp [Function.comp_def]
  | shadow =>
    show shadowed (finalOut c l) = _
    rw [shadowed_clean c l hy hw]
    simp [Structs.fieldsOf, Function.comp_def]

/-- **C84.** Without errors: the struct expressions written are those of the declarative model. -/
theorem C84_exprs (hn : DistinctNames (prepare s fs)) (h : fxstruct parsed s fs l = .code out []) :
    exprsOf (prepare s fs) out = Structs.exprs (prepare s fs) := by
  obtain ⟨hy, hw⟩ := clean_flags hn h
  rw [(of_code hn h).1]
  generalize prepare s fs = c at *
  unfold exprsOf Structs.exprs
  rw [newFn_clean c l hy hw, builderStruct_clean c l hy hw, defaultImpl_clean c l hy hw, shadowStruct_clean c l hy hw,
    fromImpl_clean c l hy hw, intoImpl_clean c l hy hw]
  have e1 := defaulted_clean c l hy hw
  have e2 := slots_clean c l hy hw
  have e3 := built_clean c l hy hw
  have e4 := shadowDefaulted_clean c l hy hw
  have e5 := fromShadowed_clean c l hy hw
  have e6 := intoShadowed_clean c l hy hw
  dsimp only
  rw [e1]
  congr 1
  · congr 1
    · congr 1
      · rw [List.append_assoc (_ ++ _)]
        congr 1
        unfold Verif.Model.Structs.builderNewExpr Verif.Model.Structs.buildExpr
        cases hb : c.needsBuilderStruct with
        | false => rfl
        | true =>
          have e2 := e2 hb
          have e3 := e3 hb
          rw [e2, e3]
          simp
      · unfold Verif.Model.Structs.shadowDefaultExpr
        cases hs : c.args.isSerde <;> cases hd : c.needsDefault <;> try rfl
        have e4 := e4 hd
        rw [e4]
    · unfold Verif.Model.Structs.fromExpr
      cases hs : (c.args.isSerde && c.args.needsDeserialize) with
      | false => rfl
      | true =>
        have e5 := e5 hs
        rw [e5]
        rfl
  · unfold Verif.Model.Structs.intoExpr
    cases hs : (c.args.isSerde && c.args.needsSerialize) with
    | false => rfl
    | true =>
      have e6 := e6 hs
      rw [e6]

/-- **C84.** Without errors: the methods written are those wanted, field by field. -/
theorem C84_methods_iff (hn : DistinctNames (prepare s fs)) (h : fxstruct parsed s fs l = .code out []) (f : FieldArgs)
    (hf : f ∈ (prepare s fs).allFields) (k : Kind) :
    (f.ident, k) ∈ methods out ↔ (k ≠ .builder ∧ k ≠ .lazy) ∧ emits ⟨prepare s fs, f⟩ k = true ∧ f.skip = false := by
  obtain ⟨hy, hw⟩ := clean_flags hn h
  rw [(of_code hn h).1]
  generalize prepare s fs = c at *
  rw [methods_clean c l hy hw]
  simp only [List.mem_flatMap, List.mem_filter, List.mem_map, Prod.mk.injEq, Bool.not_eq_true']
  constructor
  · rintro ⟨g, ⟨hg, hk⟩, k', ⟨hk', he⟩, hi, rfl⟩
    rw [ident_inj hn hg hf hi] at he hk
    exact ⟨by revert hk'; cases k' <;> simp [methodKinds], he, hk⟩
  · rintro ⟨hk', he, hk⟩
    exact ⟨f, ⟨hf, hk⟩, k, ⟨by revert hk'; cases k <;> simp [methodKinds], he⟩, rfl, rfl⟩

/-- **C84.** Without errors: no method is written twice. -/
theorem C84_methods_once (hn : DistinctNames (prepare s fs)) (h : fxstruct parsed s fs l = .code out []) :
    (methods out).Nodup := by
  obtain ⟨hy, hw⟩ := clean_flags hn h
  rw [(of_code hn h).1]
  generalize prepare s fs = c at *
  rw [methods_clean c l hy hw]
  have hn' : ((c.allFields.filter (fun f => !f.isSkipped)).map (·.ident)).Nodup :=
    List.Nodup.sublist (List.filter_sublist.map _) hn
  clear hn hy hw h
  generalize c.allFields.filter (fun f => !f.isSkipped) = as at *
  induction as with
  | nil => exact List.nodup_nil
  | cons f as ih =>
    rw [List.map_cons, List.nodup_cons] at hn'
    rw [List.flatMap_cons, List.nodup_append]
    refine ⟨?_, ih hn'.2, ?_⟩
    · refine List.Pairwise.map _ ?_ ((List.Pairwise.filter _ (by decide : methodKinds.Nodup)))
      rintro a b hab he
      injection he with _ he
      exact hab he
    · rintro ⟨n, k⟩ h1 ⟨n', k'⟩ h2 he
      obtain ⟨_, _, h1⟩ := List.mem_map.mp h1
      obtain ⟨g, hg, h2⟩ := List.mem_flatMap.mp h2
      obtain ⟨_, _, h2⟩ := List.mem_map.mp h2
      injection h1 with h1 _
      injection h2 with h2 _
      injection he with he _
      exact hn'.1 (List.mem_map.mpr ⟨g, hg, by rw [h2, ← he, h1]⟩)

/-- **C84.** Without errors: the builder object has a setter for every field that wants one, and `build()` a check for
every field whose value is required. -/
theorem C84_builder (hn : DistinctNames (prepare s fs)) (h : fxstruct parsed s fs l = .code out [])
    (hb : (prepare s fs).needsBuilderStruct = true) (f : FieldArgs) (hf : f ∈ (prepare s fs).allFields) :
    (f.ident ∈ setters out ↔ f.skip = false ∧ Verif.Model.Builder.hasSetter ⟨prepare s fs, f⟩ = true) ∧
    (f.ident ∈ checked out ↔ f.skip = false ∧ Verif.Model.Builder.hasChecker ⟨prepare s fs, f⟩ = true) ∧
    (f.ident ∈ built out ↔ f.skip = false) := by
  obtain ⟨hy, hw⟩ := clean_flags hn h
  rw [(of_code hn h).1]
  generalize prepare s fs = c at *
  rw [setters_clean c l hy hw hb, checked_clean c l hy hw hb, built_clean c l hy hw hb]
  have hmem : ∀ p : FieldArgs → Bool, f.ident ∈ (c.allFields.filter p).map (·.ident) ↔ p f = true := by
    intro p
    constructor
    · intro hm
      obtain ⟨g, hg, he⟩ := List.mem_map.mp hm
      obtain ⟨hg, hp⟩ := List.mem_filter.mp hg
      rwa [ident_inj hn hg hf he] at hp
    · exact fun hp => List.mem_map.mpr ⟨f, List.mem_filter.mpr ⟨hf, hp⟩, rfl⟩
  unfold Verif.Model.Builder.builderFields
  rw [List.filter_filter, List.filter_filter, hmem, hmem, hmem]
  simp only [Bool.and_eq_true, Bool.not_eq_true']
  exact ⟨And.comm, And.comm, Iff.rfl⟩

/-- **C84.** Without errors: the conversions have an entry for every field that takes part, and every lazy one is
initialised ahead of serialisation. -/
theorem C84_serde (hn : DistinctNames (prepare s fs)) (h : fxstruct parsed s fs l = .code out [])
    (hs : (prepare s fs).args.isSerde = true) (f : FieldArgs) (hf : f ∈ (prepare s fs).allFields) :
    ((prepare s fs).args.needsDeserialize = true → (f.ident ∈ fromShadowed out ↔
      (FCtx.mk (prepare s fs) f).isSerde = true ∧ (FCtx.mk (prepare s fs) f).needsDeserialize = true)) ∧
    ((prepare s fs).args.needsSerialize = true → (f.ident ∈ intoShadowed out ↔
      (FCtx.mk (prepare s fs) f).isSerde = true ∧ (FCtx.mk (prepare s fs) f).needsSerialize = true)) ∧
    ((prepare s fs).args.needsSerialize = true → (f.ident ∈ lazyInited out ↔
      (FCtx.mk (prepare s fs) f).isLazy = true ∧
        (FCtx.mk (prepare s fs) f).isSerde = true ∧ (FCtx.mk (prepare s fs) f).needsSerialize = true)) := by
  obtain ⟨hy, hw⟩ := clean_flags hn h
  rw [(of_code hn h).1]
  generalize prepare s fs = c at *
  have hmem : ∀ p : FieldArgs → Bool, f.ident ∈ (c.allFields.filter p).map (·.ident) ↔ p f = true := by
    intro p
    constructor
    · intro hm
      obtain ⟨g, hg, he⟩ := List.mem_map.mp hm
      obtain ⟨hg, hp⟩ := List.mem_filter.mp hg
      rwa [ident_inj hn hg hf he] at hp
    · exact fun hp => List.mem_map.mpr ⟨f, List.mem_filter.mpr ⟨hf, hp⟩, rfl⟩
  refine ⟨fun hd => ?_, fun hd => ?_, fun hd => ?_⟩
  · rw [fromShadowed_clean c l hy hw (by simp [hs, hd]), deFields, hmem]
    simp [Verif.Model.Serde.deserialised]
  · rw [intoShadowed_clean c l hy hw (by simp [hs, hd]), Verif.Model.Serde.serFields, hmem]
    simp
  · rw [lazyInited_clean c l hy hw (by simp [hs, hd]), Verif.Model.Serde.serFields, List.filter_filter, hmem]
    simp

end

/-- **C84.** Without errors: which items of their own the expansion has. `Default` needs a field; the wrapper is for async
lazy fields; `Copy` is checked for fields read by copy; functions are written for serde defaults which are no paths. -/
theorem C84_items {parsed : Bool} {s : StructArgs} {fs : List FieldArgs} {l : Lits} {out : List Piece}
    (hn : DistinctNames (prepare s fs)) (h : fxstruct parsed s fs l = .code out []) :
    (Piece.defaultImpl ∈ out ↔ (prepare s fs).needsDefault = true ∧ (prepare s fs).allFields ≠ []) ∧
    (Piece.newFn ∈ out ↔ (prepare s fs).needsDefault = true) ∧
    (Piece.builderFn ∈ out ↔ (prepare s fs).needsBuilderStruct = true) ∧
    (Piece.builderStruct ∈ out ↔ (prepare s fs).needsBuilderStruct = true) ∧
    (Piece.shadowStruct ∈ out ↔ s.isSerde = true) ∧
    (Piece.fromImpl ∈ out ↔ s.isSerde = true ∧ s.needsDeserialize = true) ∧
    (Piece.intoImpl ∈ out ↔ s.isSerde = true ∧ s.needsSerialize = true) ∧
    (Piece.wholeFn ∈ out ↔ s.isSerde = true ∧
      ∃ sh, s.serde = some sh ∧ sh.hasDefault = true ∧ sh.defaultValue.isSome = true) ∧
    (∀ f ∈ (prepare s fs).allFields, f.ident ∈ Spec.Expansion.copyChecked out ↔
      (FCtx.mk (prepare s fs) f).needsAccessor = true ∧ (FCtx.mk (prepare s fs) f).isCopy = true) ∧
    (∀ f ∈ (prepare s fs).allFields, f.ident ∈ wrapped out ↔ f.skip = false ∧
      (FCtx.mk (prepare s fs) f).isSync = true ∧ (FCtx.mk (prepare s fs) f).isLazy = true ∧
        useAsync ⟨prepare s fs, f⟩ = true) ∧
    (∀ f ∈ (prepare s fs).allFields, f.ident ∈ serdeFns out ↔
      (FCtx.mk (prepare s fs) f).isSerde = true ∧ s.isSerde = true ∧ l.isPath f.ident = false ∧
        ∃ sh, f.serde = some sh ∧ sh.hasDefault = true ∧ sh.defaultValue.isSome = true) := by
  obtain ⟨hy, hw⟩ := clean_flags hn h
  rw [(of_code hn h).1]
  have hs : s = (prepare s fs).args := rfl
  rw [hs]
  have hs' : prepare (prepare s fs).args fs = prepare s fs := rfl
  rw [hs']
  clear hs hs' h
  generalize prepare s fs = c at *
  have hmem : ∀ f ∈ c.allFields, ∀ p : FieldArgs → Bool,
      f.ident ∈ (c.allFields.filter p).map (·.ident) ↔ p f = true := by
    intro f hf p
    constructor
    · intro hm
      obtain ⟨g, hg, he⟩ := List.mem_map.mp hm
      obtain ⟨hg, hp⟩ := List.mem_filter.mp hg
      rwa [ident_inj hn hg hf he] at hp
    · exact fun hp => List.mem_map.mpr ⟨f, List.mem_filter.mpr ⟨hf, hp⟩, rfl⟩
  refine ⟨?_, ?_, ?_, ?_, ?_, ?_, ?_, ?_, fun f hf => ?_, fun f hf => ?_, fun f hf => ?_⟩
  · rw [← List.contains_iff_mem, defaultImpl_clean c l hy hw]
    simp [Verif.Model.Default.hasDefaultImpl]
  · rw [← List.contains_iff_mem, newFn_clean c l hy hw]
  · rw [← List.contains_iff_mem, builderFn_clean c l hy hw]
  · rw [← List.contains_iff_mem, builderStruct_clean c l hy hw]
  · rw [← List.contains_iff_mem, shadowStruct_clean c l hy hw]
  · rw [← List.contains_iff_mem, fromImpl_clean c l hy hw, Bool.and_eq_true]
  · rw [← List.contains_iff_mem, intoImpl_clean c l hy hw, Bool.and_eq_true]
  · rw [← List.contains_iff_mem, wholeFn_clean c l hy hw]
    cases c.args.serde <;> simp
  · rw [copy_clean c l hy hw, Verif.Model.Structs.copyChecked, hmem f hf, Bool.and_eq_true]
  · rw [wrapped_clean c l hy hw, hmem f hf]
    show (!f.skip && _) = true ↔ _
    simp [and_assoc]
  · rw [serdeFns_clean c l hy hw, Verif.Model.Serde.shadowFields, List.filter_filter, hmem f hf]
    cases f.serde <;> simp
    constructor
    · rintro ⟨⟨h1, ⟨h2, h3⟩, h4⟩, h5⟩; exact ⟨h5, h1, h4, h2, h3⟩
    · rintro ⟨h5, h1, h4, h2, h3⟩; exact ⟨⟨h1, ⟨h2, h3⟩, h4⟩, h5⟩

theorem exprs_declared (c : Ctx) : ∀ e ∈ Structs.exprs c, Verif.Model.Structs.declared c e.of = true := by
  unfold Structs.exprs Verif.Model.Structs.defaultExpr Verif.Model.Structs.newExpr Verif.Model.Structs.builderNewExpr
    Verif.Model.Structs.buildExpr Verif.Model.Structs.shadowDefaultExpr Verif.Model.Structs.fromExpr
    Verif.Model.Structs.intoExpr
  intro e he
  simp only [List.mem_append] at he
  rcases he with (((((he | he) | he) | he) | he) | he) | he <;> split at he <;>
    first
    | (rw [List.mem_singleton] at he
       subst he
       simp_all [Verif.Model.Structs.declared])
    | cases he

/-- **C84.** Without errors: the struct expressions as written are complete for the structs as written, exactly under the
conditions of C69. -/
theorem C84_complete_iff {parsed : Bool} {s : StructArgs} {fs : List FieldArgs} {l : Lits} {out : List Piece}
    (hn : DistinctNames (prepare s fs)) (h : fxstruct parsed s fs l = .code out []) :
    (∀ e ∈ exprsOf (prepare s fs) out, Verif.Spec.Structs.Complete (namesOf (prepare s fs) out e.of)
        (Verif.Model.Structs.hasDefault (prepare s fs) e.of) e) ↔
      ((prepare s fs).needsDefault = true → fs ≠ [] ∨ s.isRefCounted = true) ∧
      ((prepare s fs).needsBuilderStruct = true →
        (∀ h, s.rc = some h → h.isTrue = true) ∧ ∀ f ∈ fs, f.skip = false) ∧
      ((s.isSerde = true ∧ s.needsSerialize = true) → ∀ f ∈ fs, (FCtx.mk (prepare s fs) f).isSerde = true →
        (FCtx.mk (prepare s fs) f).needsSerialize = true) ∧
      ((s.isSerde = true ∧ s.needsDeserialize = true) → (prepare s fs).needsDefault = true ∨
        (s.isRefCounted = false ∧ ∀ f ∈ fs, (FCtx.mk (prepare s fs) f).isSerde = true ∧
          (FCtx.mk (prepare s fs) f).needsDeserialize = true)) := by
  rw [← Verif.Props.Structs.C69_exprs_iff s fs hn, C84_exprs hn h]
  refine forall_congr' fun e => forall_congr' fun he => ?_
  rw [C84_fields hn h e.of (exprs_declared _ e he)]

/-- A struct whose expansion has no errors: lazy fallible, optional with a default, a plain one that opts out of serde. -/
def exGood : List FieldArgs :=
  [{ ident := "a", lazy := some {}, fallible := some { error := some "E" } },
   { ident := "b", optional := some true, default := some { value := some "1" } },
   { ident := "c", serde := some { off := true } }]

def exGoodArgs : StructArgs := { modeSync := some true, serde := some {}, builder := some {} }

example : Accepted true exGoodArgs exGood ∧ DistinctNames (prepare exGoodArgs exGood) ∧
    ∃ out, fxstruct true exGoodArgs exGood {} = .code out [] :=
  ⟨by decide +kernel, by decide +kernel, finalOut (prepare exGoodArgs exGood) {}, by decide +kernel⟩

/-- A reference counted one. -/
example : Accepted true { rc := some {}, builder := some {} } exGood ∧
    ∃ out, fxstruct true { rc := some {}, builder := some {} } exGood {} = .code out [] ∧
      (exprsOf (prepare { rc := some {}, builder := some {} } exGood) out).length = 4 :=
  ⟨by decide +kernel, finalOut (prepare { rc := some {}, builder := some {} } exGood) {}, by decide +kernel,
    by decide +kernel⟩

/-- The plain lazy fallible field without an error type. -/
def exLost : List FieldArgs := [{ ident := "a", lazy := some {}, fallible := some {} }, { ident := "b" }]

/-- **C85.** "The struct keeps its fields even next to errors" is false: `a` is gone, and `Default` names it all the same. -/
theorem C85_undeclared_false : ∃ out, fxstruct true {} exLost {} = .code out [some "a"] ∧ declared out = ["b"] ∧
    defaulted out = ["a", "b"] :=
  ⟨finalOut (prepare {} exLost) {}, by decide +kernel, by decide +kernel, by decide +kernel⟩

example : Accepted true {} exLost ∧ DistinctNames (prepare {} exLost) ∧ Faulty ⟨prepare {} exLost, exLost[0]⟩ := by
  decide +kernel

end Verif.Props.Expand
