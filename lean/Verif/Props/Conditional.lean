import Verif.Proof.Conditional
import Verif.Props.Attrs
/-!
C102: what is left of an expansion after conditional compilation.
-/
namespace Verif.Props.Conditional
open Verif.Model.Args Verif.Model.Expand Verif.Model.Attrs Verif.Model.Conditional Verif.Spec.Conditional
open Verif.Proof.Expand Verif.Props.Expand Verif.Spec.Expansion Verif.Proof.Conditional
open Verif.Model.Emit (emits)
open Verif.Model.Structs (prepare)

section
variable {off : Mark → Bool} {c : Ctx} {l : Lits} {fattrs : String → List Attr}

theorem not_gone (i : Item) : (∀ m ∈ place c [] fattrs i, off m = false) ↔ ¬ Gone off c fattrs i := by
  unfold Gone
  constructor
  · rintro h ⟨m, hm, ho⟩; rw [h m hm] at ho; cases ho
  · intro h m hm
    cases ho : off m with
    | false => rfl
    | true => exact absurd ⟨m, hm, ho⟩ h

theorem both (a b : List Mark) : (∀ m ∈ a ++ b, off m = false) ↔ (∀ m ∈ a, off m = false) ∧ ∀ m ∈ b, off m = false := by
  simp only [List.mem_append]
  exact ⟨fun h => ⟨fun m hm => h m (.inl hm), fun m hm => h m (.inr hm)⟩, fun h m hm => hm.elim (h.1 m) (h.2 m)⟩

theorem field_of (hn : DistinctNames c) {f : FieldArgs} (hf : f ∈ c.allFields) : fieldOf c f.ident = f := by
  unfold fieldOf; rw [find_ident c.allFields hn hf]; rfl

/-- The parts taken out, item by item. -/
theorem stays_iff (p : Part) : Stays off c fattrs p ↔
    match p with
    | .piece (.decl n) => ¬ Gone off c fattrs (.structField (fieldOf c n))
    | .piece (.method n k) => ¬ Gone off c fattrs .structImpl ∧ ¬ Gone off c fattrs (.method (fieldOf c n) k)
    | .piece (.wrapper _) => ¬ Gone off c fattrs .structImpl
    | .piece (.copy _) => ¬ Gone off c fattrs .structImpl
    | .piece (.serdeFn _) => ¬ Gone off c fattrs .structImpl
    | .piece .wholeFn => ¬ Gone off c fattrs .structImpl
    | .piece .newFn => ¬ Gone off c fattrs .structImpl
    | .piece .builderFn => ¬ Gone off c fattrs .structImpl
    | .piece (.setter n) => ¬ Gone off c fattrs .builderImpl ∧ ¬ Gone off c fattrs (.builderSetter (fieldOf c n))
    | .piece (.build _) => ¬ Gone off c fattrs .builderImpl
    | .piece (.checker _) => ¬ Gone off c fattrs .builderImpl
    | .builderNew => ¬ Gone off c fattrs .builderImpl
    | .buildFn => ¬ Gone off c fattrs .builderImpl
    | .piece .builderStruct => ¬ Gone off c fattrs .builderStruct
    | .piece (.slot n) => ¬ Gone off c fattrs .builderStruct ∧ ¬ Gone off c fattrs (.builderField (fieldOf c n))
    | .piece .shadowStruct => ¬ Gone off c fattrs .shadowStruct
    | .piece (.shadow n) => ¬ Gone off c fattrs .shadowStruct ∧ ¬ Gone off c fattrs (.shadowField (fieldOf c n))
    | _ => True := by
  unfold Stays
  cases p with
  | piece p => cases p <;> simp only [marks, both, not_gone] <;> simp
  | _ => simp only [marks, not_gone] <;> simp

end

section
variable {parsed : Bool} {s : StructArgs} {fs : List FieldArgs} {l : Lits} {out : List Piece}
  {off : Mark → Bool} {fattrs : String → List Attr}

/-- **C102.** The code left after conditional compilation is in one piece exactly under the rule. -/
theorem C102_sound_iff (hn : DistinctNames (prepare s fs)) (h : fxstruct parsed s fs l = .code out []) :
    Sound off (prepare s fs) fattrs out ↔ Rule off (prepare s fs) l fattrs := by
  obtain ⟨hy, hw⟩ := clean_flags hn h
  rw [(of_code hn h).1]
  generalize prepare s fs = c at *
  have hslots : ∀ n, n ∈ slotsOf (finalOut c l) ↔ Has c l (.piece (.slot n)) := by
    intro n
    rw [← parts_iff hy hw, piece_mem]
    exact ⟨fun h => ⟨(mem_slot _ _).mpr h, rfl⟩, fun h => (mem_slot _ _).mp h.1⟩
  have hskip : ∀ {f : FieldArgs} {k : Kind}, emits ⟨c, f⟩ k = true → k ≠ .lazy := by
    rintro f k he rfl
    unfold emits at he; split at he <;> cases he
  unfold Sound
  simp only [parts_iff hy hw]
  constructor
  · intro hS
    have use : ∀ p n, Has c l p → Stays off c fattrs p → n ∈ mentions c (finalOut c l) p → Has c l (home n) →
        Stays off c fattrs (home n) := fun p n hp hs hm => hS p hp hs n hm
    constructor
    case fields =>
      intro f hf hg
      have hd : Has c l (home (.ownField f.ident)) := ⟨f, hf, rfl⟩
      have key : ∀ p, Has c l p → Stays off c fattrs p → Nm.ownField f.ident ∈ mentions c (finalOut c l) p → False := by
        intro p hp hs hm
        have := (stays_iff _).mp (use p _ hp hs hm hd)
        simp only [home, field_of hn hf] at this
        exact this hg
      refine ⟨?_, fun k hk he => ?_, fun hb => ?_, fun hr => ?_, fun hwr => ?_⟩
      · cases hd' : c.needsDefault with
        | false => rfl
        | true =>
          exact (key (.piece (.dflt f.ident)) ⟨hd', f, hf, rfl⟩ ((stays_iff _).mpr trivial) (by simp [mentions])).elim
      · apply Classical.byContradiction
        intro hc
        rw [not_or] at hc
        refine key (.piece (.method f.ident k)) ⟨f, hf, rfl, ⟨hk, hskip he⟩, he⟩ ((stays_iff _).mpr ?_) (by simp [mentions])
        simpa only [field_of hn hf] using hc
      · apply Classical.byContradiction
        intro hc
        rw [not_or, Bool.not_eq_true] at hc
        exact key (.piece (.build f.ident)) ⟨hb, f, hf, rfl, hc.1⟩ ((stays_iff _).mpr hc.2) (by simp [mentions])
      · exact key (.piece (.fromShadow f.ident)) ⟨f, hf, rfl, hr⟩ ((stays_iff _).mpr trivial) (by simp [mentions])
      · exact key (.piece (.intoShadow f.ident)) ⟨f, hf, rfl, hwr⟩ ((stays_iff _).mpr trivial) (by simp [mentions])
    case builder =>
      intro hb
      refine ⟨fun hg => ?_, fun hg => ?_, fun f hf hk hg => ?_⟩
      · apply Classical.byContradiction
        intro hc
        exact (stays_iff _).mp (use .buildFn .builderTy hb ((stays_iff _).mpr hc) (by simp [mentions]) hb) hg
      · apply Classical.byContradiction
        intro hc
        exact (stays_iff _).mp (use (.piece .builderFn) .builderNew hb ((stays_iff _).mpr hc) (by simp [mentions]) hb) hg
      · apply Classical.byContradiction
        intro hc
        have hh : Has c l (home (.builderField f.ident)) := ⟨hb, f, hf, rfl, hk⟩
        have := (stays_iff _).mp (use .builderNew (.builderField f.ident) hb ((stays_iff _).mpr hc)
          (by
            simp only [mentions, List.mem_cons, reduceCtorEq, List.mem_map, Nm.builderField.injEq, exists_eq_right, false_or]
            exact (hslots _).mpr hh) hh)
        simp only [home, field_of hn hf] at this
        exact this.2 hg
    case wrappers =>
      intro hg f hf ha
      have hd : Has c l (home (.wrapper f.ident)) := ⟨f, hf, rfl, ha⟩
      have key : ∀ p, Has c l p → Stays off c fattrs p → Nm.wrapper f.ident ∈ mentions c (finalOut c l) p → False :=
        fun p hp hs hm => (stays_iff _).mp (use p _ hp hs hm hd) hg
      refine ⟨?_, fun hb => ?_, fun hr => ?_⟩
      · cases hd' : c.needsDefault with
        | false => rfl
        | true =>
          exact (key (.piece (.dflt f.ident)) ⟨hd', f, hf, rfl⟩ ((stays_iff _).mpr trivial) (by simp [mentions])).elim
      · apply Classical.byContradiction
        intro hc
        exact key (.piece (.build f.ident)) ⟨hb, f, hf, rfl, ha.1⟩ ((stays_iff _).mpr hc) (by simp [mentions])
      · exact key (.piece (.fromShadow f.ident)) ⟨f, hf, rfl, hr⟩ ((stays_iff _).mpr trivial) (by simp [mentions])
    case shadow =>
      intro hs hg
      have key : ∀ p, Has c l p → Stays off c fattrs p → Nm.shadowTy ∈ mentions c (finalOut c l) p → False :=
        fun p hp hst hm => (stays_iff _).mp (use p _ hp hst hm hs) hg
      refine ⟨?_, ?_, ?_, fun hwf => ?_⟩
      · cases h' : c.args.needsSerialize with
        | false => rfl
        | true => exact (key (.piece .intoImpl) ⟨hs, h'⟩ ((stays_iff _).mpr trivial) (by simp [mentions])).elim
      · cases h' : c.args.needsDeserialize with
        | false => rfl
        | true => exact (key (.piece .fromImpl) ⟨hs, h'⟩ ((stays_iff _).mpr trivial) (by simp [mentions])).elim
      · cases h' : c.needsDefault with
        | false => rfl
        | true => exact (key .shadowDefault ⟨hs, h'⟩ ((stays_iff _).mpr trivial) (by simp [mentions])).elim
      · apply Classical.byContradiction
        intro hc
        exact key (.piece .wholeFn) hwf ((stays_iff _).mpr hc) (by simp [mentions])
    case shadowFields =>
      intro hs f hf hfs hg
      have hd : Has c l (home (.shadowField f.ident)) := ⟨hs, f, hf, rfl, hfs⟩
      have key : ∀ p, Has c l p → Stays off c fattrs p → Nm.shadowField f.ident ∈ mentions c (finalOut c l) p → False := by
        intro p hp hst hm
        have := (stays_iff _).mp (use p _ hp hst hm hd)
        simp only [home, field_of hn hf] at this
        exact this.2 hg
      refine ⟨?_, fun hr => ?_, fun hr => ?_⟩
      · cases h' : c.needsDefault with
        | false => rfl
        | true =>
          exact (key (.piece (.shadowDflt f.ident)) ⟨hs, h', f, hf, rfl, hfs⟩ ((stays_iff _).mpr trivial)
            (by simp [mentions])).elim
      · exact key (.piece (.fromShadow f.ident)) ⟨f, hf, rfl, hr⟩ ((stays_iff _).mpr trivial) (by simp [mentions])
      · exact key (.piece (.intoShadow f.ident)) ⟨f, hf, rfl, hr⟩ ((stays_iff _).mpr trivial) (by simp [mentions])
    case functions =>
      intro hg hde
      have hty : c.args.isSerde = true → ¬ Gone off c fattrs .shadowStruct := fun hs =>
        (stays_iff _).mp (use (.piece .fromImpl) .shadowTy ⟨hs, hde⟩ ((stays_iff _).mpr trivial) (by simp [mentions]) hs)
      refine ⟨fun hwf => ?_, fun f hf hff => ?_⟩
      · exact (stays_iff _).mp (use (.piece .shadowStruct) .wholeFn hwf.1 ((stays_iff _).mpr (hty hwf.1))
          (by simp [mentions, hde]) hwf) hg
      · apply Classical.byContradiction
        intro hc
        refine (stays_iff _).mp (use (.piece (.shadow f.ident)) (.serdeFn f.ident) ⟨hff.1, f, hf, rfl, hff.2.1⟩
          ((stays_iff _).mpr ?_) (by simp [mentions, hde]) ⟨f, hf, rfl, hff⟩) hg
        simp only [field_of hn hf]
        exact ⟨hty hff.1, hc⟩
  · intro hR p hp hst n hm hh
    rw [stays_iff] at hst ⊢
    -- what the rule says, by name
    have own : ∀ f ∈ c.allFields, (c.needsDefault = true ∨ Reads c f ∨ Writes c f ∨
        (c.needsBuilderStruct = true ∧ f.skip = false ∧ ¬ Gone off c fattrs .builderImpl) ∨
        (∃ k, k ≠ .builder ∧ emits ⟨c, f⟩ k = true ∧ ¬ Gone off c fattrs .structImpl ∧ ¬ Gone off c fattrs (.method f k))) →
        ¬ Gone off c fattrs (.structField f) := by
      intro f hf hcase hg
      obtain ⟨h1, h2, h3, h4, h5⟩ := hR.fields f hf hg
      rcases hcase with h | h | h | ⟨hb, hk, h⟩ | ⟨k, hk, he, h⟩
      · rw [h1] at h; cases h
      · exact h4 h
      · exact h5 h
      · rcases h3 hb with h' | h'
        · rw [hk] at h'; cases h'
        · exact h h'
      · rcases h2 k hk he with h' | h'
        · exact h.1 h'
        · exact h.2 h'
    have wrap : ∀ f ∈ c.allFields, AsyncLazy c f → (c.needsDefault = true ∨ Reads c f ∨
        (c.needsBuilderStruct = true ∧ ¬ Gone off c fattrs .builderImpl)) → ¬ Gone off c fattrs .structImpl := by
      intro f hf ha hcase hg
      obtain ⟨h1, h2, h3⟩ := hR.wrappers hg f hf ha
      rcases hcase with h | h | ⟨hb, h⟩
      · rw [h1] at h; cases h
      · exact h3 h
      · exact h (h2 hb)
    have bty : c.needsBuilderStruct = true → ¬ Gone off c fattrs .builderImpl → ¬ Gone off c fattrs .builderStruct :=
      fun hb hi hg => hi ((hR.builder hb).1 hg)
    have bfield : c.needsBuilderStruct = true → ¬ Gone off c fattrs .builderImpl → ∀ f ∈ c.allFields, f.skip = false →
        ¬ Gone off c fattrs (.builderField f) := fun hb hi f hf hk hg => hi ((hR.builder hb).2.2 f hf hk hg)
    have sty : c.args.isSerde = true → (c.args.needsSerialize = true ∨ c.args.needsDeserialize = true ∨
        c.needsDefault = true ∨ (WholeFn c ∧ ¬ Gone off c fattrs .structImpl)) → ¬ Gone off c fattrs .shadowStruct := by
      intro hs hcase hg
      obtain ⟨h1, h2, h3, h4⟩ := hR.shadow hs hg
      rcases hcase with h | h | h | ⟨h, h'⟩
      · rw [h1] at h; cases h
      · rw [h2] at h; cases h
      · rw [h3] at h; cases h
      · exact h' (h4 h)
    have sfield : ∀ f ∈ c.allFields, c.args.isSerde = true → (FCtx.mk c f).isSerde = true →
        (c.needsDefault = true ∨ Reads c f ∨ Writes c f) → ¬ Gone off c fattrs (.shadowField f) := by
      intro f hf hs hfs hcase hg
      obtain ⟨h1, h2, h3⟩ := hR.shadowFields hs f hf hfs hg
      rcases hcase with h | h | h
      · rw [h1] at h; cases h
      · exact h2 h
      · exact h3 h
    -- two names of one field
    have same : ∀ {f g : FieldArgs}, f ∈ c.allFields → g ∈ c.allFields → g.ident = f.ident → g = f :=
      fun hf hg he => ident_inj hn hg hf he
    cases p with
    | structAttr =>
      simp only [mentions, List.mem_singleton] at hm; subst hm
      exact sty hp.1 (hp.2.elim .inl (.inr ∘ .inl))
    | shadowDefault =>
      simp only [mentions, List.mem_singleton] at hm; subst hm
      exact sty hp.1 (.inr (.inr (.inl hp.2)))
    | buildFn =>
      simp only [mentions, List.mem_singleton] at hm; subst hm
      exact bty hp hst
    | builderNew =>
      simp only [mentions, List.mem_cons, List.mem_map] at hm
      rcases hm with rfl | ⟨n, hn', rfl⟩
      · exact bty hp hst
      · obtain ⟨_, f, hf, rfl, hk⟩ := (hslots n).mp hn'
        simp only [home, field_of hn hf]
        exact ⟨bty hp hst, bfield hp hst f hf hk⟩
    | piece p =>
      cases p with
      | decl n => simp [mentions] at hm
      | copy n => simp [mentions] at hm
      | slot n => simp [mentions] at hm
      | wrapper n => simp [mentions] at hm
      | serdeFn n => simp [mentions] at hm
      | defaultImpl => simp [mentions] at hm
      | builderStruct => simp [mentions] at hm
      | dflt n =>
        obtain ⟨hd, f, hf, rfl⟩ := hp
        simp only [mentions, List.mem_cons, List.not_mem_nil, or_false] at hm
        rcases hm with rfl | rfl
        · simp only [home, field_of hn hf]; exact own f hf (.inl hd)
        · obtain ⟨g, hg, he, ha⟩ := hh
          rw [same hf hg he] at ha
          exact wrap f hf ha (.inl hd)
      | build n =>
        obtain ⟨hb, f, hf, rfl, hk⟩ := hp
        simp only [mentions, List.mem_append, List.mem_cons, List.not_mem_nil, or_false] at hm
        rcases hm with (rfl | rfl | rfl) | hm
        · exact bty hb hst
        · simp only [home, field_of hn hf]; exact own f hf (.inr (.inr (.inr (.inl ⟨hb, hk, hst⟩))))
        · obtain ⟨g, hg, he, ha⟩ := hh
          rw [same hf hg he] at ha
          exact wrap f hf ha (.inr (.inr ⟨hb, hst⟩))
        · split at hm
          · simp only [List.mem_singleton] at hm; subst hm
            simp only [home, field_of hn hf]
            exact ⟨bty hb hst, bfield hb hst f hf hk⟩
          · simp at hm
      | fromShadow n =>
        obtain ⟨f, hf, rfl, hr⟩ := hp
        simp only [mentions, List.mem_cons, List.not_mem_nil, or_false] at hm
        rcases hm with rfl | rfl | rfl | rfl
        · exact sty hr.1 (.inr (.inl hr.2.1))
        · simp only [home, field_of hn hf]; exact own f hf (.inr (.inl hr))
        · simp only [home, field_of hn hf]
          exact ⟨sty hr.1 (.inr (.inl hr.2.1)), sfield f hf hr.1 hr.2.2.1 (.inr (.inl hr))⟩
        · obtain ⟨g, hg, he, ha⟩ := hh
          rw [same hf hg he] at ha
          exact wrap f hf ha (.inr (.inl hr))
      | method n k =>
        obtain ⟨f, hf, rfl, hk, he⟩ := hp
        simp only [mentions, List.mem_singleton] at hm; subst hm
        simp only [field_of hn hf] at hst
        simp only [home, field_of hn hf]
        exact own f hf (.inr (.inr (.inr (.inr ⟨k, hk.1, he, hst⟩))))
      | setter n =>
        obtain ⟨hb, f, hf, rfl, hk, hs⟩ := hp
        simp only [mentions, List.mem_cons, List.not_mem_nil, or_false] at hm
        rcases hm with rfl | rfl
        · exact bty hb hst.1
        · simp only [home, field_of hn hf]
          exact ⟨bty hb hst.1, bfield hb hst.1 f hf hk⟩
      | checker n =>
        obtain ⟨hb, f, hf, rfl, hk, hs⟩ := hp
        simp only [mentions, List.mem_cons, List.not_mem_nil, or_false] at hm
        rcases hm with rfl | rfl
        · exact bty hb hst
        · simp only [home, field_of hn hf]
          exact ⟨bty hb hst, bfield hb hst f hf hk⟩
      | builderFn =>
        simp only [mentions, List.mem_cons, List.not_mem_nil, or_false] at hm
        have hi : ¬ Gone off c fattrs .builderImpl := fun hg => hst ((hR.builder hp).2.1 hg)
        rcases hm with rfl | rfl
        · exact bty hp hi
        · exact hi
      | newFn =>
        simp only [mentions, List.mem_singleton] at hm; subst hm
        exact trivial
      | shadow n =>
        obtain ⟨hs, f, hf, rfl, hfs⟩ := hp
        simp only [mentions] at hm
        split at hm
        · rename_i hde
          simp only [List.mem_singleton] at hm; subst hm
          obtain ⟨g, hg, he, hff⟩ := hh
          rw [same hf hg he] at hff
          simp only [field_of hn hf] at hst
          exact fun hg => hst.2 ((hR.functions hg hde).2 f hf hff)
        · simp at hm
      | shadowStruct =>
        simp only [mentions] at hm
        split at hm
        · rename_i hde
          simp only [List.mem_singleton] at hm; subst hm
          exact fun hg => (hR.functions hg hde).1 hh
        · simp at hm
      | wholeFn =>
        simp only [mentions, List.mem_singleton] at hm; subst hm
        exact sty hp.1 (.inr (.inr (.inr ⟨hp, hst⟩)))
      | shadowDflt n =>
        obtain ⟨hs, hd, f, hf, rfl, hfs⟩ := hp
        simp only [mentions, List.mem_cons, List.not_mem_nil, or_false] at hm
        rcases hm with rfl | rfl
        · exact sty hs (.inr (.inr (.inl hd)))
        · simp only [home, field_of hn hf]
          exact ⟨sty hs (.inr (.inr (.inl hd))), sfield f hf hs hfs (.inl hd)⟩
      | fromImpl =>
        simp only [mentions, List.mem_cons] at hm
        rcases hm with rfl | hm
        · exact sty hp.1 (.inr (.inl hp.2))
        · split at hm
          · simp only [List.mem_singleton] at hm; subst hm; exact trivial
          · simp at hm
      | intoImpl =>
        simp only [mentions, List.mem_singleton] at hm; subst hm
        exact sty hp.1 (.inl hp.2)
      | lazyInit n =>
        obtain ⟨f, hf, rfl, hr, _⟩ := hp
        simp only [mentions, List.mem_singleton] at hm; subst hm
        simp only [home, field_of hn hf]; exact own f hf (.inr (.inr (.inl hr)))
      | intoShadow n =>
        obtain ⟨f, hf, rfl, hr⟩ := hp
        simp only [mentions, List.mem_cons, List.not_mem_nil, or_false] at hm
        rcases hm with rfl | rfl | rfl
        · exact sty hr.1 (.inl hr.2.1)
        · simp only [home, field_of hn hf]; exact own f hf (.inr (.inr (.inl hr)))
        · simp only [home, field_of hn hf]
          exact ⟨sty hr.1 (.inl hr.2.1), sfield f hf hr.1 hr.2.2.1 (.inr (.inr hr))⟩

/-- Only `attributes_fn` arguments have a `cfg` that does not hold. -/
def OnlyFn (off : Mark → Bool) (c : Ctx) : Prop :=
  (∀ s, off (.made s) = false) ∧ (∀ a, off (.own a) = false) ∧
  (∀ s, (∃ l, (c.args.attributes = some l ∨ c.args.attributesImpl = some l ∨
      (∃ b, c.args.builder = some b ∧ (b.attributes = some l ∨ b.attributesImpl = some l)) ∨
      (∃ h, c.args.serde = some h ∧ h.attributes = some l) ∨
      ∃ f ∈ c.allFields, (∃ b, f.builder = some b ∧ b.attributes = some l) ∨
        ∃ h, f.serde = some h ∧ h.attributes = some l) ∧ s ∈ l) → off (.arg s) = false)

theorem mem_ofArg {a : Option (List String)} {m : Mark} (h : m ∈ ofArg a) : ∃ l s, a = some l ∧ s ∈ l ∧ m = .arg s := by
  unfold ofArg at h
  obtain ⟨s, hs, rfl⟩ := List.mem_map.mp h
  cases a with
  | none => simp at hs
  | some l => exact ⟨l, s, rfl, by simpa using hs, rfl⟩

theorem or_some {α : Type} {a b : Option α} {x : α} (h : a.or b = some x) : a = some x ∨ b = some x := by
  cases a with
  | none => exact .inr h
  | some y => exact .inl h

theorem bind_some {α β : Type} {a : Option α} {g : α → Option β} {x : β} (h : a.bind g = some x) :
    ∃ y, a = some y ∧ g y = some x := by
  cases a with
  | none => cases h
  | some y => exact ⟨y, rfl, h⟩

theorem onlyFn_rest {c : Ctx} (ho : OnlyFn off c) :
    ¬ Gone off c fattrs .structImpl ∧ ¬ Gone off c fattrs .builderImpl ∧ ¬ Gone off c fattrs .builderStruct ∧
    ¬ Gone off c fattrs .shadowStruct ∧
    ∀ f ∈ c.allFields, ¬ Gone off c fattrs (.structField f) ∧ ¬ Gone off c fattrs (.builderField f) ∧
      ¬ Gone off c fattrs (.shadowField f) := by
  obtain ⟨hmade, hown, harg⟩ := ho
  have fin : ∀ {m : Mark} {P : Prop}, off m = true → off m = false → P := by
    intro m P h1 h2; rw [h1] at h2; cases h2
  refine ⟨?_, ?_, ?_, ?_, fun f hf => ⟨?_, ?_, ?_⟩⟩ <;> rintro ⟨m, hm, hoff⟩ <;> simp only [place] at hm
  · obtain ⟨l, s, h1, h2, rfl⟩ := mem_ofArg hm
    exact fin hoff (harg s ⟨l, .inr (.inl h1), h2⟩)
  · obtain ⟨l, s, h1, h2, rfl⟩ := mem_ofArg hm
    rcases or_some h1 with h1 | h1
    · obtain ⟨b, hb, h1⟩ := bind_some h1
      exact fin hoff (harg s ⟨l, .inr (.inr (.inl ⟨b, hb, .inr h1⟩)), h2⟩)
    · exact fin hoff (harg s ⟨l, .inr (.inl h1), h2⟩)
  · obtain ⟨l, s, h1, h2, rfl⟩ := mem_ofArg hm
    rcases or_some h1 with h1 | h1
    · obtain ⟨b, hb, h1⟩ := bind_some h1
      exact fin hoff (harg s ⟨l, .inr (.inr (.inl ⟨b, hb, .inl h1⟩)), h2⟩)
    · exact fin hoff (harg s ⟨l, .inl h1, h2⟩)
  · rcases List.mem_append.mp hm with hm | hm
    · unfold madeShadow at hm
      have : ∃ s, m = .made s := by
        rcases List.mem_append.mp hm with hm | hm <;> split at hm <;> simp at hm <;> exact ⟨_, hm⟩
      obtain ⟨s, rfl⟩ := this
      exact fin hoff (hmade s)
    · obtain ⟨l, s, h1, h2, rfl⟩ := mem_ofArg hm
      obtain ⟨b, hb, h1⟩ := bind_some h1
      exact fin hoff (harg s ⟨l, .inr (.inr (.inr (.inl ⟨b, hb, h1⟩))), h2⟩)
  · obtain ⟨a, _, rfl⟩ := List.mem_map.mp hm
    exact fin hoff (hown a)
  · rcases List.mem_append.mp hm with hm | hm
    · obtain ⟨l, s, h1, h2, rfl⟩ := mem_ofArg hm
      obtain ⟨b, hb, h1⟩ := bind_some h1
      exact fin hoff (harg s ⟨l, .inr (.inr (.inr (.inr ⟨f, hf, .inl ⟨b, hb, h1⟩⟩))), h2⟩)
    · split at hm
      · cases hm
      · simp only [List.mem_singleton] at hm; subst hm; exact fin hoff (hmade _)
  · rcases List.mem_append.mp hm with hm | hm
    · rcases List.mem_append.mp hm with hm | hm
      · split at hm
        · simp only [List.mem_singleton] at hm; subst hm; exact fin hoff (hmade _)
        · cases hm
      · obtain ⟨l, s, h1, h2, rfl⟩ := mem_ofArg hm
        rcases or_some h1 with h1 | h1
        · obtain ⟨b, hb, h1⟩ := bind_some h1
          exact fin hoff (harg s ⟨l, .inr (.inr (.inr (.inr ⟨f, hf, .inr ⟨b, hb, h1⟩⟩))), h2⟩)
        · exact fin hoff (harg s ⟨l, .inl h1, h2⟩)
    · obtain ⟨a, _, rfl⟩ := List.mem_map.mp hm
      exact fin hoff (hown a)

/-- **C102**, for `attributes_fn` (missing: the other attributes, for which it is false). A `cfg` there is always safe: whatever helpers it takes out, the code left is in one piece, and
nothing else goes. -/
theorem C102_attributes_fn_partial (hn : DistinctNames (prepare s fs)) (h : fxstruct parsed s fs l = .code out [])
    (ho : OnlyFn off (prepare s fs)) :
    Sound off (prepare s fs) fattrs out ∧
    ∀ p ∈ parts (prepare s fs) out, ¬ Stays off (prepare s fs) fattrs p →
      (∃ f ∈ (prepare s fs).allFields, ∃ k, p = .piece (.method f.ident k) ∧ Gone off (prepare s fs) fattrs (.method f k)) ∨
      (∃ f ∈ (prepare s fs).allFields, p = .piece (.setter f.ident) ∧ Gone off (prepare s fs) fattrs (.builderSetter f)) := by
  obtain ⟨g1, g2, g3, g4, g5⟩ := onlyFn_rest (fattrs := fattrs) ho
  refine ⟨(C102_sound_iff hn h).mpr ?_, ?_⟩
  · exact {
      fields := fun f hf hg => absurd hg (g5 f hf).1
      builder := fun _ => ⟨fun hg => absurd hg g3, fun hg => absurd hg g2, fun f hf _ hg => absurd hg (g5 f hf).2.1⟩
      wrappers := fun hg => absurd hg g1
      shadow := fun _ hg => absurd hg g4
      shadowFields := fun _ f hf _ hg => absurd hg (g5 f hf).2.2
      functions := fun hg => absurd hg g1 }
  · obtain ⟨hy, hw⟩ := clean_flags hn h
    rw [(of_code hn h).1]
    intro p hp hst
    rw [parts_iff hy hw] at hp
    rw [stays_iff] at hst
    cases p with
    | piece p =>
      cases p with
      | method n k =>
        obtain ⟨f, hf, rfl, _⟩ := hp
        simp only [field_of hn hf] at hst
        exact .inl ⟨f, hf, k, rfl, Classical.not_not.mp fun hc => hst ⟨g1, hc⟩⟩
      | setter n =>
        obtain ⟨_, f, hf, rfl, _⟩ := hp
        simp only [field_of hn hf] at hst
        exact .inr ⟨f, hf, rfl, Classical.not_not.mp fun hc => hst ⟨g2, hc⟩⟩
      | decl n => obtain ⟨f, hf, rfl⟩ := hp; simp only [field_of hn hf] at hst; exact absurd (g5 f hf).1 hst
      | slot n => obtain ⟨_, f, hf, rfl, _⟩ := hp; simp only [field_of hn hf] at hst; exact absurd ⟨g3, (g5 f hf).2.1⟩ hst
      | shadow n => obtain ⟨_, f, hf, rfl, _⟩ := hp; simp only [field_of hn hf] at hst; exact absurd ⟨g4, (g5 f hf).2.2⟩ hst
      | builderStruct => exact absurd g3 hst
      | shadowStruct => exact absurd g4 hst
      | build _ => exact absurd g2 hst
      | checker _ => exact absurd g2 hst
      | wrapper _ => exact absurd g1 hst
      | copy _ => exact absurd g1 hst
      | serdeFn _ => exact absurd g1 hst
      | wholeFn => exact absurd g1 hst
      | newFn => exact absurd g1 hst
      | builderFn => exact absurd g1 hst
      | _ => exact absurd trivial hst
    | builderNew => exact absurd g2 hst
    | buildFn => exact absurd g2 hst
    | _ => exact absurd trivial hst

/-- **C102.** A `cfg` on a field, as the user writes it, is safe exactly if the macro has nothing to do for the field: no
`Default`, no method, no part in the builder, none in the conversions of serde. -/
theorem C102_field_iff (hn : DistinctNames (prepare s fs)) (h : fxstruct parsed s fs l = .code out [])
    (hm : ∀ s, off (.made s) = false) (ha : ∀ s, off (.arg s) = false) :
    Sound off (prepare s fs) fattrs out ↔
      ∀ f ∈ (prepare s fs).allFields, (∃ a ∈ fattrs f.ident, off (.own a) = true) →
        (prepare s fs).needsDefault = false ∧ (∀ k, k ≠ .builder → emits ⟨prepare s fs, f⟩ k = false) ∧
        ((prepare s fs).needsBuilderStruct = true → f.skip = true) ∧ ¬ Reads (prepare s fs) f ∧ ¬ Writes (prepare s fs) f := by
  rw [C102_sound_iff hn h]
  generalize prepare s fs = c at *
  have args : ∀ a : Option (List String), ∀ m ∈ ofArg a, off m = false := by
    intro a m h
    obtain ⟨_, s, _, _, rfl⟩ := mem_ofArg h
    exact ha s
  have fin : ∀ {m : Mark} {P : Prop}, off m = true → off m = false → P := by
    intro m P h1 h2; rw [h1] at h2; cases h2
  have g1 : ¬ Gone off c fattrs .structImpl := by rintro ⟨m, h, ho⟩; exact fin ho (args _ m h)
  have g2 : ¬ Gone off c fattrs .builderImpl := by rintro ⟨m, h, ho⟩; exact fin ho (args _ m h)
  have g3 : ¬ Gone off c fattrs .builderStruct := by rintro ⟨m, h, ho⟩; exact fin ho (args _ m h)
  have g4 : ¬ Gone off c fattrs .shadowStruct := by
    rintro ⟨m, h, ho⟩
    rcases List.mem_append.mp h with h | h
    · have : ∃ s, m = .made s := by
        unfold madeShadow at h
        rcases List.mem_append.mp h with h | h <;> split at h <;> simp at h <;> exact ⟨_, h⟩
      obtain ⟨s, rfl⟩ := this
      exact fin ho (hm s)
    · exact fin ho (args _ m h)
  have g5 : ∀ f k, ¬ Gone off c fattrs (.method f k) := by
    rintro f k ⟨m, h, ho⟩
    rcases List.mem_cons.mp h with rfl | h
    · exact fin ho (hm _)
    · exact fin ho (args _ m h)
  have g6 : ∀ f, ¬ Gone off c fattrs (.builderField f) := by
    rintro f ⟨m, h, ho⟩
    rcases List.mem_append.mp h with h | h
    · exact fin ho (args _ m h)
    · split at h
      · cases h
      · simp only [List.mem_singleton] at h; subst h; exact fin ho (hm _)
  have g7 : ∀ f, Gone off c fattrs (.structField f) ↔ ∃ a ∈ fattrs f.ident, off (.own a) = true := by
    intro f
    constructor
    · rintro ⟨m, h, ho⟩
      obtain ⟨a, h', rfl⟩ := List.mem_map.mp h
      exact ⟨a, h', ho⟩
    · rintro ⟨a, h, ho⟩; exact ⟨_, List.mem_map_of_mem h, ho⟩
  have g8 : ∀ f, Gone off c fattrs (.shadowField f) → ∃ a ∈ fattrs f.ident, off (.own a) = true := by
    rintro f ⟨m, h, ho⟩
    rcases List.mem_append.mp h with h | h
    · rcases List.mem_append.mp h with h | h
      · split at h
        · simp only [List.mem_singleton] at h; subst h; exact fin ho (hm _)
        · cases h
      · exact fin ho (args _ m h)
    · obtain ⟨a, h', rfl⟩ := List.mem_map.mp h
      exact ⟨a, (List.mem_filter.mp h').1, ho⟩
  constructor
  · intro hR f hf hg
    obtain ⟨h1, h2, h3, h4⟩ := hR.fields f hf ((g7 f).mpr hg)
    refine ⟨h1, fun k hk => ?_, fun hb => (h3 hb).resolve_right g2, h4⟩
    cases he : emits ⟨c, f⟩ k with
    | false => rfl
    | true => exact ((h2 k hk he).elim g1 (g5 f k)).elim
  · intro hF
    exact {
      fields := fun f hf hg => by
        obtain ⟨h1, h2, h3, h4⟩ := hF f hf ((g7 f).mp hg)
        exact ⟨h1, fun k hk he => (by rw [h2 k hk] at he; cases he), fun hb => .inl (h3 hb), h4⟩
      builder := fun _ => ⟨fun hg => absurd hg g3, fun hg => absurd hg g2, fun f _ _ hg => absurd hg (g6 f)⟩
      wrappers := fun hg => absurd hg g1
      shadow := fun _ hg => absurd hg g4
      shadowFields := fun _ f hf _ hg => by
        obtain ⟨h1, _, _, h4⟩ := hF f hf (g8 f hg)
        exact ⟨h1, h4⟩
      functions := fun hg => absurd hg g1 }

/-- **C102.** A `cfg` on the builder struct alone, or on its impl alone, never works. -/
theorem C102_builder_alone (hn : DistinctNames (prepare s fs)) (h : fxstruct parsed s fs l = .code out [])
    (hb : (prepare s fs).needsBuilderStruct = true) (hi : ¬ Gone off (prepare s fs) fattrs .structImpl)
    (hg : Gone off (prepare s fs) fattrs .builderStruct ∨ Gone off (prepare s fs) fattrs .builderImpl) :
    ¬ Sound off (prepare s fs) fattrs out := by
  rw [C102_sound_iff hn h]
  intro hR
  obtain ⟨h1, h2, _⟩ := hR.builder hb
  exact hi (h2 (hg.elim h1 id))

/-- **C102.** A `cfg` on the shadow struct never works, if serde is to do anything. -/
theorem C102_shadow_alone (hn : DistinctNames (prepare s fs)) (h : fxstruct parsed s fs l = .code out [])
    (hs : (prepare s fs).args.isSerde = true)
    (hd : (prepare s fs).args.needsSerialize = true ∨ (prepare s fs).args.needsDeserialize = true)
    (hg : Gone off (prepare s fs) fattrs .shadowStruct) : ¬ Sound off (prepare s fs) fattrs out := by
  rw [C102_sound_iff hn h]
  intro hR
  obtain ⟨h1, h2, _⟩ := hR.shadow hs hg
  rcases hd with hd | hd
  · rw [h1] at hd; cases hd
  · rw [h2] at hd; cases hd

/-- **C102.** `attributes_impl` with a `cfg`, for the struct and so for the builder: the code left is in one piece exactly if
no async lazy field is given a value by `Default` or by serde, and deserialisation needs no function for a default. -/
theorem C102_attributes_impl_iff (hn : DistinctNames (prepare s fs)) (h : fxstruct parsed s fs l = .code out [])
    (hg : Gone off (prepare s fs) fattrs .structImpl)
    (hb : (prepare s fs).args.builder.bind (·.attributesImpl) = none)
    (hrest : ∀ i, Gone off (prepare s fs) fattrs i → i = .structImpl ∨ i = .builderImpl) :
    Sound off (prepare s fs) fattrs out ↔
      (∀ f ∈ (prepare s fs).allFields, AsyncLazy (prepare s fs) f →
        (prepare s fs).needsDefault = false ∧ ¬ Reads (prepare s fs) f) ∧
      ((prepare s fs).args.needsDeserialize = true →
        ¬ WholeFn (prepare s fs) ∧ ∀ f ∈ (prepare s fs).allFields, ¬ FieldFn (prepare s fs) l f) := by
  rw [C102_sound_iff hn h]
  generalize prepare s fs = c at *
  have hbi : Gone off c fattrs .builderImpl := by
    obtain ⟨m, h, ho⟩ := hg
    refine ⟨m, ?_, ho⟩
    show m ∈ ofArg (builderImplAttributes c.args)
    rw [show builderImplAttributes c.args = c.args.attributesImpl by simp [builderImplAttributes, hb]]
    exact h
  have no : ∀ i, i ≠ .structImpl → i ≠ .builderImpl → ¬ Gone off c fattrs i := fun i h1 h2 h => (hrest i h).elim h1 h2
  constructor
  · intro hR
    refine ⟨fun f hf ha => ?_, fun hde => ?_⟩
    · obtain ⟨h1, _, h2⟩ := hR.wrappers hg f hf ha
      exact ⟨h1, h2⟩
    · obtain ⟨h1, h2⟩ := hR.functions hg hde
      exact ⟨h1, fun f hf hff => no (.shadowField f) (by simp) (by simp) (h2 f hf hff)⟩
  · rintro ⟨h1, h2⟩
    exact {
      fields := fun f _ hg => absurd hg (no _ (by simp) (by simp))
      builder := fun _ => ⟨fun _ => hbi, fun _ => hg, fun _ _ _ _ => hbi⟩
      wrappers := fun _ f hf ha => ⟨(h1 f hf ha).1, fun _ => hbi, (h1 f hf ha).2⟩
      shadow := fun _ hg => absurd hg (no _ (by simp) (by simp))
      shadowFields := fun _ f _ _ hg => absurd hg (no _ (by simp) (by simp))
      functions := fun _ hde => ⟨(h2 hde).1, fun f hf hff => absurd hff ((h2 hde).2 f hf)⟩ }

end

/-- `#[cfg(no)]`, on its own or from an argument. -/
def offNo : Mark → Bool
  | .own a => a.path == "cfg" && a.body == "no"
  | .arg s => s == "cfg(no)"
  | .made _ => false

def onA : String → List Attr := fun n => if n = "a" then [⟨"cfg", "no"⟩] else []

instance (off : Mark → Bool) (c : Ctx) (fattrs : String → List Attr) (p : Part) : Decidable (Stays off c fattrs p) :=
  inferInstanceAs (Decidable (∀ m ∈ _, _))

instance (off : Mark → Bool) (c : Ctx) (fattrs : String → List Attr) (out : List Piece) : Decidable (Sound off c fattrs out) :=
  inferInstanceAs (Decidable (∀ p ∈ parts c out, _ → ∀ n ∈ mentions c out p, _ → _))

/-- Is the expansion without errors, and in one piece after conditional compilation? -/
def fine (s : StructArgs) (fs : List FieldArgs) (fattrs : String → List Attr) : Option Bool :=
  match fxstruct true s fs {} with
  | .code out [] => some (decide (Sound offNo (prepare s fs) fattrs out))
  | _ => none

/-- `#[fxstruct(default(off))]` -/
def bare : StructArgs := { default := some false }

/-- `#[fxstruct(default(off))] struct S { #[cfg(no)] #[fieldx(get)] a: T }` -/
def fieldA : List FieldArgs := [{ ident := "a", accessor := some {} }]

/-- The same with `get(attributes_fn(cfg(no)))`. -/
def fieldFn : List FieldArgs := [{ ident := "a", accessor := some { attrsFn := some ["cfg(no)"] } }]

/-- `#[cfg(no)] #[fieldx(get_mut(attributes_fn(cfg(no))))]`, plain or sync. -/
def fieldMut (sync : Option Bool) : List FieldArgs :=
  [{ ident := "a", modeSync := sync, accessorMut := some { attrsFn := some ["cfg(no)"] } }]

/-- The full claim, that no attribute of the user's takes the code apart, is false: the field goes and its accessor stays. The
same `cfg` in `attributes_fn` makes it good; not so for the mutable accessor of a sync field, which never gets the attribute. -/
theorem C102_full_false :
    (¬ ∀ (parsed : Bool) (s : StructArgs) (fs : List FieldArgs) (l : Lits) (out : List Piece) (fattrs : String → List Attr),
      DistinctNames (prepare s fs) → fxstruct parsed s fs l = .code out [] → Sound offNo (prepare s fs) fattrs out) ∧
    fine bare fieldA onA = some false ∧ fine bare fieldFn onA = some true ∧
    fine bare (fieldMut none) onA = some true ∧ fine bare (fieldMut (some true)) onA = some false := by
  have h1 : fine bare fieldA onA = some false := by decide +kernel
  refine ⟨fun hall => ?_, h1, by decide +kernel, by decide +kernel, by decide +kernel⟩
  unfold fine at h1
  split at h1
  · rename_i out he
    have := hall true bare fieldA {} out onA (by decide) he
    simp [this] at h1
  · cases h1

/-- A builder over the field, `Default`, which every struct gets unless it is switched off, serde: each is enough to break it
without any method. -/
example : fine { builder := some {}, default := some false } [{ ident := "a" }] onA = some false := by decide +kernel
example : fine {} [{ ident := "a" }] onA = some false := by decide +kernel
example : fine { serde := some {}, default := some false } [{ ident := "a" }] onA = some false := by decide +kernel
example : fine bare [{ ident := "a" }] onA = some true := by decide +kernel
example : fine { serde := some {}, default := some false } [{ ident := "a", serde := some { off := true } }] onA = some true := by
  decide +kernel
/-- `attributes_impl`, with and without an async lazy field in a struct with `Default`; on the builder only. -/
example : fine { attributesImpl := some ["cfg(no)"], builder := some {} } fieldA (fun _ => []) = some true := by decide +kernel
example : fine { attributesImpl := some ["cfg(no)"], modeAsync := some true }
    [{ ident := "a", lazy := some {} }] (fun _ => []) = some false := by decide +kernel
example : fine { attributesImpl := some ["cfg(no)"], modeAsync := some true, builder := some {}, default := some false }
    [{ ident := "a", lazy := some {} }] (fun _ => []) = some true := by decide +kernel
example : fine { builder := some { attributesImpl := some ["cfg(no)"] } } fieldA (fun _ => []) = some false := by
  decide +kernel
example : fine { serde := some { attributes := some ["cfg(no)"] } } fieldA (fun _ => []) = some false := by decide +kernel
/-- A setter of the builder object taken out. -/
example : fine { builder := some {} } [{ ident := "a", builder := some { attrsFn := some ["cfg(no)"] } }] (fun _ => []) =
    some true := by decide +kernel
/-- Only `attributes_fn` has a `cfg`, and it takes the accessor out. -/
def offArg : Mark → Bool
  | .arg s => s == "cfg(no)"
  | _ => false

example : OnlyFn offArg (prepare {} fieldFn) := by
  refine ⟨fun _ => rfl, fun _ => rfl, ?_⟩
  rintro s ⟨l, (h | h | ⟨b, h, _⟩ | ⟨b, h, _⟩ | ⟨f, hf, h⟩), _⟩
  · cases h
  · cases h
  · cases h
  · cases h
  · have : f = { ident := "a", accessor := some { attrsFn := some ["cfg(no)"] } } := by
      have he : (prepare {} fieldFn).allFields = fieldFn := by decide +kernel
      rw [he] at hf
      simpa [fieldFn] using hf
    subst this
    rcases h with ⟨_, h, _⟩ | ⟨_, h, _⟩ <;> cases h
example : Gone offArg (prepare {} fieldFn) (fun _ => []) (.method fieldFn[0] .accessor) := by
  refine ⟨.arg "cfg(no)", ?_, rfl⟩
  decide +kernel

end Verif.Props.Conditional
