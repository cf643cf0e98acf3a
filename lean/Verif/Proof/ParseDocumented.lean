import Verif.Spec.Documented
import Verif.Proof.ParseGrammar
/-! The documented forms are among the accepted ones. -/
namespace Verif.Proof.ParseDocumented
open Verif.Model.Parse (Arg Lit NV)
open Verif.Spec.Grammar Verif.Spec.Documented
open Verif.Proof.ParseGrammar (fitsIn_iff)

/-- Every item of the first form has the second. -/
def Sub (f g : Form) : Prop := ∀ a, Fits f a → Fits g a

/-- Every name of the first list is in the second, with a wider form. -/
def Subs (fs gs : List (String × Form)) : Prop := ∀ p ∈ fs, ∃ g, (p.1, g) ∈ gs ∧ Sub p.2 g

theorem subs_nil (gs : List (String × Form)) : Subs [] gs := by simp [Subs]

theorem subs_cons {n : String} {f g : Form} {r gs : List (String × Form)} (hm : (n, g) ∈ gs) (hs : Sub f g)
    (hr : Subs r gs) : Subs ((n, f) :: r) gs := by
  intro p hp
  rcases List.mem_cons.mp hp with rfl | hp
  · exact ⟨g, hm, hs⟩
  · exact hr p hp

theorem sub_group {bare lit : Bool} {once : List (List String)} {excl : List (List (List String))}
    {fs gs : List (String × Form)} (h : Subs fs gs) : Sub (.group bare lit once excl fs) (.group bare lit once excl gs) := by
  intro a ha
  cases a with
  | word n => simpa [Fits] using ha
  | nv n v => simp [Fits] at ha
  | lit l => simp [Fits] at ha
  | list n args =>
    simp only [Fits] at ha ⊢
    refine ⟨fun a hm => ?_, ha.2⟩
    rcases ha.1 a hm with h1 | h1
    · exact .inl h1
    · right
      obtain ⟨p, hp, hn, hf⟩ := (fitsIn_iff _ _).mp h1
      obtain ⟨g, hg, hs⟩ := h p hp
      exact (fitsIn_iff _ _).mpr ⟨_, hg, hn, hs _ hf⟩

theorem flag_flag : Sub docFlag aFlag := fun _ h => h

theorem flag_switch : Sub docFlag aSwitch := by
  rintro a ⟨n, rfl⟩
  simp [aSwitch, Fits]

theorem keyword_switch : Sub docKeyword aSwitch := by
  rintro a ⟨n, rfl | rfl⟩ <;> simp [aSwitch, Fits, FitsIn, aFlag, Arg.name, Arg.lit?]

theorem keyword_helper : Sub docKeyword aHelper := by
  rintro a ⟨n, rfl | rfl⟩ <;> simp [aHelper, helperFields, Fits, FitsIn, aFlag, Arg.name, Arg.lit?, Has]

theorem flag_truth : Sub docFlag aTruth := by
  rintro a ⟨n, rfl⟩
  exact ⟨n, .inl rfl⟩

theorem attributes_sub : Sub (docAttributes .rest) anAttributes := by
  rintro a ⟨n, args, rfl, h⟩
  refine ⟨n, args, rfl, fun b hb => ?_⟩
  rcases h b hb with h | h | h
  · exact .inl h
  · exact .inr (.inl h)
  · cases h.1

theorem public_sub : Sub (docPublic .rest) aPublic := by
  rintro a ⟨n, rfl | rfl | rfl | h⟩
  · exact ⟨n, .inl rfl⟩
  · exact ⟨n, .inr (.inl ⟨_, .inl rfl, .inl rfl⟩)⟩
  · exact ⟨n, .inr (.inl ⟨_, .inr rfl, .inl rfl⟩)⟩
  · cases h.1

theorem mode_sub : Sub docMode aMode := by
  rintro a ⟨n, rfl | rfl | rfl⟩
  · exact ⟨n, _, .inl rfl, rfl⟩
  · exact ⟨n, _, .inr (.inl rfl), rfl⟩
  · exact ⟨n, _, .inr (.inr rfl), rfl⟩

theorem path_sub : Sub docPath aPath := fun _ h => h
theorem path_two : Sub docPath aPathOrTwo := by
  rintro a ⟨n, p, rfl⟩
  exact ⟨n, p, .inl rfl⟩
theorem postBuild_sub : Sub docPostBuild aPathOrWord := fun _ h => h
theorem paths_sub : Sub docPaths aPaths := fun _ h => h

theorem text_sub : Sub docText aText := by
  rintro a ⟨n, s, rfl⟩
  simp [aText, Fits, FitsIn, Arg.name, Arg.lit?]

theorem default_sub : Sub docDefault aDefault := by
  rintro a ⟨n, rfl | ⟨s, rfl⟩ | ⟨p, rfl⟩ | ⟨p, as, rfl⟩⟩
  · exact ⟨n, .inl rfl⟩
  all_goals exact ⟨n, .inr (.inr ⟨_, .inl rfl⟩)⟩

theorem subs_helper {r gs : List (String × Form)} (hg : ∀ p ∈ helperFields, p ∈ gs) (hr : Subs r gs) :
    Subs (docSubs .rest ++ r) gs := by
  unfold docSubs
  refine subs_cons (hg _ (by simp [helperFields])) flag_flag ?_
  refine subs_cons (hg _ (by simp [helperFields])) attributes_sub ?_
  refine subs_cons (hg _ (by simp [helperFields])) public_sub ?_
  exact subs_cons (hg _ (by simp [helperFields])) flag_switch hr

theorem helper_sub : Sub (docHelper .rest) aHelper := by
  refine sub_group ?_
  have := subs_helper (r := []) (gs := helperFields) (fun _ h => h) (subs_nil _)
  simpa using this

theorem get_sub : Sub (docGet .rest) anAccessor := by
  refine sub_group (subs_helper (fun p h => List.mem_append_left _ h) ?_)
  refine subs_cons (g := aFlag) (by simp) flag_flag ?_
  refine subs_cons (g := aFlag) (by simp) flag_flag ?_
  exact subs_cons (g := aFlag) (by simp) flag_flag (subs_nil _)

theorem set_sub : Sub (docSet .rest) aSetter := by
  refine sub_group (subs_helper (fun p h => List.mem_append_left _ h) ?_)
  exact subs_cons (g := aTruth) (by simp) flag_truth (subs_nil _)

theorem structBuilder_sub : Sub (docStructBuilder .rest) aStructBuilder := by
  refine sub_group ?_
  simp only [Doc.rest, Bool.false_eq_true, if_false, List.append_nil]
  refine subs_helper (fun p h => List.mem_append_left _ h) ?_
  refine subs_cons (g := anAttributes) (by simp) attributes_sub ?_
  refine subs_cons (g := anAttributes) (by simp) attributes_sub ?_
  refine subs_cons (g := aSwitch) (by simp) keyword_switch ?_
  refine subs_cons (g := aSwitch) (by simp) keyword_switch ?_
  refine subs_cons (g := aPathOrWord) (by simp) postBuild_sub ?_
  exact subs_cons (g := aPathOrTwo) (by simp) path_two (subs_nil _)

theorem fieldBuilder_sub : Sub (docFieldBuilder .rest) aFieldBuilder := by
  refine sub_group ?_
  simp only [Doc.rest, Bool.false_eq_true, if_false, List.append_nil]
  refine subs_helper (fun p h => List.mem_append_left _ h) ?_
  refine subs_cons (g := anAttributes) (by simp) attributes_sub ?_
  refine subs_cons (g := anAttributes) (by simp) attributes_sub ?_
  refine subs_cons (g := aSwitch) (by simp) keyword_switch ?_
  exact subs_cons (g := aSwitch) (by simp) keyword_switch (subs_nil _)

theorem fallible_sub : Sub docFallible aFallible := by
  refine sub_group ?_
  refine subs_cons (g := aFlag) (by simp) flag_flag ?_
  exact subs_cons (g := aPath) (by simp) path_sub (subs_nil _)

theorem serde_sub : Sub (docSerde .rest) aSerde := by
  refine sub_group ?_
  refine subs_cons (g := aFlag) (by simp) flag_flag ?_
  refine subs_cons (g := aPublic) (by simp) public_sub ?_
  refine subs_cons (g := aSwitch) (by simp) flag_switch ?_
  refine subs_cons (g := anAttributes) (by simp) attributes_sub ?_
  refine subs_cons (g := aSwitch) (by simp) keyword_switch ?_
  refine subs_cons (g := aSwitch) (by simp) keyword_switch ?_
  refine subs_cons (g := aPaths) (by simp) paths_sub ?_
  exact subs_cons (g := aDefault) (by simp) default_sub (subs_nil _)

theorem field_sub : Sub (docField .rest) aField := by
  refine sub_group ?_
  refine subs_cons (g := aFlag) (by simp) flag_flag ?_
  refine subs_cons (g := aHelper) (by simp) helper_sub ?_
  refine subs_cons (g := aFallible) (by simp) fallible_sub ?_
  refine subs_cons (g := aSwitch) (by simp) keyword_switch ?_
  refine subs_cons (g := aText) (by simp) text_sub ?_
  refine subs_cons (g := anAccessor) (by simp) get_sub ?_
  refine subs_cons (g := aHelper) (by simp) helper_sub ?_
  refine subs_cons (g := aSetter) (by simp) set_sub ?_
  refine subs_cons (g := aHelper) (by simp) helper_sub ?_
  refine subs_cons (g := aHelper) (by simp) helper_sub ?_
  refine subs_cons (g := aHelper) (by simp) helper_sub ?_
  refine subs_cons (g := aHelper) (by simp) helper_sub ?_
  refine subs_cons (g := aSwitch) (by simp) keyword_switch ?_
  refine subs_cons (g := aPublic) (by simp) public_sub ?_
  refine subs_cons (g := aSwitch) (by simp) flag_switch ?_
  refine subs_cons (g := aSerde) (by simp) serde_sub ?_
  refine subs_cons (g := aSwitch) (by simp) keyword_switch ?_
  exact subs_cons (g := aFieldBuilder) (by simp) fieldBuilder_sub (subs_nil _)

theorem struct_sub : Sub (docStruct .rest) aStruct := by
  refine sub_group ?_
  refine subs_cons (g := anAttributes) (by simp) attributes_sub ?_
  refine subs_cons (g := anAttributes) (by simp) attributes_sub ?_
  refine subs_cons (g := aSwitch) (by simp) keyword_switch ?_
  refine subs_cons (g := aSwitch) (by simp) keyword_switch ?_
  refine subs_cons (g := aMode) (by simp) mode_sub ?_
  refine subs_cons (g := aHelper) (by simp) helper_sub ?_
  refine subs_cons (g := aFallible) (by simp) fallible_sub ?_
  refine subs_cons (g := aSwitch) (by simp) keyword_switch ?_
  refine subs_cons (g := aStructBuilder) (by simp) structBuilder_sub ?_
  refine subs_cons (g := aHelper) (by simp) keyword_helper ?_
  refine subs_cons (g := aSwitch) (by simp) keyword_switch ?_
  refine subs_cons (g := aSwitch) (by simp) keyword_switch ?_
  refine subs_cons (g := anAccessor) (by simp) get_sub ?_
  refine subs_cons (g := aHelper) (by simp) helper_sub ?_
  refine subs_cons (g := aSetter) (by simp) set_sub ?_
  refine subs_cons (g := aHelper) (by simp) helper_sub ?_
  refine subs_cons (g := aHelper) (by simp) helper_sub ?_
  refine subs_cons (g := aSwitch) (by simp) keyword_switch ?_
  refine subs_cons (g := aHelper) (by simp) helper_sub ?_
  refine subs_cons (g := aHelper) (by simp) helper_sub ?_
  refine subs_cons (g := aSwitch) (by simp) keyword_switch ?_
  refine subs_cons (g := aPublic) (by simp) public_sub ?_
  refine subs_cons (g := aSwitch) (by simp) flag_switch ?_
  refine subs_cons (g := aSwitch) (by simp) keyword_switch ?_
  refine subs_cons (g := aSwitch) (by simp) keyword_switch ?_
  exact subs_cons (g := aSerde) (by simp) serde_sub (subs_nil _)

end Verif.Proof.ParseDocumented
