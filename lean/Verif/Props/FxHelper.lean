import Verif.Proof.FxHelper
import Verif.Proof.ParseGrammar
/-!
# C115: the arguments of helpers are declared and checked as `fxhelper` promises

The macro of /repo/fieldx_derive_support/src/lib.rs for any struct it is applied to, whatever order the hash map of its
groups has, and the four structs of /repo/fieldx_aux it is applied to.
-/
namespace Verif.Props.FxHelper
open Verif.Model.FxHelper Verif.Spec.FxHelper Verif.Proof.FxHelper
open Verif.Model.Args Verif.Model.Exclusive

section
variable {i : Input} {o : Output} {given : Given}

/-- **C115.** The macro refuses a struct exactly if an argument in a group has a type which is not a path. -/
theorem C115_refused_iff : fxhelper i = none ↔ NoPath i := by
  rw [fxhelper, Option.map_eq_none_iff]
  exact collect_none

theorem out_of (ho : fxhelper i = some o) :
    ¬NoPath i ∧ Inv o.groups (full i) ∧ o.fields = common ++ i.fields ∧
      o.derives = ["FromMeta", "Clone"] ++ i.derives ++ gettersDerive i.derives ∧
      o.attributes = i.fields.any (·.name == "attributes") ∧ o.validate = i.validate := by
  refine ⟨fun hn => by rw [C115_refused_iff.mpr hn] at ho; simp at ho, ?_⟩
  unfold fxhelper at ho
  cases hc : collect i.fields groups₀ with
  | none => simp [hc] at ho
  | some gs =>
    simp only [hc, Option.map_some, Option.some.injEq] at ho
    subst ho
    exact ⟨inv_collect inv₀ hc, rfl, rfl, rfl, rfl⟩

/-- **C115.** The arguments are accepted exactly if no group has two of them, whatever the order of the map. -/
theorem C115_accepts_iff {gs : Groups} (hf : Fresh i) (ho : fxhelper i = some o) (hp : gs.Perm o.groups) :
    validateExclusives given gs = none ↔ ∀ g, ¬Conflict i given g := by
  obtain ⟨hn, hi, -⟩ := out_of ho
  have hi := inv_perm hi hp
  rw [validate_none]
  constructor
  · intro h g hc
    have hl := (conflict_iff hf hn given g).mpr hc
    have hne : full i g ≠ [] := by intro he; simp [he, setParams] at hl
    exact h (g, full i g) ((hi.2 _ _).mpr ⟨rfl, hne⟩) hl
  · rintro h ⟨g, ms⟩ he hl
    obtain ⟨rfl, -⟩ := (hi.2 _ _).mp he
    exact h g ((conflict_iff hf hn given g).mp hl)

/-- **C115.** An error can be reported, in some order of the map, exactly if it is about a group with two arguments or more
and names all of those given in the order of their declaration. -/
theorem C115_reported_iff (hf : Fresh i) (ho : fxhelper i = some o) (g : String) (l : List String) :
    (∃ gs, gs.Perm o.groups ∧ validateExclusives given gs = some (g, l)) ↔ Conflict i given g ∧ Names i given g l := by
  obtain ⟨hn, hi, -⟩ := out_of ho
  constructor
  · rintro ⟨gs, hp, h⟩
    obtain ⟨ms, hm, hl, rfl⟩ := validate_some h
    obtain ⟨rfl, -⟩ := ((inv_perm hi hp).2 _ _).mp hm
    exact ⟨(conflict_iff hf hn given g).mp hl, names_params hn given g⟩
  · rintro ⟨hc, hnm⟩
    have hl := (conflict_iff hf hn given g).mpr hc
    have hne : full i g ≠ [] := by intro he; simp [he, setParams] at hl
    have hm : (g, full i g) ∈ o.groups := (hi.2 _ _).mpr ⟨rfl, hne⟩
    refine ⟨(g, full i g) :: o.groups.erase (g, full i g), (List.perm_cons_erase hm).symm, ?_⟩
    rw [validate_head hl, names_unique hf hnm (names_params hn given g)]

/-- **C115.** The answer does not depend on the order of the map exactly if not more than one group is violated. -/
theorem C115_determined_iff (hf : Fresh i) (ho : fxhelper i = some o) :
    (∀ gs gs', gs.Perm o.groups → gs'.Perm o.groups →
      validateExclusives given gs = validateExclusives given gs') ↔
    ∀ g g', Conflict i given g → Conflict i given g' → g = g' := by
  obtain ⟨hn, hi, -⟩ := out_of ho
  constructor
  · intro h g g' hc hc'
    obtain ⟨gs, hp, hv⟩ := (C115_reported_iff hf ho g _).mpr ⟨hc, names_params hn given g⟩
    obtain ⟨gs', hp', hv'⟩ := (C115_reported_iff hf ho g' _).mpr ⟨hc', names_params hn given g'⟩
    have := h gs gs' hp hp'
    rw [hv, hv', Option.some.injEq, Prod.mk.injEq] at this
    exact this.1
  · intro h gs gs' hp hp'
    cases hv : validateExclusives given gs with
    | none =>
      exact ((C115_accepts_iff hf ho hp').mpr ((C115_accepts_iff hf ho hp).mp hv)).symm
    | some e =>
      obtain ⟨g, l⟩ := e
      cases hv' : validateExclusives given gs' with
      | none =>
        have := (C115_accepts_iff hf ho hp).mpr ((C115_accepts_iff hf ho hp').mp hv')
        rw [hv] at this
        simp at this
      | some e' =>
        obtain ⟨g', l'⟩ := e'
        obtain ⟨hc, hnm⟩ := (C115_reported_iff hf ho g l).mp ⟨gs, hp, hv⟩
        obtain ⟨hc', hnm'⟩ := (C115_reported_iff hf ho g' l').mp ⟨gs', hp', hv'⟩
        obtain rfl := h g g' hc hc'
        rw [names_unique hf hnm hnm']

/-- **C115.** With the function given: an object is accepted exactly if no group has two arguments and the function accepts
it. The function is asked only after the groups. -/
theorem C115_validate_iff {gs : Groups} (hf : Fresh i) (ho : fxhelper i = some o) (hp : gs.Perm o.groups) (ok : Bool) :
    (validateHelper { o with groups := gs } given ok = none ↔
      (∀ g, ¬Conflict i given g) ∧ (i.validate = true → ok = true)) ∧
    (validateHelper { o with groups := gs } given ok = some .own ↔
      (∀ g, ¬Conflict i given g) ∧ i.validate = true ∧ ok = false) := by
  have hv := (out_of ho).2.2.2.2.2
  unfold validateHelper
  simp only [hv]
  cases h : validateExclusives given gs with
  | none =>
    have := (C115_accepts_iff hf ho hp).mp h
    cases i.validate <;> cases ok <;> simp [this]
  | some e =>
    have : ¬∀ g, ¬Conflict i given g := fun hh => by
      rw [(C115_accepts_iff hf ho hp).mpr hh] at h; simp at h
    simp [this]

/-- **C115.** The checks compile exactly if all arguments in groups are written as `Flag` or are optional. -/
theorem C115_compiles_iff (hf : Fresh i) (ho : fxhelper i = some o) :
    checksCompile o = true ↔ ∀ f ∈ i.fields, f.exclusive ≠ none → Testable f := by
  obtain ⟨hn, hi, hfs, -⟩ := out_of ho
  have hnd : (i.fields.map (·.name)).Nodup := (List.sublist_append_right _ _).nodup hf
  have hinj : ∀ f ∈ i.fields, ∀ f' ∈ i.fields, f.name = f'.name → f = f' := by
    generalize i.fields = l at hnd
    induction l with
    | nil => simp
    | cons a r ih =>
      rw [List.map_cons, List.nodup_cons] at hnd
      intro f h f' h' he
      rcases List.mem_cons.mp h with rfl | h <;> rcases List.mem_cons.mp h' with rfl | h'
      · rfl
      · exact absurd (List.mem_map.mpr ⟨f', h', he.symm⟩) hnd.1
      · exact absurd (List.mem_map.mpr ⟨f, by assumption, he⟩) hnd.1
      · exact ih hnd.2 f h f' h' he
  have hdis : ∀ f ∈ i.fields, f.name ∉ ["name", "off", "attributes_fn", "public", "private"] := by
    intro f h hm
    exact (List.nodup_append.mp hf).2.2 _ hm _ (List.mem_map.mpr ⟨f, h, rfl⟩) rfl
  have hcomm : ∀ f ∈ common, f.name ∈ ["name", "off", "attributes_fn", "public", "private"] := by decide
  simp only [checksCompile, List.all_eq_true, hfs]
  constructor
  · intro h f hfm he
    obtain ⟨g, hg⟩ := Option.ne_none_iff_exists'.mp he
    have hty : f.ty ≠ .other := fun ht => hn ⟨f, hfm, he, ht⟩
    obtain ⟨t, ht⟩ : ∃ t, testOf f.ty = some t := by revert hty; cases f.ty <;> simp [testOf]
    have hm : (f.name, t) ∈ full i g := by
      refine List.mem_append.mpr (.inr (List.mem_filterMap.mpr ⟨f, hfm, ?_⟩))
      simp [hg, ht]
    have hgs : (g, full i g) ∈ o.groups := (hi.2 _ _).mpr ⟨rfl, fun h0 => by simp [h0] at hm⟩
    have := h _ hgs _ hm f (List.mem_append.mpr (.inr hfm))
    simp only [bne_self_eq_false, Bool.false_or] at this
    unfold Testable
    revert ht this
    cases f.ty <;> simp [testOf] <;> rintro rfl <;> simp [hasMethod]
  · rintro h ⟨g, ms⟩ hgs ⟨n, t⟩ hm f hfm
    obtain ⟨rfl, -⟩ := (hi.2 _ _).mp hgs
    simp only [Bool.or_eq_true, bne_iff_ne, ne_eq]
    by_cases hfn : f.name = n
    · right
      subst hfn
      rcases List.mem_append.mp hm with hm | hm
      · have hv : t = .isSome ∧ (f.name = "public" ∨ f.name = "private") := by
          unfold pre₀ at hm
          split at hm
          · simp at hm
            rcases hm with ⟨h1, h2⟩ | ⟨h1, h2⟩ <;> simp [h1, h2]
          · simp at hm
        obtain ⟨rfl, hv⟩ := hv
        rcases List.mem_append.mp hfm with hc | hc
        · have : ∀ f ∈ common, f.name = "public" ∨ f.name = "private" → hasMethod f.ty .isSome = true := by decide
          exact this f hc hv
        · refine absurd ?_ (hdis f hc)
          rcases hv with hv | hv <;> simp [hv]
      · obtain ⟨f', hf', hh⟩ := List.mem_filterMap.mp hm
        have hex : f'.exclusive = some g := by
          cases hd : decide (f'.exclusive = some g) <;> simp at hd
          · simp [hd] at hh
          · exact hd
        rw [if_pos hex, Option.map_eq_some_iff] at hh
        obtain ⟨t', ht', he⟩ := hh
        rw [Prod.mk.injEq] at he
        obtain ⟨hname, rfl⟩ := he
        have hff : f = f' := by
          rcases List.mem_append.mp hfm with hc | hc
          · exact absurd (hname ▸ hcomm f hc) (hdis f' hf')
          · exact hinj f hc f' hf' hname.symm
        subst hff
        have := h f hf' (by simp [hex])
        rcases this with ht | ht <;> rw [ht] at ht' ⊢ <;> simp [testOf] at ht' <;> subst ht' <;> rfl
    · exact .inl hfn

/-- **C115.** The struct has the common arguments and its own, in this order and no others; `attributes()` gives the field
of this name if there is one. -/
theorem C115_fields (ho : fxhelper i = some o) :
    o.fields.map (·.name) = declared i ∧ (o.attributes = true ↔ "attributes" ∈ i.fields.map (·.name)) := by
  obtain ⟨-, -, hfs, -, ha, -⟩ := out_of ho
  refine ⟨by rw [hfs, List.map_append]; rfl, ?_⟩
  rw [ha, List.any_eq_true, List.mem_map]
  constructor
  · rintro ⟨f, hf, h⟩; exact ⟨f, hf, by simpa using h⟩
  · rintro ⟨f, hf, h⟩; exact ⟨f, hf, by simpa using h⟩

/-- **C115.** Nothing is derived twice exactly if the struct lists nothing twice and neither `FromMeta` nor `Clone`; `Getters`
is always there, so that the getter for `off` exists. -/
theorem C115_derives (ho : fxhelper i = some o) :
    "Getters" ∈ o.derives ∧ "FromMeta" ∈ o.derives ∧ "Clone" ∈ o.derives ∧
    (o.derives.Nodup ↔ i.derives.Nodup ∧ "FromMeta" ∉ i.derives ∧ "Clone" ∉ i.derives) := by
  obtain ⟨-, -, -, hd, -⟩ := out_of ho
  rw [hd, gettersDerive]
  by_cases hg : "Getters" ∈ i.derives
  · rw [if_pos hg]
    refine ⟨by simp [hg], by simp, by simp, ?_⟩
    simp only [List.cons_append, List.nil_append, List.append_nil, List.nodup_cons, List.mem_cons]
    constructor
    · rintro ⟨h1, h2, h3⟩
      exact ⟨h3, fun h => h1 (.inr h), h2⟩
    · rintro ⟨h1, h2, h3⟩
      refine ⟨?_, h3, h1⟩
      rintro (h | h)
      · simp at h
      · exact h2 h
  · rw [if_neg hg]
    refine ⟨by simp, by simp, by simp, ?_⟩
    simp only [List.cons_append, List.nil_append, List.nodup_cons, List.mem_cons, List.mem_append, List.mem_singleton,
      List.nodup_append]
    constructor
    · rintro ⟨h1, h2, h3, -, -⟩
      exact ⟨h3, fun h => h1 (.inr (.inl h)), fun h => h2 (.inl h)⟩
    · rintro ⟨h1, h2, h3⟩
      refine ⟨?_, ?_, h1, by simp, ?_⟩
      · rintro (h | h | h)
        · simp at h
        · exact h2 h
        · simp at h
      · rintro (h | h)
        · exact h3 h
        · simp at h
      · rintro a ha b (rfl | hb) rfl
        · exact hg ha
        · simp at hb

end

/-! ### The four helper structs -/

/-- **C115.** Each of the four structs satisfies what is assumed above, its checks compile and it derives nothing twice, but
everything that holders of helpers derive or call: they are all derived `Clone` and `Debug`, and `FXNestingAttr` needs
`FromMeta`, the conversions from `bool` need `Default`. -/
theorem C115_uses : ∀ u ∈ uses, Fresh u ∧ ∃ o, fxhelper u = some o ∧ checksCompile o = true ∧ o.derives.Nodup ∧
    ∀ d ∈ ["FromMeta", "Clone", "Debug", "Default", "Getters"], d ∈ o.derives := by
  intro u hu
  have hf : Fresh u := by
    simp only [uses, List.mem_cons, List.not_mem_nil, or_false] at hu
    rcases hu with rfl | rfl | rfl | rfl <;> (unfold Fresh; decide +kernel)
  have hd : ∃ o, fxhelper u = some o := by
    simp only [uses, List.mem_cons, List.not_mem_nil, or_false] at hu
    rcases hu with rfl | rfl | rfl | rfl <;> exact ⟨_, rfl⟩
  obtain ⟨o, ho⟩ := hd
  refine ⟨hf, o, ho, (C115_compiles_iff hf ho).mpr ?_, (C115_derives ho).2.2.2.mpr ?_, ?_⟩
  · simp only [uses, List.mem_cons, List.not_mem_nil, or_false] at hu
    unfold Testable
    rcases hu with rfl | rfl | rfl | rfl <;> decide +kernel
  · simp only [uses, List.mem_cons, List.not_mem_nil, or_false] at hu
    rcases hu with rfl | rfl | rfl | rfl <;> decide +kernel
  · simp only [uses, List.mem_cons, List.not_mem_nil, or_false] at hu
    rcases hu with rfl | rfl | rfl | rfl <;> (cases ho; decide +kernel)

/-- **C115.** The names under which the arguments are read are those of the model of reading (C64): the common ones in each
helper, and its own. -/
theorem C115_names :
    declared base = Verif.Model.Parse.helperNames ∧
    declared accessor = Verif.Model.Parse.helperNames ++ ["clone", "copy", "as_ref"] ∧
    declared setter = Verif.Model.Parse.helperNames ++ ["into"] ∧
    declared builder = Verif.Model.Parse.helperNames ++
      ["attributes", "attributes_impl", "into", "required", "opt_in", "post_build", "error"] :=
  ⟨rfl, rfl, rfl, rfl⟩

open Verif.Spec.Grammar (Has) in
open Verif.Proof.ParseGrammar in
/-- **C115.** The answers on which the check works are those of the argument list: what was written counts as given, and nothing
else. Of `name` this is the text. -/
theorem C115_given {args : List Verif.Model.Parse.Arg} {a : Accessor} (h : Verif.Model.Parse.accessorList args = some a) (n : String) :
    accessorGiven a n = true ↔
      Has n args ∧ n ∈ declared accessor ∧
        (n = "name" → ∃ e ∈ args, e.name = some "name" ∧ ∃ s, Verif.Model.Parse.fxString e = some (some s)) := by
  unfold Verif.Model.Parse.accessorList at h
  split at h
  · rename_i hk
    simp only [Option.bind_eq_bind, Option.bind_eq_some_iff] at h
    obtain ⟨p, hp, cl, h1, co, h2, ar, h3, h⟩ := h
    unfold Verif.Model.Parse.helperSlots at hp
    simp only [Option.bind_eq_bind, Option.bind_eq_some_iff, Option.pure_def, Option.some.injEq] at hp
    obtain ⟨nm, e1, off, e2, at', e3, pb, e4, pr, e5, rfl⟩ := hp
    unfold Verif.Model.Parse.check at h
    split at h
    · cases h
      have hd : declared accessor = ["name", "off", "attributes_fn", "public", "private", "clone", "copy", "as_ref"] := rfl
      rw [hd]
      have f1 := flag_has h1
      have f2 := flag_has h2
      have f3 := flag_has h3
      have s1 := slot_has e1
      have s2 := flag_has e2
      have s3 := slot_has e3
      have s4 := slot_has e4
      have s5 := slot_has e5
      have hnm : (nm.bind id).isSome = true ↔ ∃ e ∈ args, e.name = some "name" ∧ ∃ s, Verif.Model.Parse.fxString e = some (some s) := by
        cases nm with
        | none =>
          have := slot_none e1
          simp only [Option.bind_none, Option.isSome_none, Bool.false_eq_true, false_iff]
          rintro ⟨b, hb, hn, _⟩
          have := mem_called.mpr ⟨hb, hn⟩
          simp_all
        | some r =>
          obtain ⟨b, hc, hb⟩ := slot_some e1
          have hm : b ∈ Verif.Model.Parse.called "name" args := by simp [hc]
          constructor
          · intro hr
            obtain ⟨s, hs⟩ := Option.isSome_iff_exists.mp hr
            exact ⟨b, (mem_called.mp hm).1, (mem_called.mp hm).2, s, by rw [hb]; simpa using hs⟩
          · rintro ⟨d, hd, hn, s, hs⟩
            have := mem_called.mpr ⟨hd, hn⟩
            rw [hc] at this
            simp at this
            subst this
            rw [hb] at hs
            cases hs
            rfl
      unfold accessorGiven
      split
      · simp [f1]
      · simp [f2]
      · simp [f3]
      · rename_i g1 g2 g3
        unfold helperGiven
        split
        · simp only [hnm]
          constructor
          · rintro ⟨b, hb, hn, s⟩; exact ⟨⟨b, hb, hn⟩, by simp, fun _ => ⟨b, hb, hn, s⟩⟩
          · exact fun h => h.2.2 trivial
        · simp [s2]
        · simp [s3]
        · simp [s4]
        · simp [s5]
        · simp_all
    · cases h
  · cases h

/-- `get(off, public, copy)`. -/
example : ∃ a, Verif.Model.Parse.accessorList [.word "off", .word "public", .word "copy"] = some a ∧
    ["name", "off", "attributes_fn", "public", "private", "clone", "copy", "as_ref"].map (accessorGiven a) =
      [false, true, false, true, false, false, true, false] := ⟨_, rfl, by decide +kernel⟩

/-- **C115.** What the generated check of `FXBaseHelper` and `FXSetterHelper` accepts is `acceptHelper`, in any order. -/
theorem C115_helper (u : Input) (hu : u = base ∨ u = setter) (o : Output) (ho : fxhelper u = some o) (gs : Groups)
    (hp : gs.Perm o.groups) (h : Helper) :
    validateHelper { o with groups := gs } (helperGiven h) true = none ↔ acceptHelper h = true := by
  have hg : o.groups = groups₀ := by rcases hu with rfl | rfl <;> (cases ho; rfl)
  have hv : o.validate = false := by rcases hu with rfl | rfl <;> (cases ho; rfl)
  rw [hg] at hp
  obtain rfl : gs = groups₀ := List.perm_singleton.mp hp
  unfold validateHelper
  simp only [hv, groups₀, validateExclusives, setParams]
  cases h1 : h.pub <;> cases h2 : h.priv <;> simp [helperGiven, h1, h2, acceptHelper, helperGroupOk]

/-- **C115.** The same for `FXAccessorHelper`. -/
theorem C115_accessor (o : Output) (ho : fxhelper accessor = some o) (gs : Groups) (hp : gs.Perm o.groups) (a : Accessor) :
    validateHelper { o with groups := gs } (accessorGiven a) true = none ↔ acceptAccessor a = true := by
  have hf : Fresh accessor := (C115_uses accessor (by simp [uses])).1
  have hx := ((C115_validate_iff (given := accessorGiven a) hf ho hp true).1).trans
    (C115_validate_iff (given := accessorGiven a) hf ho (List.Perm.refl _) true).1.symm
  rw [hx]
  cases ho
  unfold validateHelper
  simp only [accessor, collect, groups₀, testOf, push]
  cases h1 : a.pub <;> cases h2 : a.priv <;> cases h3 : a.clone <;> cases h4 : a.copy <;> cases h5 : a.asRef <;>
    simp [accessorGiven, helperGiven, h1, h2, h3, h4, h5, acceptAccessor, acceptHelper, helperGroupOk, validateExclusives,
      setParams]

/-- **C115.** The same for `FXBuilderHelper` at a struct and at a field. -/
theorem C115_builder (o : Output) (ho : fxhelper builder = some o) (gs : Groups) (hp : gs.Perm o.groups) (struct : Bool)
    (b : Builder) :
    validateHelper { o with groups := gs } (helperGiven b.toHelper) (builderOwn struct b) = none ↔
      (if struct then acceptHelper b.toHelper else acceptFieldBuilder b) = true := by
  have hg : o.groups = groups₀ := by cases ho; rfl
  have hv : o.validate = true := by cases ho; rfl
  rw [hg] at hp
  obtain rfl : gs = groups₀ := List.perm_singleton.mp hp
  unfold validateHelper
  simp only [hv, groups₀, validateExclusives, setParams]
  cases struct <;> cases h1 : b.pub <;> cases h2 : b.priv <;> cases h3 : b.error <;> cases h4 : b.postBuild <;>
    cases h5 : b.optIn <;>
    simp [helperGiven, h1, h2, h3, h4, h5, acceptHelper, acceptFieldBuilder, helperGroupOk, builderOwn]

/-- All four arguments of two groups. -/
def exGiven : Given := accessorGiven { pub := some .all, priv := some true, clone := true, copy := true }

/-- **C115** is false in that the error is not a function of the source: of `get(public, private, clone, copy)` one of two
different errors is reported, as the hash map has it. -/
theorem C115_determined_false : ∃ o gs gs', fxhelper accessor = some o ∧ gs.Perm o.groups ∧ gs'.Perm o.groups ∧
    validateExclusives exGiven gs = some ("visibility", ["public", "private"]) ∧
    validateExclusives exGiven gs' = some ("accessor mode", ["clone", "copy"]) :=
  ⟨_, _, _, rfl, List.Perm.refl _, (List.Perm.swap _ _ []), by decide +kernel, by decide +kernel⟩

/-- **C115** is false in that presence counts and not the value: `get(public, private(off))` is refused, although the
argument of a struct or field of the same form is accepted. -/
theorem C115_off_false : ∃ o, fxhelper base = some o ∧
    validateExclusives (helperGiven { pub := some .all, priv := some false }) o.groups =
      some ("visibility", ["public", "private"]) ∧
    acceptField { ident := "f", pub := some .all, priv := some false } = true :=
  ⟨_, rfl, by decide +kernel, by decide +kernel⟩

/-! Examples -/

/-- Two groups of its own, one of them that of all helpers. -/
def exInput : Input :=
  { fields := [⟨"a", .flag, some "x"⟩, ⟨"hidden", .option, some "visibility"⟩, ⟨"b", .option, some "x"⟩, ⟨"c", .path, none⟩] }

example : (fxhelper exInput).map (·.groups) =
    some [("visibility", [("public", .isSome), ("private", .isSome), ("hidden", .isSome)]),
          ("x", [("a", .isPresent), ("b", .isSome)])] := by decide +kernel

example : Fresh exInput := by unfold Fresh; decide +kernel

example : ∃ o, fxhelper exInput = some o ∧
    validateExclusives (fun n => n == "private" || n == "hidden") o.groups = some ("visibility", ["private", "hidden"]) :=
  ⟨_, rfl, by decide +kernel⟩

/-- A type which is not a path, in a group and outside. -/
example : fxhelper { fields := [⟨"a", .other, some "x"⟩] } = none ∧
    (fxhelper { fields := [⟨"a", .other, none⟩] }).isSome = true := by decide +kernel

/-- `darling::util::Flag` is asked `is_some`, which it has not. -/
example : (fxhelper { fields := [⟨"a", .longFlag, some "x"⟩] }).map checksCompile = some false := by decide +kernel

end Verif.Props.FxHelper
