import Verif.Props.Names
/-
The exact rule for clashes of generated names: C37 without its condition on base names.
-/
namespace Verif.Props.NameClash
open Verif.Model.Args Verif.Model.Emit Verif.Model.Names Verif.Spec.ArgRead Verif.Proof.Names Verif.Props.Names

/-- The methods whose name begins with something, and what it begins with (as documented; the last one is internal). -/
inductive Begins : Slot → String → Prop
  | clearer : Begins (.helper .clearer) "clear_"
  | lazy : Begins (.helper .lazy) "build_"
  | predicate : Begins (.helper .predicate) "has_"
  | reader : Begins (.helper .reader) "read_"
  | setter : Begins (.helper .setter) "set_"
  | writer : Begins (.helper .writer) "write_"
  | wrap : Begins .wrap "__fx_async_wrap_for_build_"

/-- `Clash a s b t`: method `s` of a field with base name `a` and method `t` of a field with base name `b` come to the
same name. -/
inductive Clash : String → Slot → String → Slot → Prop
  /-- the same method of two fields with one base name -/
  | same (b : String) (t : Slot) : Clash b t b t
  /-- an accessor and a helper of another field: `has_x` and the predicate of `x` -/
  | plain {t : Slot} {p : String} (b : String) : Begins t p → Clash (p ++ b) (.helper .accessor) b t
  /-- an accessor and a mutable one: `x_mut` and `get_mut` of `x` -/
  | suffix (b : String) : Clash (b ++ "_mut") (.helper .accessor) b (.helper .accessorMut)
  /-- a mutable accessor and a helper: `get_mut` of `has_x` and the predicate of `x_mut` -/
  | both {t : Slot} {p : String} (b : String) : Begins t p → Clash (p ++ b) (.helper .accessorMut) (b ++ "_mut") t
  /-- where the two underscores are one: `get_mut` of `has` and the predicate of `mut` -/
  | cut {t : Slot} (b : String) : Begins t (b ++ "_") → Clash b (.helper .accessorMut) "mut" t

/-- Names the macro gives to methods of the struct which belong to no field. -/
inductive Own (c : Ctx) : String → Prop
  | myself : c.args.isRefCounted = true → Own c "myself"
  | downgrade : c.args.isRefCounted = true → Own c "myself_downgrade"
  | new : c.needsDefault = true → c.args.needsNew = true → Own c "new"
  | hiddenNew : c.needsDefault = true → c.args.needsNew = false → Own c "__fieldx_new"
  | builder : c.needsBuilderStruct = true → Own c "builder"
  | copy (f : FieldArgs) : f ∈ c.allFields → (FCtx.mk c f).needsAccessor = true → (FCtx.mk c f).isCopy = true →
      Own c "__fieldx_copy_validation"

/-- `Begins` in characters. -/
theorem begins_chars {t : Slot} {p : String} (h : Begins t p) (b : List Char) :
    chars b t = p.toList ++ b := by
  cases h <;> simp [chars]

theorem begins_mem {t : Slot} {p : String} (h : Begins t p) : p.toList ∈ prefixes := by
  cases h <;> decide +kernel

theorem chars_cases (t : Slot) (h : t ≠ .helper .builder) :
    t = .helper .accessor ∨ t = .helper .accessorMut ∨ ∃ p, Begins t p := by
  rcases t with k | _
  · cases k
    case accessor => exact .inl rfl
    case accessorMut => exact .inr (.inl rfl)
    case builder => exact absurd rfl h
    case clearer => exact .inr (.inr ⟨_, .clearer⟩)
    case lazy => exact .inr (.inr ⟨_, .lazy⟩)
    case predicate => exact .inr (.inr ⟨_, .predicate⟩)
    case reader => exact .inr (.inr ⟨_, .reader⟩)
    case setter => exact .inr (.inr ⟨_, .setter⟩)
    case writer => exact .inr (.inr ⟨_, .writer⟩)
  · exact .inr (.inr ⟨_, .wrap⟩)

/-- Two beginnings never lead to one name. -/
theorem begins_inj {s t : Slot} {p q : String} (hs : Begins s p) (ht : Begins t q) {a b : List Char}
    (h : p.toList ++ a = q.toList ++ b) : s = t ∧ a = b := by
  cases hs <;> cases ht <;> simp_all

/-- A beginning ends in one underscore, and not in anything `_mut` could begin in otherwise. -/
theorem begins_cut {t : Slot} {p : String} (ht : Begins t p) {a b : List Char}
    (h : a ++ ['_', 'm', 'u', 't'] = p.toList ++ b) :
    (∃ c, a = p.toList ++ c ∧ b = c ++ ['_', 'm', 'u', 't']) ∨ (b = ['m', 'u', 't'] ∧ p.toList = a ++ ['_']) := by
  rcases List.append_eq_append_iff.mp h with ⟨c, h1, h2⟩ | ⟨c, h1, h2⟩
  · -- the beginning reaches into the suffix
    have hlen : c ++ b = ['_', 'm', 'u', 't'] := h2.symm
    rcases c with _ | ⟨x, c⟩
    · left; exact ⟨[], by simpa using h1.symm, by simpa using hlen⟩
    · right
      rcases c with _ | ⟨y, c⟩
      · simp at hlen; obtain ⟨rfl, rfl⟩ := hlen; exact ⟨rfl, h1⟩
      · exfalso
        have hsuf : (x :: y :: c) <:+ p.toList := ⟨a, h1.symm⟩
        have hpre : (x :: y :: c) <+: ['_', 'm', 'u', 't'] := ⟨b, hlen⟩
        have : ∀ q ∈ prefixes, ¬ ['_', 'm'] <:+ q ∧ ¬ ['_', 'm', 'u'] <:+ q ∧ ¬ ['_', 'm', 'u', 't'] <:+ q := by decide
        have hq := this _ (begins_mem ht)
        simp only [List.cons_prefix_cons] at hpre
        obtain ⟨rfl, rfl, hpre⟩ := hpre
        rcases c with _ | ⟨z, c⟩
        · exact hq.1 hsuf
        · simp only [List.cons_prefix_cons] at hpre
          obtain ⟨rfl, hpre⟩ := hpre
          rcases c with _ | ⟨w, c⟩
          · exact hq.2.1 hsuf
          · simp only [List.cons_prefix_cons, List.prefix_nil] at hpre
            obtain ⟨rfl, rfl⟩ := hpre
            exact hq.2.2 hsuf
  · exact .inl ⟨c, h1, h2⟩

/-- `Clash`, in either order, is just what equality of names means. -/
theorem clash_iff (a b : String) (s t : Slot) (hs : s ≠ .helper .builder) (ht : t ≠ .helper .builder) :
    chars a.toList s = chars b.toList t ↔ Clash a s b t ∨ Clash b t a s := by
  have mutS : "_mut".toList = ['_', 'm', 'u', 't'] := by decide +kernel
  constructor
  · intro h
    have plain : ∀ {a b : String} {t : Slot} {p : String}, Begins t p → a.toList = chars b.toList t →
        Clash a (.helper .accessor) b t := by
      intro a b t p hp h
      rw [begins_chars hp, ← String.toList_append] at h
      rw [String.toList_inj.mp h]
      exact .plain b hp
    have muts : ∀ {a b : String} {t : Slot} {p : String}, Begins t p →
        a.toList ++ ['_', 'm', 'u', 't'] = chars b.toList t → Clash a (.helper .accessorMut) b t := by
      intro a b t p hp h
      rw [begins_chars hp] at h
      rcases begins_cut hp h with ⟨c, h1, h2⟩ | ⟨h1, h2⟩
      · have e1 : a = p ++ String.ofList c := by
          apply String.toList_inj.mp; rw [String.toList_append, String.toList_ofList]; exact h1
        have e2 : b = String.ofList c ++ "_mut" := by
          apply String.toList_inj.mp; rw [String.toList_append, String.toList_ofList, mutS]; exact h2
        rw [e1, e2]; exact .both _ hp
      · have e1 : b = "mut" := by
          apply String.toList_inj.mp; rw [h1]; decide +kernel
        have e2 : p = a ++ "_" := by
          apply String.toList_inj.mp; rw [h2, String.toList_append]; congr 1
        rw [e1]; rw [e2] at hp; exact .cut _ hp
    have suf : ∀ {a b : String}, a.toList = b.toList ++ ['_', 'm', 'u', 't'] →
        Clash a (.helper .accessor) b (.helper .accessorMut) := by
      intro a b h
      have : a = b ++ "_mut" := by
        apply String.toList_inj.mp; rw [String.toList_append, mutS]; exact h
      rw [this]; exact .suffix b
    rcases chars_cases s hs with rfl | rfl | ⟨p, hp⟩ <;> rcases chars_cases t ht with rfl | rfl | ⟨q, hq⟩
    · left; rw [String.toList_inj.mp h]; exact .same _ _
    · exact .inl (suf h)
    · exact .inl (plain hq h)
    · exact .inr (suf h.symm)
    · left; rw [String.toList_inj.mp (List.append_cancel_right h)]; exact .same _ _
    · exact .inl (muts hq h)
    · exact .inr (plain hp h.symm)
    · exact .inr (muts hp h.symm)
    · rw [begins_chars hp, begins_chars hq] at h
      obtain ⟨rfl, h⟩ := begins_inj hp hq h
      left; rw [String.toList_inj.mp h]; exact .same _ _
  · have key : ∀ {a b : String} {s t : Slot}, Clash a s b t → chars a.toList s = chars b.toList t := by
      intro a b s t h
      cases h with
      | same => rfl
      | plain _ hp => rw [begins_chars hp, String.toList_append]; rfl
      | suffix => rw [String.toList_append, mutS]; rfl
      | both _ hp => rw [begins_chars hp, String.toList_append, String.toList_append, mutS, ← List.append_assoc]; rfl
      | cut _ hp =>
        rw [begins_chars hp, String.toList_append]
        show _ ++ ['_', 'm', 'u', 't'] = _
        rw [List.append_assoc]; congr 1
    rintro (h | h)
    · exact key h
    · exact (key h).symm

theorem own_iff (c : Ctx) (hrc : c.args.rc.bind (·.name) = none) (n : String) : n ∈ fixedMethods c ↔ Own c n := by
  constructor
  · intro h
    unfold fixedMethods at h
    simp only [hrc, Option.getD_none, List.mem_append] at h
    rcases h with ((h | h) | h) | h
    · split at h
      · rename_i hr
        simp only [List.mem_cons, List.not_mem_nil, or_false] at h
        rcases h with rfl | rfl
        · exact .myself hr
        · exact .downgrade hr
      · simp at h
    · split at h
      · rename_i hr
        simp only [List.mem_singleton] at h
        subst h
        split
        · rename_i h2; exact .new hr h2
        · rename_i h2; exact .hiddenNew hr (by simpa using h2)
      · simp at h
    · split at h
      · rename_i hr; simp only [List.mem_singleton] at h; subst h; exact .builder hr
      · simp at h
    · split at h
      · rename_i hr
        simp only [List.mem_singleton] at h; subst h
        obtain ⟨f, hf, h2⟩ := List.any_eq_true.mp hr
        simp only [Bool.and_eq_true] at h2
        exact .copy f hf h2.1 h2.2
      · simp at h
  · intro h
    unfold fixedMethods
    simp only [hrc, Option.getD_none, List.mem_append]
    cases h with
    | myself h => exact .inl (.inl (.inl (by simp [h])))
    | downgrade h => exact .inl (.inl (.inl (by simp [h])))
    | new h h2 => exact .inl (.inl (.inr (by simp [h, h2])))
    | hiddenNew h h2 => exact .inl (.inl (.inr (by simp [h, h2])))
    | builder h => exact .inl (.inr (by simp [h]))
    | copy f hf h1 h2 =>
      refine .inr ?_
      rw [if_pos (List.any_eq_true.mpr ⟨f, hf, by simp [h1, h2]⟩)]
      simp

theorem own_nodup (c : Ctx) (hrc : c.args.rc.bind (·.name) = none) : (fixedMethods c).Nodup := by
  unfold fixedMethods
  simp only [hrc, Option.getD_none]
  generalize c.allFields.any (fun f => FCtx.needsAccessor ⟨c, f⟩ && FCtx.isCopy ⟨c, f⟩) = e
  generalize c.args.isRefCounted = e1
  generalize c.needsDefault = e2
  generalize c.args.needsNew = e3
  generalize c.needsBuilderStruct = e4
  revert e e1 e2 e3 e4
  decide +kernel

/-- A method of a field named like one of the macro's own is an accessor. -/
theorem own_accessor {c : Ctx} {n : String} (h : Own c n) {b : List Char} {t : Slot} (ht : t ≠ .helper .builder)
    (e : chars b t = n.toList) : t = .helper .accessor := by
  have hr : n ∈ reserved := by cases h <;> decide +kernel
  rcases chars_cases t ht with rfl | rfl | ⟨p, hp⟩
  · rfl
  · exfalso
    have : ['_', 'm', 'u', 't'] <:+ n.toList := ⟨b, e⟩
    have hall : ∀ r ∈ reserved, ¬ ['_', 'm', 'u', 't'] <:+ r.toList := by decide
    exact hall n hr this
  · exfalso
    rw [begins_chars hp] at e
    have hall : ∀ r ∈ reserved, ∀ p ∈ prefixes, ¬ p <+: r.toList := by decide
    exact hall n hr _ (begins_mem hp) ⟨b, e⟩

/-- The exact rule. Without explicit names, the methods of the struct have different names if and only if no two of them
clash in one of the five ways above, and no field with an accessor is called like a method of the macro's own. -/
theorem C37_distinct_iff (c : Ctx) (hn : NoNames c) :
    (structMethods c).Nodup ↔
      (∀ (i j : Nat) (f g : FieldArgs), c.allFields[i]? = some f → c.allFields[j]? = some g →
        ∀ s ∈ slots ⟨c, f⟩, ∀ t ∈ slots ⟨c, g⟩, Clash (base f) s (base g) t → i = j ∧ s = t) ∧
      (∀ f ∈ c.allFields, emits ⟨c, f⟩ .accessor = true → ¬ Own c (base f)) := by
  have hname : ∀ f ∈ c.allFields, ∀ t, (slotName ⟨c, f⟩ t).toList = chars (base f).toList t :=
    fun f hf t => slotName_chars ⟨c, f⟩ t (hn.field f hf) hn.struct
  have heq : ∀ f ∈ c.allFields, ∀ g ∈ c.allFields, ∀ s ∈ slots ⟨c, f⟩, ∀ t ∈ slots ⟨c, g⟩,
      (slotName ⟨c, f⟩ s = slotName ⟨c, g⟩ t ↔ Clash (base f) s (base g) t ∨ Clash (base g) t (base f) s) := by
    intro f hf g hg s hs t ht
    rw [← clash_iff _ _ _ _ (by rintro rfl; exact slots_no_builder _ hs) (by rintro rfl; exact slots_no_builder _ ht),
      ← hname f hf, ← hname g hg, String.toList_inj]
  have hacc : ∀ f, Slot.helper .accessor ∈ slots ⟨c, f⟩ ↔ emits ⟨c, f⟩ .accessor = true := by
    intro f
    unfold slots
    simp only [List.mem_append, List.mem_map, List.mem_filter]
    constructor
    · rintro ((⟨k, ⟨_, h⟩, e⟩ | h) | h)
      · cases e; exact h
      · split at h <;> simp at h
      · split at h <;> simp at h
    · intro h; exact .inl (.inl ⟨_, ⟨by simp, h⟩, rfl⟩)
  have haccName : ∀ f ∈ c.allFields, slotName ⟨c, f⟩ (.helper .accessor) = base f :=
    fun f hf => String.toList_inj.mp (hname f hf _)
  unfold structMethods
  rw [List.nodup_append]
  constructor
  · rintro ⟨h1, -, h3⟩
    refine ⟨?_, ?_⟩
    · intro i j f g hi hj s hs t ht hcl
      have hf := List.mem_of_getElem? hi
      have hg := List.mem_of_getElem? hj
      have e := (heq f hf g hg s hs t ht).mpr (.inl hcl)
      unfold List.Nodup at h1
      rw [List.pairwise_flatMap] at h1
      by_cases hij : i = j
      · subst hij
        rw [hi] at hj; cases hj
        refine ⟨rfl, ?_⟩
        have h4 := h1.1 f hf
        rw [List.pairwise_map] at h4
        obtain ⟨m, hm, rfl⟩ := List.mem_iff_getElem.mp hs
        obtain ⟨n, hn', rfl⟩ := List.mem_iff_getElem.mp ht
        rw [List.pairwise_iff_getElem] at h4
        rcases Nat.lt_trichotomy m n with hlt | rfl | hlt
        · exact absurd e (h4 m n hm hn' hlt)
        · rfl
        · exact absurd e.symm (h4 n m hn' hm hlt)
      · exfalso
        have h4 := h1.2
        rw [List.pairwise_iff_getElem] at h4
        obtain ⟨hi', rfl⟩ := List.getElem?_eq_some_iff.mp hi
        obtain ⟨hj', rfl⟩ := List.getElem?_eq_some_iff.mp hj
        rcases Nat.lt_or_gt_of_ne hij with hlt | hlt
        · exact h4 i j hi' hj' hlt _ (List.mem_map.mpr ⟨s, hs, rfl⟩) _ (List.mem_map.mpr ⟨t, ht, rfl⟩) e
        · exact h4 j i hj' hi' hlt _ (List.mem_map.mpr ⟨t, ht, rfl⟩) _ (List.mem_map.mpr ⟨s, hs, rfl⟩) e.symm
    · intro f hf he ho
      exact h3 (base f) (List.mem_flatMap.mpr ⟨f, hf, List.mem_map.mpr ⟨_, (hacc f).mpr he, haccName f hf⟩⟩) (base f)
        ((own_iff c hn.rc _).mpr ho) rfl
  · rintro ⟨h1, h2⟩
    refine ⟨?_, own_nodup c hn.rc, ?_⟩
    · unfold List.Nodup
      rw [List.pairwise_flatMap]
      refine ⟨?_, ?_⟩
      · intro f hf
        refine nodup_map_of_inj _ _ (slots_nodup _) ?_
        intro s hs t ht e
        obtain ⟨i, hi, rfl⟩ := List.mem_iff_getElem.mp hf
        have hi2 : c.allFields[i]? = some c.allFields[i] := List.getElem?_eq_getElem hi
        rcases (heq _ hf _ hf s hs t ht).mp e with h | h
        · exact (h1 i i _ _ hi2 hi2 s hs t ht h).2
        · exact (h1 i i _ _ hi2 hi2 t ht s hs h).2.symm
      · rw [List.pairwise_iff_getElem]
        intro i j hi hj hlt x hx y hy e
        obtain ⟨s, hs, rfl⟩ := List.mem_map.mp hx
        obtain ⟨t, ht, rfl⟩ := List.mem_map.mp hy
        have hi2 : c.allFields[i]? = some c.allFields[i] := List.getElem?_eq_getElem hi
        have hj2 : c.allFields[j]? = some c.allFields[j] := List.getElem?_eq_getElem hj
        rcases (heq _ (List.getElem_mem hi) _ (List.getElem_mem hj) s hs t ht).mp e with h | h
        · have := (h1 i j _ _ hi2 hj2 s hs t ht h).1; omega
        · have := (h1 j i _ _ hj2 hi2 t ht s hs h).1; omega
    · intro a ha b hb e
      subst e
      obtain ⟨f, hf, ha⟩ := List.mem_flatMap.mp ha
      obtain ⟨t, ht, rfl⟩ := List.mem_map.mp ha
      have ho := (own_iff c hn.rc _).mp hb
      have hacc' := own_accessor ho (by rintro rfl; exact slots_no_builder _ ht) (hname f hf t).symm
      subst hacc'
      rw [haccName f hf] at ho
      exact h2 f hf ((hacc f).mp ht) ho

/-- The exact rule for the builder struct. -/
theorem C37_builder_distinct_iff (c : Ctx) (hn : NoNames c) :
    (builderMethods c).Nodup ↔
      (∀ (i j : Nat) (f g : FieldArgs), c.allFields[i]? = some f → c.allFields[j]? = some g →
        emits ⟨c, f⟩ .builder = true → emits ⟨c, g⟩ .builder = true → base f = base g → i = j) ∧
      (∀ f ∈ c.allFields, emits ⟨c, f⟩ .builder = true → base f ≠ "new" ∧ base f ≠ "build") := by
  have hname : ∀ f ∈ c.allFields, helperName ⟨c, f⟩ .builder = base f := by
    intro f hf
    simp [helperName, getHelper_field, getHelper_struct, base, baseName, hn.field f hf, namePrefix, hn.struct, nameSuffix, defaultPrefix, defaultSuffix]
  have hmap : (c.allFields.filter (fun f => emits ⟨c, f⟩ .builder)).map (fun f => helperName ⟨c, f⟩ .builder) =
      (c.allFields.filter (fun f => emits ⟨c, f⟩ .builder)).map base :=
    List.map_congr_left (fun f hf => hname f (List.mem_filter.mp hf).1)
  have hnd : ((c.allFields.filter (fun f => emits ⟨c, f⟩ .builder)).map base).Nodup ↔
      ∀ (i j : Nat) (f g : FieldArgs), c.allFields[i]? = some f → c.allFields[j]? = some g →
        emits ⟨c, f⟩ .builder = true → emits ⟨c, g⟩ .builder = true → base f = base g → i = j := by
    unfold List.Nodup
    rw [List.pairwise_map, List.pairwise_filter, List.pairwise_iff_getElem]
    constructor
    · intro h i j f g hi hj hf hg e
      obtain ⟨hi', rfl⟩ := List.getElem?_eq_some_iff.mp hi
      obtain ⟨hj', rfl⟩ := List.getElem?_eq_some_iff.mp hj
      rcases Nat.lt_trichotomy i j with hlt | he | hlt
      · exact absurd e (h i j hi' hj' hlt hf hg)
      · exact he
      · exact absurd e.symm (h j i hj' hi' hlt hg hf)
    · intro h i j hi hj hlt hf hg e
      have := h i j _ _ (List.getElem?_eq_getElem hi) (List.getElem?_eq_getElem hj) hf hg e
      omega
  unfold builderMethods
  rw [hmap, List.nodup_append, List.nodup_append, hnd]
  constructor
  · rintro ⟨⟨-, h1, h2⟩, -, h3⟩
    refine ⟨h1, fun f hf he => ⟨fun e => ?_, fun e => ?_⟩⟩
    · exact h2 "new" (by simp) "new" (List.mem_map.mpr ⟨f, List.mem_filter.mpr ⟨hf, he⟩, e⟩) rfl
    · exact h3 "build" (List.mem_append_right _ (List.mem_map.mpr ⟨f, List.mem_filter.mpr ⟨hf, he⟩, e⟩)) "build" (by simp) rfl
  · rintro ⟨h1, h2⟩
    refine ⟨⟨by simp, h1, ?_⟩, by simp, ?_⟩
    · intro a ha b hb e
      subst e
      simp only [List.mem_singleton] at ha; subst ha
      obtain ⟨f, hf, he⟩ := List.mem_map.mp hb
      have := List.mem_filter.mp hf
      exact (h2 f this.1 this.2).1 he
    · intro a ha b hb e
      subst e
      simp only [List.mem_singleton] at hb; subst hb
      simp only [List.mem_append, List.mem_singleton] at ha
      rcases ha with h | h
      · exact absurd h (by decide)
      · obtain ⟨f, hf, he⟩ := List.mem_map.mp h
        have := List.mem_filter.mp hf
        exact (h2 f this.1 this.2).2 he

/-! ### Cases -/

/-- A base name that looks like a helper, but of a helper nobody asked for, is no clash: `has_x` beside `x` without a
predicate. -/
example : let c : Ctx :=
      { fields := [{ ident := "x", clearer := some {} }, { ident := "has_x", accessor := some {} }] }
    NoNames c ∧ (structMethods c).Nodup ∧ ¬ Clean "has_x" := by
  have kinds : ∀ P : Kind → Prop, (∀ k ∈ [Kind.accessor, .accessorMut, .builder, .clearer, .lazy, .predicate, .reader,
      .setter, .writer], P k) → ∀ k, P k := by
    intro P h k; cases k <;> exact h _ (by simp)
  refine ⟨⟨fun f hf => kinds _ (by revert f; decide), kinds _ (by decide), rfl⟩, by decide,
    fun h => h.pre ['h', 'a', 's', '_'] (by decide) (by decide)⟩

/-- The clash through one underscore: `get_mut` of `has` and the predicate of `mut`; neither name begins with a prefix or
ends in the suffix. -/
example : let c : Ctx :=
      { fields := [{ ident := "has", accessorMut := some {} }, { ident := "mut", predicate := some {} }] }
    ¬ (structMethods c).Nodup ∧ Clash "has" (.helper .accessorMut) "mut" (.helper .predicate) :=
  ⟨by decide, .cut "has" .predicate⟩

/-- One base name for two fields is no clash as long as they share no method. -/
example : let c : Ctx :=
      { fields := [{ ident := "a", baseName := some "v", clearer := some {}, accessor := some { off := true } },
          { ident := "b", baseName := some "v", accessor := some {} }] }
    (structMethods c).Nodup := by decide

end Verif.Props.NameClash
