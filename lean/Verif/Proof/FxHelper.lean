import Verif.Spec.FxHelper
/-! Lemmas about the groups which `fxhelper` collects. -/
namespace Verif.Proof.FxHelper
open Verif.Model.FxHelper Verif.Spec.FxHelper

/-- The members which fields give to a group. -/
def own (g : String) (fs : List Field) : List (String × Test) :=
  fs.filterMap fun f => if f.exclusive = some g then (testOf f.ty).map fun t => (f.name, t) else none

/-- The members a group has from the start. -/
def pre₀ (g : String) : List (String × Test) :=
  if g = "visibility" then [("public", .isSome), ("private", .isSome)] else []

/-- The map says what `pre` says. -/
def Inv (gs : Groups) (pre : String → List (String × Test)) : Prop :=
  (gs.map (·.1)).Nodup ∧ ∀ g ms, (g, ms) ∈ gs ↔ ms = pre g ∧ ms ≠ []

theorem inv₀ : Inv groups₀ pre₀ := by
  refine ⟨by simp [groups₀], fun g ms => ?_⟩
  simp only [groups₀, List.mem_singleton, Prod.mk.injEq, pre₀]
  constructor
  · rintro ⟨rfl, rfl⟩; simp
  · rintro ⟨rfl, h⟩
    by_cases hg : g = "visibility"
    · exact ⟨hg, by simp [hg]⟩
    · simp [hg] at h

theorem mem_keys {gs : Groups} {pre} (h : Inv gs pre) (g : String) : g ∈ gs.map (·.1) ↔ pre g ≠ [] := by
  simp only [List.mem_map, Prod.exists, exists_and_right, exists_eq_right]
  constructor
  · rintro ⟨ms, hm⟩
    obtain ⟨rfl, hn⟩ := (h.2 _ _).mp hm
    exact hn
  · intro hn
    exact ⟨pre g, (h.2 _ _).mpr ⟨rfl, hn⟩⟩

theorem inv_push {gs : Groups} {pre} (h : Inv gs pre) (g : String) (m : String × Test) :
    Inv (push gs g m) fun x => if x = g then pre x ++ [m] else pre x := by
  unfold push
  by_cases hk : g ∈ gs.map (·.1)
  · rw [if_pos hk]
    refine ⟨?_, fun x ms => ?_⟩
    · have : (gs.map fun e => if e.1 = g then (e.1, e.2 ++ [m]) else e).map (·.1) = gs.map (·.1) := by
        rw [List.map_map]
        refine List.map_congr_left fun e _ => ?_
        by_cases he : e.1 = g <;> simp [he]
      rw [this]; exact h.1
    · simp only [List.mem_map]
      constructor
      · rintro ⟨⟨y, ns⟩, hy, he⟩
        obtain ⟨rfl, hn⟩ := (h.2 _ _).mp hy
        by_cases hyg : y = g
        · subst hyg
          simp at he
          obtain ⟨rfl, rfl⟩ := he
          simp
        · simp [hyg] at he
          obtain ⟨rfl, rfl⟩ := he
          simp [hyg, hn]
      · rintro ⟨rfl, hn⟩
        by_cases hx : x = g
        · subst hx
          exact ⟨(x, pre x), (h.2 _ _).mpr ⟨rfl, (mem_keys h x).mp hk⟩, by simp⟩
        · simp [hx] at hn ⊢
          exact ⟨x, pre x, (h.2 _ _).mpr ⟨rfl, hn⟩, by simp [hx]⟩
  · rw [if_neg hk]
    have hg : pre g = [] := by
      cases hp : pre g with
      | nil => rfl
      | cons a r => exact absurd ((mem_keys h g).mpr (by simp [hp])) hk
    refine ⟨?_, fun x ms => ?_⟩
    · rw [List.map_append, List.nodup_append]
      refine ⟨h.1, by simp, ?_⟩
      intro a ha b hb hab
      simp at hb
      exact hk (hb ▸ hab ▸ ha)
    · rw [List.mem_append, h.2]
      by_cases hx : x = g
      · subst hx
        simp only [List.mem_singleton, Prod.mk.injEq, true_and, hg, if_true, List.nil_append]
        constructor
        · rintro (⟨rfl, hn⟩ | rfl)
          · exact absurd rfl hn
          · simp
        · rintro ⟨rfl, _⟩
          exact .inr rfl
      · simp [hx]

theorem inv_collect {fs : List Field} {gs gs' : Groups} {pre} (h : Inv gs pre) (hc : collect fs gs = some gs') :
    Inv gs' fun x => pre x ++ own x fs := by
  induction fs generalizing gs pre with
  | nil =>
    simp only [collect, Option.some.injEq] at hc
    subst hc
    simpa [own] using h
  | cons f fs ih =>
    unfold collect at hc
    cases he : f.exclusive with
    | none =>
      simp only [he] at hc
      have := ih h hc
      simpa [own, he] using this
    | some g =>
      simp only [he] at hc
      cases ht : testOf f.ty with
      | none => simp [ht] at hc
      | some t =>
        simp only [ht] at hc
        have h' := ih (inv_push h g (f.name, t)) hc
        have e : (fun x => (if x = g then pre x ++ [(f.name, t)] else pre x) ++ own x fs) =
            fun x => pre x ++ own x (f :: fs) := by
          funext x
          by_cases hx : x = g
          · subst hx; simp [own, he, ht]
          · have : ¬(some g = some x) := fun hh => hx (Option.some.inj hh).symm
            simp [own, he, hx, this]
        rw [e] at h'
        exact h'

theorem collect_none {fs : List Field} {gs : Groups} :
    collect fs gs = none ↔ ∃ f ∈ fs, f.exclusive ≠ none ∧ f.ty = .other := by
  induction fs generalizing gs with
  | nil => simp [collect]
  | cons f fs ih =>
    unfold collect
    cases he : f.exclusive with
    | none => simp only [ih, List.mem_cons, exists_eq_or_imp, he]; simp
    | some g =>
      cases ht : testOf f.ty with
      | none =>
        have : f.ty = .other := by revert ht; cases f.ty <;> simp [testOf]
        simp [this, he]
      | some t =>
        have : f.ty ≠ .other := by intro h; simp [h, testOf] at ht
        simp only [ih, List.mem_cons, exists_eq_or_imp, he]; simp [this]

/-- Order of the entries does not matter to what the map says. -/
theorem inv_perm {gs gs' : Groups} {pre} (h : Inv gs pre) (hp : gs'.Perm gs) : Inv gs' pre :=
  ⟨(hp.map _).nodup_iff.mpr h.1, fun g ms => by rw [hp.mem_iff]; exact h.2 g ms⟩

theorem own_names (g : String) (fs : List Field) (hn : ∀ f ∈ fs, f.exclusive ≠ none → f.ty ≠ .other) :
    (own g fs).map (·.1) = (fs.filter fun f => f.exclusive = some g).map (·.name) := by
  induction fs with
  | nil => rfl
  | cons f fs ih =>
    have ih := ih fun f hf => hn f (List.mem_cons_of_mem _ hf)
    unfold own at *
    by_cases he : f.exclusive = some g
    · have : f.ty ≠ .other := hn f (by simp) (by simp [he])
      obtain ⟨t, ht⟩ : ∃ t, testOf f.ty = some t := by revert this; cases f.ty <;> simp [testOf]
      simp [he, ht, ih]
    · simp [he, ih]

theorem setParams_eq (given : Given) (ms : List (String × Test)) :
    setParams given ms = (ms.map (·.1)).filter given := by
  induction ms with
  | nil => rfl
  | cons m ms ih =>
    unfold setParams at *
    cases hg : given m.1 <;> simp [hg, ih]

theorem long_iff {l : List String} (h : l.Nodup) : l.length > 1 ↔ ∃ a b, a ≠ b ∧ a ∈ l ∧ b ∈ l := by
  match l, h with
  | [], _ => simp
  | [x], _ =>
    simp only [List.length_singleton, List.mem_singleton]
    constructor
    · intro h; omega
    · rintro ⟨a, b, hab, rfl, rfl⟩; exact absurd rfl hab
  | x :: y :: r, h =>
    constructor
    · intro _
      refine ⟨x, y, ?_, by simp, by simp⟩
      rintro rfl
      simp at h
    · intro _; simp

/-- The members of a group, all together. -/
def full (i : Input) (g : String) : List (String × Test) := pre₀ g ++ own g i.fields

section
variable {i : Input}

theorem full_names (hn : ¬NoPath i) (g : String) :
    (full i g).map (·.1) =
      (if g = "visibility" then ["public", "private"] else []) ++
        (i.fields.filter fun f => f.exclusive = some g).map (·.name) := by
  rw [full, List.map_append, own_names g i.fields fun f hf he ho => hn ⟨f, hf, he, ho⟩]
  congr 1
  unfold pre₀
  split <;> rfl

theorem mem_full (hn : ¬NoPath i) (g n : String) : n ∈ (full i g).map (·.1) ↔ InGroup i g n := by
  rw [full_names hn, List.mem_append, InGroup]
  constructor
  · rintro (h | h)
    · by_cases hg : g = "visibility"
      · simp [hg] at h; exact .inl ⟨hg, h⟩
      · simp [hg] at h
    · simp only [List.mem_map, List.mem_filter, decide_eq_true_eq] at h
      obtain ⟨f, ⟨hf, he⟩, rfl⟩ := h
      exact .inr ⟨f, hf, rfl, he⟩
  · rintro (⟨hg, h⟩ | ⟨f, hf, rfl, he⟩)
    · left; simp [hg, h]
    · right
      simp only [List.mem_map, List.mem_filter, decide_eq_true_eq]
      exact ⟨f, ⟨hf, he⟩, rfl⟩

theorem full_sub (hn : ¬NoPath i) (g : String) : ((full i g).map (·.1)).Sublist (declared i) := by
  rw [full_names hn, declared]
  refine List.Sublist.append ?_ (List.filter_sublist.map _)
  split
  · exact ((List.Sublist.refl ["public", "private"]).cons "attributes_fn" |>.cons "off" |>.cons "name")
  · exact List.nil_sublist _

theorem params_nodup (hf : Fresh i) (hn : ¬NoPath i) (given : Given) (g : String) :
    (setParams given (full i g)).Nodup := by
  rw [setParams_eq]
  exact ((full_sub hn g).nodup hf).filter _

theorem mem_params (hn : ¬NoPath i) (given : Given) (g n : String) :
    n ∈ setParams given (full i g) ↔ InGroup i g n ∧ given n = true := by
  rw [setParams_eq, List.mem_filter, mem_full hn]

theorem conflict_iff (hf : Fresh i) (hn : ¬NoPath i) (given : Given) (g : String) :
    (setParams given (full i g)).length > 1 ↔ Conflict i given g := by
  rw [long_iff (params_nodup hf hn given g), Conflict]
  constructor
  · rintro ⟨a, b, hab, ha, hb⟩
    rw [mem_params hn] at ha hb
    exact ⟨a, b, hab, ha.1, hb.1, ha.2, hb.2⟩
  · rintro ⟨a, b, hab, ha, hb, ga, gb⟩
    exact ⟨a, b, hab, (mem_params hn _ _ _).mpr ⟨ha, ga⟩, (mem_params hn _ _ _).mpr ⟨hb, gb⟩⟩

theorem names_params (hn : ¬NoPath i) (given : Given) (g : String) :
    Names i given g (setParams given (full i g)) := by
  refine ⟨?_, mem_params hn given g⟩
  rw [setParams_eq]
  exact List.filter_sublist.trans (full_sub hn g)

/-- What the first failing block says. -/
theorem validate_some {given : Given} {gs : Groups} {g : String} {l : List String}
    (h : validateExclusives given gs = some (g, l)) :
    ∃ ms, (g, ms) ∈ gs ∧ (setParams given ms).length > 1 ∧ l = setParams given ms := by
  induction gs with
  | nil => simp [validateExclusives] at h
  | cons e r ih =>
    obtain ⟨x, ms⟩ := e
    unfold validateExclusives at h
    split at h
    · rename_i hl
      simp only [Option.some.injEq, Prod.mk.injEq] at h
      obtain ⟨rfl, rfl⟩ := h
      exact ⟨ms, by simp, hl, rfl⟩
    · obtain ⟨ms', hm, hl⟩ := ih h
      exact ⟨ms', List.mem_cons_of_mem _ hm, hl⟩

theorem validate_none {given : Given} {gs : Groups} :
    validateExclusives given gs = none ↔ ∀ e ∈ gs, ¬(setParams given e.2).length > 1 := by
  induction gs with
  | nil => simp [validateExclusives]
  | cons e r ih =>
    obtain ⟨x, ms⟩ := e
    unfold validateExclusives
    split
    · rename_i hl
      simp only [reduceCtorEq, false_iff]
      intro h
      exact h (x, ms) (by simp) hl
    · rename_i hl
      rw [ih]
      constructor
      · intro h e he
        rcases List.mem_cons.mp he with rfl | he
        · exact hl
        · exact h e he
      · intro h e he
        exact h e (List.mem_cons_of_mem _ he)

theorem validate_head {given : Given} {g : String} {ms : List (String × Test)} {r : Groups}
    (h : (setParams given ms).length > 1) :
    validateExclusives given ((g, ms) :: r) = some (g, setParams given ms) := by
  unfold validateExclusives
  rw [if_pos h]

/-- A sublist of a list without repetitions is known by its elements. -/
theorem sublist_ext {l : List String} (hl : l.Nodup) : ∀ {a b : List String}, a.Sublist l → b.Sublist l →
    (∀ x, x ∈ a ↔ x ∈ b) → a = b := by
  induction l with
  | nil => intro a b ha hb _; rw [List.sublist_nil.mp ha, List.sublist_nil.mp hb]
  | cons c l ih =>
    intro a b ha hb h
    rw [List.nodup_cons] at hl
    have out : ∀ {y : List String}, y.Sublist l → c ∉ y := fun hy hc => hl.1 (hy.subset hc)
    rcases List.sublist_cons_iff.mp ha with ha | ⟨a', rfl, ha⟩
    · rcases List.sublist_cons_iff.mp hb with hb | ⟨b', rfl, hb⟩
      · exact ih hl.2 ha hb h
      · exact absurd ((h c).mpr (by simp)) (out ha)
    · rcases List.sublist_cons_iff.mp hb with hb | ⟨b', rfl, hb⟩
      · exact absurd ((h c).mp (by simp)) (out hb)
      · have ha2 := List.cons_sublist_cons.mp ha
        have hb2 := List.cons_sublist_cons.mp hb
        congr 1
        refine ih hl.2 ha2 hb2 fun x => ?_
        by_cases hx : x = c
        · subst hx
          exact ⟨fun hh => absurd hh (out ha2), fun hh => absurd hh (out hb2)⟩
        · have := h x
          simpa [hx] using this

theorem names_unique (hf : Fresh i) {given : Given} {g : String} {l l' : List String} (h : Names i given g l)
    (h' : Names i given g l') : l = l' :=
  sublist_ext hf h.1 h'.1 fun x => (h.2 x).trans (h'.2 x).symm

end

end Verif.Proof.FxHelper
