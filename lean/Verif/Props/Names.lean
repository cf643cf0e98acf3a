import Verif.Spec.Prec
import Verif.Spec.ArgRead
import Verif.Model.Exclusive
import Verif.Proof.Names
/-
Names and visibility of generated methods: C36, C37, C38.
-/
namespace Verif.Props.Names
open Verif.Model.Args Verif.Model.Emit Verif.Model.Names Verif.Model.Exclusive Verif.Spec.Prec Verif.Spec.ArgRead Verif.Proof.Names

/-! ## C36 -/

/-- No explicit, non-empty name on the field for helper kind `k`. -/
def NoName (f : FieldArgs) (k : Kind) : Prop :=
  ∀ h, fieldArg f k = some h → h.name = none ∨ h.name = some ""

/-- The documented default affixes. -/
def affixes : Kind → String × String
  | .accessor => ("", "")
  | .accessorMut => ("", "_mut")
  | .builder => ("", "")
  | .clearer => ("clear_", "")
  | .lazy => ("build_", "")
  | .predicate => ("has_", "")
  | .reader => ("read_", "")
  | .setter => ("set_", "")
  | .writer => ("write_", "")

/-- The rule for names: a non-empty name on the field is taken as it is; otherwise it is prefix, base name (an explicit
one or the identifier), suffix, where a struct-level name replaces the default prefix. -/
theorem C36_name_rule (x : FCtx) (k : Kind) :
    (∀ h n, fieldArg x.field k = some h → h.name = some n → n ≠ "" → helperName x k = n) ∧
    (NoName x.field k → ∃ p b : String,
      Decides [(structRaw x.ctx.args k).bind (·.name)] (affixes k).1 p ∧
      Decides [x.field.baseName] x.field.ident b ∧
      helperName x k = p ++ b ++ (affixes k).2) := by
  constructor
  · intro h n h1 h2 h3
    simp [helperName, getHelper_field, h1, h2, h3]
  · intro hn
    refine ⟨namePrefix x.ctx.args k, base x.field, ?_, ?_, ?_⟩
    · unfold namePrefix
      rw [getHelper_struct]
      cases (structRaw x.ctx.args k).bind (·.name) with
      | some p => exact .here _ _ _
      | none => cases k <;> exact .next (.dflt _)
    · unfold base
      cases x.field.baseName with
      | some p => exact .here _ _ _
      | none => exact .next (.dflt _)
    · have e : nameSuffix k = (affixes k).2 := by cases k <;> rfl
      unfold helperName baseName base
      rw [getHelper_field]
      cases h : fieldArg x.field k with
      | none => simp [e]
      | some hh =>
        rcases hn hh h with h' | h' <;> simp [h', e]

/-- Two fields of one struct with different base names never get the same name for the same kind of helper unless one
of them was named explicitly. -/
theorem C36_no_clash (c : Ctx) (f g : FieldArgs) (k : Kind) (hf : NoName f k) (hg : NoName g k)
    (hb : f.baseName.getD f.ident ≠ g.baseName.getD g.ident) : helperName ⟨c, f⟩ k ≠ helperName ⟨c, g⟩ k := by
  have e : ∀ f : FieldArgs, NoName f k →
      helperName ⟨c, f⟩ k = namePrefix c.args k ++ base f ++ nameSuffix k := by
    intro f hf
    unfold helperName baseName base
    rw [getHelper_field]
    cases h : fieldArg f k with
    | none => simp
    | some hh => rcases hf hh h with h' | h' <;> simp [h']
  rw [e f hf, e g hg]
  intro h
  rw [String.append_left_inj, String.append_right_inj] at h
  exact hb h

/-- With explicit names the clash is possible (and the user's doing). -/
example : helperName ⟨{}, { ident := "a", clearer := some { name := some "wipe" } }⟩ .clearer =
    helperName ⟨{}, { ident := "b", clearer := some { name := some "wipe" } }⟩ .clearer := by decide

example : NoName { ident := "a", clearer := some {} } .clearer ∧
    helperName ⟨{ args := { clearer := some { name := some "zap_" } } }, { ident := "a", clearer := some {} }⟩ .clearer =
      "zap_a" := by
  refine ⟨?_, by decide⟩
  intro h hh; cases hh; exact .inl rfl

/-! ## C37 -/

/-- The user gave no explicit name anywhere. -/
structure NoNames (c : Ctx) : Prop where
  field : ∀ f ∈ c.allFields, ∀ k, (fieldArg f k).bind (·.name) = none
  struct : ∀ k, (structRaw c.args k).bind (·.name) = none
  rc : c.args.rc.bind (·.name) = none

/-- Names the macro itself may add to the struct. -/
def reserved : List String := ["new", "__fieldx_new", "builder", "__fieldx_copy_validation", "myself", "myself_downgrade"]

/-- A base name that does not begin with a helper prefix (nor does so once `_mut` is added), does not end in `_mut`, and
is not one of the names the macro adds. -/
structure Clean (b : String) : Prop where
  pre : ∀ p ∈ prefixes, ¬ p <+: b.toList
  preMut : ∀ p ∈ prefixes, ¬ p <+: b.toList ++ ['_', 'm', 'u', 't']
  suf : ¬ ['_', 'm', 'u', 't'] <:+ b.toList
  res : b ∉ reserved

/-- Part of the full claim: if no name is explicit, base names are pairwise different and clean, then all methods in the
struct's implementation (including the builder methods the user has to write for lazy fields) have different names.
Missing: base names that are not clean, for which it is false (`C37_clash`). -/
theorem C37_distinct_partial (c : Ctx) (hn : NoNames c) (hd : (c.allFields.map base).Nodup)
    (hc : ∀ f ∈ c.allFields, Clean (base f)) : (structMethods c).Nodup := by
  have hcc : ∀ f ∈ c.allFields, CleanChars (base f).toList :=
    fun f hf => ⟨(hc f hf).pre, (hc f hf).preMut, (hc f hf).suf⟩
  have hname : ∀ f ∈ c.allFields, ∀ t, (slotName ⟨c, f⟩ t).toList = chars (base f).toList t :=
    fun f hf t => slotName_chars ⟨c, f⟩ t (hn.field f hf) hn.struct
  have hfix : ∀ n ∈ fixedMethods c, n ∈ reserved := by
    intro n h
    unfold fixedMethods at h
    simp only [hn.rc, Option.getD_none, List.mem_append] at h
    rcases h with ((h | h) | h) | h
    · split at h <;> simp at h
      rcases h with rfl | rfl <;> decide
    · split at h <;> simp at h
      subst h; split <;> decide
    · split at h <;> simp at h
      subst h; decide
    · split at h <;> simp at h
      subst h; decide
  have hfixnd : (fixedMethods c).Nodup := by
    unfold fixedMethods
    simp only [hn.rc, Option.getD_none]
    generalize c.allFields.any (fun f => FCtx.needsAccessor ⟨c, f⟩ && FCtx.isCopy ⟨c, f⟩) = e
    generalize c.args.isRefCounted = e1
    generalize c.needsDefault = e2
    generalize c.args.needsNew = e3
    generalize c.needsBuilderStruct = e4
    revert e e1 e2 e3 e4
    decide +kernel
  unfold structMethods
  rw [List.nodup_append]
  refine ⟨?_, hfixnd, ?_⟩
  · -- methods of fields
    generalize c.allFields = l at hd hcc hname
    induction l with
    | nil => simp
    | cons f r ih =>
      rw [List.flatMap_cons, List.nodup_append]
      rw [List.map_cons, List.nodup_cons] at hd
      refine ⟨?_, ?_, ?_⟩
      · apply nodup_map_of_inj _ _ (slots_nodup _)
        intro s hs t ht e
        have h1 := hname f (by simp) s
        have h2 := hname f (by simp) t
        rw [e, h2] at h1
        have nb := slots_no_builder ⟨c, f⟩
        exact (chars_inj (hcc f (by simp)) (hcc f (by simp)) (by rintro rfl; exact nb hs) (by rintro rfl; exact nb ht)
          h1.symm).2
      · exact ih hd.2 (fun g hg => hcc g (by simp [hg])) (fun g hg => hname g (by simp [hg]))
      · intro a ha b hb e
        subst e
        obtain ⟨s, hs, rfl⟩ := List.mem_map.mp ha
        obtain ⟨g, hg, hb⟩ := List.mem_flatMap.mp hb
        obtain ⟨t, ht, he⟩ := List.mem_map.mp hb
        have h1 := hname f (by simp) s
        have h2 := hname g (by simp [hg]) t
        rw [he, h1] at h2
        have nf := slots_no_builder ⟨c, f⟩
        have ng := slots_no_builder ⟨c, g⟩
        have := (chars_inj (hcc f (by simp)) (hcc g (by simp [hg])) (by rintro rfl; exact nf hs)
          (by rintro rfl; exact ng ht) h2).1
        exact hd.1 (List.mem_map.mpr ⟨g, hg, (String.toList_inj.mp this).symm⟩)
  · -- against the fixed ones
    intro a ha b hb e
    subst e
    obtain ⟨f, hf, ha⟩ := List.mem_flatMap.mp ha
    obtain ⟨t, ht, rfl⟩ := List.mem_map.mp ha
    have hr := hfix _ hb
    have h1 := hname f hf t
    have nb := slots_no_builder ⟨c, f⟩
    have key : ∀ r ∈ reserved, ∀ p ∈ prefixes, ∀ x : List Char, p ++ x ≠ r.toList := by
      intro r hr p hp x e
      have : p <+: r.toList := ⟨x, e⟩
      have hall : ∀ r ∈ reserved, ∀ p ∈ prefixes, ¬ p <+: r.toList := by decide
      exact hall r hr p hp this
    have keym : ∀ r ∈ reserved, ∀ x : List Char, x ++ ['_', 'm', 'u', 't'] ≠ r.toList := by
      intro r hr x e
      have : ['_', 'm', 'u', 't'] <:+ r.toList := ⟨x, e⟩
      have hall : ∀ r ∈ reserved, ¬ ['_', 'm', 'u', 't'] <:+ r.toList := by decide
      exact hall r hr this
    rcases t with k | _
    · cases k
      case accessor => exact (hc f hf).res (by rwa [String.toList_inj.mp h1] at hr)
      case builder => exact nb ht
      case accessorMut => exact keym _ hr _ h1.symm
      all_goals exact key _ hr _ (by decide) _ h1.symm
    · exact key _ hr _ (by decide) _ h1.symm

/-- The same for the builder struct: no explicit names, different base names, none of them `new` or `build`. -/
theorem C37_builder_distinct_partial (c : Ctx) (hn : NoNames c) (hd : (c.allFields.map base).Nodup)
    (hc : ∀ f ∈ c.allFields, base f ≠ "new" ∧ base f ≠ "build") : (builderMethods c).Nodup := by
  have hname : ∀ f ∈ c.allFields, helperName ⟨c, f⟩ .builder = base f := by
    intro f hf
    simp [helperName, getHelper_field, getHelper_struct, base, baseName, hn.field f hf, namePrefix, hn.struct, nameSuffix, defaultPrefix, defaultSuffix]
  have hmap : (c.allFields.filter (fun f => emits ⟨c, f⟩ .builder)).map (fun f => helperName ⟨c, f⟩ .builder) =
      (c.allFields.filter (fun f => emits ⟨c, f⟩ .builder)).map base :=
    List.map_congr_left (fun f hf => hname f (List.mem_filter.mp hf).1)
  have hsub : ((c.allFields.filter (fun f => emits ⟨c, f⟩ .builder)).map base).Nodup :=
    List.Sublist.nodup (List.Sublist.map _ List.filter_sublist) hd
  unfold builderMethods
  rw [hmap, List.nodup_append, List.nodup_append]
  refine ⟨⟨by simp, hsub, ?_⟩, by simp, ?_⟩
  · intro a ha b hb e
    subst e
    simp only [List.mem_singleton] at ha; subst ha
    obtain ⟨f, hf, he⟩ := List.mem_map.mp hb
    exact (hc f (List.mem_filter.mp hf).1).1 he
  · intro a ha b hb e
    subst e
    simp only [List.mem_singleton] at hb; subst hb
    simp only [List.mem_append, List.mem_singleton] at ha
    rcases ha with h | h
    · exact absurd h (by decide)
    · obtain ⟨f, hf, he⟩ := List.mem_map.mp h
      exact (hc f (List.mem_filter.mp hf).1).2 he

/-- The full claim is false without the condition on base names. A field `x` with a predicate and a field `has_x` with an
accessor; a field `v` with a mutable accessor and a field `v_mut`; a field `new` with an accessor; a field `build` with
a builder method. No name is explicit, all arguments are accepted, field names differ. -/
theorem C37_clash :
    ∃ c₁ c₂ c₃ c₄ : Ctx, NoNames c₁ ∧ NoNames c₂ ∧ NoNames c₃ ∧ NoNames c₄ ∧
      (∀ c ∈ [c₁, c₂, c₃, c₄], acceptStructFull c.args = true ∧ (∀ f ∈ c.allFields, acceptFieldFull f = true) ∧
        (c.allFields.map base).Nodup) ∧
      ¬ (structMethods c₁).Nodup ∧ ¬ (structMethods c₂).Nodup ∧ ¬ (structMethods c₃).Nodup ∧
      ¬ (builderMethods c₄).Nodup := by
  have nn : ∀ (c : Ctx), (c.args.rc = none) → (∀ k, ((structRaw c.args k).bind (·.name)) = none) →
      (∀ f ∈ c.allFields, ∀ k, (fieldArg f k).bind (·.name) = none) → NoNames c := by
    intro c h1 h2 h3; exact ⟨h3, h2, by simp [h1]⟩
  have kinds : ∀ P : Kind → Prop, (∀ k ∈ [Kind.accessor, .accessorMut, .builder, .clearer, .lazy, .predicate, .reader,
      .setter, .writer], P k) → ∀ k, P k := by
    intro P h k; cases k <;> exact h _ (by simp)
  refine ⟨{ fields := [{ ident := "x", predicate := some {} }, { ident := "has_x", accessor := some {} }] },
    { fields := [{ ident := "v", accessorMut := some {} }, { ident := "v_mut", accessor := some {} }] },
    { fields := [{ ident := "new", accessor := some {} }] },
    { fields := [{ ident := "build", builder := some {} }] }, ?_, ?_, ?_, ?_, ?_, ?_, ?_, ?_, ?_⟩
  · exact nn _ rfl (kinds _ (by decide)) (fun f hf => kinds _ (by revert f; decide))
  · exact nn _ rfl (kinds _ (by decide)) (fun f hf => kinds _ (by revert f; decide))
  · exact nn _ rfl (kinds _ (by decide)) (fun f hf => kinds _ (by revert f; decide))
  · exact nn _ rfl (kinds _ (by decide)) (fun f hf => kinds _ (by revert f; decide))
  · decide
  · decide
  · decide
  · decide
  · decide

/-- Non-trivial case for `C37_distinct_partial`: an async struct with a lazy field and an optional one. -/
example : let c : Ctx :=
      { args := { modeAsync := some true, builder := some {} }
        fields := [{ ident := "size", lazy := some {}, clearer := some {}, predicate := some {}, setter := some {} },
          { ident := "path", optional := some true, reader := some {}, writer := some {}, accessorMut := some {} }] }
    (c.allFields.map base).Nodup ∧ Clean "size" ∧ Clean "path" ∧ (structMethods c).length = 11 ∧
      (structMethods c).Nodup := by
  refine ⟨by decide, ⟨by decide, by decide, by decide, by decide⟩, ⟨by decide, by decide, by decide, by decide⟩,
    by decide, by decide⟩

/-! ## C38 -/

/-- What one argument says about visibility: `private` wins over `pub(..)`. -/
inductive ArgVis : Option PubMode → Option Bool → Option PubMode → Prop
  | priv (p : Option PubMode) : ArgVis p (some true) (some .priv)
  | pub (p : Option PubMode) (q : Option Bool) : q ≠ some true → ArgVis p q p

/-- What a helper argument, given or not, says about visibility. -/
inductive HelperVis : Option Helper → Option PubMode → Prop
  | absent : HelperVis none none
  | given (h : Helper) (r : Option PubMode) : ArgVis h.pub h.priv r → HelperVis (some h) r

/-- `Rule x k v`: asking the helper argument of the field, the field, the helper argument of the struct and the struct in
this order gives visibility `v` (`none`: the declared visibility of the struct). -/
def Rule (x : FCtx) (k : Kind) (v : Option PubMode) : Prop :=
  ∃ a b c d, HelperVis (fieldArg x.field k) a ∧ ArgVis x.field.pub x.field.priv b ∧
    HelperVis (structRaw x.ctx.args k) c ∧ ArgVis x.ctx.args.pub x.ctx.args.priv d ∧
    Decides [a.map some, b.map some, c.map some, d.map some] none v

private theorem argVis (p : Option PubMode) (q : Option Bool) : ArgVis p q (publicMode p q) := by
  rcases q with _ | _ | _
  · exact .pub _ _ (by simp)
  · exact .pub _ _ (by simp)
  · exact .priv _

private theorem helperVis (h : Option Helper) : HelperVis h (h.bind (·.publicMode)) := by
  cases h with
  | none => exact .absent
  | some h => exact .given h _ (argVis _ _)

private theorem argVis_unique {p q r s} (h : ArgVis p q r) (h' : ArgVis p q s) : r = s := by
  cases h <;> cases h' <;> simp_all

private theorem helperVis_unique {h r s} (h1 : HelperVis h r) (h2 : HelperVis h s) : r = s := by
  cases h1 with
  | absent => cases h2; rfl
  | given _ _ a => cases h2 with | given _ _ b => exact argVis_unique a b

private theorem decides_unique {α : Type} {l : List (Option α)} {d r s : α} (h : Decides l d r) (h' : Decides l d s) :
    r = s := by
  induction h with
  | dflt d => cases h'; rfl
  | here a rest d => cases h'; rfl
  | next _ ih => cases h' with | next h' => exact ih h'

theorem rule_unique {x k v w} (h : Rule x k v) (h' : Rule x k w) : v = w := by
  obtain ⟨a, b, c, d, h1, h2, h3, h4, h5⟩ := h
  obtain ⟨a', b', c', d', h1', h2', h3', h4', h5'⟩ := h'
  have := helperVis_unique h1 h1'; subst this
  have := argVis_unique h2 h2'; subst this
  have := helperVis_unique h3 h3'; subst this
  have := argVis_unique h4 h4'; subst this
  exact decides_unique h5 h5'

/-- The rule gives the visibility computed for a kind. -/
theorem C38_rule (x : FCtx) (k : Kind) : Rule x k (x.publicMode k) := by
  refine ⟨_, _, _, _, helperVis _, argVis _ _, helperVis _, argVis _ _, ?_⟩
  unfold FCtx.publicMode FieldArgs.publicMode StructArgs.publicMode
  rw [getHelper_field, getHelper_struct]
  generalize (fieldArg x.field k).bind (·.publicMode) = a
  generalize publicMode x.field.pub x.field.priv = b
  generalize (structRaw x.ctx.args k).bind (·.publicMode) = c
  generalize publicMode x.ctx.args.pub x.ctx.args.priv = d
  cases a <;> cases b <;> cases c <;> cases d <;> repeat constructor

/-- Part of the full claim: every method but the builder's is written with the visibility of the rule, except the
mutable accessor of a sync or async field. Missing: those two, for which it is false (`C38_get_mut_false`,
`C38_builder_false`). -/
theorem C38_emitted_partial (x : FCtx) (k : Kind) (hb : k ≠ .builder) (hm : k = .accessorMut → genMode x = .plain) :
    Rule x k (emittedVis x k) := by
  have : emittedVis x k = x.publicMode k := by
    cases k <;> try rfl
    · have h := hm rfl
      have : x.isSync = false := by
        unfold genMode at h
        cases hs : x.isSync
        · rfl
        · rw [hs] at h; cases ha : x.isAsync <;> rw [ha] at h <;> simp at h
      simp [emittedVis, this]
    · exact absurd rfl hb
  rw [this]; exact C38_rule x k

/-- The mutable accessor of a sync or async field takes the visibility of the accessor. -/
theorem C38_sync_get_mut (x : FCtx) (h : genMode x ≠ .plain) : Rule x .accessor (emittedVis x .accessorMut) := by
  have : x.isSync = true := by
    unfold genMode at h
    cases hs : x.isSync
    · rw [hs] at h; simp at h
    · rfl
  simp only [emittedVis, this, if_true]
  exact C38_rule x .accessor

/-- `#[fieldx(get_mut(private), get(pub))]` in a sync struct: the mutable accessor is public. -/
theorem C38_get_mut_false :
    ∃ x : FCtx, acceptFieldFull x.field = true ∧ acceptStructFull x.ctx.args = true ∧ emits x .accessorMut = true ∧
      Rule x .accessorMut (some .priv) ∧ emittedVis x .accessorMut = some .all := by
  refine ⟨{
    ctx := { args := { modeSync := some true } }
    field := { accessorMut := some { priv := some true }, accessor := some { pub := some .all } } },
    by decide, by decide, by decide, C38_rule _ _, by decide⟩

/-- `#[fieldx(builder(private))]`: the builder method is public. -/
theorem C38_builder_false :
    ∃ x : FCtx, acceptFieldFull x.field = true ∧ acceptStructFull x.ctx.args = true ∧ emits x .builder = true ∧
      Rule x .builder (some .priv) ∧ emittedVis x .builder = some .all := by
  refine ⟨{ ctx := { args := { builder := some {} } }, field := { builder := some { priv := some true } } },
    by decide, by decide, by decide, C38_rule _ _, by decide⟩

/-- Non-trivial case: the field is private, the struct-level helper public, the field's own helper argument `pub(crate)`. -/
example : Rule {
    ctx := { args := { setter := some { pub := some .all } } }
    field := { priv := some true, setter := some { pub := some .crate } } } .setter (some .crate) := C38_rule _ _

end Verif.Props.Names
