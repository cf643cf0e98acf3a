import Verif.Spec.Grammar
/-! Readers do not depend on the order of the items. -/
namespace Verif.Proof.ParseOrder
open Verif.Model.Args Verif.Model.Exclusive Verif.Model.Parse Verif.Spec.Grammar

/-- A reader of items that does not look at the order inside them. -/
def Indep {α : Type} (read : Arg → Option α) : Prop :=
  ∀ n as bs, n ∉ positional → Reorder as bs → read (.list n as) = read (.list n bs)

theorem called_map {α : Type} {read : Arg → Option α} (hr : Indep read) (n : String) {as bs : List Arg}
    (h : Reorder as bs) : ((called n as).map read).Perm ((called n bs).map read) := by
  induction h with
  | refl => exact .refl _
  | cons a _ ih => simp only [called, List.filter_cons] at ih ⊢; split <;> simp [ih]
  | swap a b as =>
    simp only [called, List.filter_cons]
    split <;> split <;> simp [List.Perm.swap]
  | inside rest hn h _ =>
    simp only [called, List.filter_cons, Arg.name]
    split
    · simp [hr _ _ _ hn h]
    · exact .refl _
  | trans _ _ ih₁ ih₂ => exact ih₁.trans ih₂

/-- `slot` on what was read. -/
def pick {α : Type} : List (Option α) → Option (Option α)
  | [] => some none
  | [a] => a.map some
  | _ => none

theorem slot_eq {α : Type} (n : String) (read : Arg → Option α) (as : List Arg) :
    slot n read as = pick ((called n as).map read) := by
  unfold slot
  rcases called n as with _ | ⟨a, _ | ⟨b, r⟩⟩ <;> rfl

theorem pick_perm {α : Type} {x y : List (Option α)} (h : x.Perm y) : pick x = pick y := by
  rcases x with _ | ⟨a, _ | ⟨b, r⟩⟩
  · rw [List.nil_perm.mp h]
  · rw [List.singleton_perm.mp h]
  · have := h.length_eq
    rcases y with _ | ⟨a', _ | ⟨b', r'⟩⟩ <;> simp at this ⊢
    rfl

theorem slot_indep {α : Type} {read : Arg → Option α} (hr : Indep read) (n : String) {as bs : List Arg}
    (h : Reorder as bs) : slot n read as = slot n read bs := by
  rw [slot_eq, slot_eq]; exact pick_perm (called_map hr n h)

theorem known_indep (ns : List String) {as bs : List Arg} (h : Reorder as bs) : known ns as = known ns bs := by
  induction h with
  | refl => rfl
  | cons a _ ih => simp only [known, List.all_cons] at ih ⊢; rw [ih]
  | swap a b as => simp only [known, List.all_cons]; rw [← Bool.and_assoc, ← Bool.and_assoc, Bool.and_comm (x := Option.any _ a.name)]
  | inside rest hn h _ => simp only [known, List.all_cons, Arg.name]
  | trans _ _ ih₁ ih₂ => exact ih₁.trans ih₂

theorem filter_indep {as bs : List Arg} (h : Reorder as bs) :
    Reorder (as.filter fun a => a.lit?.isNone) (bs.filter fun a => a.lit?.isNone) := by
  induction h with
  | refl => exact .refl _
  | cons a _ ih => simp only [List.filter_cons]; split <;> first | exact .cons _ ih | exact ih
  | swap a b as =>
    simp only [List.filter_cons]
    split <;> split <;> first | exact .swap _ _ _ | exact .refl _
  | inside rest hn h _ => simp only [List.filter_cons, Arg.lit?]; exact .inside _ hn h
  | trans _ _ ih₁ ih₂ => exact .trans ih₁ ih₂

theorem lits_indep {as bs : List Arg} (h : Reorder as bs) :
    (as.filterMap (·.lit?)).Perm (bs.filterMap (·.lit?)) := by
  induction h with
  | refl => exact .refl _
  | cons a _ ih => simp only [List.filterMap_cons]; split <;> simp [ih]
  | swap a b as =>
    simp only [List.filterMap_cons]
    split <;> split <;> simp [List.Perm.swap, *]
  | inside rest hn h _ => simp only [List.filterMap_cons, Arg.lit?]; exact .refl _
  | trans _ _ ih₁ ih₂ => exact ih₁.trans ih₂

/-- Literals whose order does not matter. -/
def LitIndep {α : Type} (set : α → List Lit → Option α) : Prop := ∀ a x y, List.Perm x y → set a x = set a y

theorem strLit_indep {α : Type} (f : α → String → α) : LitIndep (strLit f) := by
  intro a x y h
  rcases x with _ | ⟨l, _ | ⟨b, r⟩⟩
  · rw [List.nil_perm.mp h]
  · rw [List.singleton_perm.mp h]
  · have := h.length_eq
    rcases y with _ | ⟨a', _ | ⟨b', r'⟩⟩ <;> simp at this ⊢
    simp [strLit]

theorem noLits_indep {α : Type} : LitIndep (noLits (α := α)) := fun _ _ _ _ => rfl

theorem nesting_indep {α : Type} {kw : Option α} {fl : List Arg → Option α} {sl : α → List Lit → Option α}
    {nv : NV → Option α} (hf : ∀ as bs, Reorder as bs → fl as = fl bs) (hs : LitIndep sl) : Indep (nesting kw fl sl nv) := by
  intro n as bs _ h
  have hl := lits_indep h
  simp only [nesting, hf _ _ (filter_indep h), hl.length_eq]
  congr 1; funext a; rw [hs a _ _ hl]

theorem length_indep {as bs : List Arg} (h : Reorder as bs) : as.length = bs.length := by
  induction h <;> simp_all

/-- Functions that look at one item only. -/
theorem indep_one {α : Type} {read : List Arg → Option α} (h : ∀ as, as.length ≠ 1 → read as = none)
    (hl : ∀ m as, read [.list m as] = none) {as bs : List Arg} (hr : Reorder as bs) : read as = read bs := by
  induction hr with
  | refl => rfl
  | @cons a as bs h' _ =>
    have hle := length_indep h'
    rcases as with _ | ⟨c, r⟩
    · rcases bs with _ | _
      · rfl
      · simp at hle
    · rcases bs with _ | _
      · simp at hle
      · rw [h _ (by simp), h _ (by simp)]
  | swap => rw [h _ (by simp), h _ (by simp)]
  | inside rest _ _ _ =>
    rcases rest with _ | ⟨c, r⟩
    · rw [hl, hl]
    · rw [h _ (by simp), h _ (by simp)]
  | trans _ _ ih₁ ih₂ => exact ih₁.trans ih₂

theorem indep_positional {α : Type} {read : Arg → Option α} {n : String} (hn : n ∈ positional) {as bs : List Arg}
    (h : Reorder as bs) : slot n read as = slot n read bs := by
  -- only items called `n` are read, and those are never changed inside
  have : ((called n as).map read).Perm ((called n bs).map read) := by
    induction h with
    | refl => exact .refl _
    | cons a _ ih => simp only [called, List.filter_cons] at ih ⊢; split <;> simp [ih]
    | swap a b as =>
      simp only [called, List.filter_cons]
      split <;> split <;> simp [List.Perm.swap]
    | @inside m as bs rest hm h _ =>
      have : (m == n) = false := by simp; rintro rfl; exact hm hn
      simp [called, Arg.name, this]
    | trans _ _ ih₁ ih₂ => exact ih₁.trans ih₂
  rw [slot_eq, slot_eq]; exact pick_perm this

theorem flag_indep (n : String) {as bs : List Arg} (h : Reorder as bs) : flag n as = flag n bs := by
  unfold flag
  rw [slot_indep (read := flagArg) (fun _ _ _ _ _ => rfl) n h]

theorem fxBool_indep : Indep fxBool :=
  nesting_indep (fun as bs h => by rw [known_indep _ h, flag_indep _ h]) noLits_indep

theorem fxString_indep : Indep fxString := by
  intro n as bs hn h
  unfold fxString
  congr 1
  exact nesting_indep (fun as bs h => by rw [known_indep _ h, flag_indep _ h]) (strLit_indep _) n as bs hn h

theorem pubMode_indep : Indep pubMode := by
  refine nesting_indep (fun as bs h => indep_one ?_ ?_ h) noLits_indep
  · intro as hl
    rcases as with _ | ⟨c, _ | ⟨d, r⟩⟩ <;> simp at hl <;> simp [pubVariant]
  · intro m as; rfl

theorem onePath_indep : Indep onePath := by
  refine fun n as bs _ h => indep_one (read := fun as => onePath (.list n as)) ?_ ?_ h
  · intro as hl
    rcases as with _ | ⟨c, _ | ⟨d, r⟩⟩ <;> simp at hl <;> simp [onePath]
  · intro m as; rfl

theorem onePathOr_indep : Indep onePathOr := by
  refine fun n as bs _ h => indep_one (read := fun as => onePathOr (.list n as)) ?_ ?_ h
  · intro as hl
    rcases as with _ | ⟨c, _ | ⟨d, r⟩⟩ <;> simp at hl <;> simp [onePathOr]
  · intro m as; rfl

theorem syncMode_indep : Indep syncMode := by
  refine fun n as bs _ h => indep_one (read := fun as => syncMode (.list n as)) ?_ ?_ h
  · intro as hl
    rcases as with _ | ⟨c, _ | ⟨d, r⟩⟩ <;> simp at hl <;> simp [syncMode]
  · intro m as; rfl

theorem boolArg_indep : Indep boolArg := fun _ _ _ _ _ => rfl

theorem helperSlots_indep {as bs : List Arg} (h : Reorder as bs) : helperSlots as = helperSlots bs := by
  unfold helperSlots
  rw [slot_indep fxString_indep _ h, flag_indep _ h, indep_positional (n := "attributes_fn") (by decide) h,
    slot_indep pubMode_indep _ h, slot_indep fxBool_indep _ h]

theorem fxHelper_indep : Indep fxHelper :=
  nesting_indep (fun as bs h => by
    unfold helperList; rw [known_indep _ h, helperSlots_indep h]) (strLit_indep _)

theorem fxAccessor_indep : Indep fxAccessor :=
  nesting_indep (fun as bs h => by
    unfold accessorList
    rw [known_indep _ h, helperSlots_indep h, flag_indep _ h, flag_indep "copy" h, flag_indep "as_ref" h]) (strLit_indep _)

theorem fxSetter_indep : Indep fxSetter :=
  nesting_indep (fun as bs h => by
    unfold setterList
    rw [known_indep _ h, helperSlots_indep h, slot_indep boolArg_indep _ h]) (strLit_indep _)

theorem fxBuilder_indep (s : Bool) : Indep (fxBuilder s) :=
  nesting_indep (fun as bs h => by
    unfold builderList
    rw [known_indep _ h, helperSlots_indep h, indep_positional (n := "attributes") (by decide) h,
      indep_positional (n := "attributes_impl") (by decide) h, slot_indep fxBool_indep "into" h,
      slot_indep fxBool_indep "required" h, slot_indep fxBool_indep "opt_in" h, slot_indep onePathOr_indep _ h,
      indep_positional (n := "error") (by decide) h]) (strLit_indep _)

theorem fxFallible_indep : Indep fxFallible :=
  nesting_indep (fun as bs h => by
    unfold fallibleList
    rw [known_indep _ h, flag_indep _ h, slot_indep onePath_indep _ h]) noLits_indep

theorem fxSerde_indep : Indep fxSerde :=
  nesting_indep (fun as bs h => by
    unfold serdeList
    rw [known_indep _ h, flag_indep _ h, slot_indep pubMode_indep _ h, slot_indep fxBool_indep "private" h,
      indep_positional (n := "attributes") (by decide) h, slot_indep fxBool_indep "serialize" h,
      slot_indep fxBool_indep "deserialize" h, indep_positional (n := "forward_attrs") (by decide) h,
      indep_positional (n := "default") (by decide) h, slot_indep fxString_indep _ h]) (strLit_indep _)

theorem fieldSlots_indep (ident : String) {as bs : List Arg} (h : Reorder as bs) :
    fieldSlots ident as = fieldSlots ident bs := by
  unfold fieldSlots
  rw [known_indep _ h, flag_indep _ h, slot_indep syncMode_indep _ h]
  simp only [slot_indep fxBool_indep _ h, slot_indep fxFallible_indep _ h, slot_indep fxHelper_indep _ h,
    slot_indep fxString_indep _ h, slot_indep fxAccessor_indep _ h, slot_indep fxSetter_indep _ h,
    slot_indep pubMode_indep _ h, slot_indep (fxBuilder_indep _) _ h, slot_indep fxSerde_indep _ h,
    indep_positional (n := "attributes_fn") (read := attributes) (by decide) h,
    indep_positional (n := "default") (read := fxDefault) (by decide) h]

theorem struct_indep {as bs : List Arg} (h : Reorder as bs) : struct as = struct bs := by
  unfold struct
  rw [known_indep _ h, slot_indep syncMode_indep _ h]
  simp only [slot_indep fxBool_indep _ h, slot_indep fxFallible_indep _ h, slot_indep fxHelper_indep _ h,
    slot_indep fxAccessor_indep _ h, slot_indep fxSetter_indep _ h,
    slot_indep pubMode_indep _ h, slot_indep (fxBuilder_indep _) _ h, slot_indep fxSerde_indep _ h,
    indep_positional (n := "attributes") (read := attributes) (by decide) h,
    indep_positional (n := "attributes_impl") (read := attributes) (by decide) h]

end Verif.Proof.ParseOrder
