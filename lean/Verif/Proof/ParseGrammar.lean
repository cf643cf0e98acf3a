import Verif.Spec.Grammar
import Verif.Proof.Exclusive
import Verif.Proof.ParseIff
import Mathlib.Data.List.Nodup
/-! The readers accept exactly the grammar. -/
namespace Verif.Proof.ParseGrammar
open Verif.Model
open Verif.Model.Args Verif.Model.Exclusive Verif.Model.Parse Verif.Spec.Grammar Verif.Proof.ParseIff

/-! ### Slots -/

theorem mem_called {n : String} {args : List Arg} {a : Arg} : a ∈ called n args ↔ a ∈ args ∧ a.name = some n := by
  simp [called]

theorem slot_isSome {α : Type} (n : String) (read : Arg → Option α) (args : List Arg) :
    (slot n read args).isSome ↔ (called n args).length ≤ 1 ∧ ∀ a ∈ called n args, (read a).isSome := by
  unfold slot
  rcases called n args with _ | ⟨a, _ | ⟨b, r⟩⟩ <;> simp

theorem slot_has {α : Type} {n : String} {read : Arg → Option α} {args : List Arg} {v : Option α}
    (h : slot n read args = some v) : v.isSome ↔ Has n args := by
  unfold slot at h
  have hm : Has n args ↔ called n args ≠ [] := by
    rw [List.ne_nil_iff_exists_cons]
    constructor
    · rintro ⟨a, ha, hn⟩
      have := mem_called.mpr ⟨ha, hn⟩
      rcases hc : called n args with _ | ⟨b, r⟩
      · rw [hc] at this; cases this
      · exact ⟨b, r, rfl⟩
    · rintro ⟨b, r, hc⟩
      have : b ∈ called n args := by simp [hc]
      exact ⟨b, mem_called.mp this⟩
  rw [hm]
  split at h
  · rename_i hc; simp_all
  · rename_i a hc
    cases hr : read a <;> simp_all
    simp [← h]
  · cases h

theorem slot_some {α : Type} {n : String} {read : Arg → Option α} {args : List Arg} {r : α}
    (h : slot n read args = some (some r)) : ∃ a, called n args = [a] ∧ read a = some r := by
  unfold slot at h
  split at h
  · cases h
  · rename_i a hc
    cases hr : read a <;> simp_all
  · cases h

theorem slot_none {α : Type} {n : String} {read : Arg → Option α} {args : List Arg}
    (h : slot n read args = some none) : called n args = [] := by
  unfold slot at h
  split at h
  · assumption
  · rename_i a hc
    cases hr : read a <;> simp_all
  · cases h

theorem slot_on {α : Type} {n : String} {read : Arg → Option α} {args : List Arg} {v : Option α}
    (isOn : α → Bool) (hr : ∀ a r, read a = some r → (isOn r = true ↔ ¬ IsOff a)) (h : slot n read args = some v) :
    v.elim false isOn = true ↔ On n args := by
  cases v with
  | none =>
    have := slot_none h
    simp only [Option.elim, Bool.false_eq_true, false_iff]
    rintro ⟨a, ha, hn, _⟩
    have := mem_called.mpr ⟨ha, hn⟩
    simp_all
  | some r =>
    obtain ⟨a, hc, ha⟩ := slot_some h
    simp only [Option.elim]
    rw [hr a r ha]
    have hm : a ∈ called n args := by simp [hc]
    constructor
    · intro ho; exact ⟨a, (mem_called.mp hm).1, (mem_called.mp hm).2, ho⟩
    · rintro ⟨b, hb, hn, ho⟩
      have := mem_called.mpr ⟨hb, hn⟩
      rw [hc] at this
      simp at this
      rwa [← this]

theorem flag_isSome (n : String) (args : List Arg) :
    (flag n args).isSome ↔ (called n args).length ≤ 1 ∧ ∀ a ∈ called n args, Fits aFlag a := by
  unfold flag
  rw [Option.isSome_map, slot_isSome]
  refine and_congr_right fun _ => forall_congr' fun a => imp_congr_right fun _ => ?_
  cases a <;> simp [flagArg, aFlag, Fits]

theorem flag_has {n : String} {args : List Arg} {b : Bool} (h : flag n args = some b) : b = true ↔ Has n args := by
  unfold flag at h
  obtain ⟨v, hv, rfl⟩ := Option.map_eq_some_iff.mp h
  exact slot_has hv

theorem flag_off {args : List Arg} {b : Bool} (h : flag "off" args = some b) : b = true ↔ Arg.word "off" ∈ args := by
  rw [flag_has h]
  have hs : (flag "off" args).isSome := by rw [h]; rfl
  constructor
  · rintro ⟨a, ha, hn⟩
    have := ((flag_isSome _ _).mp hs).2 a (mem_called.mpr ⟨ha, hn⟩)
    simp only [aFlag, Fits] at this
    obtain ⟨m, rfl⟩ := this
    simp [Arg.name] at hn
    rwa [hn] at ha
  · intro ha; exact ⟨_, ha, rfl⟩

/-! ### Groups -/

theorem fitsIn_iff (fs : List (String × Form)) (a : Arg) :
    FitsIn fs a ↔ ∃ p ∈ fs, a.name = some p.1 ∧ Fits p.2 a := by
  induction fs with
  | nil => simp [FitsIn]
  | cons p r ih => simp [FitsIn, ih]

theorem count_name (n : String) (args : List Arg) :
    (args.filterMap (·.name)).count n = (called n args).length := by
  induction args with
  | nil => rfl
  | cons a r ih =>
    simp only [called, List.filterMap_cons, List.filter_cons] at ih ⊢
    cases h : a.name with
    | none => simp [ih]
    | some m =>
      by_cases hm : m = n
      · subst hm; simp [ih]
      · simp [hm, ih]

theorem group_iff (fs : List (String × Form)) (hn : (fs.map Prod.fst).Nodup) (args : List Arg) :
    ((∀ a ∈ args, FitsIn fs a) ∧ (args.filterMap (·.name)).Nodup) ↔
      known (fs.map Prod.fst) args = true ∧
        ∀ p ∈ fs, (called p.1 args).length ≤ 1 ∧ ∀ a ∈ called p.1 args, Fits p.2 a := by
  simp only [fitsIn_iff, List.nodup_iff_count_le_one, count_name]
  constructor
  · rintro ⟨h, hd⟩
    refine ⟨?_, ?_⟩
    · rw [known, List.all_eq_true]
      intro a ha
      obtain ⟨p, hp, hpn, -⟩ := h a ha
      simp only [hpn, Option.any_some, List.contains_iff_mem, List.mem_map]
      exact ⟨p, hp, rfl⟩
    · intro p hp
      refine ⟨hd _, ?_⟩
      intro a ha
      obtain ⟨ha, hna⟩ := mem_called.mp ha
      obtain ⟨q, hq, hqn, hqf⟩ := h a ha
      have : q = p := by
        have e : q.1 = p.1 := by rw [hna] at hqn; simpa using hqn.symm
        exact List.inj_on_of_nodup_map hn hq hp e
      rwa [← this]
  · rintro ⟨hk, h⟩
    rw [known, List.all_eq_true] at hk
    have hk' : ∀ a ∈ args, ∃ p ∈ fs, a.name = some p.1 := by
      intro a ha
      have := hk a ha
      cases hna : a.name with
      | none => simp [hna] at this
      | some m =>
        simp only [hna, Option.any_some, List.contains_iff_mem, List.mem_map] at this
        obtain ⟨p, hp, rfl⟩ := this
        exact ⟨p, hp, rfl⟩
    refine ⟨?_, ?_⟩
    · intro a ha
      obtain ⟨p, hp, hna⟩ := hk' a ha
      exact ⟨p, hp, hna, (h p hp).2 a (mem_called.mpr ⟨ha, hna⟩)⟩
    · intro n
      by_cases hm : ∃ p ∈ fs, n = p.1
      · obtain ⟨p, hp, rfl⟩ := hm; exact (h p hp).1
      · have : called n args = [] := by
          rw [List.eq_nil_iff_forall_not_mem]
          intro a ha
          obtain ⟨ha, hna⟩ := mem_called.mp ha
          obtain ⟨p, hp, hpa⟩ := hk' a ha
          exact hm ⟨p, hp, by rw [hna] at hpa; simpa using hpa⟩
        simp [this]

/-- The conditions on names that exclude each other. -/
def OnceOk (once : List (List String)) (args : List Arg) : Prop :=
  ∀ g ∈ once, g.Pairwise fun m n => ¬ (Has m args ∧ Has n args)

/-- The conditions on arguments that exclude each other. -/
def ExclOk (excl : List (List (List String))) (args : List Arg) : Prop :=
  ∀ g ∈ excl, g.Pairwise fun x y => ¬ ((∃ m ∈ x, On m args) ∧ ∃ n ∈ y, On n args)

theorem has_filter (n : String) (args : List Arg) : Has n (args.filter fun a => a.lit?.isNone) ↔ Has n args := by
  unfold Has
  constructor
  · rintro ⟨a, ha, h⟩; exact ⟨a, (List.mem_filter.mp ha).1, h⟩
  · rintro ⟨a, ha, h⟩
    refine ⟨a, List.mem_filter.mpr ⟨ha, ?_⟩, h⟩
    cases a <;> simp_all [Arg.name, Arg.lit?]

theorem on_filter (n : String) (args : List Arg) : On n (args.filter fun a => a.lit?.isNone) ↔ On n args := by
  unfold On
  constructor
  · rintro ⟨a, ha, h⟩; exact ⟨a, (List.mem_filter.mp ha).1, h⟩
  · rintro ⟨a, ha, h⟩
    refine ⟨a, List.mem_filter.mpr ⟨ha, ?_⟩, h⟩
    cases a <;> simp_all [Arg.name, Arg.lit?]

theorem names_filter (args : List Arg) :
    (args.filter fun a => a.lit?.isNone).filterMap (·.name) = args.filterMap (·.name) := by
  induction args with
  | nil => rfl
  | cons a r ih =>
    have h : a.lit?.isNone = true ∨ a.lit?.isNone = false ∧ a.name = none := by cases a <;> simp [Arg.lit?, Arg.name]
    rcases h with h | ⟨h, hn⟩
    · rw [List.filter_cons_of_pos (p := fun a : Arg => a.lit?.isNone) h, List.filterMap_cons, List.filterMap_cons, ih]
    · rw [List.filter_cons_of_neg (p := fun a : Arg => a.lit?.isNone) (by simp [h]), List.filterMap_cons, hn, ih]

theorem lits_nil (args : List Arg) : args.filterMap (·.lit?) = [] ↔ ∀ a ∈ args, a.lit? = none := by
  simp [List.filterMap_eq_nil_iff]

theorem nesting_fits {α : Type} {kw : Option α} {fl : List Arg → Option α} {sl : α → List Lit → Option α}
    {nv : NV → Option α} {bare lit : Bool} {once : List (List String)} {excl : List (List (List String))}
    {fs : List (String × Form)} (hk : kw.isSome = bare) (hnv : ∀ v, nv v = none)
    (hfl : ∀ args, (fl args).isSome ↔ ((∀ a ∈ args, FitsIn fs a) ∧ (args.filterMap (·.name)).Nodup) ∧
      OnceOk once args ∧ ExclOk excl args)
    (hsl : ∀ a l, l ≠ [] → ((sl a l).isSome ↔ lit = true ∧ ∃ s, l = [.str s])) (a : Arg) :
    (nesting kw fl sl nv a).isSome ↔ Fits (.group bare lit once excl fs) a := by
  cases a with
  | word n => simp [nesting, Fits, hk]
  | nv n v => simp [nesting, Fits, hnv]
  | lit l => simp [nesting, Fits]
  | list n args =>
    have hw := hfl (args.filter fun a => a.lit?.isNone)
    rw [names_filter] at hw
    have ho : OnceOk once (args.filter fun a => a.lit?.isNone) ↔ OnceOk once args := by
      simp only [OnceOk, has_filter]
    have he : ExclOk excl (args.filter fun a => a.lit?.isNone) ↔ ExclOk excl args := by
      simp only [ExclOk, on_filter]
    rw [ho, he] at hw
    have hl : ((∀ a ∈ args, (lit = true ∧ ∃ s, a = .lit (.str s)) ∨ FitsIn fs a) ∧
          (args.filterMap (·.lit?)).length ≤ 1) ↔
        (∀ a ∈ args.filter fun a => a.lit?.isNone, FitsIn fs a) ∧
          (args.filterMap (·.lit?) = [] ∨ lit = true ∧ ∃ s, args.filterMap (·.lit?) = [.str s]) := by
      have hnl : ∀ l, ¬ FitsIn fs (.lit l) := by
        intro l h; obtain ⟨p, _, h, _⟩ := (fitsIn_iff _ _).mp h; simp [Arg.name] at h
      constructor
      · rintro ⟨h, hle⟩
        refine ⟨?_, ?_⟩
        · intro a ha
          obtain ⟨ha, hn⟩ := List.mem_filter.mp ha
          rcases h a ha with ⟨_, s, rfl⟩ | h
          · simp [Arg.lit?] at hn
          · exact h
        · rcases hc : args.filterMap (·.lit?) with _ | ⟨l, r⟩
          · exact .inl hc
          · right
            rw [hc] at hle
            have hr : r = [] := by simpa using hle
            subst hr
            have hm : l ∈ args.filterMap (·.lit?) := by rw [hc]; simp
            obtain ⟨a, ha, hal⟩ := List.mem_filterMap.mp hm
            rcases h a ha with ⟨hlt, s, rfl⟩ | h
            · simp [Arg.lit?] at hal
              exact ⟨hlt, s, by rw [hc, hal]⟩
            · cases a <;> simp [Arg.lit?] at hal
              exact absurd h (hnl _)
      · rintro ⟨h, hc⟩
        refine ⟨?_, ?_⟩
        · intro a ha
          cases hal : a.lit? with
          | none => right; exact h a (List.mem_filter.mpr ⟨ha, by simp [hal]⟩)
          | some l =>
            have hm : l ∈ args.filterMap (·.lit?) := List.mem_filterMap.mpr ⟨a, ha, hal⟩
            rcases hc with hc | ⟨hlt, s, hc⟩
            · rw [hc] at hm; cases hm
            · rw [hc] at hm
              left
              refine ⟨hlt, s, ?_⟩
              have : l = .str s := by simpa using hm
              subst this
              cases a <;> simp [Arg.lit?] at hal ⊢
              exact hal
        · rcases hc with hc | ⟨_, s, hc⟩ <;> simp [hc]
    have hb : (nesting kw fl sl nv (.list n args)).isSome ↔
        (fl (args.filter fun a => a.lit?.isNone)).isSome ∧
          (args.filterMap (·.lit?) = [] ∨ lit = true ∧ ∃ s, args.filterMap (·.lit?) = [.str s]) := by
      simp only [nesting]
      rcases hf : fl (args.filter fun a => a.lit?.isNone) with _ | b
      · simp
      · simp only [Option.bind_eq_bind, Option.bind_some, Option.isSome_some, true_and]
        rcases hc : args.filterMap (·.lit?) with _ | ⟨l, r⟩
        · simp [hc]
        · simp only [hc, List.length_cons, gt_iff_lt, Nat.zero_lt_succ, if_true]
          rw [hsl b (l :: r) (by simp)]
          simp
    rw [hb, hw]
    simp only [Fits]
    constructor
    · rintro ⟨⟨⟨h1, h2⟩, h3, h4⟩, h5⟩
      obtain ⟨h6, h7⟩ := hl.mpr ⟨h1, h5⟩
      exact ⟨h6, h2, h7, h3, h4⟩
    · rintro ⟨h6, h2, h7, h3, h4⟩
      obtain ⟨h1, h5⟩ := hl.mp ⟨h6, h7⟩
      exact ⟨⟨⟨h1, h2⟩, h3, h4⟩, h5⟩

theorem strLit_ok {α : Type} (f : α → String → α) (a : α) (l : List Lit) (_ : l ≠ []) :
    (strLit f a l).isSome ↔ true = true ∧ ∃ s, l = [.str s] := by
  rcases l with _ | ⟨x, _ | ⟨y, r⟩⟩
  · simp [strLit]
  · cases x <;> simp [strLit]
  · simp [strLit]

theorem noLits_ok {α : Type} (a : α) (l : List Lit) (_ : l ≠ []) :
    (noLits a l).isSome ↔ false = true ∧ ∃ s, l = [.str s] := by
  simp [noLits]

/-- The reader accepts exactly the items of the form. -/
def Reader {α : Type} (read : Arg → Option α) (form : Form) : Prop := ∀ a, (read a).isSome ↔ Fits form a

theorem slot_ok {α : Type} {read : Arg → Option α} {form : Form} (hr : Reader read form) (n : String) (args : List Arg) :
    (slot n read args).isSome ↔ (called n args).length ≤ 1 ∧ ∀ a ∈ called n args, Fits form a := by
  rw [slot_isSome]
  refine and_congr_right fun _ => forall_congr' fun a => imp_congr_right fun _ => hr a

theorem once_nil (args : List Arg) : OnceOk [] args := by simp [OnceOk]
theorem excl_nil (args : List Arg) : ExclOk [] args := by simp [ExclOk]

theorem offList (args : List Arg) {α : Type} (f : Bool → α) :
    ((if known ["off"] args then (flag "off" args).map f else none).isSome) ↔
      ((∀ a ∈ args, FitsIn [("off", aFlag)] a) ∧ (args.filterMap (·.name)).Nodup) ∧ OnceOk [] args ∧ ExclOk [] args := by
  rw [group_iff _ (by simp)]
  simp only [once_nil, excl_nil, and_true, List.map_cons, List.map_nil, List.mem_singleton, forall_eq]
  rw [← flag_isSome]
  by_cases hk : known ["off"] args = true <;> simp [hk]

theorem fxBool_reader : Reader fxBool aSwitch :=
  nesting_fits rfl (fun _ => rfl) (fun args => offList args _) noLits_ok

theorem fxString_reader : Reader fxString aText := by
  intro a
  rw [fxString, Option.isSome_map]
  exact nesting_fits rfl (fun _ => rfl) (fun args => offList args _) (strLit_ok _) a

theorem pubVariant_isSome (args : List Arg) : (pubVariant args).isSome ↔
    (∃ w, (w = "crate" ∨ w = "super") ∧ args = [.word w]) ∨
    (∃ p, args = [.nv "in_mod" (.path p)] ∨ args = [.nv "in_mod" (.lit (.str p))]) := by
  constructor
  · intro h
    unfold pubVariant at h
    split at h
    · exact .inl ⟨_, .inl rfl, rfl⟩
    · exact .inl ⟨_, .inr rfl, rfl⟩
    · exact .inr ⟨_, .inl rfl⟩
    · exact .inr ⟨_, .inr rfl⟩
    · cases h
  · rintro (⟨w, rfl | rfl, rfl⟩ | ⟨p, rfl | rfl⟩) <;> rfl

theorem pubMode_list (n : String) (args : List Arg) : (pubMode (.list n args)).isSome ↔ (pubVariant args).isSome := by
  have hv : (pubVariant args).isSome → ∀ a ∈ args, a.lit? = none := by
    rw [pubVariant_isSome]
    rintro (⟨w, rfl | rfl, rfl⟩ | ⟨p, rfl | rfl⟩) <;> simp [Arg.lit?]
  have hf : (∀ a ∈ args, a.lit? = none) → (args.filter fun a => a.lit?.isNone) = args := by
    intro h; rw [List.filter_eq_self]; intro a ha; simp [h a ha]
  simp only [pubMode, nesting]
  constructor
  · intro h
    by_cases hl : args.filterMap (·.lit?) = []
    · rw [hf ((lits_nil _).mp hl), hl] at h
      cases hp : pubVariant args <;> simp_all
    · have : 0 < (args.filterMap (·.lit?)).length := List.length_pos_iff.mpr hl
      simp only [gt_iff_lt, this, if_true, noLits] at h
      simp at h
  · intro h
    have hn := hv h
    rw [hf hn, (lits_nil _).mpr hn]
    simpa using h

theorem pubMode_reader : Reader pubMode aPublic := by
  intro a
  simp only [aPublic, Fits]
  cases a with
  | word n => simp [pubMode, nesting]
  | lit l => simp [pubMode, nesting]
  | nv n v =>
    simp only [pubMode, nesting]
    constructor
    · intro h
      unfold pubString at h
      split at h
      · exact ⟨n, .inr (.inl ⟨_, .inl rfl, .inr rfl⟩)⟩
      · exact ⟨n, .inr (.inl ⟨_, .inr rfl, .inr rfl⟩)⟩
      · cases h
    · rintro ⟨m, h | ⟨w, hw, h | h⟩ | ⟨p, h | h⟩⟩ <;> try cases h
      rcases hw with rfl | rfl <;> rfl
  | list n args =>
    rw [pubMode_list, pubVariant_isSome]
    constructor
    · rintro (⟨w, hw, rfl⟩ | ⟨p, rfl | rfl⟩)
      · exact ⟨n, .inr (.inl ⟨w, hw, .inl rfl⟩)⟩
      · exact ⟨n, .inr (.inr ⟨p, .inl rfl⟩)⟩
      · exact ⟨n, .inr (.inr ⟨p, .inr rfl⟩)⟩
    · rintro ⟨m, h | ⟨w, hw, h | h⟩ | ⟨p, h | h⟩⟩ <;> cases h
      · exact .inl ⟨w, hw, rfl⟩
      · exact .inr ⟨p, .inl rfl⟩
      · exact .inr ⟨p, .inr rfl⟩

theorem mapM_isSome {α β : Type} (f : α → Option β) (l : List α) : (l.mapM f).isSome ↔ ∀ a ∈ l, (f a).isSome := by
  induction l with
  | nil => simp
  | cons a r ih =>
    rw [List.mapM_cons]
    cases h : f a with
    | none => simp [h]
    | some b =>
      cases h' : r.mapM f with
      | none => rw [h'] at ih; simp [h] at ih ⊢; exact ih
      | some bs => rw [h'] at ih; simp [h] at ih ⊢; exact ih

theorem attributes_reader : Reader attributes anAttributes := by
  intro a
  simp only [anAttributes, Fits]
  cases a with
  | list n args =>
    rw [attributes, Option.isSome_map, mapM_isSome]
    constructor
    · intro h
      refine ⟨n, args, rfl, fun b hb => ?_⟩
      have := h b hb
      unfold attrItem at this
      split at this
      · exact .inl ⟨_, rfl⟩
      · exact .inr (.inl ⟨_, _, rfl⟩)
      · exact .inr (.inr ⟨_, _, rfl⟩)
      · cases this
    · rintro ⟨m, as, h, hb⟩ b hm
      cases h
      rcases hb b hm with ⟨w, rfl⟩ | ⟨w, as, rfl⟩ | ⟨w, p, rfl⟩ <;> rfl
  | _ => simp [attributes]

theorem onePath_reader : Reader onePath aPath := by
  intro a
  simp only [aPath, Fits]
  constructor
  · intro h
    unfold onePath at h
    split at h
    · exact ⟨_, _, rfl⟩
    · cases h
  · rintro ⟨n, p, rfl⟩; rfl

theorem onePathOr_reader : Reader onePathOr aPathOrWord := by
  intro a
  simp only [aPathOrWord, Fits]
  constructor
  · intro h
    unfold onePathOr at h
    split at h
    · exact ⟨_, .inl rfl⟩
    · exact ⟨_, .inr ⟨_, rfl⟩⟩
    · cases h
  · rintro ⟨n, rfl | ⟨p, rfl⟩⟩ <;> rfl

theorem twoPaths_reader : Reader twoPaths aPathOrTwo := by
  intro a
  simp only [aPathOrTwo, Fits]
  constructor
  · intro h
    unfold twoPaths at h
    split at h
    · exact ⟨_, _, .inl rfl⟩
    · exact ⟨_, _, .inr ⟨_, rfl⟩⟩
    · cases h
  · rintro ⟨n, p, rfl | ⟨q, rfl⟩⟩ <;> rfl

theorem syncMode_reader : Reader syncMode aMode := by
  intro a
  simp only [aMode, Fits]
  constructor
  · intro h
    unfold syncMode at h
    split at h
    · exact ⟨_, _, .inl rfl, rfl⟩
    · exact ⟨_, _, .inr (.inl rfl), rfl⟩
    · exact ⟨_, _, .inr (.inr rfl), rfl⟩
    · cases h
  · rintro ⟨n, w, rfl | rfl | rfl, rfl⟩ <;> rfl

theorem boolArg_reader : Reader boolArg aTruth := by
  intro a
  simp only [aTruth, Fits]
  constructor
  · intro h
    unfold boolArg at h
    split at h
    · exact ⟨_, .inl rfl⟩
    · exact ⟨_, .inr (.inl ⟨_, rfl⟩)⟩
    · exact ⟨_, .inr (.inr (.inl rfl))⟩
    · exact ⟨_, .inr (.inr (.inr rfl))⟩
    · cases h
  · rintro ⟨n, rfl | ⟨b, rfl⟩ | rfl | rfl⟩ <;> rfl

theorem fxDefault_reader : Reader fxDefault aDefault := by
  intro a
  simp only [aDefault, Fits]
  constructor
  · intro h
    unfold fxDefault at h
    split at h
    · exact ⟨_, .inl rfl⟩
    · exact ⟨_, .inr (.inl rfl)⟩
    · exact ⟨_, .inr (.inr ⟨_, .inl rfl⟩)⟩
    · exact ⟨_, .inr (.inr ⟨_, .inr rfl⟩)⟩
    · cases h
  · rintro ⟨n, rfl | rfl | ⟨v, rfl | rfl⟩⟩ <;> rfl

theorem pathList_reader : Reader pathList aPaths := by
  intro a
  simp only [aPaths, Fits]
  cases a with
  | list n args =>
    rw [pathList, mapM_isSome]
    constructor
    · intro h
      refine ⟨n, args.filterMap (·.name), ?_⟩
      congr 1
      induction args with
      | nil => rfl
      | cons b r ih =>
        have hb := h b (by simp)
        split at hb
        · rename_i q
          show Arg.word q :: r = Arg.word q :: List.map Arg.word (r.filterMap (·.name))
          rw [← ih fun a ha => h a (by simp [ha])]
        · cases hb
    · rintro ⟨m, ps, h⟩ b hb
      cases h
      obtain ⟨p, _, rfl⟩ := List.mem_map.mp hb
      rfl
  | _ => simp [pathList]

/-! ### Helpers -/

theorem acceptHelper_iff (h : Helper) : acceptHelper h = true ↔ ¬ (h.pub.isSome ∧ h.priv.isSome) := by
  unfold acceptHelper helperGroupOk
  cases h.pub <;> cases h.priv <;> simp

theorem ex_slots {args : List Arg} {P1 P2 P3 P4 P5 : Prop}
    (h1 : (slot "name" fxString args).isSome ↔ P1) (h2 : (flag "off" args).isSome ↔ P2)
    (h3 : (slot "attributes_fn" attributes args).isSome ↔ P3) (h4 : (slot "public" pubMode args).isSome ↔ P4)
    (h5 : (slot "private" fxBool args).isSome ↔ P5) :
    (∃ h, helperSlots args = some h) ↔ P1 ∧ P2 ∧ P3 ∧ P4 ∧ P5 := by
  rw [← h1, ← h2, ← h3, ← h4, ← h5]
  constructor
  · rintro ⟨h, hh⟩
    obtain ⟨⟨v, e1, -⟩, e2, e3, e4, e5⟩ := helperSlots_iff.mp hh
    simp [e1, e2, e3, e4, e5]
  · simp only [Option.isSome_iff_exists]
    rintro ⟨⟨v1, e1⟩, ⟨v2, e2⟩, ⟨v3, e3⟩, ⟨v4, e4⟩, ⟨v5, e5⟩⟩
    exact ⟨{ off := v2, name := v1.bind id, attrsFn := v3, pub := v4, priv := v5 },
      helperSlots_iff.mpr ⟨⟨v1, e1, rfl⟩, e2, e3, e4, e5⟩⟩

/-- What the slots of a helper ask for. -/
theorem helperSlots_ok (args : List Arg) :
    (∃ h, helperSlots args = some h) ↔ ∀ p ∈ helperFields, (called p.1 args).length ≤ 1 ∧ ∀ a ∈ called p.1 args,
      Fits p.2 a := by
  rw [ex_slots (slot_ok fxString_reader _ _) (flag_isSome _ _) (slot_ok attributes_reader _ _)
    (slot_ok pubMode_reader _ _) (slot_ok fxBool_reader _ _)]
  simp only [helperFields, List.forall_mem_cons, List.not_mem_nil, false_imp_iff, implies_true, and_true]

theorem helper_once {args : List Arg} {h : Helper} (hh : helperSlots args = some h) :
    acceptHelper h = true ↔ ["public", "private"].Pairwise fun m n => ¬ (Has m args ∧ Has n args) := by
  obtain ⟨-, -, -, e4, e5⟩ := helperSlots_iff.mp hh
  rw [acceptHelper_iff, slot_has e4, slot_has e5]
  simp

theorem helperList_ok (args : List Arg) : (helperList args).isSome ↔
    ((∀ a ∈ args, FitsIn helperFields a) ∧ (args.filterMap (·.name)).Nodup) ∧
      OnceOk [["public", "private"]] args ∧ ExclOk [] args := by
  rw [group_iff _ (by decide), ← helperSlots_ok]
  simp only [excl_nil, and_true, OnceOk, List.forall_mem_cons, List.not_mem_nil, false_imp_iff, implies_true, and_true]
  rw [Option.isSome_iff_exists]
  constructor
  · rintro ⟨r, hr⟩
    obtain ⟨hk, hs, ha⟩ := helperList_iff.mp hr
    exact ⟨⟨hk, r, hs⟩, (helper_once hs).mp ha⟩
  · rintro ⟨⟨hk, r, hs⟩, ha⟩
    exact ⟨r, helperList_iff.mpr ⟨hk, hs, (helper_once hs).mpr ha⟩⟩

theorem fxHelper_reader : Reader fxHelper aHelper := nesting_fits rfl (fun _ => rfl) helperList_ok (strLit_ok _)

theorem fields_append {fs gs : List (String × Form)} {P : String × Form → Prop} :
    (∀ p ∈ fs ++ gs, P p) ↔ (∀ p ∈ fs, P p) ∧ ∀ p ∈ gs, P p := by
  simp only [List.mem_append]
  constructor
  · intro h; exact ⟨fun p hp => h p (.inl hp), fun p hp => h p (.inr hp)⟩
  · rintro ⟨h1, h2⟩ p (hp | hp)
    exacts [h1 p hp, h2 p hp]

theorem acceptAccessor_iff (a : Accessor) : acceptAccessor a = true ↔
    acceptHelper a.toHelper = true ∧ ¬ (a.clone = true ∧ a.copy = true) ∧ ¬ (a.clone = true ∧ a.asRef = true) ∧
      ¬ (a.copy = true ∧ a.asRef = true) := by
  unfold acceptAccessor helperGroupOk
  cases a.clone <;> cases a.copy <;> cases a.asRef <;> simp

theorem accessorList_ok (args : List Arg) : (accessorList args).isSome ↔
    ((∀ a ∈ args, FitsIn (helperFields ++ [("clone", aFlag), ("copy", aFlag), ("as_ref", aFlag)]) a) ∧
      (args.filterMap (·.name)).Nodup) ∧
      OnceOk [["public", "private"], ["clone", "copy", "as_ref"]] args ∧ ExclOk [] args := by
  rw [group_iff _ (by decide), fields_append, ← helperSlots_ok]
  simp only [excl_nil, and_true, OnceOk, List.forall_mem_cons, List.not_mem_nil, false_imp_iff, implies_true, and_true,
    ← flag_isSome]
  rw [Option.isSome_iff_exists]
  have tri : ∀ {r : Accessor}, flag "clone" args = some r.clone → flag "copy" args = some r.copy →
      flag "as_ref" args = some r.asRef →
      ((¬ (r.clone = true ∧ r.copy = true) ∧ ¬ (r.clone = true ∧ r.asRef = true) ∧ ¬ (r.copy = true ∧ r.asRef = true)) ↔
        ["clone", "copy", "as_ref"].Pairwise fun m n => ¬ (Has m args ∧ Has n args)) := by
    intro r e1 e2 e3
    rw [flag_has e1, flag_has e2, flag_has e3]
    simp only [List.pairwise_cons, List.forall_mem_cons, List.not_mem_nil, false_imp_iff, implies_true, and_true,
      List.Pairwise.nil]
    tauto
  constructor
  · rintro ⟨r, hr⟩
    obtain ⟨hk, hs, e1, e2, e3, ha⟩ := accessorList_iff.mp hr
    obtain ⟨ha, hm⟩ := (acceptAccessor_iff _).mp ha
    exact ⟨⟨hk, ⟨_, hs⟩, by simp [e1], by simp [e2], by simp [e3]⟩, (helper_once hs).mp ha, (tri e1 e2 e3).mp hm⟩
  · rintro ⟨⟨hk, ⟨h, hs⟩, h1, h2, h3⟩, ha, hm⟩
    obtain ⟨v1, e1⟩ := Option.isSome_iff_exists.mp h1
    obtain ⟨v2, e2⟩ := Option.isSome_iff_exists.mp h2
    obtain ⟨v3, e3⟩ := Option.isSome_iff_exists.mp h3
    let r : Accessor := { toHelper := h, clone := v1, copy := v2, asRef := v3 }
    exact ⟨r, accessorList_iff.mpr ⟨hk, hs, e1, e2, e3, (acceptAccessor_iff r).mpr
      ⟨(helper_once hs).mpr ha, (tri (r := r) e1 e2 e3).mpr hm⟩⟩⟩

theorem fxAccessor_reader : Reader fxAccessor anAccessor := nesting_fits rfl (fun _ => rfl) accessorList_ok (strLit_ok _)

theorem setterList_ok (args : List Arg) : (setterList args).isSome ↔
    ((∀ a ∈ args, FitsIn (helperFields ++ [("into", aTruth)]) a) ∧ (args.filterMap (·.name)).Nodup) ∧
      OnceOk [["public", "private"]] args ∧ ExclOk [] args := by
  rw [group_iff _ (by decide), fields_append, ← helperSlots_ok]
  simp only [excl_nil, and_true, OnceOk, List.forall_mem_cons, List.not_mem_nil, false_imp_iff, implies_true, and_true,
    ← slot_ok boolArg_reader]
  rw [Option.isSome_iff_exists]
  constructor
  · rintro ⟨r, hr⟩
    obtain ⟨hk, hs, e1, ha⟩ := setterList_iff.mp hr
    exact ⟨⟨hk, ⟨_, hs⟩, by simp [e1]⟩, (helper_once hs).mp ha⟩
  · rintro ⟨⟨hk, ⟨h, hs⟩, h1⟩, ha⟩
    obtain ⟨v1, e1⟩ := Option.isSome_iff_exists.mp h1
    exact ⟨{ toHelper := h, into := v1 }, setterList_iff.mpr ⟨hk, hs, e1, (helper_once hs).mpr ha⟩⟩

theorem fxSetter_reader : Reader fxSetter aSetter := nesting_fits rfl (fun _ => rfl) setterList_ok (strLit_ok _)

theorem structBuilderList_ok (args : List Arg) : (builderList true args).isSome ↔
    ((∀ a ∈ args, FitsIn (helperFields ++ [("attributes", anAttributes), ("attributes_impl", anAttributes),
        ("into", aSwitch), ("required", aSwitch), ("opt_in", aSwitch), ("post_build", aPathOrWord), ("error",
          aPathOrTwo)]) a) ∧
      (args.filterMap (·.name)).Nodup) ∧
      OnceOk [["public", "private"]] args ∧ ExclOk [] args := by
  rw [group_iff _ (by decide), fields_append, ← helperSlots_ok]
  simp only [excl_nil, and_true, OnceOk, List.forall_mem_cons, List.not_mem_nil, false_imp_iff, implies_true, and_true,
    ← slot_ok attributes_reader, ← slot_ok fxBool_reader, ← slot_ok onePathOr_reader, ← slot_ok twoPaths_reader]
  rw [Option.isSome_iff_exists]
  constructor
  · rintro ⟨r, hr⟩
    obtain ⟨hk, hs, e1, e2, e3, e4, e5, e6, e7, ha⟩ := builderList_iff.mp hr
    simp only [if_true] at ha
    exact ⟨⟨hk, ⟨_, hs⟩, by simp [e1], by simp [e2], by simp [e3], by simp [e4], by simp [e5], by simp [e6],
      by simp [e7]⟩,
      (helper_once hs).mp ha⟩
  · simp only [Option.isSome_iff_exists]
    rintro ⟨⟨hk, ⟨h, hs⟩, ⟨v1, e1⟩, ⟨v2, e2⟩, ⟨v3, e3⟩, ⟨v4, e4⟩, ⟨v5, e5⟩, ⟨v6, e6⟩, ⟨v7, e7⟩⟩, ha⟩
    exact ⟨{ toHelper := h, attributes := v1, attributesImpl := v2, into := v3, required := v4, optIn := v5,
             postBuild := v6, error := v7 },
      builderList_iff.mpr ⟨hk, hs, e1, e2, e3, e4, e5, e6, e7, (helper_once hs).mpr ha⟩⟩

theorem fxStructBuilder_reader : Reader (fxBuilder true) aStructBuilder :=
  nesting_fits rfl (fun _ => rfl) structBuilderList_ok (strLit_ok _)

/-- Names that may not occur need no form. -/
theorem known_less {names rest : List String} {args : List Arg} (h : ∀ n ∈ rest, called n args = []) :
    known (names ++ rest) args = true ↔ known names args = true := by
  simp only [known, List.all_eq_true]
  refine forall_congr' fun a => imp_congr_right fun ha => ?_
  cases hn : a.name with
  | none => simp
  | some m =>
    simp only [Option.any_some, List.contains_iff_mem, List.mem_append]
    constructor
    · rintro (h' | h')
      · exact h'
      · have := h m h'
        have hm := mem_called.mpr ⟨ha, hn⟩
        rw [this] at hm; cases hm
    · exact .inl

theorem slot_absent {α : Type} (n : String) (read : Arg → Option α) (args : List Arg) :
    slot n read args = some none ↔ called n args = [] := by
  constructor
  · exact slot_none
  · intro h; simp [slot, h]

theorem known_absent {names : List String} {args : List Arg} (hk : known names args = true) {n : String}
    (hn : n ∉ names) : called n args = [] := by
  rw [List.eq_nil_iff_forall_not_mem]
  intro a ha
  obtain ⟨ha, hna⟩ := mem_called.mp ha
  have := List.all_eq_true.mp hk a ha
  simp [hna] at this
  exact hn this

theorem fieldBuilderList_ok (args : List Arg) : (builderList false args).isSome ↔
    ((∀ a ∈ args, FitsIn (helperFields ++ [("attributes", anAttributes), ("attributes_impl", anAttributes),
        ("into", aSwitch), ("required", aSwitch)]) a) ∧
      (args.filterMap (·.name)).Nodup) ∧
      OnceOk [["public", "private"]] args ∧ ExclOk [] args := by
  rw [group_iff _ (by decide), fields_append, ← helperSlots_ok]
  simp only [excl_nil, and_true, OnceOk, List.forall_mem_cons, List.not_mem_nil, false_imp_iff, implies_true, and_true,
    ← slot_ok attributes_reader, ← slot_ok fxBool_reader]
  rw [Option.isSome_iff_exists]
  constructor
  · rintro ⟨r, hr⟩
    obtain ⟨hk, hs, e1, e2, e3, e4, e5, e6, e7, ha⟩ := builderList_iff.mp hr
    simp only [Bool.false_eq_true, if_false, acceptFieldBuilder, Bool.and_eq_true, Option.isNone_iff_eq_none] at ha
    obtain ⟨⟨⟨ha, hx⟩, hp⟩, ho⟩ := ha
    rw [hx, slot_absent] at e7
    rw [hp, slot_absent] at e6
    rw [ho, slot_absent] at e5
    have hk' : known (helperNames ++ ["attributes", "attributes_impl", "into", "required"]) args = true := by
      rw [← known_less (rest := ["opt_in", "post_build", "error"])]
      · exact hk
      · simp [e5, e6, e7]
    exact ⟨⟨hk', ⟨_, hs⟩, by simp [e1], by simp [e2], by simp [e3], by simp [e4]⟩, (helper_once hs).mp ha⟩
  · simp only [Option.isSome_iff_exists]
    rintro ⟨⟨hk, ⟨h, hs⟩, ⟨v1, e1⟩, ⟨v2, e2⟩, ⟨v3, e3⟩, ⟨v4, e4⟩⟩, ha⟩
    have a5 : called "opt_in" args = [] := known_absent hk (by decide)
    have a6 : called "post_build" args = [] := known_absent hk (by decide)
    have a7 : called "error" args = [] := known_absent hk (by decide)
    have hk' : known (helperNames ++ ["attributes", "attributes_impl", "into", "required", "opt_in", "post_build",
      "error"])
        args = true := by
      have := (known_less (names := helperNames ++ ["attributes", "attributes_impl", "into", "required"])
        (rest := ["opt_in", "post_build", "error"]) (args := args) (by simp [a5, a6, a7])).mpr hk
      exact this
    refine ⟨{ toHelper := h, attributes := v1, attributesImpl := v2, into := v3, required := v4 },
      builderList_iff.mpr ⟨hk', hs, e1, e2, e3, e4, (slot_absent _ _ _).mpr a5, (slot_absent _ _ _).mpr a6,
        (slot_absent _ _ _).mpr a7, ?_⟩⟩
    simp [acceptFieldBuilder, (helper_once hs).mpr ha]

theorem fxFieldBuilder_reader : Reader (fxBuilder false) aFieldBuilder :=
  nesting_fits rfl (fun _ => rfl) fieldBuilderList_ok (strLit_ok _)

theorem fallibleList_ok (args : List Arg) : (fallibleList args).isSome ↔
    ((∀ a ∈ args, FitsIn [("off", aFlag), ("error", aPath)] a) ∧ (args.filterMap (·.name)).Nodup) ∧
      OnceOk [] args ∧ ExclOk [] args := by
  rw [group_iff _ (by decide)]
  simp only [excl_nil, once_nil, and_true, List.forall_mem_cons, List.not_mem_nil, false_imp_iff, implies_true,
    ← slot_ok onePath_reader, ← flag_isSome]
  rw [Option.isSome_iff_exists]
  constructor
  · rintro ⟨r, hr⟩
    obtain ⟨hk, e1, e2⟩ := fallibleList_iff.mp hr
    exact ⟨hk, by simp [e1], by simp [e2]⟩
  · simp only [Option.isSome_iff_exists]
    rintro ⟨hk, ⟨v1, e1⟩, ⟨v2, e2⟩⟩
    exact ⟨{ off := v1, error := v2 }, fallibleList_iff.mpr ⟨hk, e1, e2⟩⟩

theorem fxFallible_reader : Reader fxFallible aFallible := nesting_fits rfl (fun _ => rfl) fallibleList_ok noLits_ok

/-! ### Switched on -/

theorem nesting_on {α : Type} {kw : Option α} {fl : List Arg → Option α} {sl : α → List Lit → Option α}
    (isOn : α → Bool) (hk : ∀ r, kw = some r → isOn r = true)
    (hfl : ∀ args r, fl args = some r → (isOn r = true ↔ Arg.word "off" ∉ args))
    (hsl : ∀ r l r', sl r l = some r' → isOn r' = isOn r) (a : Arg) (r : α) (h : nesting kw fl sl (fun _ => none) a = some r) :
    isOn r = true ↔ ¬ IsOff a := by
  cases a with
  | word n => simp only [nesting] at h; simp [IsOff, hk r h]
  | nv n v => cases h
  | lit l => cases h
  | list n args =>
    simp only [nesting, Option.bind_eq_bind, Option.bind_eq_some_iff] at h
    obtain ⟨r₀, h0, h1⟩ := h
    have e : isOn r = isOn r₀ := by
      split at h1
      · exact hsl _ _ _ h1
      · cases h1; rfl
    rw [e, hfl _ _ h0, IsOff]
    simp [List.mem_filter, Arg.lit?]

theorem noLits_on {α : Type} (isOn : α → Bool) (r : α) (l : List Lit) (r' : α) (h : noLits r l = some r') :
    isOn r' = isOn r := by cases h

theorem strLit_on {α : Type} {f : α → String → α} {isOn : α → Bool} (hf : ∀ r s, isOn (f r s) = isOn r) (r : α)
    (l : List Lit) (r' : α) (h : strLit f r l = some r') : isOn r' = isOn r := by
  unfold strLit at h
  split at h
  · cases h; exact hf _ _
  · cases h

theorem fxBool_on (a : Arg) (r : Bool) (h : fxBool a = some r) : id r = true ↔ ¬ IsOff a := by
  refine nesting_on id (fun r h => by cases h; rfl) (fun args r h => ?_) (noLits_on _) a r h
  split at h
  · obtain ⟨b, hb, rfl⟩ := Option.map_eq_some_iff.mp h
    have := flag_off hb
    cases b <;> simp_all
  · cases h

theorem fxHelper_on (a : Arg) (r : Helper) (h : fxHelper a = some r) : r.isTrue = true ↔ ¬ IsOff a := by
  refine nesting_on (kw := some ({} : Helper)) (fl := helperList) (sl := strLit fun h s => { h with name := some s }) Helper.isTrue
    (fun r h => by cases h; rfl) (fun args r h => ?_) (strLit_on fun _ _ => rfl) a r h
  obtain ⟨-, hs, -⟩ := helperList_iff.mp h
  obtain ⟨-, e2, -⟩ := helperSlots_iff.mp hs
  have := flag_off e2
  unfold Helper.isTrue
  cases ho : r.off <;> simp_all

theorem fxFallible_on (a : Arg) (r : Fallible) (h : fxFallible a = some r) : r.isTrue = true ↔ ¬ IsOff a := by
  refine nesting_on Fallible.isTrue (fun r h => by cases h; rfl) (fun args r h => ?_) (noLits_on _) a r h
  obtain ⟨-, e1, -⟩ := fallibleList_iff.mp h
  have := flag_off e1
  unfold Fallible.isTrue
  cases ho : r.off <;> simp_all

theorem fxSerde_on (a : Arg) (r : Serde) (h : fxSerde a = some r) : r.isTrue = true ↔ ¬ IsOff a := by
  refine nesting_on (kw := some ({} : Serde)) (fl := serdeList) (sl := strLit fun s n => { s with shadowName := some n }) Serde.isTrue
    (fun r h => by cases h; rfl) (fun args r h => ?_) (strLit_on fun _ _ => rfl) a r h
  obtain ⟨-, e1, -⟩ := serdeList_iff.mp h
  have := flag_off e1
  unfold Serde.isTrue
  cases ho : r.off <;> simp_all

theorem pubMode_on (a : Arg) (r : PubMode) (h : pubMode a = some r) : (fun _ : PubMode => true) r = true ↔ ¬ IsOff a := by
  have hs : (pubMode a).isSome := by rw [h]; rfl
  have := (pubMode_reader a).mp hs
  simp only [aPublic, Fits] at this
  simp only [true_iff]
  rcases this with ⟨n, rfl | ⟨w, hw, rfl | rfl⟩ | ⟨p, rfl | rfl⟩⟩ <;> simp [IsOff]
  rcases hw with rfl | rfl <;> decide

theorem syncMode_on (a : Arg) (r : SyncMode) (h : syncMode a = some r) :
    (fun _ : SyncMode => true) r = true ↔ ¬ IsOff a := by
  have hs : (syncMode a).isSome := by rw [h]; rfl
  have := (syncMode_reader a).mp hs
  simp only [aMode, Fits] at this
  simp only [true_iff]
  rcases this with ⟨n, w, hw, rfl⟩
  rcases hw with rfl | rfl | rfl <;> simp [IsOff]

theorem elim_true {α : Type} (v : Option α) : v.elim false (fun _ => true) = v.isSome := by cases v <;> rfl
theorem elim_id (v : Option Bool) : v.elim false id = v.getD false := by cases v <;> rfl

theorem bool_on {n : String} {args : List Arg} {v : Option Bool} (h : slot n fxBool args = some v) :
    v.getD false = true ↔ On n args := by
  rw [← elim_id]; exact slot_on id fxBool_on h

theorem pub_on {n : String} {args : List Arg} {v : Option PubMode} (h : slot n pubMode args = some v) :
    pubSet v = true ↔ On n args := by
  rw [pubSet, ← elim_true]; exact slot_on _ pubMode_on h

theorem mode_on {n : String} {args : List Arg} {v : Option SyncMode} (h : slot n syncMode args = some v) :
    v.isSome = true ↔ On n args := by
  rw [← elim_true]; exact slot_on _ syncMode_on h

/-! ### Groups that exclude each other -/

theorem errors_iff (gs : List Group) :
    (errors gs).isEmpty = true ↔
      ∀ g ∈ gs, g.2.Pairwise fun a b => ¬ (a.any (·.2) = true ∧ b.any (·.2) = true) := by
  rw [List.isEmpty_iff, Proof.Exclusive.errors_nil_iff]
  refine forall_congr' fun g => imp_congr_right fun _ => ?_
  rw [← Proof.Exclusive.conflict_iff, Proof.Exclusive.setAlts, Proof.Exclusive.two_of_filter, List.pairwise_iff_getElem]
  constructor
  · intro h i j hi hj hij ⟨ha, hb⟩
    exact h ⟨i, j, Nat.ne_of_lt hij, _, _, List.getElem?_eq_getElem hi, List.getElem?_eq_getElem hj, ha, hb⟩
  · rintro h ⟨i, j, hij, a, b, hi, hj, ha, hb⟩
    obtain ⟨li, rfl⟩ := List.getElem?_eq_some_iff.mp hi
    obtain ⟨lj, rfl⟩ := List.getElem?_eq_some_iff.mp hj
    rcases Nat.lt_or_gt_of_ne hij with h' | h'
    · exact h i j li lj h' ⟨ha, hb⟩
    · exact h j i lj li h' ⟨hb, ha⟩

theorem serdeList_ok (args : List Arg) : (serdeList args).isSome ↔
    ((∀ a ∈ args, FitsIn [("off", aFlag), ("public", aPublic), ("private", aSwitch), ("attributes", anAttributes),
        ("serialize", aSwitch), ("deserialize", aSwitch), ("forward_attrs", aPaths), ("default", aDefault),
        ("shadow_name", aText)] a) ∧ (args.filterMap (·.name)).Nodup) ∧
      OnceOk [] args ∧ ExclOk [[["public"], ["private"]]] args := by
  rw [group_iff _ (by decide)]
  simp only [once_nil, true_and, List.forall_mem_cons, List.not_mem_nil, false_imp_iff, implies_true, and_true,
    ← slot_ok attributes_reader, ← slot_ok fxBool_reader, ← slot_ok pubMode_reader, ← slot_ok pathList_reader,
    ← slot_ok fxDefault_reader, ← slot_ok fxString_reader, ← flag_isSome]
  rw [Option.isSome_iff_exists]
  have hx : ∀ {r : Serde}, slot "public" pubMode args = some r.pub → slot "private" fxBool args = some r.priv →
      (acceptSerde r = true ↔ ExclOk [[["public"], ["private"]]] args) := by
    intro r e1 e2
    unfold acceptSerde ExclOk
    rw [errors_iff]
    simp [pub_on e1, bool_on e2]
  constructor
  · rintro ⟨r, hr⟩
    obtain ⟨hk, e1, e2, e3, e4, e5, e6, e7, e8, ⟨v9, e9, -⟩, ha⟩ := serdeList_iff.mp hr
    exact ⟨⟨hk, by simp [e1], by simp [e2], by simp [e3], by simp [e4], by simp [e5], by simp [e6], by simp [e7],
      by simp [e8], by simp [e9]⟩, (hx e2 e3).mp ha⟩
  · simp only [Option.isSome_iff_exists]
    rintro ⟨⟨hk, ⟨v1, e1⟩, ⟨v2, e2⟩, ⟨v3, e3⟩, ⟨v4, e4⟩, ⟨v5, e5⟩, ⟨v6, e6⟩, ⟨v7, e7⟩, ⟨v8, e8⟩, ⟨v9, e9⟩⟩, ha⟩
    let r : Serde := { off := v1, pub := v2, priv := v3, serialize := v5, deserialize := v6, forwardAttrs := v7,
                       default := v8, shadowName := v9.bind id, attributes := v4 }
    exact ⟨r, serdeList_iff.mpr ⟨hk, e1, e2, e3, e4, e5, e6, e7, e8, ⟨v9, e9, rfl⟩, (hx (r := r) e2 e3).mpr ha⟩⟩

theorem fxSerde_reader : Reader fxSerde aSerde := nesting_fits rfl (fun _ => rfl) serdeList_ok (strLit_ok _)

/-! ### Fields and structs -/

/-- The forms of the arguments of a field. -/
def fieldForms : List (String × Form) :=
  match aField with
  | .group _ _ _ _ fs => fs
  | .leaf _ => []

/-- The exclusions among them. -/
def fieldExcl : List (List (List String)) :=
  match aField with
  | .group _ _ _ ex _ => ex
  | .leaf _ => []

/-- The forms of the arguments of a struct. -/
def structForms : List (String × Form) :=
  match aStruct with
  | .group _ _ _ _ fs => fs
  | .leaf _ => []

/-- The exclusions among them. -/
def structExcl : List (List (List String)) :=
  match aStruct with
  | .group _ _ _ ex _ => ex
  | .leaf _ => []

set_option maxHeartbeats 2000000 in
theorem fieldSlots_ok (ident : String) (args : List Arg) : (fieldSlots ident args).isSome ↔
    (∀ a ∈ args, FitsIn fieldForms a) ∧ (args.filterMap (·.name)).Nodup := by
  rw [group_iff _ (by decide)]
  simp only [fieldForms, aField, List.forall_mem_cons, List.not_mem_nil, false_imp_iff, implies_true, and_true,
    ← slot_ok attributes_reader, ← slot_ok fxAccessor_reader, ← slot_ok fxBool_reader, ← slot_ok fxDefault_reader,
      ← slot_ok fxFallible_reader, ← slot_ok fxFieldBuilder_reader, ← slot_ok fxHelper_reader,
        ← slot_ok fxSerde_reader, ← slot_ok fxSetter_reader, ← slot_ok fxString_reader, ← slot_ok pubMode_reader,
          ← slot_ok syncMode_reader, ← flag_isSome]
  rw [Option.isSome_iff_exists]
  constructor
  · rintro ⟨r, hr⟩
    obtain ⟨hk, -, e1, e2, e3, e4, e5, e6, e7, ⟨v8, e8, -⟩, e9, e10, e11, e12, e13, e14, e15, e16, e17, e18, e19, e20,
      e21, e22, e23, e24, e25, e26⟩ := fieldSlots_iff.mp hr
    exact ⟨hk, Option.isSome_of_eq_some e1, Option.isSome_of_eq_some e2, Option.isSome_of_eq_some e3,
      Option.isSome_of_eq_some e4, Option.isSome_of_eq_some e5, Option.isSome_of_eq_some e6,
        Option.isSome_of_eq_some e7, Option.isSome_of_eq_some e8, Option.isSome_of_eq_some e9,
          Option.isSome_of_eq_some e10, Option.isSome_of_eq_some e11, Option.isSome_of_eq_some e12,
            Option.isSome_of_eq_some e13, Option.isSome_of_eq_some e14, Option.isSome_of_eq_some e15,
              Option.isSome_of_eq_some e16, Option.isSome_of_eq_some e17, Option.isSome_of_eq_some e18,
                Option.isSome_of_eq_some e19, Option.isSome_of_eq_some e20, Option.isSome_of_eq_some e21,
                  Option.isSome_of_eq_some e22, Option.isSome_of_eq_some e23, Option.isSome_of_eq_some e24,
                    Option.isSome_of_eq_some e25, Option.isSome_of_eq_some e26⟩
  · simp only [Option.isSome_iff_exists]
    rintro ⟨hk, ⟨v1, e1⟩, ⟨v2, e2⟩, ⟨v3, e3⟩, ⟨v4, e4⟩, ⟨v5, e5⟩, ⟨v6, e6⟩, ⟨v7, e7⟩, ⟨v8, e8⟩, ⟨v9, e9⟩, ⟨v10, e10⟩,
      ⟨v11, e11⟩, ⟨v12, e12⟩, ⟨v13, e13⟩, ⟨v14, e14⟩, ⟨v15, e15⟩, ⟨v16, e16⟩, ⟨v17, e17⟩, ⟨v18, e18⟩, ⟨v19, e19⟩, ⟨v20,
        e20⟩, ⟨v21, e21⟩, ⟨v22, e22⟩, ⟨v23, e23⟩, ⟨v24, e24⟩, ⟨v25, e25⟩, ⟨v26, e26⟩⟩
    exact ⟨{ ident, skip := v1, mode := v2, modeSync := v3, modeAsync := v4, attrsFn := v5, fallible := v6, lazy := v7,
             baseName := v8.bind id, accessor := v9, accessorMut := v10, setter := v11, reader := v12, writer := v13,
             clearer := v14, predicate := v15, optional := v16, pub := v17, priv := v18, default := v19, builder := v20,
             into := v21, clone := v22, copy := v23, lock := v24, innerMut := v25, serde := v26 },
      fieldSlots_iff.mpr ⟨hk, rfl, e1, e2, e3, e4, e5, e6, e7, ⟨v8, e8, rfl⟩, e9, e10, e11, e12, e13, e14, e15, e16,
        e17, e18, e19, e20, e21, e22, e23, e24, e25, e26⟩⟩

theorem acceptField_ok {ident : String} {args : List Arg} {f : FieldArgs} (h : fieldSlots ident args = some f) :
    acceptField f = true ↔ ExclOk fieldExcl args := by
  obtain ⟨-, -, e1, e2, e3, e4, e5, e6, e7, ⟨v8, e8, -⟩, e9, e10, e11, e12, e13, e14, e15, e16, e17, e18, e19, e20,
    e21, e22, e23, e24, e25, e26⟩ := fieldSlots_iff.mp h
  unfold acceptField ExclOk fieldExcl
  rw [errors_iff]
  simp only [fieldGroups, aField, List.forall_mem_cons, List.not_mem_nil, false_imp_iff, implies_true, and_true,
    List.any_cons, List.any_nil, Bool.or_false, Bool.or_eq_true, List.pairwise_cons, List.Pairwise.nil,
    List.exists_mem_cons_iff, false_and, exists_false, or_false, pub_on e17, bool_on e18, bool_on e23, bool_on e22,
      slot_on Helper.isTrue fxHelper_on e7, bool_on e16, bool_on e25, slot_on Fallible.isTrue fxFallible_on e6,
        bool_on e24, bool_on e3, bool_on e4, mode_on e2]

theorem markImplicitly_accept (f : FieldArgs) : acceptField f.markImplicitly = acceptField f := by
  unfold FieldArgs.markImplicitly
  split
  · rename_i h
    simp [acceptField, fieldGroups, h, Helper.ofBool, Helper.isTrue]
  · rfl

theorem field_ok (ident : String) (attrs : List (Option (List Arg))) :
    (field ident attrs).isSome ↔ Fits aField (.list "fieldx" (attrs.flatMap (·.getD []))) := by
  have hnl : ∀ a, FitsIn fieldForms a → a.lit? = none := by
    intro a h
    obtain ⟨p, _, hn, _⟩ := (fitsIn_iff _ _).mp h
    cases a <;> simp_all [Arg.name, Arg.lit?]
  have hacc : (field ident attrs).isSome ↔ ∃ f, fieldSlots ident (attrs.flatMap (·.getD [])) = some f ∧ acceptField f = true := by
    unfold field
    cases hf : fieldSlots ident (attrs.flatMap (·.getD [])) with
    | none => simp
    | some f =>
      simp only [Option.bind_eq_bind, Option.bind_some, Option.some.injEq, exists_eq_left', check]
      split
      · rw [markImplicitly_accept]; split <;> simp_all
      · split <;> simp_all
  rw [hacc]
  generalize attrs.flatMap (·.getD []) = args
  have hF : Fits aField (.list "fieldx" args) ↔
      ((∀ a ∈ args, FitsIn fieldForms a) ∧ (args.filterMap (·.name)).Nodup) ∧ ExclOk fieldExcl args := by
    simp only [aField, Fits]
    constructor
    · rintro ⟨h1, h2, -, -, h3⟩
      exact ⟨⟨fun a ha => (h1 a ha).resolve_left (by simp), h2⟩, h3⟩
    · rintro ⟨⟨h1, h2⟩, h3⟩
      refine ⟨fun a ha => .inr (h1 a ha), h2, ?_, by simp, h3⟩
      rw [(lits_nil args).mpr fun a ha => hnl a (h1 a ha)]
      simp
  rw [hF, ← fieldSlots_ok ident, Option.isSome_iff_exists]
  constructor
  · rintro ⟨f, hf, ha⟩; exact ⟨⟨f, hf⟩, (acceptField_ok hf).mp ha⟩
  · rintro ⟨⟨f, hf⟩, ha⟩; exact ⟨f, hf, (acceptField_ok hf).mpr ha⟩

set_option maxHeartbeats 2000000 in
theorem structSlots_ok (args : List Arg) : (Parse.struct args).isSome ↔
    ((∀ a ∈ args, FitsIn structForms a) ∧ (args.filterMap (·.name)).Nodup) ∧ ExclOk structExcl args := by
  rw [group_iff _ (by decide)]
  simp only [structForms, aStruct, List.forall_mem_cons, List.not_mem_nil, false_imp_iff, implies_true, and_true,
    ← slot_ok attributes_reader, ← slot_ok fxAccessor_reader, ← slot_ok fxBool_reader,
    ← slot_ok fxFallible_reader, ← slot_ok fxStructBuilder_reader, ← slot_ok fxHelper_reader, ← slot_ok fxSerde_reader,
    ← slot_ok fxSetter_reader, ← slot_ok pubMode_reader, ← slot_ok syncMode_reader]
  rw [Option.isSome_iff_exists]
  have hx : ∀ {r : StructArgs}, slot "mode" syncMode args = some r.mode → slot "sync" fxBool args = some r.modeSync →
    slot "r#async" fxBool args = some r.modeAsync → slot "builder" (fxBuilder true) args = some r.builder →
      slot "into" fxBool args = some r.into → slot "no_new" fxBool args = some r.noNew →
        slot "default" fxBool args = some r.default → slot "rc" fxHelper args = some r.rc →
          slot "attributes" attributes args = some r.attributes →
            slot "attributes_impl" attributes args = some r.attributesImpl →
              slot "fallible" fxFallible args = some r.fallible → slot "lazy" fxHelper args = some r.lazy →
                slot "get" fxAccessor args = some r.accessor → slot "get_mut" fxHelper args = some r.accessorMut →
                  slot "set" fxSetter args = some r.setter → slot "reader" fxHelper args = some r.reader →
                    slot "writer" fxHelper args = some r.writer → slot "clearer" fxHelper args = some r.clearer →
                      slot "predicate" fxHelper args = some r.predicate →
                        slot "optional" fxBool args = some r.optional → slot "public" pubMode args = some r.pub →
                          slot "private" fxBool args = some r.priv → slot "clone" fxBool args = some r.clone →
                            slot "copy" fxBool args = some r.copy → slot "lock" fxBool args = some r.lock →
                              slot "inner_mut" fxBool args = some r.innerMut → slot "serde" fxSerde args = some r.serde →
      (acceptStruct r = true ↔ ExclOk structExcl args) := by
    intro r e1 e2 e3 e4 e5 e6 e7 e8 e9 e10 e11 e12 e13 e14 e15 e16 e17 e18 e19 e20 e21 e22 e23 e24 e25 e26 e27
    unfold acceptStruct ExclOk structExcl
    rw [errors_iff]
    simp only [structGroups, aStruct, List.forall_mem_cons, List.not_mem_nil, false_imp_iff, implies_true, and_true,
      List.any_cons, List.any_nil, Bool.or_false, Bool.or_eq_true, List.pairwise_cons, List.Pairwise.nil,
      List.exists_mem_cons_iff, false_and, exists_false, or_false, pub_on e21, bool_on e22, bool_on e24, bool_on e23,
        slot_on Helper.isTrue fxHelper_on e12, bool_on e20, bool_on e26, slot_on Serde.isTrue fxSerde_on e27,
          slot_on Helper.isTrue fxHelper_on e8, bool_on e2, bool_on e3, mode_on e1]
  constructor
  · rintro ⟨r, hr⟩
    obtain ⟨hk, e1, e2, e3, e4, e5, e6, e7, e8, e9, e10, e11, e12, e13, e14, e15, e16, e17, e18, e19, e20, e21, e22,
      e23, e24, e25, e26, e27, ha⟩ := struct_iff.mp hr
    exact ⟨⟨hk, Option.isSome_of_eq_some e1, Option.isSome_of_eq_some e2, Option.isSome_of_eq_some e3,
      Option.isSome_of_eq_some e4, Option.isSome_of_eq_some e5, Option.isSome_of_eq_some e6,
        Option.isSome_of_eq_some e7, Option.isSome_of_eq_some e8, Option.isSome_of_eq_some e9,
          Option.isSome_of_eq_some e10, Option.isSome_of_eq_some e11, Option.isSome_of_eq_some e12,
            Option.isSome_of_eq_some e13, Option.isSome_of_eq_some e14, Option.isSome_of_eq_some e15,
              Option.isSome_of_eq_some e16, Option.isSome_of_eq_some e17, Option.isSome_of_eq_some e18,
                Option.isSome_of_eq_some e19, Option.isSome_of_eq_some e20, Option.isSome_of_eq_some e21,
                  Option.isSome_of_eq_some e22, Option.isSome_of_eq_some e23, Option.isSome_of_eq_some e24,
                    Option.isSome_of_eq_some e25, Option.isSome_of_eq_some e26, Option.isSome_of_eq_some e27⟩,
      (hx e1 e2 e3 e4 e5 e6 e7 e8 e9 e10 e11 e12 e13 e14 e15 e16 e17 e18 e19 e20 e21 e22 e23 e24 e25 e26 e27).mp ha⟩
  · simp only [Option.isSome_iff_exists]
    rintro ⟨⟨hk, ⟨v1, e1⟩, ⟨v2, e2⟩, ⟨v3, e3⟩, ⟨v4, e4⟩, ⟨v5, e5⟩, ⟨v6, e6⟩, ⟨v7, e7⟩, ⟨v8, e8⟩, ⟨v9, e9⟩, ⟨v10, e10⟩,
      ⟨v11, e11⟩, ⟨v12, e12⟩, ⟨v13, e13⟩, ⟨v14, e14⟩, ⟨v15, e15⟩, ⟨v16, e16⟩, ⟨v17, e17⟩, ⟨v18, e18⟩, ⟨v19, e19⟩, ⟨v20,
        e20⟩, ⟨v21, e21⟩, ⟨v22, e22⟩, ⟨v23, e23⟩, ⟨v24, e24⟩, ⟨v25, e25⟩, ⟨v26, e26⟩, ⟨v27, e27⟩⟩, ha⟩
    let r : StructArgs := { mode := v1, modeSync := v2, modeAsync := v3, builder := v4, into := v5, noNew := v6,
                            default := v7, rc := v8, attributes := v9, attributesImpl := v10, fallible := v11, lazy := v12, accessor := v13,
                            accessorMut := v14, setter := v15, reader := v16, writer := v17, clearer := v18, predicate := v19,
                            optional := v20, pub := v21, priv := v22, clone := v23, copy := v24, lock := v25, innerMut := v26,
                            serde := v27 }
    exact ⟨r, struct_iff.mpr ⟨hk, e1, e2, e3, e4, e5, e6, e7, e8, e9, e10, e11, e12, e13, e14, e15, e16, e17, e18, e19,
      e20, e21, e22, e23, e24, e25, e26, e27, (hx (r := r) e1 e2 e3 e4 e5 e6 e7 e8 e9 e10 e11 e12 e13 e14 e15 e16 e17 e18 e19 e20 e21 e22 e23 e24 e25 e26 e27).mpr ha⟩⟩

theorem struct_ok (args : List Arg) : (Parse.struct args).isSome ↔ Fits aStruct (.list "fxstruct" args) := by
  rw [structSlots_ok]
  have hnl : ∀ a, FitsIn structForms a → a.lit? = none := by
    intro a h
    obtain ⟨p, _, hn, _⟩ := (fitsIn_iff _ _).mp h
    cases a <;> simp_all [Arg.name, Arg.lit?]
  simp only [aStruct, Fits]
  constructor
  · rintro ⟨⟨h1, h2⟩, h3⟩
    refine ⟨fun a ha => .inr (h1 a ha), h2, ?_, by simp, h3⟩
    rw [(lits_nil args).mpr fun a ha => hnl a (h1 a ha)]
    simp
  · rintro ⟨h1, h2, -, -, h3⟩
    exact ⟨⟨fun a ha => (h1 a ha).resolve_left (by simp), h2⟩, h3⟩

end Verif.Proof.ParseGrammar
