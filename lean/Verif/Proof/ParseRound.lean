import Verif.Spec.Spelling
import Verif.Proof.ParseOrder
import Verif.Proof.ParseGrammar
/-! Reading what was written. -/
namespace Verif.Proof.ParseRound
open Verif.Model
open Verif.Model.Args Verif.Model.Exclusive Verif.Model.Parse Verif.Spec.Spelling Verif.Proof.ParseIff
open Verif.Proof.ParseOrder (pick slot_eq)

/-! ### Arguments one after the other -/

/-- All items have the name they are listed with. -/
def Owned (ws : List (String × List Arg)) : Prop := ∀ w ∈ ws, ∀ a ∈ w.2, a.name = some w.1

theorem owned_nil : Owned [] := by simp [Owned]

theorem owned_cons {n : String} {l : List Arg} {ws : List (String × List Arg)} (h : ∀ a ∈ l, a.name = some n)
    (hw : Owned ws) : Owned ((n, l) :: ws) := by
  intro w hm
  rcases List.mem_cons.mp hm with rfl | hm
  · exact h
  · exact hw w hm

theorem called_join {ws : List (String × List Arg)} (ho : Owned ws) (hn : (ws.map Prod.fst).Nodup) (n : String) :
    called n (join ws) = (ws.lookup n).getD [] := by
  induction ws with
  | nil => rfl
  | cons w r ih =>
    obtain ⟨m, l⟩ := w
    have hr : Owned r := fun w hw => ho w (by simp [hw])
    have hl : ∀ a ∈ l, a.name = some m := ho (m, l) (by simp)
    rw [List.map_cons, List.nodup_cons] at hn
    have e : join ((m, l) :: r) = l ++ join r := rfl
    rw [e, called, List.filter_append]
    by_cases hm : n = m
    · subst hm
      have h1 : l.filter (·.name == some n) = l := by
        rw [List.filter_eq_self]; intro a ha; simp [hl a ha]
      have h2 : (join r).filter (·.name == some n) = [] := by
        rw [List.filter_eq_nil_iff]
        intro a ha hc
        obtain ⟨w, hw, ha⟩ := List.mem_flatMap.mp ha
        have := hr w hw a ha
        rw [this] at hc
        simp at hc
        exact hn.1 (List.mem_map.mpr ⟨w, hw, hc⟩)
      rw [h1, h2]
      simp [List.lookup]
    · have h1 : l.filter (·.name == some n) = [] := by
        rw [List.filter_eq_nil_iff]; intro a ha; simp [hl a ha]; exact fun h => hm h.symm
      rw [h1, List.nil_append]
      have := ih hr hn.2
      rw [called] at this
      rw [this]
      have hb : (n == m) = false := by simpa using hm
      simp [List.lookup, hb]

theorem slot_join {α : Type} {ws : List (String × List Arg)} (ho : Owned ws) (hn : (ws.map Prod.fst).Nodup) (n : String)
    (read : Arg → Option α) : slot n read (join ws) = pick (((ws.lookup n).getD []).map read) := by
  rw [slot_eq, called_join ho hn]

theorem flag_join {ws : List (String × List Arg)} (ho : Owned ws) (hn : (ws.map Prod.fst).Nodup) (n : String) :
    flag n (join ws) = (pick (((ws.lookup n).getD []).map flagArg)).map (·.isSome) := by
  rw [flag, slot_join ho hn]

theorem known_join {ws : List (String × List Arg)} (ho : Owned ws) {names : List String}
    (hs : ∀ n ∈ ws.map Prod.fst, n ∈ names) : known names (join ws) = true := by
  rw [known, List.all_eq_true]
  intro a ha
  obtain ⟨w, hw, ha⟩ := List.mem_flatMap.mp ha
  rw [ho w hw a ha]
  simpa using hs w.1 (List.mem_map.mpr ⟨w, hw, rfl⟩)

theorem nesting_round {α : Type} {kw : Option α} {fl : List Arg → Option α} {f : α → String → α} {nv : NV → Option α}
    {ws : List (String × List Arg)} (ho : Owned ws) (x : Option String) (n : String) :
    nesting kw fl (strLit f) nv (.list n (wLit x ++ join ws)) =
      (fl (join ws)).bind fun a => match x with
        | none => some a
        | some s => some (f a s) := by
  have hl : ∀ a ∈ join ws, a.lit? = none := by
    intro a ha
    obtain ⟨w, hw, ha⟩ := List.mem_flatMap.mp ha
    have := ho w hw a ha
    cases a <;> simp_all [Arg.name, Arg.lit?]
  have h1 : (join ws).filter (fun a => a.lit?.isNone) = join ws := by
    rw [List.filter_eq_self]; intro a ha; simp [hl a ha]
  have h2 : (join ws).filterMap (·.lit?) = [] := by
    rw [List.filterMap_eq_nil_iff]; exact hl
  simp only [nesting, List.filter_append, List.filterMap_append, h1, h2]
  cases x with
  | none => simp [wLit]
  | some s => simp [wLit, Arg.lit?, strLit]

theorem nesting_round' {α : Type} {kw : Option α} {fl : List Arg → Option α} {sl : α → List Lit → Option α}
    {nv : NV → Option α} {ws : List (String × List Arg)} (ho : Owned ws) (n : String) :
    nesting kw fl sl nv (.list n (join ws)) = fl (join ws) := by
  have hl : ∀ a ∈ join ws, a.lit? = none := by
    intro a ha
    obtain ⟨w, hw, ha⟩ := List.mem_flatMap.mp ha
    have := ho w hw a ha
    cases a <;> simp_all [Arg.name, Arg.lit?]
  have h1 : (join ws).filter (fun a => a.lit?.isNone) = join ws := by
    rw [List.filter_eq_self]; intro a ha; simp [hl a ha]
  have h2 : (join ws).filterMap (·.lit?) = [] := by
    rw [List.filterMap_eq_nil_iff]; exact hl
  simp only [nesting, h1, h2]
  simp

/-! ### The names of what is written -/

theorem wFlag_name (n : String) (v : Bool) : ∀ a ∈ wFlag n v, a.name = some n := by
  cases v <;> simp [wFlag, Arg.name]
theorem wSwitch_name (n : String) (v : Option Bool) : ∀ a ∈ wSwitch n v, a.name = some n := by
  rcases v with _ | _ | _ <;> simp [wSwitch, Arg.name]
theorem wText_name (n : String) (v : Option String) : ∀ a ∈ wText n v, a.name = some n := by
  cases v <;> simp [wText, Arg.name]
theorem wPublic_name (n : String) (v : Option PubMode) : ∀ a ∈ wPublic n v, a.name = some n := by
  rcases v with _ | _ | _ | _ | _ <;> simp [wPublic, Arg.name]
theorem wAttrs_name (n : String) (v : Option (List String)) : ∀ a ∈ wAttrs n v, a.name = some n := by
  cases v <;> simp [wAttrs, Arg.name]
theorem wMode_name (n : String) (v : Option SyncMode) : ∀ a ∈ wMode n v, a.name = some n := by
  rcases v with _ | _ | _ | _ <;> simp [wMode, Arg.name]
theorem wTruth_name (n : String) (v : Option Bool) : ∀ a ∈ wTruth n v, a.name = some n := by
  cases v <;> simp [wTruth, Arg.name]
theorem wPath_name (n : String) (v : Option String) : ∀ a ∈ wPath n v, a.name = some n := by
  cases v <;> simp [wPath, Arg.name]
theorem wPathOrWord_name (n : String) (v : Option (Option String)) : ∀ a ∈ wPathOrWord n v, a.name = some n := by
  rcases v with _ | _ | _ <;> simp [wPathOrWord, Arg.name]
theorem wPathOrTwo_name (n : String) (v : Option (String × Option String)) : ∀ a ∈ wPathOrTwo n v, a.name = some n := by
  rcases v with _ | ⟨_, _ | _⟩ <;> simp [wPathOrTwo, Arg.name]
theorem wDefault_name (n : String) (v : Option Default) : ∀ a ∈ wDefault n v, a.name = some n := by
  rcases v with _ | ⟨_ | _, _ | _⟩ <;> simp [wDefault, Arg.name]
theorem wHelper_name (n : String) (v : Option Helper) : ∀ a ∈ wHelper n v, a.name = some n := by
  cases v <;> simp [wHelper, Arg.name]
theorem wAccessor_name (n : String) (v : Option Accessor) : ∀ a ∈ wAccessor n v, a.name = some n := by
  cases v <;> simp [wAccessor, Arg.name]
theorem wSetter_name (n : String) (v : Option Setter) : ∀ a ∈ wSetter n v, a.name = some n := by
  cases v <;> simp [wSetter, Arg.name]
theorem wBuilder_name (n : String) (v : Option Builder) : ∀ a ∈ wBuilder n v, a.name = some n := by
  cases v <;> simp [wBuilder, Arg.name]
theorem wFallible_name (n : String) (v : Option Fallible) : ∀ a ∈ wFallible n v, a.name = some n := by
  cases v <;> simp [wFallible, Arg.name]
theorem wSerde_name (n : String) (v : Option Serde) : ∀ a ∈ wSerde n v, a.name = some n := by
  cases v <;> simp [wSerde, Arg.name]

/-- Close `Owned` of a literal list. -/
macro "owned" : tactic => `(tactic| repeat' first
  | exact owned_nil
  | apply owned_cons
  | exact wFlag_name _ _ | exact wSwitch_name _ _ | exact wText_name _ _ | exact wPublic_name _ _ | exact wAttrs_name _ _
  | exact wMode_name _ _ | exact wTruth_name _ _ | exact wPath_name _ _ | exact wPathOrWord_name _ _
  | exact wPathOrTwo_name _ _ | exact wDefault_name _ _ | exact wHelper_name _ _ | exact wAccessor_name _ _
  | exact wSetter_name _ _ | exact wBuilder_name _ _ | exact wFallible_name _ _ | exact wSerde_name _ _)

/-! ### Reading it back -/

theorem flag_back (n : String) (v : Bool) : (pick ((wFlag n v).map flagArg)).map (·.isSome) = some v := by
  cases v <;> rfl
theorem switch_back (n : String) (v : Option Bool) : pick ((wSwitch n v).map fxBool) = some v := by
  rcases v with _ | _ | _ <;> rfl
theorem text_back (n : String) (v : Option String) : (pick ((wText n v).map fxString)).map (·.bind id) = some v := by
  cases v <;> rfl
theorem public_back (n : String) {v : Option PubMode} (h : PubOk v) : pick ((wPublic n v).map pubMode) = some v := by
  rcases v with _ | _ | _ | _ | _ <;> first | rfl | exact absurd rfl h
theorem mapM_word (l : List String) : (l.map Arg.word).mapM attrItem = some (l.map fun s => [s]) := by
  induction l with
  | nil => rfl
  | cons a r ih => rw [List.map_cons, List.mapM_cons, ih]; rfl
theorem attrs_back (n : String) (v : Option (List String)) : pick ((wAttrs n v).map attributes) = some v := by
  cases v with
  | none => rfl
  | some l =>
    have hf : (l.map fun s => [s]).flatten = l := by induction l <;> simp_all
    simp only [wAttrs, List.map_cons, List.map_nil, pick, attributes]
    rw [mapM_word, Option.map_some, hf]
    rfl
theorem paths_back (n : String) (v : Option (List String)) : pick ((wAttrs n v).map pathList) = some v := by
  cases v with
  | none => rfl
  | some l =>
    simp only [wAttrs, List.map_cons, List.map_nil, pick, pathList]
    have : ∀ {f : Arg → Option String}, (∀ p, f (.word p) = some p) → (l.map Arg.word).mapM f = some l := by
      intro f hf
      induction l with
      | nil => rfl
      | cons a r ih => rw [List.map_cons, List.mapM_cons, hf, ih]; rfl
    rw [this (fun _ => rfl)]
    rfl
theorem mode_back (n : String) (v : Option SyncMode) : pick ((wMode n v).map syncMode) = some v := by
  rcases v with _ | _ | _ | _ <;> rfl
theorem truth_back (n : String) (v : Option Bool) : pick ((wTruth n v).map boolArg) = some v := by
  rcases v with _ | _ | _ <;> rfl
theorem path_back (n : String) (v : Option String) : pick ((wPath n v).map onePath) = some v := by
  cases v <;> rfl
theorem pathOrWord_back (n : String) (v : Option (Option String)) :
    pick ((wPathOrWord n v).map onePathOr) = some v := by
  rcases v with _ | _ | _ <;> rfl
theorem pathOrTwo_back (n : String) (v : Option (String × Option String)) :
    pick ((wPathOrTwo n v).map twoPaths) = some v := by
  rcases v with _ | ⟨_, _ | _⟩ <;> rfl
theorem default_back (n : String) {v : Option Default} (h : DefaultOk v) : pick ((wDefault n v).map fxDefault) = some v := by
  rcases v with _ | ⟨_ | _, _ | _⟩ <;> first | rfl | exact absurd rfl (h _ rfl rfl)

/-- Lookups in a literal list. -/
macro "look" : tactic => `(tactic| simp only [List.lookup, List.cons_append, List.nil_append, String.reduceBEq,
  Option.getD_some, Option.getD_none, List.map_nil])

theorem helperSlots_round {h : Helper} (hp : PubOk h.pub) {ws : List (String × List Arg)}
    (ho : Owned (helperArgs h ++ ws)) (hn : ((helperArgs h ++ ws).map Prod.fst).Nodup) (hm : ws.lookup "name" = none) :
    helperSlots (join (helperArgs h ++ ws)) = some { h with name := none } := by
  unfold helperSlots
  rw [slot_join ho hn, flag_join ho hn, slot_join ho hn, slot_join ho hn, slot_join ho hn]
  simp only [helperArgs]
  look
  rw [hm, flag_back, attrs_back, public_back _ hp, switch_back]
  rfl

theorem owned_helper {h : Helper} {ws : List (String × List Arg)} (hw : Owned ws) : Owned (helperArgs h ++ ws) := by
  unfold helperArgs
  simp only [List.cons_append, List.nil_append]
  apply owned_cons (wFlag_name _ _)
  apply owned_cons (wAttrs_name _ _)
  apply owned_cons (wPublic_name _ _)
  apply owned_cons (wSwitch_name _ _)
  exact hw

theorem helper_back (n : String) {v : Option Helper} (h : HelperOk v) :
    pick ((wHelper n v).map fxHelper) = if v.all acceptHelper then some v else none := by
  cases v with
  | none => rfl
  | some x =>
    have ho : Owned (helperArgs x) := by simpa using owned_helper (h := x) owned_nil
    have hs := helperSlots_round (h := x) (ws := []) h (by simpa using ho) (by simp [helperArgs]) rfl
    rw [List.append_nil] at hs
    have hl : helperList (join (helperArgs x)) = if acceptHelper x then some { x with name := none } else none := by
      unfold helperList
      rw [known_join ho (by simp [helperArgs, helperNames]), hs]
      rfl
    simp only [wHelper, List.map_cons, List.map_nil, pick, fxHelper, nesting_round ho, hl, Option.all_some]
    split
    · rcases x with ⟨_, _ | _, _, _, _⟩ <;> rfl
    · rfl

theorem accessor_back (n : String) {v : Option Accessor} (h : HelperOk (v.map (·.toHelper))) :
    pick ((wAccessor n v).map fxAccessor) = if v.all acceptAccessor then some v else none := by
  cases v with
  | none => rfl
  | some x =>
    let ws := [("clone", wFlag "clone" x.clone), ("copy", wFlag "copy" x.copy), ("as_ref", wFlag "as_ref" x.asRef)]
    have hw : Owned ws := by owned
    have ho : Owned (helperArgs x.toHelper ++ ws) := owned_helper hw
    have hn : ((helperArgs x.toHelper ++ ws).map Prod.fst).Nodup := by simp [helperArgs, ws]
    have hs := helperSlots_round (h := x.toHelper) (ws := ws) h ho hn (by simp [ws, List.lookup])
    have hl : accessorList (join (helperArgs x.toHelper ++ ws)) =
        if acceptAccessor x then some { x with name := none } else none := by
      unfold accessorList
      rw [known_join ho (by simp [helperArgs, ws, helperNames]), hs, flag_join ho hn, flag_join ho hn, flag_join ho hn]
      simp only [helperArgs, ws]
      look
      rw [flag_back, flag_back, flag_back]
      rfl
    simp only [wAccessor, List.map_cons, List.map_nil, pick, fxAccessor]
    rw [nesting_round ho, hl]
    simp only [Option.all_some]
    split
    · rcases x with ⟨⟨_, _ | _, _, _, _⟩, _, _, _⟩ <;> rfl
    · rfl

theorem setter_back (n : String) {v : Option Setter} (h : HelperOk (v.map (·.toHelper))) :
    pick ((wSetter n v).map fxSetter) = if v.all (fun s => acceptHelper s.toHelper) then some v else none := by
  cases v with
  | none => rfl
  | some x =>
    let ws := [("into", wTruth "into" x.into)]
    have hw : Owned ws := by owned
    have ho : Owned (helperArgs x.toHelper ++ ws) := owned_helper hw
    have hn : ((helperArgs x.toHelper ++ ws).map Prod.fst).Nodup := by simp [helperArgs, ws]
    have hs := helperSlots_round (h := x.toHelper) (ws := ws) h ho hn (by simp [ws, List.lookup])
    have hl : setterList (join (helperArgs x.toHelper ++ ws)) =
        if acceptHelper x.toHelper then some { x with name := none } else none := by
      unfold setterList
      rw [known_join ho (by simp [helperArgs, ws, helperNames]), hs, slot_join ho hn]
      simp only [helperArgs, ws]
      look
      rw [truth_back]
      rfl
    simp only [wSetter, List.map_cons, List.map_nil, pick, fxSetter]
    rw [nesting_round ho, hl]
    simp only [Option.all_some]
    split
    · rcases x with ⟨⟨_, _ | _, _, _, _⟩, _⟩ <;> rfl
    · rfl

theorem builder_back (struct : Bool) (n : String) {v : Option Builder} (h : HelperOk (v.map (·.toHelper))) :
    pick ((wBuilder n v).map (fxBuilder struct)) =
      if v.all (fun b => if struct then acceptHelper b.toHelper else acceptFieldBuilder b) then some v else none := by
  cases v with
  | none => rfl
  | some x =>
    let ws := [("attributes", wAttrs "attributes" x.attributes),
      ("attributes_impl", wAttrs "attributes_impl" x.attributesImpl), ("into", wSwitch "into" x.into),
      ("required", wSwitch "required" x.required), ("opt_in", wSwitch "opt_in" x.optIn),
      ("post_build", wPathOrWord "post_build" x.postBuild), ("error", wPathOrTwo "error" x.error)]
    have hw : Owned ws := by owned
    have ho : Owned (helperArgs x.toHelper ++ ws) := owned_helper hw
    have hn : ((helperArgs x.toHelper ++ ws).map Prod.fst).Nodup := by simp [helperArgs, ws]
    have hs := helperSlots_round (h := x.toHelper) (ws := ws) h ho hn (by simp [ws, List.lookup])
    have hl : builderList struct (join (helperArgs x.toHelper ++ ws)) =
        if (if struct then acceptHelper x.toHelper else acceptFieldBuilder x) then some { x with name := none } else none := by
      unfold builderList
      rw [known_join ho (by simp [helperArgs, ws, helperNames]), hs]
      rw [slot_join ho hn, slot_join ho hn, slot_join ho hn, slot_join ho hn, slot_join ho hn, slot_join ho hn,
        slot_join ho hn]
      simp only [helperArgs, ws]
      look
      simp only [attrs_back, switch_back, pathOrWord_back, pathOrTwo_back]
      rfl
    simp only [wBuilder, List.map_cons, List.map_nil, pick, fxBuilder, Option.all_some]
    rw [nesting_round ho, hl]
    by_cases hb : (if struct = true then acceptHelper x.toHelper else acceptFieldBuilder x) = true
    · rw [if_pos hb, if_pos hb]
      rcases x with ⟨⟨_, _ | _, _, _, _⟩, _, _, _, _, _, _, _⟩ <;> rfl
    · rw [if_neg hb, if_neg hb]
      rfl

theorem fallible_back (n : String) (v : Option Fallible) : pick ((wFallible n v).map fxFallible) = some v := by
  cases v with
  | none => rfl
  | some x =>
    let ws := [("off", wFlag "off" x.off), ("error", wPath "error" x.error)]
    have ho : Owned ws := by owned
    have hn : (ws.map Prod.fst).Nodup := by simp [ws]
    have hl : fallibleList (join ws) = some x := by
      unfold fallibleList
      rw [known_join ho (by simp [ws]), flag_join ho hn, slot_join ho hn]
      simp only [ws]
      look
      rw [flag_back, path_back]
      rfl
    simp only [wFallible, List.map_cons, List.map_nil, pick, fxFallible]
    rw [nesting_round' ho, hl]
    rfl

theorem serde_back (n : String) {v : Option Serde} (h : SerdeOk v) :
    pick ((wSerde n v).map fxSerde) = if v.all acceptSerde then some v else none := by
  cases v with
  | none => rfl
  | some x =>
    let ws := [("off", wFlag "off" x.off), ("public", wPublic "public" x.pub), ("private", wSwitch "private" x.priv),
       ("serialize", wSwitch "serialize" x.serialize), ("deserialize", wSwitch "deserialize" x.deserialize),
       ("forward_attrs", wAttrs "forward_attrs" x.forwardAttrs), ("default", wDefault "default" x.default),
       ("attributes", wAttrs "attributes" x.attributes)]
    have ho : Owned ws := by owned
    have hn : (ws.map Prod.fst).Nodup := by simp [ws]
    have hl : serdeList (join ws) = if acceptSerde x then some { x with shadowName := none } else none := by
      unfold serdeList
      rw [known_join ho (by simp [ws])]
      simp only [slot_join ho hn, flag_join ho hn, ws]
      look
      rw [flag_back, public_back _ (show PubOk x.pub from h.1), switch_back, attrs_back, switch_back, switch_back,
        paths_back, default_back _ (show DefaultOk x.default from h.2)]
      rfl
    simp only [wSerde, List.map_cons, List.map_nil, pick, fxSerde]
    rw [nesting_round ho, hl]
    simp only [Option.all_some]
    split
    · rcases x with ⟨_, _, _, _, _, _, _ | _, _, _⟩ <;> rfl
    · rfl

/-! ### What can come out -/

theorem nesting_range {α : Type} {kw : Option α} {fl : List Arg → Option α} {sl : α → List Lit → Option α}
    {nv : NV → Option α} {P : α → Prop} (hk : ∀ a, kw = some a → P a) (hfl : ∀ args a, fl args = some a → P a)
    (hsl : ∀ a l b, P a → sl a l = some b → P b) (hnv : ∀ v a, nv v = some a → P a) {arg : Arg} {a : α}
    (h : nesting kw fl sl nv arg = some a) : P a := by
  cases arg with
  | word n => exact hk a h
  | nv n v => exact hnv v a h
  | lit l => cases h
  | list n args =>
    simp only [nesting] at h
    obtain ⟨b, hb, h⟩ := Option.bind_eq_some_iff.mp h
    split at h
    · exact hsl b _ a (hfl _ b hb) h
    · cases h; exact hfl _ _ hb

theorem slot_range {α : Type} {n : String} {read : Arg → Option α} {args : List Arg} {v : Option α}
    {P : Option α → Prop} (h0 : P none) (hr : ∀ a r, read a = some r → P (some r)) (h : slot n read args = some v) :
    P v := by
  cases v with
  | none => exact h0
  | some r =>
    obtain ⟨a, -, ha⟩ := Verif.Proof.ParseGrammar.slot_some h
    exact hr a r ha

theorem strLit_range {α : Type} {f : α → String → α} {P : α → Prop} (hf : ∀ a s, P a → P (f a s)) (a : α) (l : List Lit)
    (b : α) (ha : P a) (h : strLit f a l = some b) : P b := by
  unfold strLit at h
  split at h
  · cases h; exact hf _ _ ha
  · cases h

theorem pubMode_range (a : Arg) (r : PubMode) (h : pubMode a = some r) : PubOk (some r) := by
  refine nesting_range (P := fun r => PubOk (some r)) ?_ ?_ ?_ ?_ h
  · rintro _ ⟨⟩ ⟨⟩
  · intro args a h
    unfold pubVariant at h
    split at h <;> first | (cases h; intro h; cases h) | cases h
  · intro _ _ _ _ h; cases h
  · intro v a h
    unfold pubString at h
    split at h <;> first | (cases h; intro h; cases h) | cases h

theorem pub_range {n : String} {args : List Arg} {v : Option PubMode} (h : slot n pubMode args = some v) : PubOk v :=
  slot_range (by intro h; cases h) pubMode_range h

theorem fxDefault_range (a : Arg) (r : Default) (h : fxDefault a = some r) : DefaultOk (some r) := by
  rintro x ⟨⟩ hx hv
  unfold fxDefault at h
  split at h <;> cases h <;> simp_all

theorem default_range {n : String} {args : List Arg} {v : Option Default} (h : slot n fxDefault args = some v) :
    DefaultOk v :=
  slot_range (by intro _ h; cases h) fxDefault_range h

theorem helper_range {n : String} {args : List Arg} {v : Option Helper} (h : slot n fxHelper args = some v) :
    HelperOk v ∧ v.all acceptHelper = true := by
  refine slot_range (P := fun v => HelperOk v ∧ v.all acceptHelper = true) ⟨(by intro h; cases h), rfl⟩ ?_ h
  intro a r h
  refine nesting_range (P := fun r => HelperOk (some r) ∧ (some r).all acceptHelper = true) ?_ ?_ ?_ ?_ h
  · rintro _ ⟨⟩; exact ⟨(by intro h; cases h), rfl⟩
  · intro args a h
    obtain ⟨-, hs, hc⟩ := helperList_iff.mp h
    exact ⟨pub_range (helperSlots_iff.mp hs).2.2.2.1, hc⟩
  · exact strLit_range fun a s h => h
  · intro _ _ h; cases h

theorem accessor_range {n : String} {args : List Arg} {v : Option Accessor} (h : slot n fxAccessor args = some v) :
    HelperOk (v.map (·.toHelper)) ∧ v.all acceptAccessor = true := by
  refine slot_range (P := fun v => HelperOk (v.map (·.toHelper)) ∧ v.all acceptAccessor = true)
    ⟨(by intro h; cases h), rfl⟩ ?_ h
  intro a r h
  refine nesting_range (P := fun r : Accessor => HelperOk (some r.toHelper) ∧ (some r).all acceptAccessor = true)
    ?_ ?_ ?_ ?_ h
  · rintro _ ⟨⟩; exact ⟨(by intro h; cases h), rfl⟩
  · intro args a h
    obtain ⟨-, hs, -, -, -, hc⟩ := accessorList_iff.mp h
    exact ⟨pub_range (helperSlots_iff.mp hs).2.2.2.1, hc⟩
  · exact strLit_range fun a s h => h
  · intro _ _ h; cases h

theorem setter_range {n : String} {args : List Arg} {v : Option Setter} (h : slot n fxSetter args = some v) :
    HelperOk (v.map (·.toHelper)) ∧ v.all (fun s => acceptHelper s.toHelper) = true := by
  refine slot_range (P := fun v : Option Setter => HelperOk (v.map (·.toHelper)) ∧
    v.all (fun s => acceptHelper s.toHelper) = true) ⟨(by intro h; cases h), rfl⟩ ?_ h
  intro a r h
  refine nesting_range (P := fun r : Setter => HelperOk (some r.toHelper) ∧
    (some r).all (fun s => acceptHelper s.toHelper) = true) ?_ ?_ ?_ ?_ h
  · rintro _ ⟨⟩; exact ⟨(by intro h; cases h), rfl⟩
  · intro args a h
    obtain ⟨-, hs, -, hc⟩ := setterList_iff.mp h
    exact ⟨pub_range (helperSlots_iff.mp hs).2.2.2.1, hc⟩
  · exact strLit_range fun a s h => h
  · intro _ _ h; cases h

theorem builder_range {struct : Bool} {n : String} {args : List Arg} {v : Option Builder}
    (h : slot n (fxBuilder struct) args = some v) : HelperOk (v.map (·.toHelper)) ∧
      v.all (fun b => if struct then acceptHelper b.toHelper else acceptFieldBuilder b) = true := by
  refine slot_range (P := fun v : Option Builder => HelperOk (v.map (·.toHelper)) ∧
    v.all (fun b => if struct then acceptHelper b.toHelper else acceptFieldBuilder b) = true)
    ⟨(by intro h; cases h), rfl⟩ ?_ h
  intro a r h
  refine nesting_range (P := fun r : Builder => HelperOk (some r.toHelper) ∧
    (some r).all (fun b => if struct then acceptHelper b.toHelper else acceptFieldBuilder b) = true) ?_ ?_ ?_ ?_ h
  · rintro _ ⟨⟩; exact ⟨(by intro h; cases h), (by cases struct <;> rfl)⟩
  · intro args a h
    obtain ⟨-, hs, -, -, -, -, -, -, -, hc⟩ := builderList_iff.mp h
    exact ⟨pub_range (helperSlots_iff.mp hs).2.2.2.1, hc⟩
  · exact strLit_range fun a s h => h
  · intro _ _ h; cases h

theorem serde_range {n : String} {args : List Arg} {v : Option Serde} (h : slot n fxSerde args = some v) :
    SerdeOk v ∧ v.all acceptSerde = true := by
  refine slot_range (P := fun v => SerdeOk v ∧ v.all acceptSerde = true)
    ⟨⟨(by intro h; cases h), (by intro _ h; cases h)⟩, rfl⟩ ?_ h
  intro a r h
  refine nesting_range (P := fun r => SerdeOk (some r) ∧ (some r).all acceptSerde = true) ?_ ?_ ?_ ?_ h
  · rintro _ ⟨⟩; exact ⟨⟨(by intro h; cases h), (by intro _ h; cases h)⟩, rfl⟩
  · intro args a h
    obtain ⟨-, -, h1, -, -, -, -, -, h2, -, hc⟩ := serdeList_iff.mp h
    exact ⟨⟨pub_range h1, default_range h2⟩, hc⟩
  · exact strLit_range fun a s h => h
  · intro _ _ h; cases h

theorem fieldArgs_owned (f : FieldArgs) : Owned (fieldArgs f) := by
  unfold fieldArgs
  owned

theorem fieldArgs_nodup (f : FieldArgs) : ((fieldArgs f).map Prod.fst).Nodup := by
  simp [fieldArgs]

theorem fieldArgs_skip (f : FieldArgs) : flag "skip" (join (fieldArgs f)) = some f.skip := by
  rw [flag_join (fieldArgs_owned f) (fieldArgs_nodup f)]
  exact flag_back _ _

theorem fieldArgs_mode {f : FieldArgs} :
    slot "mode" syncMode (join (fieldArgs f)) = some f.mode := by
  rw [slot_join (fieldArgs_owned f) (fieldArgs_nodup f)]
  exact mode_back _ _

theorem fieldArgs_modeSync {f : FieldArgs} :
    slot "sync" fxBool (join (fieldArgs f)) = some f.modeSync := by
  rw [slot_join (fieldArgs_owned f) (fieldArgs_nodup f)]
  exact switch_back _ _

theorem fieldArgs_modeAsync {f : FieldArgs} :
    slot "r#async" fxBool (join (fieldArgs f)) = some f.modeAsync := by
  rw [slot_join (fieldArgs_owned f) (fieldArgs_nodup f)]
  exact switch_back _ _

theorem fieldArgs_attrsFn {f : FieldArgs} :
    slot "attributes_fn" attributes (join (fieldArgs f)) = some f.attrsFn := by
  rw [slot_join (fieldArgs_owned f) (fieldArgs_nodup f)]
  exact attrs_back _ _

theorem fieldArgs_fallible {f : FieldArgs} :
    slot "fallible" fxFallible (join (fieldArgs f)) = some f.fallible := by
  rw [slot_join (fieldArgs_owned f) (fieldArgs_nodup f)]
  exact fallible_back _ _

theorem fieldArgs_lazy {f : FieldArgs} (h : HelperOk f.lazy) :
    slot "lazy" fxHelper (join (fieldArgs f)) = if f.lazy.all acceptHelper then some f.lazy else none := by
  rw [slot_join (fieldArgs_owned f) (fieldArgs_nodup f)]
  exact helper_back _ h

theorem fieldArgs_bn {f : FieldArgs} :
    (slot "rename" fxString (join (fieldArgs f))).map (·.bind id) = some f.baseName := by
  rw [slot_join (fieldArgs_owned f) (fieldArgs_nodup f)]
  exact text_back _ _

theorem fieldArgs_accessor {f : FieldArgs} (h : HelperOk (f.accessor.map (·.toHelper))) :
    slot "get" fxAccessor (join (fieldArgs f)) = if f.accessor.all acceptAccessor then some f.accessor else none := by
  rw [slot_join (fieldArgs_owned f) (fieldArgs_nodup f)]
  exact accessor_back _ h

theorem fieldArgs_accessorMut {f : FieldArgs} (h : HelperOk f.accessorMut) :
    slot "get_mut" fxHelper (join (fieldArgs f)) = if f.accessorMut.all acceptHelper then some f.accessorMut else none := by
  rw [slot_join (fieldArgs_owned f) (fieldArgs_nodup f)]
  exact helper_back _ h

theorem fieldArgs_setter {f : FieldArgs} (h : HelperOk (f.setter.map (·.toHelper))) :
    slot "set" fxSetter (join (fieldArgs f)) = if f.setter.all (fun s => acceptHelper s.toHelper) then some f.setter else none := by
  rw [slot_join (fieldArgs_owned f) (fieldArgs_nodup f)]
  exact setter_back _ h

theorem fieldArgs_reader {f : FieldArgs} (h : HelperOk f.reader) :
    slot "reader" fxHelper (join (fieldArgs f)) = if f.reader.all acceptHelper then some f.reader else none := by
  rw [slot_join (fieldArgs_owned f) (fieldArgs_nodup f)]
  exact helper_back _ h

theorem fieldArgs_writer {f : FieldArgs} (h : HelperOk f.writer) :
    slot "writer" fxHelper (join (fieldArgs f)) = if f.writer.all acceptHelper then some f.writer else none := by
  rw [slot_join (fieldArgs_owned f) (fieldArgs_nodup f)]
  exact helper_back _ h

theorem fieldArgs_clearer {f : FieldArgs} (h : HelperOk f.clearer) :
    slot "clearer" fxHelper (join (fieldArgs f)) = if f.clearer.all acceptHelper then some f.clearer else none := by
  rw [slot_join (fieldArgs_owned f) (fieldArgs_nodup f)]
  exact helper_back _ h

theorem fieldArgs_predicate {f : FieldArgs} (h : HelperOk f.predicate) :
    slot "predicate" fxHelper (join (fieldArgs f)) = if f.predicate.all acceptHelper then some f.predicate else none := by
  rw [slot_join (fieldArgs_owned f) (fieldArgs_nodup f)]
  exact helper_back _ h

theorem fieldArgs_optional {f : FieldArgs} :
    slot "optional" fxBool (join (fieldArgs f)) = some f.optional := by
  rw [slot_join (fieldArgs_owned f) (fieldArgs_nodup f)]
  exact switch_back _ _

theorem fieldArgs_pub {f : FieldArgs} (h : PubOk f.pub) :
    slot "public" pubMode (join (fieldArgs f)) = some f.pub := by
  rw [slot_join (fieldArgs_owned f) (fieldArgs_nodup f)]
  exact public_back _ h

theorem fieldArgs_priv {f : FieldArgs} :
    slot "private" fxBool (join (fieldArgs f)) = some f.priv := by
  rw [slot_join (fieldArgs_owned f) (fieldArgs_nodup f)]
  exact switch_back _ _

theorem fieldArgs_default {f : FieldArgs} (h : DefaultOk f.default) :
    slot "default" fxDefault (join (fieldArgs f)) = some f.default := by
  rw [slot_join (fieldArgs_owned f) (fieldArgs_nodup f)]
  exact default_back _ h

theorem fieldArgs_builder {f : FieldArgs} (h : HelperOk (f.builder.map (·.toHelper))) :
    slot "builder" (fxBuilder false) (join (fieldArgs f)) = if f.builder.all acceptFieldBuilder then some f.builder else none := by
  rw [slot_join (fieldArgs_owned f) (fieldArgs_nodup f)]
  exact builder_back false _ h

theorem fieldArgs_into {f : FieldArgs} :
    slot "into" fxBool (join (fieldArgs f)) = some f.into := by
  rw [slot_join (fieldArgs_owned f) (fieldArgs_nodup f)]
  exact switch_back _ _

theorem fieldArgs_clone {f : FieldArgs} :
    slot "clone" fxBool (join (fieldArgs f)) = some f.clone := by
  rw [slot_join (fieldArgs_owned f) (fieldArgs_nodup f)]
  exact switch_back _ _

theorem fieldArgs_copy {f : FieldArgs} :
    slot "copy" fxBool (join (fieldArgs f)) = some f.copy := by
  rw [slot_join (fieldArgs_owned f) (fieldArgs_nodup f)]
  exact switch_back _ _

theorem fieldArgs_lock {f : FieldArgs} :
    slot "lock" fxBool (join (fieldArgs f)) = some f.lock := by
  rw [slot_join (fieldArgs_owned f) (fieldArgs_nodup f)]
  exact switch_back _ _

theorem fieldArgs_innerMut {f : FieldArgs} :
    slot "inner_mut" fxBool (join (fieldArgs f)) = some f.innerMut := by
  rw [slot_join (fieldArgs_owned f) (fieldArgs_nodup f)]
  exact switch_back _ _

theorem fieldArgs_serde {f : FieldArgs} (h : SerdeOk f.serde) :
    slot "serde" fxSerde (join (fieldArgs f)) = if f.serde.all acceptSerde then some f.serde else none := by
  rw [slot_join (fieldArgs_owned f) (fieldArgs_nodup f)]
  exact serde_back _ h

theorem structArgs_owned (s : StructArgs) : Owned (structArgs s) := by
  unfold structArgs
  owned

theorem structArgs_nodup (s : StructArgs) : ((structArgs s).map Prod.fst).Nodup := by
  simp [structArgs]

theorem structArgs_mode {s : StructArgs} :
    slot "mode" syncMode (join (structArgs s)) = some s.mode := by
  rw [slot_join (structArgs_owned s) (structArgs_nodup s)]
  exact mode_back _ _

theorem structArgs_modeSync {s : StructArgs} :
    slot "sync" fxBool (join (structArgs s)) = some s.modeSync := by
  rw [slot_join (structArgs_owned s) (structArgs_nodup s)]
  exact switch_back _ _

theorem structArgs_modeAsync {s : StructArgs} :
    slot "r#async" fxBool (join (structArgs s)) = some s.modeAsync := by
  rw [slot_join (structArgs_owned s) (structArgs_nodup s)]
  exact switch_back _ _

theorem structArgs_builder {s : StructArgs} (h : HelperOk (s.builder.map (·.toHelper))) :
    slot "builder" (fxBuilder true) (join (structArgs s)) = if s.builder.all (fun b => acceptHelper b.toHelper) then some s.builder else none := by
  rw [slot_join (structArgs_owned s) (structArgs_nodup s)]
  exact builder_back true _ h

theorem structArgs_into {s : StructArgs} :
    slot "into" fxBool (join (structArgs s)) = some s.into := by
  rw [slot_join (structArgs_owned s) (structArgs_nodup s)]
  exact switch_back _ _

theorem structArgs_noNew {s : StructArgs} :
    slot "no_new" fxBool (join (structArgs s)) = some s.noNew := by
  rw [slot_join (structArgs_owned s) (structArgs_nodup s)]
  exact switch_back _ _

theorem structArgs_default {s : StructArgs} :
    slot "default" fxBool (join (structArgs s)) = some s.default := by
  rw [slot_join (structArgs_owned s) (structArgs_nodup s)]
  exact switch_back _ _

theorem structArgs_rc {s : StructArgs} (h : HelperOk s.rc) :
    slot "rc" fxHelper (join (structArgs s)) = if s.rc.all acceptHelper then some s.rc else none := by
  rw [slot_join (structArgs_owned s) (structArgs_nodup s)]
  exact helper_back _ h

theorem structArgs_attributes {s : StructArgs} :
    slot "attributes" attributes (join (structArgs s)) = some s.attributes := by
  rw [slot_join (structArgs_owned s) (structArgs_nodup s)]
  exact attrs_back _ _

theorem structArgs_attributesImpl {s : StructArgs} :
    slot "attributes_impl" attributes (join (structArgs s)) = some s.attributesImpl := by
  rw [slot_join (structArgs_owned s) (structArgs_nodup s)]
  exact attrs_back _ _

theorem structArgs_fallible {s : StructArgs} :
    slot "fallible" fxFallible (join (structArgs s)) = some s.fallible := by
  rw [slot_join (structArgs_owned s) (structArgs_nodup s)]
  exact fallible_back _ _

theorem structArgs_lazy {s : StructArgs} (h : HelperOk s.lazy) :
    slot "lazy" fxHelper (join (structArgs s)) = if s.lazy.all acceptHelper then some s.lazy else none := by
  rw [slot_join (structArgs_owned s) (structArgs_nodup s)]
  exact helper_back _ h

theorem structArgs_accessor {s : StructArgs} (h : HelperOk (s.accessor.map (·.toHelper))) :
    slot "get" fxAccessor (join (structArgs s)) = if s.accessor.all acceptAccessor then some s.accessor else none := by
  rw [slot_join (structArgs_owned s) (structArgs_nodup s)]
  exact accessor_back _ h

theorem structArgs_accessorMut {s : StructArgs} (h : HelperOk s.accessorMut) :
    slot "get_mut" fxHelper (join (structArgs s)) = if s.accessorMut.all acceptHelper then some s.accessorMut else none := by
  rw [slot_join (structArgs_owned s) (structArgs_nodup s)]
  exact helper_back _ h

theorem structArgs_setter {s : StructArgs} (h : HelperOk (s.setter.map (·.toHelper))) :
    slot "set" fxSetter (join (structArgs s)) = if s.setter.all (fun s => acceptHelper s.toHelper) then some s.setter else none := by
  rw [slot_join (structArgs_owned s) (structArgs_nodup s)]
  exact setter_back _ h

theorem structArgs_reader {s : StructArgs} (h : HelperOk s.reader) :
    slot "reader" fxHelper (join (structArgs s)) = if s.reader.all acceptHelper then some s.reader else none := by
  rw [slot_join (structArgs_owned s) (structArgs_nodup s)]
  exact helper_back _ h

theorem structArgs_writer {s : StructArgs} (h : HelperOk s.writer) :
    slot "writer" fxHelper (join (structArgs s)) = if s.writer.all acceptHelper then some s.writer else none := by
  rw [slot_join (structArgs_owned s) (structArgs_nodup s)]
  exact helper_back _ h

theorem structArgs_clearer {s : StructArgs} (h : HelperOk s.clearer) :
    slot "clearer" fxHelper (join (structArgs s)) = if s.clearer.all acceptHelper then some s.clearer else none := by
  rw [slot_join (structArgs_owned s) (structArgs_nodup s)]
  exact helper_back _ h

theorem structArgs_predicate {s : StructArgs} (h : HelperOk s.predicate) :
    slot "predicate" fxHelper (join (structArgs s)) = if s.predicate.all acceptHelper then some s.predicate else none := by
  rw [slot_join (structArgs_owned s) (structArgs_nodup s)]
  exact helper_back _ h

theorem structArgs_optional {s : StructArgs} :
    slot "optional" fxBool (join (structArgs s)) = some s.optional := by
  rw [slot_join (structArgs_owned s) (structArgs_nodup s)]
  exact switch_back _ _

theorem structArgs_pub {s : StructArgs} (h : PubOk s.pub) :
    slot "public" pubMode (join (structArgs s)) = some s.pub := by
  rw [slot_join (structArgs_owned s) (structArgs_nodup s)]
  exact public_back _ h

theorem structArgs_priv {s : StructArgs} :
    slot "private" fxBool (join (structArgs s)) = some s.priv := by
  rw [slot_join (structArgs_owned s) (structArgs_nodup s)]
  exact switch_back _ _

theorem structArgs_clone {s : StructArgs} :
    slot "clone" fxBool (join (structArgs s)) = some s.clone := by
  rw [slot_join (structArgs_owned s) (structArgs_nodup s)]
  exact switch_back _ _

theorem structArgs_copy {s : StructArgs} :
    slot "copy" fxBool (join (structArgs s)) = some s.copy := by
  rw [slot_join (structArgs_owned s) (structArgs_nodup s)]
  exact switch_back _ _

theorem structArgs_lock {s : StructArgs} :
    slot "lock" fxBool (join (structArgs s)) = some s.lock := by
  rw [slot_join (structArgs_owned s) (structArgs_nodup s)]
  exact switch_back _ _

theorem structArgs_innerMut {s : StructArgs} :
    slot "inner_mut" fxBool (join (structArgs s)) = some s.innerMut := by
  rw [slot_join (structArgs_owned s) (structArgs_nodup s)]
  exact switch_back _ _

theorem structArgs_serde {s : StructArgs} (h : SerdeOk s.serde) :
    slot "serde" fxSerde (join (structArgs s)) = if s.serde.all acceptSerde then some s.serde else none := by
  rw [slot_join (structArgs_owned s) (structArgs_nodup s)]
  exact serde_back _ h

theorem of_ite {α : Type} {c : Bool} {v w : α} (h : (if c then some v else none) = some w) : v = w := by
  split at h
  · exact Option.some.inj h
  · cases h

theorem wField_back {f : FieldArgs} (ho : FieldOk f) (hf : acceptFieldFull f = true) : fieldSlots f.ident (wField f) = some f := by
  obtain ⟨o_pub, o_default, o_lazy, o_accessor, o_accessorMut, o_setter, o_reader, o_writer, o_clearer, o_predicate, o_builder, o_serde⟩ := ho
  simp only [acceptFieldFull, Bool.and_eq_true] at hf
  obtain ⟨⟨⟨⟨⟨⟨⟨⟨⟨⟨_, a_lazy⟩, a_accessor⟩, a_accessorMut⟩, a_setter⟩, a_reader⟩, a_writer⟩, a_clearer⟩, a_predicate⟩, a_builder⟩, a_serde⟩ := hf
  rw [wField]
  apply fieldSlots_iff.mpr
  exact ⟨known_join (fieldArgs_owned f) (by simp [fieldArgs, fieldNames]),
    rfl,
    fieldArgs_skip f,
    fieldArgs_mode,
    fieldArgs_modeSync,
    fieldArgs_modeAsync,
    fieldArgs_attrsFn,
    fieldArgs_fallible,
    (fieldArgs_lazy o_lazy).trans (if_pos a_lazy),
    Option.map_eq_some_iff.mp fieldArgs_bn,
    (fieldArgs_accessor o_accessor).trans (if_pos a_accessor),
    (fieldArgs_accessorMut o_accessorMut).trans (if_pos a_accessorMut),
    (fieldArgs_setter o_setter).trans (if_pos a_setter),
    (fieldArgs_reader o_reader).trans (if_pos a_reader),
    (fieldArgs_writer o_writer).trans (if_pos a_writer),
    (fieldArgs_clearer o_clearer).trans (if_pos a_clearer),
    (fieldArgs_predicate o_predicate).trans (if_pos a_predicate),
    fieldArgs_optional,
    fieldArgs_pub o_pub,
    fieldArgs_priv,
    fieldArgs_default o_default,
    (fieldArgs_builder o_builder).trans (if_pos a_builder),
    fieldArgs_into,
    fieldArgs_clone,
    fieldArgs_copy,
    fieldArgs_lock,
    fieldArgs_innerMut,
    (fieldArgs_serde o_serde).trans (if_pos a_serde)⟩

theorem wField_range {ident : String} {args : List Arg} {r : FieldArgs} (h : fieldSlots ident args = some r) :
    FieldOk r ∧ (acceptField r = true → acceptFieldFull r = true) := by
  obtain ⟨-, -, -, -, -, -, -, -, h_lazy, -, h_accessor, h_accessorMut, h_setter, h_reader, h_writer, h_clearer, h_predicate, -, h_pub, -, h_default, h_builder, -, -, -, -, -, h_serde⟩ := fieldSlots_iff.mp h
  refine ⟨⟨pub_range h_pub, default_range h_default, (helper_range h_lazy).1, (accessor_range h_accessor).1, (helper_range h_accessorMut).1, (setter_range h_setter).1, (helper_range h_reader).1, (helper_range h_writer).1, (helper_range h_clearer).1, (helper_range h_predicate).1, (builder_range h_builder).1, (serde_range h_serde).1⟩, ?_⟩
  intro ha
  simp only [acceptFieldFull, Bool.and_eq_true]
  exact ⟨⟨⟨⟨⟨⟨⟨⟨⟨⟨ha, (helper_range h_lazy).2⟩, (accessor_range h_accessor).2⟩, (helper_range h_accessorMut).2⟩, (setter_range h_setter).2⟩, (helper_range h_reader).2⟩, (helper_range h_writer).2⟩, (helper_range h_clearer).2⟩, (helper_range h_predicate).2⟩, (builder_range h_builder).2⟩, (serde_range h_serde).2⟩

theorem wField_only {f : FieldArgs} (ho : FieldOk f) {r : FieldArgs} (h : fieldSlots f.ident (wField f) = some r) : f = r := by
  obtain ⟨o_pub, o_default, o_lazy, o_accessor, o_accessorMut, o_setter, o_reader, o_writer, o_clearer, o_predicate, o_builder, o_serde⟩ := ho
  rw [wField] at h
  obtain ⟨-, hi, h_skip, h_mode, h_modeSync, h_modeAsync, h_attrsFn, h_fallible, h_lazy, ⟨v, h_bn, hv⟩, h_accessor, h_accessorMut, h_setter, h_reader, h_writer, h_clearer, h_predicate, h_optional, h_pub, h_priv, h_default, h_builder, h_into, h_clone, h_copy, h_lock, h_innerMut, h_serde⟩ := fieldSlots_iff.mp h
  have e_skip : f.skip = r.skip := Option.some.inj ((fieldArgs_skip f).symm.trans h_skip)
  have e_mode : f.mode = r.mode := Option.some.inj (fieldArgs_mode.symm.trans h_mode)
  have e_modeSync : f.modeSync = r.modeSync := Option.some.inj (fieldArgs_modeSync.symm.trans h_modeSync)
  have e_modeAsync : f.modeAsync = r.modeAsync := Option.some.inj (fieldArgs_modeAsync.symm.trans h_modeAsync)
  have e_attrsFn : f.attrsFn = r.attrsFn := Option.some.inj (fieldArgs_attrsFn.symm.trans h_attrsFn)
  have e_fallible : f.fallible = r.fallible := Option.some.inj (fieldArgs_fallible.symm.trans h_fallible)
  have e_lazy : f.lazy = r.lazy := of_ite ((fieldArgs_lazy o_lazy).symm.trans h_lazy)
  have e_bn : f.baseName = r.baseName := by
    have e := fieldArgs_bn (f := f)
    rw [h_bn, Option.map_some, hv] at e
    exact (Option.some.inj e).symm
  have e_accessor : f.accessor = r.accessor := of_ite ((fieldArgs_accessor o_accessor).symm.trans h_accessor)
  have e_accessorMut : f.accessorMut = r.accessorMut := of_ite ((fieldArgs_accessorMut o_accessorMut).symm.trans h_accessorMut)
  have e_setter : f.setter = r.setter := of_ite ((fieldArgs_setter o_setter).symm.trans h_setter)
  have e_reader : f.reader = r.reader := of_ite ((fieldArgs_reader o_reader).symm.trans h_reader)
  have e_writer : f.writer = r.writer := of_ite ((fieldArgs_writer o_writer).symm.trans h_writer)
  have e_clearer : f.clearer = r.clearer := of_ite ((fieldArgs_clearer o_clearer).symm.trans h_clearer)
  have e_predicate : f.predicate = r.predicate := of_ite ((fieldArgs_predicate o_predicate).symm.trans h_predicate)
  have e_optional : f.optional = r.optional := Option.some.inj (fieldArgs_optional.symm.trans h_optional)
  have e_pub : f.pub = r.pub := Option.some.inj ((fieldArgs_pub o_pub).symm.trans h_pub)
  have e_priv : f.priv = r.priv := Option.some.inj (fieldArgs_priv.symm.trans h_priv)
  have e_default : f.default = r.default := Option.some.inj ((fieldArgs_default o_default).symm.trans h_default)
  have e_builder : f.builder = r.builder := of_ite ((fieldArgs_builder o_builder).symm.trans h_builder)
  have e_into : f.into = r.into := Option.some.inj (fieldArgs_into.symm.trans h_into)
  have e_clone : f.clone = r.clone := Option.some.inj (fieldArgs_clone.symm.trans h_clone)
  have e_copy : f.copy = r.copy := Option.some.inj (fieldArgs_copy.symm.trans h_copy)
  have e_lock : f.lock = r.lock := Option.some.inj (fieldArgs_lock.symm.trans h_lock)
  have e_innerMut : f.innerMut = r.innerMut := Option.some.inj (fieldArgs_innerMut.symm.trans h_innerMut)
  have e_serde : f.serde = r.serde := of_ite ((fieldArgs_serde o_serde).symm.trans h_serde)
  cases f
  cases r
  simp_all only

theorem wStruct_back {s : StructArgs} (ho : StructOk s) (hf : acceptStructFull s = true) : Parse.struct (wStruct s) = some s := by
  obtain ⟨o_pub, o_lazy, o_accessor, o_accessorMut, o_setter, o_reader, o_writer, o_clearer, o_predicate, o_builder, o_rc, o_serde⟩ := ho
  simp only [acceptStructFull, Bool.and_eq_true] at hf
  obtain ⟨⟨⟨⟨⟨⟨⟨⟨⟨⟨⟨ha, a_lazy⟩, a_accessor⟩, a_accessorMut⟩, a_setter⟩, a_reader⟩, a_writer⟩, a_clearer⟩, a_predicate⟩, a_builder⟩, a_rc⟩, a_serde⟩ := hf
  rw [wStruct]
  apply struct_iff.mpr
  exact ⟨known_join (structArgs_owned s) (by simp [structArgs, structNames]),
    structArgs_mode,
    structArgs_modeSync,
    structArgs_modeAsync,
    (structArgs_builder o_builder).trans (if_pos a_builder),
    structArgs_into,
    structArgs_noNew,
    structArgs_default,
    (structArgs_rc o_rc).trans (if_pos a_rc),
    structArgs_attributes,
    structArgs_attributesImpl,
    structArgs_fallible,
    (structArgs_lazy o_lazy).trans (if_pos a_lazy),
    (structArgs_accessor o_accessor).trans (if_pos a_accessor),
    (structArgs_accessorMut o_accessorMut).trans (if_pos a_accessorMut),
    (structArgs_setter o_setter).trans (if_pos a_setter),
    (structArgs_reader o_reader).trans (if_pos a_reader),
    (structArgs_writer o_writer).trans (if_pos a_writer),
    (structArgs_clearer o_clearer).trans (if_pos a_clearer),
    (structArgs_predicate o_predicate).trans (if_pos a_predicate),
    structArgs_optional,
    structArgs_pub o_pub,
    structArgs_priv,
    structArgs_clone,
    structArgs_copy,
    structArgs_lock,
    structArgs_innerMut,
    (structArgs_serde o_serde).trans (if_pos a_serde),
    ha⟩

theorem wStruct_range {args : List Arg} {r : StructArgs} (h : Parse.struct args = some r) :
    StructOk r ∧ acceptStructFull r = true := by
  obtain ⟨-, -, -, -, h_builder, -, -, -, h_rc, -, -, -, h_lazy, h_accessor, h_accessorMut, h_setter, h_reader, h_writer, h_clearer, h_predicate, -, h_pub, -, -, -, -, -, h_serde, ha⟩ := struct_iff.mp h
  refine ⟨⟨pub_range h_pub, (helper_range h_lazy).1, (accessor_range h_accessor).1, (helper_range h_accessorMut).1, (setter_range h_setter).1, (helper_range h_reader).1, (helper_range h_writer).1, (helper_range h_clearer).1, (helper_range h_predicate).1, (builder_range h_builder).1, (helper_range h_rc).1, (serde_range h_serde).1⟩, ?_⟩
  simp only [acceptStructFull, Bool.and_eq_true]
  exact ⟨⟨⟨⟨⟨⟨⟨⟨⟨⟨⟨ha, (helper_range h_lazy).2⟩, (accessor_range h_accessor).2⟩, (helper_range h_accessorMut).2⟩, (setter_range h_setter).2⟩, (helper_range h_reader).2⟩, (helper_range h_writer).2⟩, (helper_range h_clearer).2⟩, (helper_range h_predicate).2⟩, (builder_range h_builder).2⟩, (helper_range h_rc).2⟩, (serde_range h_serde).2⟩

theorem wStruct_only {s : StructArgs} (ho : StructOk s) {r : StructArgs} (h : Parse.struct (wStruct s) = some r) : s = r := by
  obtain ⟨o_pub, o_lazy, o_accessor, o_accessorMut, o_setter, o_reader, o_writer, o_clearer, o_predicate, o_builder, o_rc, o_serde⟩ := ho
  rw [wStruct] at h
  obtain ⟨-, h_mode, h_modeSync, h_modeAsync, h_builder, h_into, h_noNew, h_default, h_rc, h_attributes, h_attributesImpl, h_fallible, h_lazy, h_accessor, h_accessorMut, h_setter, h_reader, h_writer, h_clearer, h_predicate, h_optional, h_pub, h_priv, h_clone, h_copy, h_lock, h_innerMut, h_serde, -⟩ := struct_iff.mp h
  have e_mode : s.mode = r.mode := Option.some.inj (structArgs_mode.symm.trans h_mode)
  have e_modeSync : s.modeSync = r.modeSync := Option.some.inj (structArgs_modeSync.symm.trans h_modeSync)
  have e_modeAsync : s.modeAsync = r.modeAsync := Option.some.inj (structArgs_modeAsync.symm.trans h_modeAsync)
  have e_builder : s.builder = r.builder := of_ite ((structArgs_builder o_builder).symm.trans h_builder)
  have e_into : s.into = r.into := Option.some.inj (structArgs_into.symm.trans h_into)
  have e_noNew : s.noNew = r.noNew := Option.some.inj (structArgs_noNew.symm.trans h_noNew)
  have e_default : s.default = r.default := Option.some.inj (structArgs_default.symm.trans h_default)
  have e_rc : s.rc = r.rc := of_ite ((structArgs_rc o_rc).symm.trans h_rc)
  have e_attributes : s.attributes = r.attributes := Option.some.inj (structArgs_attributes.symm.trans h_attributes)
  have e_attributesImpl : s.attributesImpl = r.attributesImpl := Option.some.inj (structArgs_attributesImpl.symm.trans h_attributesImpl)
  have e_fallible : s.fallible = r.fallible := Option.some.inj (structArgs_fallible.symm.trans h_fallible)
  have e_lazy : s.lazy = r.lazy := of_ite ((structArgs_lazy o_lazy).symm.trans h_lazy)
  have e_accessor : s.accessor = r.accessor := of_ite ((structArgs_accessor o_accessor).symm.trans h_accessor)
  have e_accessorMut : s.accessorMut = r.accessorMut := of_ite ((structArgs_accessorMut o_accessorMut).symm.trans h_accessorMut)
  have e_setter : s.setter = r.setter := of_ite ((structArgs_setter o_setter).symm.trans h_setter)
  have e_reader : s.reader = r.reader := of_ite ((structArgs_reader o_reader).symm.trans h_reader)
  have e_writer : s.writer = r.writer := of_ite ((structArgs_writer o_writer).symm.trans h_writer)
  have e_clearer : s.clearer = r.clearer := of_ite ((structArgs_clearer o_clearer).symm.trans h_clearer)
  have e_predicate : s.predicate = r.predicate := of_ite ((structArgs_predicate o_predicate).symm.trans h_predicate)
  have e_optional : s.optional = r.optional := Option.some.inj (structArgs_optional.symm.trans h_optional)
  have e_pub : s.pub = r.pub := Option.some.inj ((structArgs_pub o_pub).symm.trans h_pub)
  have e_priv : s.priv = r.priv := Option.some.inj (structArgs_priv.symm.trans h_priv)
  have e_clone : s.clone = r.clone := Option.some.inj (structArgs_clone.symm.trans h_clone)
  have e_copy : s.copy = r.copy := Option.some.inj (structArgs_copy.symm.trans h_copy)
  have e_lock : s.lock = r.lock := Option.some.inj (structArgs_lock.symm.trans h_lock)
  have e_innerMut : s.innerMut = r.innerMut := Option.some.inj (structArgs_innerMut.symm.trans h_innerMut)
  have e_serde : s.serde = r.serde := of_ite ((structArgs_serde o_serde).symm.trans h_serde)
  cases s
  cases r
  simp_all only

theorem full_accept {f : FieldArgs} (h : acceptFieldFull f = true) : acceptField f = true := by
  simp only [acceptFieldFull, Bool.and_eq_true] at h
  exact h.1.1.1.1.1.1.1.1.1.1

theorem ofBool_ok : HelperOk (some (.ofBool true)) := by intro h; cases h

theorem mark_ok {f : FieldArgs} (h : FieldOk f) : FieldOk f.markImplicitly := by
  unfold FieldArgs.markImplicitly
  split
  · obtain ⟨h1, h2, h3, h4, h5, h6, h7, h8, h9, h10, h11, h12⟩ := h
    exact ⟨h1, h2, ofBool_ok, h4, h5, h6, h7, h8, ofBool_ok, ofBool_ok, h11, h12⟩
  · exact h

theorem mark_full {f : FieldArgs} (h : acceptFieldFull f = true) : acceptFieldFull f.markImplicitly = true := by
  have ha := Verif.Proof.ParseGrammar.markImplicitly_accept f
  rw [full_accept h] at ha
  simp only [acceptFieldFull, Bool.and_eq_true] at h ⊢
  obtain ⟨⟨⟨⟨⟨⟨⟨⟨⟨⟨-, h1⟩, h2⟩, h3⟩, h4⟩, h5⟩, h6⟩, h7⟩, h8⟩, h9⟩, h10⟩ := h
  refine ⟨⟨⟨⟨⟨⟨⟨⟨⟨⟨ha, ?_⟩, ?_⟩, ?_⟩, ?_⟩, ?_⟩, ?_⟩, ?_⟩, ?_⟩, ?_⟩, ?_⟩ <;> unfold FieldArgs.markImplicitly <;> split <;>
    first | assumption | rfl

theorem field_round {f : FieldArgs} (ho : FieldOk f) :
    field f.ident [some (wField f)] = if acceptFieldFull f then some f else none := by
  have e : field f.ident [some (wField f)] = (fieldSlots f.ident (wField f)).bind (check acceptField) := by
    simp [field]
  rw [e]
  split
  · rename_i h
    rw [wField_back ho h, Option.bind_some, check, if_pos (full_accept h)]
  · rename_i h
    rw [Option.bind_eq_none_iff]
    intro r hr
    have := wField_only ho hr
    subst this
    rw [check, if_neg]
    exact fun hc => h ((wField_range hr).2 hc)

theorem struct_round {s : StructArgs} (ho : StructOk s) :
    Parse.struct (wStruct s) = if acceptStructFull s then some s else none := by
  split
  · rename_i h
    exact wStruct_back ho h
  · rename_i h
    rw [Option.eq_none_iff_forall_ne_some]
    intro r hr
    have := wStruct_only ho hr
    subst this
    exact h (wStruct_range hr).2

theorem field_range {ident : String} {attrs : List (Option (List Arg))} {f : FieldArgs}
    (h : field ident attrs = some f) : f.ident = ident ∧ FieldOk f ∧ acceptFieldFull f = true := by
  obtain ⟨r, hr, hc⟩ := Option.bind_eq_some_iff.mp h
  obtain ⟨rfl, ha⟩ := (check_some _ _ _).mp hc
  have hi := (fieldSlots_iff.mp hr).2.1
  obtain ⟨h1, h2⟩ := wField_range hr
  split
  · rename_i hn
    rw [if_pos hn, Verif.Proof.ParseGrammar.markImplicitly_accept] at ha
    refine ⟨?_, mark_ok h1, mark_full (h2 ha)⟩
    rw [hi]
    unfold FieldArgs.markImplicitly
    split <;> rfl
  · rename_i hn
    rw [if_neg hn] at ha
    exact ⟨hi.symm, h1, h2 ha⟩

end Verif.Proof.ParseRound
