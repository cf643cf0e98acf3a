import Verif.Spec.Generics
/-
Helper lemmas: printed generics against the grammar of `Verif.Spec.Generics`.
-/
namespace Verif.Proof.Generics
open Verif.Model.Generics Verif.Model.Args Verif.Model.Init Verif.Spec.Generics

/-! ### Tokens of a list -/

theorem mem_commaSep {t : GTok} {a : List GTok} {as : List (List GTok)} (ha : a ∈ as) (ht : t ∈ a) :
    t ∈ commaSep as := by
  induction as with
  | nil => cases ha
  | cons b bs ih =>
    cases bs with
    | nil =>
      rw [List.mem_singleton] at ha
      subst ha
      exact ht
    | cons c cs =>
      rcases List.mem_cons.1 ha with rfl | h
      · exact List.mem_append_left _ ht
      · exact List.mem_append_right _ (List.mem_cons_of_mem _ (ih h))

theorem mem_angle {t : GTok} {a : List GTok} {as : List (List GTok)} (ha : a ∈ as) (ht : t ∈ a) : t ∈ angle as := by
  cases as with
  | nil => cases ha
  | cons b bs =>
    exact List.mem_cons_of_mem _ (List.mem_append_left _ (mem_commaSep ha ht))

/-! ### Argument lists -/

/-- Is it a name, as a test. -/
def isNameB : GTok → Bool
  | .life _ => true
  | .name _ => true
  | _ => false

theorem isName_iff (t : GTok) : IsName t ↔ isNameB t = true := by
  cases t <;> simp [IsName, isNameB]

theorem names_filter {ts ns : List GTok} (h : Names ts ns) : ts.filter isNameB = ns := by
  induction h with
  | one ht => rw [List.filter_cons, if_pos ((isName_iff _).1 ht)]; rfl
  | more ht _ ih =>
    rw [List.filter_cons, if_pos ((isName_iff _).1 ht), List.filter_cons, if_neg (by simp [isNameB]), ih]

theorem arguments_filter {ts ns : List GTok} (h : Arguments ts ns) : ts.filter isNameB = ns := by
  cases h with
  | none => rfl
  | some h => simp [names_filter h, isNameB]

theorem names_mem {ts ns : List GTok} (h : Names ts ns) : ∀ t ∈ ts, t = .comma ∨ isNameB t = true := by
  induction h with
  | one ht =>
    intro t h
    rw [List.mem_singleton.1 h]
    exact Or.inr ((isName_iff _).1 ht)
  | more ht _ ih =>
    intro t h
    rcases List.mem_cons.1 h with rfl | h
    · exact Or.inr ((isName_iff _).1 ht)
    · rcases List.mem_cons.1 h with rfl | h
      · exact Or.inl rfl
      · exact ih t h

theorem arguments_mem {ts ns : List GTok} (h : Arguments ts ns) :
    ∀ t ∈ ts, t = .open ∨ t = .close ∨ t = .comma ∨ isNameB t = true := by
  cases h with
  | none => intro t h; cases h
  | some h =>
    intro t ht
    rcases List.mem_cons.1 ht with rfl | ht
    · exact Or.inl rfl
    · rcases List.mem_append.1 ht with ht | ht
      · exact Or.inr (Or.inr (names_mem h t ht))
      · exact Or.inr (Or.inl (List.mem_singleton.1 ht))

theorem arguments_angle {ns : List GTok} (h : ∀ n ∈ ns, IsName n) : Arguments (angle (ns.map (fun n => [n]))) ns := by
  cases ns with
  | nil => exact .none
  | cons n ns =>
    refine .some ?_
    induction ns generalizing n with
    | nil => exact .one (h n (List.mem_singleton.2 rfl))
    | cons m ms ih =>
      exact .more (h n (List.mem_cons_self ..)) (ih m (fun k hk => h k (List.mem_cons_of_mem _ hk)))

/-! ### Parameter lists -/

theorem bounds_plusSep (b : String) (bs : List String) : Bounds (plusSep (b :: bs)) (b :: bs) := by
  induction bs generalizing b with
  | nil => exact .one b
  | cons c cs ih => exact .more b (ih c)

theorem mayBound_boundToks (bs : List String) : MayBound (boundToks bs) bs := by
  cases bs with
  | nil => exact .no
  | cons b bs => exact .yes (bounds_plusSep b bs)

theorem mayDefault_dfltToks (d : Option String) : MayDefault true (dfltToks d) := by
  cases d with
  | none => exact .no _
  | some d => exact .yes d

theorem decl_full (p : Param) : Decl true p.full (declaredOf p) := by
  cases p with
  | life n bs => exact .life n (mayBound_boundToks bs)
  | type n bs d => exact .type n (mayBound_boundToks bs) (mayDefault_dfltToks d)
  | const n t d => exact .const n t (mayDefault_dfltToks d)

theorem decl_forImpl (ok : Bool) (p : Param) : Decl ok p.forImpl (declaredOf p) := by
  cases p with
  | life n bs => exact .life n (mayBound_boundToks bs)
  | type n bs d =>
    have h : Decl ok (.name n :: (boundToks bs ++ [])) (.type n bs) := .type n (mayBound_boundToks bs) (.no ok)
    rw [List.append_nil] at h
    exact h
  | const n t d => exact .const n t (.no ok)

theorem decls_commaSep (ok : Bool) (f : Param → List GTok) (hf : ∀ p, Decl ok (f p) (declaredOf p)) (p : Param)
    (ps : List Param) : Decls ok (commaSep ((p :: ps).map f)) ((p :: ps).map declaredOf) := by
  induction ps generalizing p with
  | nil => exact .one (hf p)
  | cons q qs ih => exact .more (hf p) (ih q)

theorem isLife_declaredOf (p : Param) : (declaredOf p).isLife = p.isLife := by
  cases p <;> rfl

theorem nameOf_declaredOf (p : Param) : nameOf (declaredOf p) = p.tok := by
  cases p <;> rfl

theorem isName_tok (p : Param) : IsName p.tok := by
  cases p <;> exact trivial

theorem own_eq (g : Generics) : own g = g.sorted.map declaredOf := by
  unfold own Generics.sorted
  rw [List.map_append, List.filter_map, List.filter_map]
  have h1 : (Declared.isLife ∘ declaredOf) = Param.isLife := funext isLife_declaredOf
  have h2 : ((fun d : Declared => !d.isLife) ∘ declaredOf) = fun p => !p.isLife := by
    funext p
    simp [isLife_declaredOf]
  rw [h1, h2]

theorem own_names (g : Generics) : (own g).map nameOf = g.sorted.map Param.tok := by
  rw [own_eq, List.map_map]
  congr 1
  funext p
  exact nameOf_declaredOf p

theorem params_angle (ok : Bool) (f : Param → List GTok) (hf : ∀ p, Decl ok (f p) (declaredOf p)) (g : Generics) :
    Params ok (angle (g.sorted.map f)) (own g) := by
  have hs : own g = (g.params.filter (·.isLife)).map declaredOf ++ (g.params.filter (!·.isLife)).map declaredOf := by
    rw [own_eq, ← List.map_append]
    rfl
  have h1 : ∀ p ∈ (g.params.filter (·.isLife)).map declaredOf, p.isLife = true := by
    intro p hp
    obtain ⟨q, hq, rfl⟩ := List.mem_map.1 hp
    rw [isLife_declaredOf]
    exact (List.mem_filter.1 hq).2
  have h2 : ∀ p ∈ (g.params.filter (!·.isLife)).map declaredOf, p.isLife = false := by
    intro p hp
    obtain ⟨q, hq, rfl⟩ := List.mem_map.1 hp
    rw [isLife_declaredOf]
    simpa using (List.mem_filter.1 hq).2
  cases hl : g.sorted with
  | nil =>
    rw [own_eq, hl]
    exact .none
  | cons q qs =>
    rw [hs]
    refine .some ?_ h1 h2
    rw [← hs, own_eq, hl]
    exact decls_commaSep ok f hf q qs

theorem params_full (g : Generics) : Params true g.full (own g) := params_angle true _ decl_full g

theorem params_impl (ok : Bool) (g : Generics) : Params ok g.impl (own g) := params_angle ok _ (decl_forImpl ok) g

/-! No default in a parameter list of an `impl`. -/

theorem bounds_noEq {ts : List GTok} {bs : List String} (h : Bounds ts bs) : GTok.eq ∉ ts := by
  induction h with
  | one b => simp
  | more b _ ih => simp [ih]

theorem mayBound_noEq {ts : List GTok} {bs : List String} (h : MayBound ts bs) : GTok.eq ∉ ts := by
  cases h with
  | no => simp
  | yes h => simp [bounds_noEq h]

theorem mayDefault_noEq {ts : List GTok} (h : MayDefault false ts) : GTok.eq ∉ ts := by
  cases h
  simp

theorem decl_noEq {ts : List GTok} {p : Declared} (h : Decl false ts p) : GTok.eq ∉ ts := by
  cases h with
  | life n h => simp [mayBound_noEq h]
  | type n h hd => simp [mayBound_noEq h, mayDefault_noEq hd]
  | const n t hd => simp [mayDefault_noEq hd]

theorem decls_noEq {ts : List GTok} {ps : List Declared} (h : Decls false ts ps) : GTok.eq ∉ ts := by
  induction h with
  | one h => exact decl_noEq h
  | more h _ ih => simp [decl_noEq h, ih]

theorem params_noEq {ts : List GTok} {ps : List Declared} (h : Params false ts ps) : GTok.eq ∉ ts := by
  cases h with
  | none => simp
  | some h _ _ => simp [decls_noEq h]

/-! ### Kinds of parameters -/

theorem full_plain {p : Param} (h : PlainParam p) : p.full = [p.tok] := by
  cases p with
  | life n bs => simp only [PlainParam] at h; subst h; rfl
  | type n bs d => obtain ⟨rfl, rfl⟩ := h; rfl
  | const n t d => exact h.elim

theorem full_noDefault {p : Param} (h : NoDefault p) : p.full = p.forImpl := by
  cases p with
  | life n bs => rfl
  | type n bs d => simp only [NoDefault] at h; subst h; simp [Param.full, Param.forImpl, dfltToks]
  | const n t d => simp only [NoDefault] at h; subst h; rfl

theorem not_plain_mem {p : Param} (h : ¬PlainParam p) : ∃ t ∈ p.full, t = .colon ∨ t = .eq := by
  cases p with
  | life n bs =>
    cases bs with
    | nil => exact (h rfl).elim
    | cons b bs => exact ⟨.colon, by simp [Param.full, boundToks], Or.inl rfl⟩
  | type n bs d =>
    cases bs with
    | nil =>
      cases d with
      | none => exact (h ⟨rfl, rfl⟩).elim
      | some d => exact ⟨.eq, by simp [Param.full, dfltToks], Or.inr rfl⟩
    | cons b bs => exact ⟨.colon, by simp [Param.full, boundToks], Or.inl rfl⟩
  | const n t d => exact ⟨.colon, by simp [Param.full], Or.inl rfl⟩

theorem not_noDefault_mem {p : Param} (h : ¬NoDefault p) : GTok.eq ∈ p.full := by
  cases p with
  | life n bs => exact (h trivial).elim
  | type n bs d =>
    cases d with
    | none => exact (h rfl).elim
    | some d => simp [Param.full, dfltToks]
  | const n t d =>
    cases d with
    | none => exact (h rfl).elim
    | some d => simp [Param.full, dfltToks]

theorem mem_sorted {g : Generics} {p : Param} : p ∈ g.sorted ↔ p ∈ g.params := by
  unfold Generics.sorted
  rw [List.mem_append, List.mem_filter, List.mem_filter]
  cases h : p.isLife <;> simp

theorem arguments_full_iff (g : Generics) :
    Arguments g.full ((own g).map nameOf) ↔ ∀ p ∈ g.params, PlainParam p := by
  constructor
  · intro h p hp
    by_cases hq : PlainParam p
    · exact hq
    · obtain ⟨t, ht, hk⟩ := not_plain_mem hq
      have hm : t ∈ g.full := mem_angle (List.mem_map.2 ⟨p, mem_sorted.2 hp, rfl⟩) ht
      have := arguments_mem h t hm
      rcases hk with rfl | rfl <;> simp [isNameB] at this
  · intro h
    have he : g.full = angle ((g.sorted.map Param.tok).map (fun n => [n])) := by
      unfold Generics.full
      rw [List.map_map]
      congr 1
      exact List.map_congr_left (fun p hp => full_plain (h p (mem_sorted.1 hp)))
    rw [he, own_names]
    refine arguments_angle ?_
    intro n hn
    obtain ⟨p, _, rfl⟩ := List.mem_map.1 hn
    exact isName_tok p

theorem params_full_iff (g : Generics) : Params false g.full (own g) ↔ ∀ p ∈ g.params, NoDefault p := by
  constructor
  · intro h p hp
    by_cases hq : NoDefault p
    · exact hq
    · have := not_noDefault_mem hq
      have hm : GTok.eq ∈ g.full := mem_angle (List.mem_map.2 ⟨p, mem_sorted.2 hp, rfl⟩) this
      exact (params_noEq h hm).elim
  · intro h
    have he : g.full = g.impl := by
      unfold Generics.full Generics.impl
      congr 1
      exact List.map_congr_left (fun p hp => full_noDefault (h p (mem_sorted.1 hp)))
    rw [he]
    exact params_impl false g

theorem arguments_type (g : Generics) : Arguments g.type ((own g).map nameOf) := by
  have he : g.type = angle ((g.sorted.map Param.tok).map (fun n => [n])) := by
    unfold Generics.type
    rw [List.map_map]
    rfl
  rw [he, own_names]
  refine arguments_angle ?_
  intro n hn
  obtain ⟨p, _, rfl⟩ := List.mem_map.1 hn
  exact isName_tok p

theorem arguments_idents (g : Generics) : Arguments g.idents (g.params.map Param.tok) := by
  have he : g.idents = angle ((g.params.map Param.tok).map (fun n => [n])) := by
    unfold Generics.idents
    rw [List.map_map]
    rfl
  rw [he]
  refine arguments_angle ?_
  intro n hn
  obtain ⟨p, _, rfl⟩ := List.mem_map.1 hn
  exact isName_tok p

def isLifeTok : GTok → Bool
  | .life _ => true
  | _ => false

theorem isLifeTok_tok (p : Param) : isLifeTok p.tok = p.isLife := by
  cases p <;> rfl

theorem arguments_idents_iff (g : Generics) : Arguments g.idents ((own g).map nameOf) ↔ LifeFirst g := by
  rw [own_names]
  constructor
  · intro h
    have he : g.params.map Param.tok = g.sorted.map Param.tok := by
      rw [← arguments_filter (arguments_idents g), arguments_filter h]
    have hb : g.params.map Param.isLife = g.sorted.map Param.isLife := by
      have := congrArg (List.map isLifeTok) he
      simpa [List.map_map, Function.comp_def, isLifeTok_tok] using this
    have hlen : (g.params.filter (·.isLife)).length ≤ g.params.length := List.length_filter_le ..
    refine ⟨g.params.take (g.params.filter (·.isLife)).length, g.params.drop (g.params.filter (·.isLife)).length,
      (List.take_append_drop ..).symm, ?_, ?_⟩
    · intro p hp
      have h1 := congrArg (List.take (g.params.filter (·.isLife)).length) hb
      rw [← List.map_take, ← List.map_take] at h1
      have h2 : List.take (g.params.filter (·.isLife)).length g.sorted = g.params.filter (·.isLife) := by
        unfold Generics.sorted
        rw [List.take_left' rfl]
      rw [h2] at h1
      have : p.isLife ∈ (g.params.filter (·.isLife)).map Param.isLife := h1 ▸ List.mem_map_of_mem hp
      obtain ⟨q, hq, e⟩ := List.mem_map.1 this
      rw [← e]
      exact (List.mem_filter.1 hq).2
    · intro p hp
      have h1 := congrArg (List.drop (g.params.filter (·.isLife)).length) hb
      rw [← List.map_drop, ← List.map_drop] at h1
      have h2 : List.drop (g.params.filter (·.isLife)).length g.sorted = g.params.filter (!·.isLife) := by
        unfold Generics.sorted
        rw [List.drop_left' rfl]
      rw [h2] at h1
      have : p.isLife ∈ (g.params.filter (!·.isLife)).map Param.isLife := h1 ▸ List.mem_map_of_mem hp
      obtain ⟨q, hq, e⟩ := List.mem_map.1 this
      rw [← e]
      simpa using (List.mem_filter.1 hq).2
  · rintro ⟨ls, ps, he, hl, hp⟩
    have : g.sorted = g.params := by
      unfold Generics.sorted
      rw [he, List.filter_append, List.filter_append, List.filter_eq_self.2 hl,
        List.filter_eq_nil_iff.2 (fun a ha => by simp [hp a ha]),
        List.filter_eq_nil_iff.2 (fun a ha => by simp [hl a ha]),
        List.filter_eq_self.2 (fun a ha => by simp [hp a ha])]
      simp
    rw [this]
    exact arguments_idents g

theorem plain_noDefault {p : Param} (h : PlainParam p) : NoDefault p := by
  cases p with
  | life n bs => trivial
  | type n bs d => exact h.2
  | const n t d => exact h.elim

/-! ### Serde needs one of the two directions -/

theorem serde_some {s : StructArgs} (h : s.isSerde = true) : s.needsDeserialize = true ∨ s.needsSerialize = true := by
  revert h
  unfold StructArgs.isSerde StructArgs.needsDeserialize StructArgs.needsSerialize
  cases hs : s.serde with
  | none => simp
  | some sw =>
    simp only [Option.elim, Serde.isSerde, Serde.needsSerialize, Serde.needsDeserialize]
    rcases sw.serialize with _ | _ | _ <;> rcases sw.deserialize with _ | _ | _ <;> simp

end Verif.Proof.Generics
