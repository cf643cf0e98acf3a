import Verif.Proof.Generics
/-
C68: the generated items of a generic struct declare its parameters and apply its types to them.
-/
namespace Verif.Props.Generics
open Verif.Model.Generics Verif.Model.Args Verif.Model.Init Verif.Spec.Generics Verif.Proof.Generics

theorem mentions_iff {c : Ctx} {f : FieldArgs} (h : ∃ τ, declType ⟨c, f⟩ = .ok τ) :
    mentionsStruct c f = true ↔ (FCtx.mk c f).isSync = true ∧ (FCtx.mk c f).isLazy = true := by
  obtain ⟨τ, h⟩ := h
  unfold mentionsStruct
  rw [h]
  unfold declType syncType builderWrapper at h
  by_cases hs : (FCtx.mk c f).isSync = true
  · rw [if_pos hs] at h
    by_cases he : ((FCtx.mk c f).isFallible && !hasErrorType ⟨c, f⟩) = true
    · rw [if_pos he] at h
      cases h
    · rw [if_neg he] at h
      by_cases hk : f.isSkipped = true
      · have hl : (FCtx.mk c f).isLazy = false := by
          simp [FCtx.isLazy, FieldArgs.isLazy, hk]
        simp only [hk, bind, pure, Gen.bind] at h
        cases h
        simp [hl]
      · by_cases hl : (FCtx.mk c f).isLazy = true
        · simp only [hk, hl, bind, pure, Gen.bind] at h
          cases h
          simp [hs, hl]
        · simp only [hk, hl, bind, pure, Gen.bind] at h
          simp only [hl]
          revert h
          by_cases hk : (FCtx.mk c f).needsLock = true <;> by_cases ho : (FCtx.mk c f).isOptional = true <;>
            simp only [hk, ho] <;> intro h <;> cases h <;> simp
  · rw [if_neg hs] at h
    cases h
    unfold plainType
    simp only [hs]
    by_cases hl : (FCtx.mk c f).isLazy = true <;> by_cases hk : (FCtx.mk c f).isInnerMut = true <;>
      by_cases ho : (FCtx.mk c f).isOptional = true <;> simp [hl, hk, ho]

/-- **C68.** Exactly when are all headers right? Lifetimes have to come first if a lazy field is sync; with a builder no
parameter has a default; with a builder of a reference counted struct, and with serde, every parameter is a bare name. -/
theorem C68_headers_iff (isStr : String → Bool) (c : Ctx) (g : Generics)
    (hgen : ∀ f ∈ c.allFields, ∃ τ, declType ⟨c, f⟩ = .ok τ) :
    (∀ h ∈ headers isStr c g, Right (own g) g.wh h) ↔
      ((∃ f ∈ c.allFields, (FCtx.mk c f).isSync = true ∧ (FCtx.mk c f).isLazy = true) → LifeFirst g) ∧
      (c.needsBuilderStruct = true →
        (∀ p ∈ g.params, NoDefault p) ∧ (c.args.isRefCounted = true → ∀ p ∈ g.params, PlainParam p)) ∧
      (c.args.isSerde = true → ∀ p ∈ g.params, PlainParam p) := by
  constructor
  · intro h
    refine ⟨?_, ?_, ?_⟩
    · rintro ⟨f, hf, hs⟩
      have hh := h (structHeader c g) (List.mem_cons_self ..)
      refine (arguments_idents_iff g).1 (hh.uses g.idents ?_)
      exact List.mem_map.2 ⟨f, List.mem_filter.2 ⟨hf, (mentions_iff (hgen f hf)).2 hs⟩, rfl⟩
    · intro hb
      have hm : ∀ x ∈ builderHeaders c g, x ∈ headers isStr c g := fun x hx =>
        List.mem_cons_of_mem _ (List.mem_append_left _ (List.mem_append_right _ hx))
      unfold builderHeaders at hm
      rw [if_pos hb] at hm
      refine ⟨(params_full_iff g).1 (h _ (hm _ (List.mem_cons_of_mem _ (List.mem_singleton.2 rfl)))).decl, ?_⟩
      intro hr
      refine (arguments_full_iff g).1 ((h _ (hm _ (List.mem_cons_self ..))).uses g.full ?_)
      simp [hr]
    · intro hs
      have hm : ∀ x ∈ serdeHeaders c g, x ∈ headers isStr c g := fun x hx =>
        List.mem_cons_of_mem _ (List.mem_append_right _ hx)
      unfold serdeHeaders at hm
      rw [if_pos hs] at hm
      refine (arguments_full_iff g).1 ((h _ (hm _ (by
        rw [List.append_assoc, List.append_assoc]
        exact List.mem_append_left _ (List.mem_singleton.2 rfl)))).uses g.full ?_)
      rcases serde_some hs with hd | hd <;> simp [hd]
  · rintro ⟨h1, h2, h3⟩ h hh
    have hfull : (∀ p ∈ g.params, PlainParam p) → Arguments g.full ((own g).map nameOf) := (arguments_full_iff g).2
    have hpar : (∀ p ∈ g.params, PlainParam p) → Params false g.full (own g) := fun hp =>
      (params_full_iff g).2 (fun p hq => plain_noDefault (hp p hq))
    rcases List.mem_cons.1 hh with rfl | hh
    · refine ⟨params_full g, rfl, ?_⟩
      intro u hu
      obtain ⟨f, hf, rfl⟩ := List.mem_map.1 hu
      obtain ⟨hf, hm⟩ := List.mem_filter.1 hf
      exact (arguments_idents_iff g).2 (h1 ⟨f, hf, (mentions_iff (hgen f hf)).1 hm⟩)
    · rcases List.mem_append.1 hh with hh | hh
      · rcases List.mem_append.1 hh with hh | hh
        · have hinh : ∀ u ∈ g.type :: inherentUses isStr c g, Arguments u ((own g).map nameOf) := by
            intro u hu
            rcases List.mem_cons.1 hu with rfl | hu
            · exact arguments_type g
            · unfold inherentUses at hu
              rcases List.mem_append.1 hu with hu | hu
              · rcases List.mem_append.1 hu with hu | hu
                · split at hu
                  · rw [List.mem_singleton.1 hu]
                    exact arguments_type g
                  · cases hu
                · split at hu
                  · rename_i hc
                    rw [List.mem_singleton.1 hu]
                    exact hfull (h3 (Bool.and_eq_true .. ▸ hc : _ ∧ _).1)
                  · cases hu
              · obtain ⟨_, _, rfl⟩ := List.mem_map.1 hu
                exact arguments_type g
          unfold implHeaders at hh
          rcases List.mem_append.1 hh with hh | hh
          · rcases List.mem_cons.1 hh with rfl | hh
            · exact ⟨params_impl _ g, rfl, by intro u hu; rw [List.mem_singleton.1 hu]; exact arguments_type g⟩
            · rw [List.mem_singleton.1 hh]
              exact ⟨params_impl _ g, rfl, hinh⟩
          · split at hh
            · rw [List.mem_singleton.1 hh]
              exact ⟨params_impl _ g, rfl, by intro u hu; rw [List.mem_singleton.1 hu]; exact arguments_type g⟩
            · cases hh
        · unfold builderHeaders at hh
          split at hh
          · rename_i hb
            obtain ⟨hd, hr⟩ := h2 hb
            rcases List.mem_cons.1 hh with rfl | hh
            · refine ⟨params_full g, rfl, ?_⟩
              intro u hu
              dsimp only at hu
              split at hu
              · rename_i hr'
                rw [List.mem_singleton.1 hu]
                exact hfull (hr hr')
              · cases hu
            · rw [List.mem_singleton.1 hh]
              refine ⟨(params_full_iff g).2 hd, rfl, ?_⟩
              intro u hu
              have : u = g.type := by simpa using hu
              rw [this]
              exact arguments_type g
          · cases hh
      · unfold serdeHeaders at hh
        split at hh
        · rename_i hs
          have hp := h3 hs
          have key : ∀ x : Header, (x.dfltOk = true ∨ x.dfltOk = false) → x.decl = g.full → x.wh = g.wh →
              (∀ u ∈ x.uses, u = g.full) → Right (own g) g.wh x := by
            intro x _ hd hw hu
            refine ⟨?_, hw, fun u h => by rw [hu u h]; exact hfull hp⟩
            rw [hd]
            cases hx : x.dfltOk
            · exact hpar hp
            · exact params_full g
          rcases List.mem_append.1 hh with hh | hh
          · rcases List.mem_append.1 hh with hh | hh
            · rcases List.mem_append.1 hh with hh | hh
              · rw [List.mem_singleton.1 hh]
                refine key _ (Or.inl rfl) rfl rfl ?_
                intro u hu
                rcases List.mem_append.1 hu with hu | hu <;> split at hu <;> simp at hu <;> exact hu
              · split at hh
                · rw [List.mem_singleton.1 hh]
                  exact key _ (Or.inr rfl) rfl rfl (by simp)
                · cases hh
            · split at hh
              · rw [List.mem_singleton.1 hh]
                exact key _ (Or.inr rfl) rfl rfl (by simp)
              · cases hh
          · split at hh
            · rw [List.mem_singleton.1 hh]
              exact key _ (Or.inr rfl) rfl rfl (by simp)
            · cases hh
        · cases hh

/-- All parameters bare names, lifetimes first: bounds go to the `where` clause. This is how the tests of the crate write
generic structs. Whatever is asked for, all headers are right. -/
theorem C68_bare_partial (isStr : String → Bool) (c : Ctx) (g : Generics)
    (hgen : ∀ f ∈ c.allFields, ∃ τ, declType ⟨c, f⟩ = .ok τ) (hl : LifeFirst g)
    (hp : ∀ p ∈ g.params, PlainParam p) : ∀ h ∈ headers isStr c g, Right (own g) g.wh h :=
  (C68_headers_iff isStr c g hgen).2 ⟨fun _ => hl, fun _ => ⟨fun p h => plain_noDefault (hp p h), fun _ => hp⟩, fun _ => hp⟩

/-- Without builder and serde any parameters will do, lifetimes first. -/
theorem C68_simple_partial (isStr : String → Bool) (c : Ctx) (g : Generics)
    (hgen : ∀ f ∈ c.allFields, ∃ τ, declType ⟨c, f⟩ = .ok τ) (hl : LifeFirst g)
    (hb : c.needsBuilderStruct = false) (hs : c.args.isSerde = false) :
    ∀ h ∈ headers isStr c g, Right (own g) g.wh h :=
  (C68_headers_iff isStr c g hgen).2 ⟨fun _ => hl, by simp [hb], by simp [hs]⟩

/-- A serde struct with a bound on a parameter has a wrong header, whatever else is asked for. -/
theorem C68_serde_false (isStr : String → Bool) (c : Ctx) (g : Generics)
    (hgen : ∀ f ∈ c.allFields, ∃ τ, declType ⟨c, f⟩ = .ok τ) (hs : c.args.isSerde = true) (n b : String)
    (bs : List String) (d : Option String) (hp : Param.type n (b :: bs) d ∈ g.params) :
    ¬∀ h ∈ headers isStr c g, Right (own g) g.wh h := by
  intro h
  have := ((C68_headers_iff isStr c g hgen).1 h).2.2 hs _ hp
  simp [PlainParam] at this

/-- So has a serde struct with a const parameter. -/
theorem C68_serde_const_false (isStr : String → Bool) (c : Ctx) (g : Generics)
    (hgen : ∀ f ∈ c.allFields, ∃ τ, declType ⟨c, f⟩ = .ok τ) (hs : c.args.isSerde = true) (n t : String)
    (d : Option String) (hp : Param.const n t d ∈ g.params) :
    ¬∀ h ∈ headers isStr c g, Right (own g) g.wh h := by
  intro h
  exact ((C68_headers_iff isStr c g hgen).1 h).2.2 hs _ hp

/-- A struct with a builder and a default for a parameter has a wrong header. -/
theorem C68_builder_false (isStr : String → Bool) (c : Ctx) (g : Generics)
    (hgen : ∀ f ∈ c.allFields, ∃ τ, declType ⟨c, f⟩ = .ok τ) (hb : c.needsBuilderStruct = true) (n d : String)
    (bs : List String) (hp : Param.type n bs (some d) ∈ g.params) :
    ¬∀ h ∈ headers isStr c g, Right (own g) g.wh h := by
  intro h
  have := (((C68_headers_iff isStr c g hgen).1 h).2.1 hb).1 _ hp
  simp [NoDefault] at this

/-- A reference counted struct with a builder and a bound on a parameter has a wrong header. -/
theorem C68_rc_false (isStr : String → Bool) (c : Ctx) (g : Generics)
    (hgen : ∀ f ∈ c.allFields, ∃ τ, declType ⟨c, f⟩ = .ok τ) (hb : c.needsBuilderStruct = true)
    (hr : c.args.isRefCounted = true) (n b : String) (bs : List String) (d : Option String)
    (hp : Param.type n (b :: bs) d ∈ g.params) : ¬∀ h ∈ headers isStr c g, Right (own g) g.wh h := by
  intro h
  have := (((C68_headers_iff isStr c g hgen).1 h).2.1 hb).2 hr _ hp
  simp [PlainParam] at this

/-! ### Concrete cases -/

/-- `struct Foo<'a, T> where T: Clone` with a lazy field `a` and a field `b`. -/
def exBare : Generics :=
  { params := [.life "a" [], .type "T" [] none], wh := some "T: Clone" }

/-- `struct Foo<'a, T: Clone>` -/
def exBound : Generics := { params := [.life "a" [], .type "T" ["Clone"] none] }

/-- `struct Foo<T = String, const N: usize>` -/
def exDefault : Generics := { params := [.type "T" [] (some "String"), .const "N" "usize" none] }

/-- Sync, builder, serde, reference counted; one field lazy. -/
def exAll : Ctx :=
  { args := { modeSync := some true, builder := some {}, serde := some {}, rc := some {} }
    fields := [{ ident := "a", lazy := some {} }, { ident := "b" }] }

/-- Sync only. -/
def exSimple : Ctx :=
  { args := { modeSync := some true }, fields := [{ ident := "a", lazy := some {} }, { ident := "b" }] }

theorem exAll_gen : ∀ f ∈ exAll.allFields, ∃ τ, declType ⟨exAll, f⟩ = .ok τ := by
  intro f hf
  have : f = { ident := "a", lazy := some {} } ∨ f = { ident := "b" } := by
    simpa [exAll, Ctx.allFields] using hf
  rcases this with rfl | rfl
  · exact ⟨.proxy false false, rfl⟩
  · exact ⟨.t, rfl⟩

theorem exSimple_gen : ∀ f ∈ exSimple.allFields, ∃ τ, declType ⟨exSimple, f⟩ = .ok τ := by
  intro f hf
  have : f = { ident := "a", lazy := some {} } ∨ f = { ident := "b" } := by
    simpa [exSimple, Ctx.allFields] using hf
  rcases this with rfl | rfl
  · exact ⟨.proxy false false, rfl⟩
  · exact ⟨.t, rfl⟩

/-- There is much to be right about: ten headers. -/
example : (headers (fun _ => false) exAll exBare).length = 10 := by decide +kernel

example : ∀ h ∈ headers (fun _ => false) exAll exBare, Right (own exBare) exBare.wh h :=
  C68_bare_partial _ exAll exBare exAll_gen
    ⟨[.life "a" []], [.type "T" [] none], rfl, by simp [Param.isLife], by simp [Param.isLife]⟩
    (by simp [exBare, PlainParam])

example : ∀ h ∈ headers (fun _ => false) exSimple exBound, Right (own exBound) exBound.wh h :=
  C68_simple_partial _ exSimple exBound exSimple_gen
    ⟨[.life "a" []], [.type "T" ["Clone"] none], rfl, by simp [Param.isLife], by simp [Param.isLife]⟩ rfl rfl

example : ¬∀ h ∈ headers (fun _ => false) exAll exBound, Right (own exBound) exBound.wh h :=
  C68_serde_false _ exAll exBound exAll_gen rfl "T" "Clone" [] none (by simp [exBound])

example : ¬∀ h ∈ headers (fun _ => false) exAll exBound, Right (own exBound) exBound.wh h :=
  C68_rc_false _ exAll exBound exAll_gen rfl rfl "T" "Clone" [] none (by simp [exBound])

example : ¬∀ h ∈ headers (fun _ => false) exAll exDefault, Right (own exDefault) exDefault.wh h :=
  C68_builder_false _ exAll exDefault exAll_gen rfl "T" "String" [] (by simp [exDefault])

example : ¬∀ h ∈ headers (fun _ => false) exAll exDefault, Right (own exDefault) exDefault.wh h :=
  C68_serde_const_false _ exAll exDefault exAll_gen rfl "N" "usize" none (by simp [exDefault])

/-- What is printed for `impl … From<…>` with a bound: `<'a, T: Clone>` after `From<__FooShadow`. -/
example : exBound.full = [.open, .life "a", .comma, .name "T", .colon, .other "Clone", .close] := by decide +kernel

end Verif.Props.Generics
