import Verif.Proof.Structs
import Verif.Props.Init
import Verif.Props.MethodTy
/-
C69: struct expressions in the generated code. C70: the hidden self reference. C71: the `Copy` check. C72: generic
parameters of the helper structs are used.
-/
namespace Verif.Props.Structs
open Verif.Model.Args Verif.Model.Structs Verif.Model.Init Verif.Model.Method Verif.Spec.Structs Verif.Spec.InitTy
open Verif.Spec.MethodTy Verif.Proof.Structs
open Verif.Model.Emit (emits)
open Verif.Model.Exclusive (acceptFieldFull acceptStructFull)

/-! ### C69 -/

/-- **C69.** Exactly when does every struct expression name the fields of its struct: a struct with a generated
constructor has a field; with a builder there is no `rc(off)` and no skipped field; with serialisation no serde field
opts out of it alone; with deserialisation there is a `Default`, or all fields take part in it. -/
theorem C69_exprs_iff (s : StructArgs) (fs : List FieldArgs)
    (hd : ((prepare s fs).allFields.map (·.ident)).Nodup) :
    (∀ e ∈ exprs (prepare s fs),
        Complete ((fieldsOf (prepare s fs) e.of).map (·.1)) (hasDefault (prepare s fs) e.of) e) ↔
      ((prepare s fs).needsDefault = true → fs ≠ [] ∨ s.isRefCounted = true) ∧
      ((prepare s fs).needsBuilderStruct = true →
        (∀ h, s.rc = some h → h.isTrue = true) ∧ ∀ f ∈ fs, f.skip = false) ∧
      ((s.isSerde = true ∧ s.needsSerialize = true) → ∀ f ∈ fs, (FCtx.mk (prepare s fs) f).isSerde = true →
        (FCtx.mk (prepare s fs) f).needsSerialize = true) ∧
      ((s.isSerde = true ∧ s.needsDeserialize = true) → (prepare s fs).needsDefault = true ∨
        (s.isRefCounted = false ∧ ∀ f ∈ fs, (FCtx.mk (prepare s fs) f).isSerde = true ∧
          (FCtx.mk (prepare s fs) f).needsDeserialize = true)) := by
  unfold exprs
  simp only [all_append]
  constructor
  · rintro ⟨⟨⟨⟨⟨⟨_, h1⟩, h2⟩, h3⟩, _⟩, h4⟩, h5⟩
    have h1 := new_ok.1 h1
    exact ⟨h1, fun hb => ⟨(builderNew_ok hd).1 h2 hb, (build_ok hd).1 h3 hb⟩, (into_ok hd).1 h5, (from_ok hd h1).1 h4⟩
  · rintro ⟨h1, h2, h3, h4⟩
    exact ⟨⟨⟨⟨⟨⟨default_ok _ hd, new_ok.2 h1⟩, (builderNew_ok hd).2 (fun hb => (h2 hb).1)⟩,
      (build_ok hd).2 (fun hb => (h2 hb).2)⟩, shadowDefault_ok _ hd⟩, (from_ok hd h1).2 h4⟩, (into_ok hd).2 h3⟩

/-- C69 as far as it is true: there are fields, none is skipped, none opts out of one direction of serde, `rc` is not
given with `off`, and `Default` is not switched off. -/
theorem C69_exprs_partial (s : StructArgs) (fs : List FieldArgs)
    (hd : ((prepare s fs).allFields.map (·.ident)).Nodup) (hf : fs ≠ []) (hr : ∀ h, s.rc = some h → h.isTrue = true)
    (hk : ∀ f ∈ fs, f.skip = false) (hs : ∀ f ∈ fs, f.needsSerialize = none)
    (hn : (prepare s fs).needsDefault = true) :
    ∀ e ∈ exprs (prepare s fs),
      Complete ((fieldsOf (prepare s fs) e.of).map (·.1)) (hasDefault (prepare s fs) e.of) e := by
  refine (C69_exprs_iff s fs hd).2 ⟨fun _ => Or.inl hf, fun _ => ⟨hr, hk⟩, ?_, fun _ => Or.inl hn⟩
  intro h f hf _
  unfold FCtx.needsSerialize
  rw [show (FCtx.mk (prepare s fs) f).field = f from rfl, hs f hf]
  exact h.1

/-- `rc(off)` with a builder: `Builder::new()` names a field which is not there. -/
theorem C69_rcOff_false (s : StructArgs) (fs : List FieldArgs) (h : Helper)
    (hd : ((prepare s fs).allFields.map (·.ident)).Nodup) (hr : s.rc = some h) (ho : h.isTrue = false)
    (hb : (prepare s fs).needsBuilderStruct = true) :
    ¬∀ e ∈ exprs (prepare s fs),
      Complete ((fieldsOf (prepare s fs) e.of).map (·.1)) (hasDefault (prepare s fs) e.of) e := by
  intro hc
  have := (((C69_exprs_iff s fs hd).1 hc).2.1 hb).1 h hr
  rw [ho] at this
  cases this

/-- A skipped field with a builder: `build()` leaves it out. -/
theorem C69_skip_false (s : StructArgs) (fs : List FieldArgs) (f : FieldArgs)
    (hd : ((prepare s fs).allFields.map (·.ident)).Nodup) (hf : f ∈ fs) (hk : f.skip = true)
    (hb : (prepare s fs).needsBuilderStruct = true) :
    ¬∀ e ∈ exprs (prepare s fs),
      Complete ((fieldsOf (prepare s fs) e.of).map (·.1)) (hasDefault (prepare s fs) e.of) e := by
  intro hc
  have := (((C69_exprs_iff s fs hd).1 hc).2.1 hb).2 f hf
  rw [hk] at this
  cases this

/-- A serde field that is not serialised: the conversion into the shadow leaves it out. -/
theorem C69_serialize_false (s : StructArgs) (fs : List FieldArgs) (f : FieldArgs)
    (hd : ((prepare s fs).allFields.map (·.ident)).Nodup) (hs : s.isSerde = true) (hser : s.needsSerialize = true)
    (hf : f ∈ fs) (hfs : (FCtx.mk (prepare s fs) f).isSerde = true)
    (hfn : (FCtx.mk (prepare s fs) f).needsSerialize = false) :
    ¬∀ e ∈ exprs (prepare s fs),
      Complete ((fieldsOf (prepare s fs) e.of).map (·.1)) (hasDefault (prepare s fs) e.of) e := by
  intro hc
  have := ((C69_exprs_iff s fs hd).1 hc).2.2.1 ⟨hs, hser⟩ f hf hfs
  rw [hfn] at this
  cases this

/-- Without a `Default` a field left out of serde gets no value when the struct is made from its shadow. -/
theorem C69_deserialize_false (s : StructArgs) (fs : List FieldArgs) (f : FieldArgs)
    (hd : ((prepare s fs).allFields.map (·.ident)).Nodup) (hs : s.isSerde = true) (hde : s.needsDeserialize = true)
    (hn : (prepare s fs).needsDefault = false) (hf : f ∈ fs) (hfs : (FCtx.mk (prepare s fs) f).isSerde = false) :
    ¬∀ e ∈ exprs (prepare s fs),
      Complete ((fieldsOf (prepare s fs) e.of).map (·.1)) (hasDefault (prepare s fs) e.of) e := by
  intro hc
  rcases ((C69_exprs_iff s fs hd).1 hc).2.2.2 ⟨hs, hde⟩ with h | ⟨_, h⟩
  · rw [hn] at h
    cases h
  · rw [(h f hf).1] at hfs
    cases hfs

/-- `#[fxstruct(builder, serde)] struct S { #[fieldx(lazy)] a: T, b: T }` -/
def exArgs : StructArgs := { builder := some {}, serde := some {} }
def exFields : List FieldArgs := [{ ident := "a", lazy := some {} }, { ident := "b" }]

example : acceptStructFull exArgs = true ∧ (∀ f ∈ exFields, acceptFieldFull f = true) ∧
    (exprs (prepare exArgs exFields)).length = 7 := by decide +kernel

example : ∀ e ∈ exprs (prepare exArgs exFields), Complete ((fieldsOf (prepare exArgs exFields) e.of).map (·.1))
    (hasDefault (prepare exArgs exFields) e.of) e :=
  C69_exprs_partial exArgs exFields (by decide +kernel) (by simp [exFields]) (by simp [exArgs]) (by decide +kernel) (by decide +kernel) (by decide +kernel)

/-- `#[fxstruct(rc(off), builder)] struct S { a: T }` -/
def exRcOff : StructArgs := { rc := some { off := true }, builder := some {} }

example : acceptStructFull exRcOff = true := by decide +kernel

example : ¬∀ e ∈ exprs (prepare exRcOff exFields), Complete ((fieldsOf (prepare exRcOff exFields) e.of).map (·.1))
    (hasDefault (prepare exRcOff exFields) e.of) e :=
  C69_rcOff_false exRcOff exFields { off := true } (by decide +kernel) rfl rfl (by decide +kernel)

/-- `#[fxstruct(builder)] struct S { a: T, #[fieldx(skip)] b: T }` -/
def exSkip : List FieldArgs := [{ ident := "a" }, { ident := "b", skip := true }]

example : ¬∀ e ∈ exprs (prepare { builder := some {} } exSkip),
    Complete ((fieldsOf (prepare { builder := some {} } exSkip) e.of).map (·.1))
      (hasDefault (prepare { builder := some {} } exSkip) e.of) e :=
  C69_skip_false { builder := some {} } exSkip { ident := "b", skip := true } (by decide +kernel) (by simp [exSkip]) rfl
    (by decide +kernel)

/-- `#[fxstruct(serde)] struct S { #[fieldx(serde(serialize(off)))] a: T, b: T }` -/
def exSer : List FieldArgs := [{ ident := "a", serde := some { serialize := some false } }, { ident := "b" }]

example : ¬∀ e ∈ exprs (prepare { serde := some {} } exSer),
    Complete ((fieldsOf (prepare { serde := some {} } exSer) e.of).map (·.1))
      (hasDefault (prepare { serde := some {} } exSer) e.of) e :=
  C69_serialize_false { serde := some {} } exSer { ident := "a", serde := some { serialize := some false } }
    (by decide +kernel) (by decide +kernel) (by decide +kernel) (by simp [exSer]) (by decide +kernel) (by decide +kernel)

/-- `#[fxstruct(rc, builder)]` -/
def exRc : StructArgs := { rc := some {}, builder := some {} }

example : acceptStructFull exRc = true ∧ (exprs (prepare exRc exFields)).length = 4 := by decide +kernel

example : ∀ e ∈ exprs (prepare exRc exFields), Complete ((fieldsOf (prepare exRc exFields) e.of).map (·.1))
    (hasDefault (prepare exRc exFields) e.of) e :=
  C69_exprs_partial exRc exFields (by decide +kernel) (by simp [exFields]) (by
    intro h hr
    have : h = {} := by simpa [exRc] using hr.symm
    subst this
    rfl) (by decide +kernel) (by decide +kernel) (by decide +kernel)

/-- `#[fxstruct(serde, default(off))] struct S { a: T, #[fieldx(serde(off))] b: T }` -/
def exNoDefault : StructArgs := { serde := some {}, default := some false }
def exOffFields : List FieldArgs := [{ ident := "a" }, { ident := "b", serde := some { off := true } }]

example : acceptStructFull exNoDefault = true ∧ ∀ f ∈ exOffFields, acceptFieldFull f = true := by decide +kernel

example : ¬∀ e ∈ exprs (prepare exNoDefault exOffFields),
    Complete ((fieldsOf (prepare exNoDefault exOffFields) e.of).map (·.1))
      (hasDefault (prepare exNoDefault exOffFields) e.of) e :=
  C69_deserialize_false exNoDefault exOffFields { ident := "b", serde := some { off := true } } (by decide +kernel)
    (by decide +kernel) (by decide +kernel) (by decide +kernel) (by simp [exOffFields]) (by decide +kernel)

/-! ### C70 -/

/-- Everything said about the hidden field in the generated code compiles: it is declared as the `Weak` that
`__weak_myself: me.clone()` and `Weak::upgrade(&self.__weak_myself)` take it for, and its default is one. -/
structure SelfOk (c : Ctx) (n : String) : Prop where
  type : declType ⟨c, hidden n⟩ = .ok .t
  dflt : c.needsDefault = true → ∀ e, defaultInit ⟨c, hidden n⟩ = .ok e → HasTy {} false e .t

/-- The struct asks for locks around its fields. -/
def StructLock (s : StructArgs) : Prop :=
  s.lock.getD (s.needsReader.getD false || s.needsWriter.getD false) = true

theorem hidden_lock (c : Ctx) (n : String) : (FCtx.mk c (hidden n)).needsLock = true ↔ StructLock c.args := by
  simp [FCtx.needsLock, FCtx.needsReader, FCtx.needsWriter, FCtx.isOptional, hidden, FieldArgs.needsLock,
    FieldArgs.needsReader, FieldArgs.needsWriter, FieldArgs.isSkipped, StructLock, StructArgs.needsLock]

theorem hidden_sync (c : Ctx) (n : String) : (FCtx.mk c (hidden n)).isSync = c.isRatherSync := by
  simp [FCtx.isSync, hidden, FieldArgs.isSync, FieldArgs.isAsync, FieldArgs.isPlain, FieldArgs.isInnerMut]

/-- **C70.** The hidden self reference works exactly if: in a sync struct, a fallible struct has an error type, and no lock
is asked for at struct level (or there is no `Default`); in a plain struct, `inner_mut` is not on. -/
theorem C70_self_iff (s : StructArgs) (fs : List FieldArgs) (n : String) :
    SelfOk (prepare s fs) n ↔
      if (prepare s fs).isRatherSync = true then
        (s.isFallible.getD false = true → (s.fallible.bind (·.error)).isSome = true) ∧
          ((prepare s fs).needsDefault = true → ¬StructLock s)
      else s.isInnerMut.getD false = false := by
  have hsync := hidden_sync (prepare s fs) n
  have hlock := hidden_lock (prepare s fs) n
  have hfall : (FCtx.mk (prepare s fs) (hidden n)).isFallible = s.isFallible.getD false := by
    simp [FCtx.isFallible, hidden, FieldArgs.isFallible, prepare]
  have herr : hasErrorType ⟨prepare s fs, hidden n⟩ = (s.fallible.bind (·.error)).isSome := by
    simp [hasErrorType, hidden, prepare]
  have hskip : (hidden n).isSkipped = true := rfl
  have hdecl := Verif.Props.Init.C23_declType_error ⟨prepare s fs, hidden n⟩
  rw [hsync, hfall, herr] at hdecl
  by_cases hs : (prepare s fs).isRatherSync = true
  · rw [if_pos hs]
    have htype : declType ⟨prepare s fs, hidden n⟩ = .ok .t ↔
        (s.isFallible.getD false = true → (s.fallible.bind (·.error)).isSome = true) := by
      unfold declType syncType builderWrapper
      rw [hsync, if_pos hs, hfall, herr]
      simp only [hskip]
      cases s.isFallible.getD false <;> cases (s.fallible.bind (·.error)).isSome <;> simp [bind, Gen.bind, pure]
    constructor
    · rintro ⟨ht, hdf⟩
      refine ⟨htype.1 ht, fun hn hl => ?_⟩
      obtain ⟨e, he⟩ := Verif.Props.Init.C23_default_generated _ ht
      exact (Verif.Props.Init.C23_default_iff _ ht he).1 (hdf hn e he) ⟨hsync.trans hs, hskip, hlock.2 hl⟩
    · rintro ⟨ht, hdf⟩
      refine ⟨htype.2 ht, fun hn e he => ?_⟩
      exact (Verif.Props.Init.C23_default_iff _ (htype.2 ht) he).2 (fun h => hdf hn (hlock.1 h.2.2))
  · rw [if_neg hs]
    have htype : declType ⟨prepare s fs, hidden n⟩ = .ok .t ↔ s.isInnerMut.getD false = false := by
      unfold declType plainType
      rw [hsync, if_neg hs, Verif.Props.Init.skip_lazy _ hskip, Verif.Props.Init.skip_optional _ hskip]
      have : (FCtx.mk (prepare s fs) (hidden n)).isInnerMut = s.isInnerMut.getD false := by
        simp [FCtx.isInnerMut, hidden, FieldArgs.isInnerMut, prepare]
      rw [this]
      cases s.isInnerMut.getD false <;> simp
    constructor
    · exact fun h => htype.1 h.type
    · intro h
      refine ⟨htype.2 h, fun hn e he => ?_⟩
      refine (Verif.Props.Init.C23_default_iff _ (htype.2 h) he).2 (fun h => hs ?_)
      rw [← hsync]
      exact h.1

/-- C70 as far as it is true: no struct level `lock`, `reader`, `writer`, `inner_mut` or `fallible`. -/
theorem C70_self_partial (s : StructArgs) (fs : List FieldArgs) (n : String) (h1 : s.lock = none) (h2 : s.reader = none)
    (h3 : s.writer = none) (h4 : s.innerMut = none) (h5 : s.fallible = none) : SelfOk (prepare s fs) n := by
  rw [C70_self_iff]
  split
  · simp [StructArgs.isFallible, StructLock, StructArgs.needsReader, StructArgs.needsWriter, h1, h2, h3, h5]
  · simp [StructArgs.isInnerMut, h4]

/-- The full claim C70 is false: `#[fxstruct(rc, inner_mut)]`, `#[fxstruct(sync, rc, lock)]`,
`#[fxstruct(sync, rc, reader)]` are accepted. -/
theorem C70_full_false :
    (acceptStructFull { rc := some {}, innerMut := some true } = true ∧
      ¬SelfOk (prepare { rc := some {}, innerMut := some true } exFields) "__weak_myself") ∧
    (acceptStructFull { rc := some {}, modeSync := some true, lock := some true } = true ∧
      ¬SelfOk (prepare { rc := some {}, modeSync := some true, lock := some true } exFields) "__weak_myself") ∧
    (acceptStructFull { rc := some {}, modeSync := some true, reader := some {} } = true ∧
      ¬SelfOk (prepare { rc := some {}, modeSync := some true, reader := some {} } exFields) "__weak_myself") := by
  simp only [C70_self_iff]
  refine ⟨⟨by decide +kernel, ?_⟩, ⟨by decide +kernel, ?_⟩, ⟨by decide +kernel, ?_⟩⟩
  · rw [if_neg (by decide +kernel)]
    simp [StructArgs.isInnerMut]
  · rw [if_pos (by decide +kernel)]
    rintro ⟨_, h⟩
    exact h (by decide +kernel) rfl
  · rw [if_pos (by decide +kernel)]
    rintro ⟨_, h⟩
    exact h (by decide +kernel) rfl

example : SelfOk (prepare exRc exFields) "__weak_myself" :=
  C70_self_partial exRc exFields _ rfl rfl rfl rfl rfl

/-! ### C71 -/

/-- The two ways the generators ask for copying agree. -/
theorem copy_mode (x : FCtx) : x.isCopy = (x.accessorMode == .copy) := by
  unfold FCtx.isCopy FCtx.accessorMode FieldArgs.isAccessorCopy StructArgs.isAccessorCopy
  cases x.field.accessorMode with
  | some m => simp
  | none =>
    cases x.field.isCopy with
    | some b => cases b <;> simp
    | none =>
      cases x.ctx.args.accessorMode with
      | some m => simp
      | none =>
        cases x.ctx.args.isCopy with
        | some b => cases b <;> simp
        | none => simp

theorem clone_mode (x : FCtx) (h : x.isClone = true) : x.accessorMode = .clone := by
  unfold FCtx.isClone FieldArgs.isAccessorClone StructArgs.isAccessorClone FieldArgs.isClone StructArgs.isClone at h
  unfold FCtx.accessorMode FieldArgs.isCopy StructArgs.isCopy
  cases hm : x.field.accessorMode with
  | some m => simpa [hm] using h
  | none =>
    rcases hc : x.field.copy with _ | _ | _ <;> rcases hk : x.field.clone with _ | _ | _ <;>
      simp [hm, hc, hk] at h ⊢ <;>
      cases hn : x.ctx.args.accessorMode <;> simp [hn] at h ⊢ <;>
      first
      | exact h
      | (rcases hd : x.ctx.args.copy with _ | _ | _ <;> rcases hl : x.ctx.args.clone with _ | _ | _ <;>
          simp_all)

theorem copy_table (x : FCtx) (hs : x.field.isSkipped = false) :
    (match declType x, ((if x.isSync then syncAccessor x else plainAccessor x) : Gen Body) with
     | .ok τ, .ok b => !Proof.MethodTy.checkBody τ true b || ((!Proof.MethodTy.checkBody τ false b) == x.isCopy)
     | _, _ => true) = true := by
  have hm := copy_mode x
  have hcm := clone_mode x
  unfold declType plainType syncType syncAccessor plainAccessor syncReader syncCMethod mappedRead plainMeth plainLazyInit
    awaitCall okReturn shortcut fallibleRet maybeOpt builderWrapper rc useAsync
  generalize x.isLazy = lz at *
  generalize x.isOptional = op at *
  generalize x.isInnerMut = im at *
  generalize x.needsLock = lk at *
  generalize x.isSync = sy at *
  generalize x.isAsync = ay at *
  generalize x.isFallible = fa at *
  generalize x.isCopy = cp at *
  generalize x.isClone = cl at *
  generalize x.accessorMode = md at *
  generalize hasErrorType x = he at *
  generalize x.ctx.args.isRefCounted = rc at *
  generalize x.field.isSkipped = sk at *
  subst hs hm
  cases md <;> revert lz op im lk sy ay fa cl he rc <;> decide +kernel

/-- **C71** for fields that are not skipped, with an accessor that compiles if the type is `Copy`: the type is asked to be
`Copy` exactly if the accessor needs it. -/
theorem C71_check_partial (c : Ctx) (f : FieldArgs) (hf : f ∈ c.allFields) (hs : f.skip = false) {τ : Ty} {b : Body}
    (ht : declType ⟨c, f⟩ = .ok τ) (hb : body ⟨c, f⟩ .accessor = .ok b) (ha : emits ⟨c, f⟩ .accessor = true)
    (hc : BodyTy τ true b) : f ∈ copyChecked c ↔ NeedsCopy ⟨c, f⟩ .accessor := by
  have hacc : (FCtx.mk c f).needsAccessor = true := by
    simpa [emits, FieldArgs.isSkipped, hs] using ha
  have htab := copy_table ⟨c, f⟩ hs
  have hb' : (if (FCtx.mk c f).isSync then syncAccessor ⟨c, f⟩ else plainAccessor ⟨c, f⟩ : Gen Body) = .ok b := hb
  rw [ht, hb'] at htab
  simp only [(Proof.MethodTy.checkBody_iff τ true b).2 hc, Bool.not_true, Bool.false_or, beq_iff_eq] at htab
  unfold copyChecked
  rw [List.mem_filter, hacc, Bool.true_and, ← htab]
  constructor
  · rintro ⟨_, h⟩
    refine ⟨τ, b, ht, hb, hc, fun hn => ?_⟩
    rw [(Proof.MethodTy.checkBody_iff τ false b).2 hn] at h
    cases h
  · rintro ⟨τ', b', ht', hb'', _, hn⟩
    rw [ht] at ht'
    rw [hb] at hb''
    cases ht'
    cases hb''
    refine ⟨hf, ?_⟩
    cases hx : Proof.MethodTy.checkBody τ false b
    · rfl
    · exact absurd ((Proof.MethodTy.checkBody_iff τ false b).1 hx) hn

/-- A field without an accessor is not checked. -/
theorem C71_no_accessor (c : Ctx) (f : FieldArgs) (hs : f.skip = false) (ha : emits ⟨c, f⟩ .accessor = false) :
    f ∉ copyChecked c := by
  have hacc : (FCtx.mk c f).needsAccessor = false := by
    simpa [emits, FieldArgs.isSkipped, hs] using ha
  intro h
  have := (List.mem_filter.1 h).2
  rw [hacc] at this
  cases this

/-- Skipped fields have no accessor, but they are checked as soon as the struct asks for copying accessors. -/
theorem C71_skip_false (c : Ctx) (f : FieldArgs) (hf : f ∈ c.allFields) (hs : f.skip = true)
    (hacc : (FCtx.mk c f).needsAccessor = true) (hc : (FCtx.mk c f).isCopy = true) :
    f ∈ copyChecked c ∧ emits ⟨c, f⟩ .accessor = false := by
  refine ⟨List.mem_filter.2 ⟨hf, by simp [hacc, hc]⟩, ?_⟩
  simp [emits, FieldArgs.isSkipped, hs]

/-- In particular the hidden `Weak<Self>` of a reference counted struct, which is never `Copy`. -/
theorem C71_rc_false (s : StructArgs) (fs : List FieldArgs) (hr : s.isRefCounted = true)
    (hg : s.needsAccessor = some true) (hc : s.isAccessorCopy.or s.isCopy = some true) :
    ∃ n, myselfField s = some n ∧ hidden n ∈ copyChecked (prepare s fs) := by
  obtain ⟨n, hn⟩ := rc_myself hr
  refine ⟨n, hn, ?_⟩
  refine (C71_skip_false (prepare s fs) (hidden n)
    (mem_all.2 (Or.inl (by rw [extra_eq, if_pos hr, hn]; exact List.mem_singleton.2 rfl))) rfl ?_ ?_).1
  · simp [FCtx.needsAccessor, hidden, FieldArgs.needsAccessor, prepare, hg]
  · simp [FCtx.isCopy, hidden, FieldArgs.isAccessorCopy, FieldArgs.accessorMode, FieldArgs.isCopy, prepare, hc]

/-- `#[fxstruct(get(copy))] struct S { a: u32, #[fieldx(get(clone))] b: String, #[fieldx(skip)] c: String }` -/
def exCopy : Ctx :=
  { args := { accessor := some { copy := true } }
    fields := [{ ident := "a" }, { ident := "b", accessor := some { clone := true } }, { ident := "c", skip := true }] }

example : acceptStructFull exCopy.args = true ∧ (∀ f ∈ exCopy.fields, acceptFieldFull f = true) ∧
    (copyChecked exCopy).map (·.ident) = ["a", "c"] := by decide +kernel

example : ({ ident := "a" } : FieldArgs) ∈ copyChecked exCopy ↔ NeedsCopy ⟨exCopy, { ident := "a" }⟩ .accessor :=
  C71_check_partial exCopy { ident := "a" } (by simp [exCopy, Ctx.allFields]) rfl (τ := .t)
    (b := { ret := .own .t, main := [.copyVal] }) rfl rfl (by decide +kernel)
    ((Proof.MethodTy.checkBody_iff _ _ _).1 (by decide +kernel))

example : ({ ident := "c", skip := true } : FieldArgs) ∈ copyChecked exCopy ∧
    emits ⟨exCopy, { ident := "c", skip := true }⟩ .accessor = false :=
  C71_skip_false exCopy _ (by simp [exCopy, Ctx.allFields]) rfl (by decide +kernel) (by decide +kernel)

example : ∃ n, myselfField { rc := some {}, accessor := some { copy := true } } = some n ∧
    hidden n ∈ copyChecked (prepare { rc := some {}, accessor := some { copy := true } } exFields) :=
  C71_rc_false _ _ (by decide +kernel) (by decide +kernel) (by decide +kernel)

/-! ### C72 -/

/-- Every parameter is used by the fields of every struct that is written. -/
def AllUsed (c : Ctx) (mentions : String → List String) (params : List String) : Prop :=
  (∀ p ∈ params, UsedOwn mentions (fieldsOf c .own) p) ∧
  ∀ o, o ≠ .own → declared c o = true → ∀ p ∈ params, UsedIn mentions (fieldsOf c .own) (fieldsOf c o) p

theorem own_used (s : StructArgs) (fs : List FieldArgs) (hd : ((prepare s fs).allFields.map (·.ident)).Nodup)
    (mentions : String → List String) (p : String) :
    UsedOwn mentions (fieldsOf (prepare s fs) .own) p ↔ ∃ f ∈ fs, p ∈ mentions f.ident := by
  have hnot : ∀ f ∈ fs, ((prepare s fs).extra.map (·.ident)).contains f.ident = false := by
    intro f hf
    unfold Ctx.allFields at hd
    rw [List.map_append, List.nodup_append] at hd
    cases hc : ((prepare s fs).extra.map (·.ident)).contains f.ident
    · rfl
    · exact absurd rfl (hd.2.2 _ (by simpa using hc) _ (List.mem_map_of_mem hf))
  constructor
  · rintro ⟨n, g, hm, hp⟩
    obtain ⟨f, hf, he⟩ := List.mem_map.1 hm
    unfold ownField at he
    rcases mem_all.1 hf with hx | hx
    · have : ((prepare s fs).extra.map (·.ident)).contains f.ident = true := by
        simpa using ⟨f, hx, rfl⟩
      rw [this] at he
      simp at he
    · rw [hnot f hx] at he
      simp at he
      refine ⟨f, hx, ?_⟩
      rw [he.2]
      exact hp
  · rintro ⟨f, hf, hp⟩
    refine ⟨f.ident, f.ident, List.mem_map.2 ⟨f, mem_all.2 (Or.inr hf), ?_⟩, hp⟩
    unfold ownField
    rw [hnot f hf]
    rfl

/-- **C72.** Parameters are taken to be used by the struct as the user wrote it. They are used in all generated structs
exactly if: with a builder, the struct is reference counted or each is used by a field that is not skipped; with serde,
each is used by a field that takes part in serde. -/
theorem C72_used_iff (s : StructArgs) (fs : List FieldArgs) (hd : ((prepare s fs).allFields.map (·.ident)).Nodup)
    (mentions : String → List String) (params : List String)
    (hu : ∀ p ∈ params, ∃ f ∈ fs, p ∈ mentions f.ident) :
    AllUsed (prepare s fs) mentions params ↔
      ((prepare s fs).needsBuilderStruct = true → s.isRefCounted = true ∨
        ∀ p ∈ params, ∃ f ∈ fs, f.skip = false ∧ p ∈ mentions f.ident) ∧
      (s.isSerde = true →
        ∀ p ∈ params, ∃ f ∈ fs, (FCtx.mk (prepare s fs) f).isSerde = true ∧ p ∈ mentions f.ident) := by
  have hown : ∀ p ∈ params, UsedOwn mentions (fieldsOf (prepare s fs) .own) p := fun p hp =>
    (own_used s fs hd mentions p).2 (hu p hp)
  constructor
  · rintro ⟨_, h⟩
    constructor
    · intro hb
      cases hr : s.isRefCounted
      · right
        intro p hp
        rcases h .builder (by simp) hb p hp with ⟨n, g, hm, hg⟩ | ⟨⟨n, hm⟩, _⟩
        · unfold fieldsOf at hm
          rw [show (prepare s fs).args = s from rfl, hr, builderFields_eq] at hm
          simp only [Bool.false_eq_true, if_false, List.nil_append, List.mem_map, List.mem_filter, Prod.mk.injEq,
            FieldTy.around.injEq] at hm
          obtain ⟨f, ⟨hf, hk⟩, he⟩ := hm
          exact ⟨f, hf, by simpa using hk, by rw [he.2]; exact hg⟩
        · unfold fieldsOf at hm
          rw [show (prepare s fs).args = s from rfl, hr] at hm
          simp at hm
      · exact Or.inl rfl
    · intro hs p hp
      rcases h .shadow (by simp) hs p hp with ⟨n, g, hm, hg⟩ | ⟨⟨n, hm⟩, _⟩
      · obtain ⟨f, hf, he⟩ := List.mem_map.1 hm
        obtain ⟨hf, hk⟩ := List.mem_filter.1 hf
        simp at he
        rcases mem_all.1 hf with hx | hx
        · obtain ⟨_, n, _, rfl⟩ := mem_extra hx
          rw [hidden_serde] at hk
          cases hk
        · exact ⟨f, hx, hk, by rw [he.2]; exact hg⟩
      · obtain ⟨f, _, he⟩ := List.mem_map.1 hm
        simp at he
  · rintro ⟨h1, h2⟩
    refine ⟨hown, ?_⟩
    intro o ho hdo p hp
    cases o with
    | own => exact absurd rfl ho
    | builder =>
      rcases h1 hdo with hr | h
      · refine Or.inr ⟨?_, hown p hp⟩
        obtain ⟨n, hn⟩ := rc_myself hr
        refine ⟨n, ?_⟩
        unfold fieldsOf
        rw [show (prepare s fs).args = s from rfl, if_pos hr, hn]
        exact List.mem_append_left _ (List.mem_singleton.2 rfl)
      · obtain ⟨f, hf, hk, hm⟩ := h p hp
        refine Or.inl ⟨f.ident, f.ident, ?_, hm⟩
        unfold fieldsOf
        refine List.mem_append_right _ (List.mem_map.2 ⟨f, ?_, rfl⟩)
        rw [builderFields_eq]
        exact List.mem_filter.2 ⟨hf, by simp [hk]⟩
    | shadow =>
      obtain ⟨f, hf, hk, hm⟩ := h2 hdo p hp
      refine Or.inl ⟨f.ident, f.ident, ?_, hm⟩
      exact List.mem_map.2 ⟨f, List.mem_filter.2 ⟨mem_all.2 (Or.inr hf), hk⟩, rfl⟩

/-- C72 as far as it is true: no field is skipped or left out of serde. -/
theorem C72_used_partial (s : StructArgs) (fs : List FieldArgs) (hd : ((prepare s fs).allFields.map (·.ident)).Nodup)
    (mentions : String → List String) (params : List String)
    (hu : ∀ p ∈ params, ∃ f ∈ fs, p ∈ mentions f.ident) (hk : ∀ f ∈ fs, f.skip = false)
    (hs : ∀ f ∈ fs, f.isSerde ≠ some false) : AllUsed (prepare s fs) mentions params := by
  refine (C72_used_iff s fs hd mentions params hu).2 ⟨fun _ => Or.inr ?_, fun h p hp => ?_⟩
  · intro p hp
    obtain ⟨f, hf, hm⟩ := hu p hp
    exact ⟨f, hf, hk f hf, hm⟩
  · obtain ⟨f, hf, hm⟩ := hu p hp
    refine ⟨f, hf, ?_, hm⟩
    have h1 := hk f hf
    have h2 := hs f hf
    unfold FCtx.isSerde
    simp only [FieldArgs.isSkipped, h1, Bool.not_false, Bool.true_and, show (prepare s fs).args = s from rfl, h]
    cases hx : f.isSerde with
    | none => rfl
    | some b =>
      cases b
      · exact absurd hx h2
      · rfl

/-- `struct S<T> { a: u32, #[fieldx(serde(off))] b: T }` with serde: the shadow struct does not use `T`. -/
theorem C72_full_false :
    ∃ (s : StructArgs) (fs : List FieldArgs) (mentions : String → List String),
      acceptStructFull s = true ∧ (∀ f ∈ fs, acceptFieldFull f = true) ∧
      ((prepare s fs).allFields.map (·.ident)).Nodup ∧ (∃ f ∈ fs, "T" ∈ mentions f.ident) ∧
      ¬AllUsed (prepare s fs) mentions ["T"] := by
  refine ⟨{ serde := some {} }, [{ ident := "a" }, { ident := "b", serde := some { off := true } }],
    fun n => if n = "b" then ["T"] else [], by decide +kernel, by decide +kernel, by decide +kernel, by decide +kernel, ?_⟩
  rw [C72_used_iff _ _ (by decide +kernel) _ _ (by decide +kernel)]
  rintro ⟨_, h⟩
  revert h
  decide +kernel

example : AllUsed (prepare exArgs exFields) (fun n => if n = "b" then ["T"] else []) ["T"] :=
  C72_used_partial exArgs exFields (by decide +kernel) _ _ (by decide +kernel) (by decide +kernel) (by decide +kernel)

end Verif.Props.Structs
