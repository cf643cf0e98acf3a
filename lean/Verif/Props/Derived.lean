import Verif.Model.Derived
import Verif.Spec.Derived
import Verif.Props.Traits
/-
C111: cloning, printing, comparing and serialising objects while others hold guards, and inside an async runtime.
-/
namespace Verif.Props.Derived
open Verif.Model.Args Verif.Model.Init Verif.Model.Structs Verif.Model.Expand Verif.Model.Traits Verif.Model.Derived
open Verif.Spec.Traits Verif.Spec.Derived Verif.Props.Traits

/-! ### One field -/

set_option maxHeartbeats 1000000 in
theorem touch_iff (rt : Bool) (op : Act) (g : Alive) (x : FCtx) (τ : Ty) (hτ : declType x = .ok τ) (s : Stop) :
    touch rt op g τ = some s ↔ Stops rt op x g s := by
  have hk := skipped_flags x
  revert hτ hk
  unfold declType syncType plainType builderWrapper useAsync
  cases s <;> simp only [Stops, Waits, Panics, Locks, wrap] <;>
  cases x.isSync <;> cases x.isLazy <;> cases x.isOptional <;> cases x.needsLock <;> cases x.isInnerMut <;>
    cases x.isFallible <;> cases hasErrorType x <;> cases x.field.isSkipped <;>
    simp [Bind.bind, Gen.bind, pure] <;> intro h <;> subst h <;> cases x.isAsync <;> cases op <;> cases rt <;> cases g <;>
    simp [touch, readLock]

/-- What a field does, by what it was asked to be. -/
theorem C111_field (rt : Bool) (op : Act) (c : Ctx) (hg : Declared c) (g : String → Alive) (f : FieldArgs) (hf : f ∈ c.allFields)
    (s : Stop) : touchField rt op c g f = some s ↔ Stops rt op ⟨c, f⟩ (g f.ident) s := by
  obtain ⟨τ, hτ⟩ := hg f hf
  unfold touchField
  rw [hτ]
  exact touch_iff rt op _ _ τ hτ s

theorem touchField_none (rt : Bool) (op : Act) (c : Ctx) (hg : Declared c) (g : String → Alive) (f : FieldArgs)
    (hf : f ∈ c.allFields) : touchField rt op c g f = none ↔ Clear rt op ⟨c, f⟩ (g f.ident) := by
  have h := C111_field rt op c hg g f hf
  cases hs : touchField rt op c g f with
  | none =>
    exact ⟨fun _ => ⟨fun hw => by simp [hs] at h; exact h .waits hw, fun hp => by simp [hs] at h; exact h .panics hp⟩, fun _ => rfl⟩
  | some s =>
    constructor
    · intro h'
      cases h'
    · intro hc
      have := (h s).1 hs
      cases s
      · exact absurd this hc.1
      · exact absurd this hc.2

/-! ### All fields -/

theorem over_done (rt : Bool) (op : Act) (c : Ctx) (hg : Declared c) (g : String → Alive) (fs : List FieldArgs)
    (hs : ∀ f ∈ fs, f ∈ c.allFields) :
    over rt op c g fs = .done ↔ ∀ f ∈ fs, Clear rt op ⟨c, f⟩ (g f.ident) := by
  induction fs with
  | nil => simp [over]
  | cons f fs ih =>
    have hf := touchField_none rt op c hg g f (hs f List.mem_cons_self)
    have ih := ih fun f' h' => hs f' (List.mem_cons_of_mem _ h')
    unfold over
    cases ht : touchField rt op c g f with
    | none =>
      simp only [List.forall_mem_cons]
      exact ih.trans ⟨fun h => ⟨hf.1 ht, h⟩, fun h => h.2⟩
    | some s =>
      simp only [List.forall_mem_cons, reduceCtorEq, false_iff]
      intro h
      have := hf.2 h.1
      rw [ht] at this
      cases this

theorem over_stopped (rt : Bool) (op : Act) (c : Ctx) (hg : Declared c) (g : String → Alive) (fs : List FieldArgs)
    (hs : ∀ f ∈ fs, f ∈ c.allFields) (n : String) (s : Stop) :
    over rt op c g fs = .stopped n s ↔
      ∃ l f r, fs = l ++ f :: r ∧ f.ident = n ∧ Stops rt op ⟨c, f⟩ (g f.ident) s ∧ ∀ f' ∈ l, Clear rt op ⟨c, f'⟩ (g f'.ident) := by
  induction fs with
  | nil => simp [over]
  | cons f fs ih =>
    have hm : f ∈ c.allFields := hs f List.mem_cons_self
    have hf := touchField_none rt op c hg g f hm
    have hi := C111_field rt op c hg g f hm
    have ih := ih fun f' h' => hs f' (List.mem_cons_of_mem _ h')
    unfold over
    cases ht : touchField rt op c g f with
    | none =>
      refine ih.trans ⟨?_, ?_⟩
      · rintro ⟨l, f', r, rfl, hn, h1, h2⟩
        exact ⟨f :: l, f', r, rfl, hn, h1, List.forall_mem_cons.2 ⟨hf.1 ht, h2⟩⟩
      · rintro ⟨l, f', r, he, hn, h1, h2⟩
        cases l with
        | nil =>
          obtain ⟨rfl, rfl⟩ := List.cons.inj he
          have := (hi s).2 h1
          rw [ht] at this
          cases this
        | cons a l =>
          obtain ⟨rfl, rfl⟩ := List.cons.inj he
          exact ⟨l, f', r, rfl, hn, h1, fun f'' h'' => h2 f'' (List.mem_cons_of_mem _ h'')⟩
    | some s' =>
      simp only [Out.stopped.injEq]
      constructor
      · rintro ⟨rfl, rfl⟩
        exact ⟨[], f, fs, rfl, rfl, (hi s').1 ht, fun _ h => by cases h⟩
      · rintro ⟨l, f', r, he, hn, h1, h2⟩
        cases l with
        | nil =>
          obtain ⟨rfl, rfl⟩ := List.cons.inj he
          have := (hi s).2 h1
          rw [ht] at this
          exact ⟨hn, Option.some.inj this⟩
        | cons a l =>
          obtain ⟨rfl, rfl⟩ := List.cons.inj he
          have := hf.2 (h2 _ List.mem_cons_self)
          rw [ht] at this
          cases this

/-- The field `rc` adds is a `Weak`, perhaps in a cell of which nobody asks for a guard, and never in the way. -/
theorem extra_clear (rt : Bool) (op : Act) (s : StructArgs) (fs : List FieldArgs) (g : String → Alive)
    (hh : ∀ f ∈ (prepare s fs).extra, g f.ident = .free) :
    ∀ f ∈ (prepare s fs).extra, Clear rt op ⟨prepare s fs, f⟩ (g f.ident) := by
  intro f hf
  have hfree := hh f hf
  rcases extra_eq s fs with ⟨_, he⟩ | ⟨_, n, he⟩
  · rw [he] at hf
    cases hf
  · rw [he] at hf
    obtain rfl := List.mem_singleton.1 hf
    have hw : wrap ⟨prepare s fs, hidden n⟩ ≠ .guarded := by
      unfold wrap
      rw [hidden_sync]
      cases hr : (prepare s fs).isRatherSync with
      | true =>
        intro h
        cases h
      | false =>
        simp only [Bool.false_eq_true, if_false]
        split <;> simp
    constructor
    · rintro ⟨⟨h, _⟩, _⟩
      exact hw h
    · rintro (⟨⟨h, _⟩, _⟩ | ⟨_, _, _, h⟩)
      · exact hw h
      · rw [hfree] at h
        cases h

/-- **C111.** Cloning or printing an object returns exactly if no field is in the way; else the first one which is decides. -/
theorem C111_walk_iff (rt : Bool) (op : Act) (s : StructArgs) (fs : List FieldArgs) (hg : Declared (prepare s fs))
    (g : String → Alive) (hh : ∀ f ∈ (prepare s fs).extra, g f.ident = .free) :
    (walk rt op (prepare s fs) g = .done ↔ ∀ f ∈ fs, Clear rt op ⟨prepare s fs, f⟩ (g f.ident)) ∧
    ∀ n p, walk rt op (prepare s fs) g = .stopped n p ↔
      ∃ l f r, fs = l ++ f :: r ∧ f.ident = n ∧ Stops rt op ⟨prepare s fs, f⟩ (g f.ident) p ∧
        ∀ f' ∈ l, Clear rt op ⟨prepare s fs, f'⟩ (g f'.ident) := by
  have hx := extra_clear rt op s fs g hh
  have ha : (prepare s fs).allFields = (prepare s fs).extra ++ fs := rfl
  have hover : walk rt op (prepare s fs) g = over rt op (prepare s fs) g fs := by
    unfold walk
    rw [ha]
    have : ∀ l, (∀ f ∈ l, f ∈ (prepare s fs).allFields) → (∀ f ∈ l, Clear rt op ⟨prepare s fs, f⟩ (g f.ident)) →
        over rt op (prepare s fs) g (l ++ fs) = over rt op (prepare s fs) g fs := by
      intro l
      induction l with
      | nil => intros; rfl
      | cons f l ih =>
        intro h1 h2
        have := (touchField_none rt op _ hg g f (h1 f List.mem_cons_self)).2 (h2 f List.mem_cons_self)
        simp only [List.cons_append, over, this]
        exact ih (fun f' h' => h1 f' (List.mem_cons_of_mem _ h')) fun f' h' => h2 f' (List.mem_cons_of_mem _ h')
    exact this _ (fun f hf => List.mem_append_left _ hf) hx
  have hm : ∀ f ∈ fs, f ∈ (prepare s fs).allFields := fun f hf => List.mem_append_right _ hf
  rw [hover]
  exact ⟨over_done rt op _ hg g fs hm, fun n p => over_stopped rt op _ hg g fs hm n p⟩

/-! ### Comparing -/

/-- Neither object is in the way at this field. -/
def Clear2 (rt : Bool) (c : Ctx) (g g' : String → Alive) (f : FieldArgs) : Prop :=
  Clear rt .eq ⟨c, f⟩ (g f.ident) ∧ Clear rt .eq ⟨c, f⟩ (g' f.ident)

theorem pairwise_answer (rt : Bool) (c : Ctx) (hg : Declared c) (g g' : String → Alive) (same : String → Bool)
    (fs : List FieldArgs) (hs : ∀ f ∈ fs, f ∈ c.allFields) :
    (pairwise rt c g g' same fs = .answer true ↔ ∀ f ∈ fs, Clear2 rt c g g' f ∧ same f.ident = true) ∧
    (pairwise rt c g g' same fs = .answer false ↔
      ∃ l f r, fs = l ++ f :: r ∧ Clear2 rt c g g' f ∧ same f.ident = false ∧
        ∀ f' ∈ l, Clear2 rt c g g' f' ∧ same f'.ident = true) ∧
    pairwise rt c g g' same fs ≠ .done := by
  induction fs with
  | nil => simp [pairwise]
  | cons f fs ih =>
    have hm : f ∈ c.allFields := hs f List.mem_cons_self
    have h1 := touchField_none rt .eq c hg g f hm
    have h2 := touchField_none rt .eq c hg g' f hm
    obtain ⟨iht, ihf, ihn⟩ := ih fun f' h' => hs f' (List.mem_cons_of_mem _ h')
    have stop : ¬ Clear2 rt c g g' f → ∀ n p,
        ((Out.stopped n p = .answer true ↔ ∀ f' ∈ f :: fs, Clear2 rt c g g' f' ∧ same f'.ident = true) ∧
        (Out.stopped n p = .answer false ↔
          ∃ l f' r, f :: fs = l ++ f' :: r ∧ Clear2 rt c g g' f' ∧ same f'.ident = false ∧
            ∀ f'' ∈ l, Clear2 rt c g g' f'' ∧ same f''.ident = true) ∧ Out.stopped n p ≠ .done) := by
      intro hn n p
      refine ⟨⟨fun h => by (cases h), fun h => absurd (h f List.mem_cons_self).1 hn⟩,
        ⟨fun h => by (cases h), ?_⟩, fun h => by (cases h)⟩
      rintro ⟨l, f', r, he, h3, _, h4⟩
      cases l with
      | nil =>
        obtain ⟨rfl, rfl⟩ := List.cons.inj he
        exact absurd h3 hn
      | cons a l =>
        obtain ⟨rfl, rfl⟩ := List.cons.inj he
        exact absurd (h4 _ List.mem_cons_self).1 hn
    unfold pairwise
    cases ht : touchField rt .eq c g f with
    | some s =>
      refine stop (fun h => ?_) _ _
      have := h1.2 h.1
      rw [ht] at this
      cases this
    | none =>
      cases ht' : touchField rt .eq c g' f with
      | some s =>
        refine stop (fun h => ?_) _ _
        have := h2.2 h.2
        rw [ht'] at this
        cases this
      | none =>
        have hc : Clear2 rt c g g' f := ⟨h1.1 ht, h2.1 ht'⟩
        cases hb : same f.ident with
        | true =>
          refine ⟨?_, ?_, ?_⟩
          · simp only [if_true, List.forall_mem_cons]
            exact iht.trans ⟨fun h => ⟨⟨hc, hb⟩, h⟩, fun h => h.2⟩
          · simp only [if_true]
            refine ihf.trans ⟨?_, ?_⟩
            · rintro ⟨l, f', r, rfl, h3, h4, h5⟩
              exact ⟨f :: l, f', r, rfl, h3, h4, List.forall_mem_cons.2 ⟨⟨hc, hb⟩, h5⟩⟩
            · rintro ⟨l, f', r, he, h3, h4, h5⟩
              cases l with
              | nil =>
                obtain ⟨rfl, rfl⟩ := List.cons.inj he
                rw [hb] at h4
                cases h4
              | cons a l =>
                obtain ⟨rfl, rfl⟩ := List.cons.inj he
                exact ⟨l, f', r, rfl, h3, h4, fun f'' h'' => h5 f'' (List.mem_cons_of_mem _ h'')⟩
          · simpa using ihn
        | false =>
          refine ⟨?_, ?_, by simp⟩
          · simp [hb]
          · simp only [Bool.false_eq_true, if_false, true_iff]
            exact ⟨[], f, fs, rfl, hc, hb, fun _ h => by cases h⟩

/-- **C111.** Comparing two objects: the answer is yes exactly if all fields are the same and none is in the way, and no exactly if there
is a first field which differs and none is in the way up to it. -/
theorem C111_eq_iff (rt : Bool) (s : StructArgs) (fs : List FieldArgs) (hr : s.isRefCounted = false)
    (hg : Declared (prepare s fs)) (g g' : String → Alive) (same : String → Bool) :
    (eq rt (prepare s fs) g g' same = .answer true ↔
      ∀ f ∈ fs, Clear2 rt (prepare s fs) g g' f ∧ same f.ident = true) ∧
    (eq rt (prepare s fs) g g' same = .answer false ↔
      ∃ l f r, fs = l ++ f :: r ∧ Clear2 rt (prepare s fs) g g' f ∧ same f.ident = false ∧
        ∀ f' ∈ l, Clear2 rt (prepare s fs) g g' f' ∧ same f'.ident = true) := by
  have ha : (prepare s fs).allFields = fs := by
    rcases extra_eq s fs with ⟨_, he⟩ | ⟨h, _⟩
    · show (prepare s fs).extra ++ fs = fs
      rw [he]
      rfl
    · rw [hr] at h
      cases h
  have := pairwise_answer rt _ hg g g' same fs fun f hf => by rw [ha]; exact hf
  unfold eq
  rw [ha]
  exact ⟨this.1, this.2.1⟩

/-! ### Where nothing is in the way -/

theorem first_false {α : Type} (p : α → Bool) (l : List α) (h : l.all p = false) :
    ∃ l₁ a l₂, l = l₁ ++ a :: l₂ ∧ p a = false ∧ ∀ b ∈ l₁, p b = true := by
  induction l with
  | nil => cases h
  | cons a l ih =>
    cases ha : p a with
    | false => exact ⟨[], a, l, rfl, ha, fun _ h => by cases h⟩
    | true =>
      rw [List.all_cons, ha, Bool.true_and] at h
      obtain ⟨l₁, b, l₂, rfl, h1, h2⟩ := ih h
      exact ⟨a :: l₁, b, l₂, rfl, h1, List.forall_mem_cons.2 ⟨ha, h2⟩⟩

theorem over_answer (rt : Bool) (op : Act) (c : Ctx) (g : String → Alive) (fs : List FieldArgs) (b : Bool) :
    over rt op c g fs ≠ .answer b := by
  induction fs with
  | nil => intro h; cases h
  | cons f fs ih =>
    unfold over
    cases touchField rt op c g f with
    | some s => intro h; cases h
    | none => exact ih

/-- **C111.** Outside of async code, and while nobody holds a guard for writing, objects can always be cloned, printed and
serialised, and comparing gives an answer. -/
theorem C111_outside_partial (s : StructArgs) (fs : List FieldArgs) (hg : Declared (prepare s fs)) (g g' : String → Alive)
    (hh : ∀ f ∈ (prepare s fs).extra, g f.ident = .free) (hn : ∀ n, g n ≠ .exclusive) (hn' : ∀ n, g' n ≠ .exclusive) (same : String → Bool) :
    clone false (prepare s fs) g = .done ∧ debug false (prepare s fs) g = .done ∧ serialize false (prepare s fs) g = .done ∧
      (s.isRefCounted = false → eq false (prepare s fs) g g' same = .answer (fs.all fun f => same f.ident)) := by
  have hc : ∀ op x γ, γ ≠ Alive.exclusive → Clear false op x γ := by
    intro op x γ h
    exact ⟨fun hw => h hw.2.2, fun hp => by
      rcases hp with ⟨_, _, h'⟩ | ⟨_, _, _, h'⟩
      · cases h'
      · exact h h'⟩
  have hw : ∀ op, walk false op (prepare s fs) g = .done := fun op =>
    ((C111_walk_iff false op s fs hg g hh).1).2 fun f _ => hc op _ _ (hn _)
  refine ⟨hw .clone, hw .debug, hw .clone, fun hr => ?_⟩
  obtain ⟨h1, h2⟩ := C111_eq_iff false s fs hr hg g g' same
  cases hall : fs.all fun f => same f.ident with
  | true => exact h1.2 fun f hf => ⟨⟨hc _ _ _ (hn _), hc _ _ _ (hn' _)⟩, List.all_eq_true.1 hall f hf⟩
  | false =>
    obtain ⟨l, f, r, rfl, hf, hl⟩ := first_false (fun f => same f.ident) fs hall
    exact h2.2 ⟨l, f, r, rfl, ⟨hc _ _ _ (hn _), hc _ _ _ (hn' _)⟩, hf,
      fun f' h' => ⟨⟨hc _ _ _ (hn _), hc _ _ _ (hn' _)⟩, hl f' h'⟩⟩

/-- **C111.** Where no field is lazy and locked, objects can be printed anywhere, whoever holds guards. What is missing:
`C111_print_false`. -/
theorem C111_print_partial (rt : Bool) (s : StructArgs) (fs : List FieldArgs) (hg : Declared (prepare s fs)) (g : String → Alive)
    (hh : ∀ f ∈ (prepare s fs).extra, g f.ident = .free)
    (hz : ∀ f ∈ fs, (FCtx.mk (prepare s fs) f).isLazy = true → (FCtx.mk (prepare s fs) f).isSync = false) :
    debug rt (prepare s fs) g = .done := by
  refine ((C111_walk_iff rt .debug s fs hg g hh).1).2 fun f hf => ?_
  have hl : ¬ Locks ⟨prepare s fs, f⟩ .debug := by
    rintro ⟨hw, hd⟩
    have hs := hz f hf (hd rfl)
    unfold wrap at hw
    rw [hs] at hw
    revert hw
    simp only [Bool.false_eq_true, if_false]
    split <;> simp
  exact ⟨fun h => hl h.1, fun h => h.elim (fun h => hl h.1) fun h => h.2.2.1 rfl⟩

/-- **C111.** Where no field is async, being inside an async runtime makes no difference. -/
theorem C111_runtime (op : Act) (s : StructArgs) (fs : List FieldArgs) (hg : Declared (prepare s fs)) (g : String → Alive)
    (hh : ∀ f ∈ (prepare s fs).extra, g f.ident = .free)
    (ha : ∀ f ∈ fs, (FCtx.mk (prepare s fs) f).isAsync = false) :
    walk true op (prepare s fs) g = walk false op (prepare s fs) g := by
  have hc : ∀ f ∈ fs, ∀ p, Stops true op ⟨prepare s fs, f⟩ (g f.ident) p ↔ Stops false op ⟨prepare s fs, f⟩ (g f.ident) p := by
    intro f hf p
    have := ha f hf
    cases p <;> simp [Stops, Waits, Panics, this]
  have hcl : ∀ f ∈ fs, Clear true op ⟨prepare s fs, f⟩ (g f.ident) ↔ Clear false op ⟨prepare s fs, f⟩ (g f.ident) := by
    intro f hf
    exact and_congr (not_congr (hc f hf .waits)) (not_congr (hc f hf .panics))
  obtain ⟨h1, h2⟩ := C111_walk_iff true op s fs hg g hh
  obtain ⟨h3, h4⟩ := C111_walk_iff false op s fs hg g hh
  cases hw : walk true op (prepare s fs) g with
  | done => exact (h3.2 fun f hf => (hcl f hf).1 (h1.1 hw f hf)).symm
  | answer b => exact absurd hw (over_answer _ _ _ _ _ _)
  | stopped n p =>
    obtain ⟨l, f, r, he, hn, hs, hl⟩ := (h2 n p).1 hw
    have hm : ∀ f' ∈ l, f' ∈ fs := fun f' h' => by rw [he]; exact List.mem_append_left _ h'
    exact ((h4 n p).2 ⟨l, f, r, he, hn, (hc f (by rw [he]; simp) p).1 hs, fun f' h' => (hcl f' (hm f' h')).1 (hl f' h')⟩).symm

/-- **C111.** In the builder of a lazy sync field, which runs while the field is locked for writing, the object can be neither
printed nor cloned: the call does not return. -/
theorem C111_builder (rt : Bool) (op : Act) (s : StructArgs) (fs : List FieldArgs) (hg : Declared (prepare s fs)) (g : String → Alive)
    (hh : ∀ f ∈ (prepare s fs).extra, g f.ident = .free)
    (f : FieldArgs) (hf : f ∈ fs) (hs : (FCtx.mk (prepare s fs) f).isSync = true) (hl : (FCtx.mk (prepare s fs) f).isLazy = true)
    (hk : f.isSkipped = false) (he : g f.ident = .exclusive) :
    ∃ n p, walk rt op (prepare s fs) g = .stopped n p := by
  cases hw : walk rt op (prepare s fs) g with
  | answer b => exact absurd hw (over_answer _ _ _ _ _ _)
  | stopped n p => exact ⟨n, p, rfl⟩
  | done =>
    obtain ⟨hc1, hc2⟩ := ((C111_walk_iff rt op s fs hg g hh).1).1 hw f hf
    have hlk : Locks ⟨prepare s fs, f⟩ op := ⟨by simp [wrap, hs, hl, hk], fun _ => hl⟩
    refine absurd ?_ hc2
    by_cases ha : (FCtx.mk (prepare s fs) f).isAsync = true ∧ rt = true
    · exact .inl ⟨hlk, ha.1, ha.2⟩
    · exact absurd ⟨hlk, ha, he⟩ hc1

/-! ### Where they are not -/

/-- **C111.** An async struct with a locked field can be cloned, compared and serialised by its derives, but not in async code: there
each of them panics, though nobody holds a guard. -/
theorem C111_task_false : ∃ (s : StructArgs) (fs : List FieldArgs) (out : List Piece),
    fxstruct true s fs {} = .code out [] ∧ asksClone (prepare s fs) = true ∧
    derives (prepare s fs) (fun _ _ => true) (fun _ _ => true) .clone = true ∧
    derives (prepare s fs) (fun _ _ => true) (fun _ _ => true) .partialEq = true ∧
    clone true (prepare s fs) (fun _ => .free) = .stopped "a" .panics ∧
    serialize true (prepare s fs) (fun _ => .free) = .stopped "a" .panics ∧
    ∀ same, eq true (prepare s fs) (fun _ => .free) (fun _ => .free) same = .stopped "a" .panics := by
  let s : StructArgs := { modeAsync := some true, serde := some {} }
  let fs : List FieldArgs := [{ ident := "a", lock := some true }]
  refine ⟨s, fs, Verif.Proof.Expand.finalOut (prepare s fs) {}, by decide +kernel, by decide +kernel, by decide +kernel,
    by decide +kernel, by decide +kernel, by decide +kernel, fun same => ?_⟩
  have h : touchField true .eq (prepare s fs) (fun _ => .free) { ident := "a", lock := some true } = some .panics := by
    decide +kernel
  show pairwise _ _ _ _ _ [_] = _
  simp only [pairwise, h]

/-- **C111.** An async struct with a lazy field cannot even be printed in async code; a sync one waits where somebody writes. -/
theorem C111_print_false :
    (∃ (s : StructArgs) (fs : List FieldArgs) (out : List Piece),
      fxstruct true s fs {} = .code out [] ∧ debug true (prepare s fs) (fun _ => .free) = .stopped "a" .panics) ∧
    ∃ (s : StructArgs) (fs : List FieldArgs) (out : List Piece),
      fxstruct true s fs {} = .code out [] ∧ debug false (prepare s fs) (fun _ => .exclusive) = .stopped "a" .waits := by
  let fs : List FieldArgs := [{ ident := "a", lazy := some {} }]
  exact ⟨⟨{ modeAsync := some true }, fs, Verif.Proof.Expand.finalOut (prepare { modeAsync := some true } fs) {},
      by decide +kernel, by decide +kernel⟩,
    ⟨{ modeSync := some true }, fs, Verif.Proof.Expand.finalOut (prepare { modeSync := some true } fs) {},
      by decide +kernel, by decide +kernel⟩⟩

/-! ### Cases -/

/-- A sync struct with a field as it is, a lazy one and a locked one. -/
def exS : StructArgs := { modeSync := some true }
def exF : List FieldArgs := [{ ident := "a" }, { ident := "b", lazy := some {} }, { ident := "c", lock := some true }]
theorem exDecl : Declared (prepare exS exF) := declared_of (by decide +kernel)

/-- The locked field is being written to. -/
def exG : String → Alive := fun n => if n = "c" then .exclusive else .shared

example : touchField false .clone (prepare exS exF) exG { ident := "c", lock := some true } = some .waits := by decide +kernel
example : clone false (prepare exS exF) exG = .stopped "c" .waits := by decide +kernel
example : debug false (prepare exS exF) exG = .done := by decide +kernel
example : debug false (prepare exS exF) (fun _ => .exclusive) = .stopped "b" .waits := by decide +kernel
example : eq false (prepare exS exF) (fun _ => .shared) (fun _ => .free) (fun _ => true) = .answer true := by decide +kernel
example : eq false (prepare exS exF) (fun _ => .shared) exG (fun n => n != "b") = .answer false := by decide +kernel
example : eq false (prepare exS exF) (fun _ => .shared) exG (fun n => n != "c") = .stopped "c" .waits := by decide +kernel
example : ∃ n p, walk true .debug (prepare exS exF) (fun n => if n = "b" then .exclusive else .free) = .stopped n p :=
  C111_builder true .debug exS exF exDecl _ (by decide +kernel) { ident := "b", lazy := some {} } (by simp [exF]) (by decide +kernel)
    (by decide +kernel) (by decide +kernel) (by decide +kernel)
example : walk true .clone (prepare exS exF) exG = walk false .clone (prepare exS exF) exG :=
  C111_runtime .clone exS exF exDecl exG (by decide +kernel) (by decide +kernel)
example : clone false (prepare exS exF) (fun _ => .shared) = .done :=
  (C111_outside_partial exS exF exDecl _ (fun _ => .free) (by decide +kernel) (by simp) (by simp) fun _ => true).1

/-- A counted struct with `inner_mut`, in a cell of which somebody writes. -/
example : clone false (prepare { rc := some {} } [{ ident := "a", innerMut := some true }])
    (fun n => if n = "a" then .exclusive else .free) = .stopped "a" .panics := by decide +kernel
example : debug true (prepare { rc := some {} } [{ ident := "a", innerMut := some true }])
    (fun n => if n = "a" then .exclusive else .free) = .done :=
  C111_print_partial true _ _ (declared_of (by decide +kernel)) _ (by decide +kernel) (by decide +kernel)

end Verif.Props.Derived
