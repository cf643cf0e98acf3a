import Verif.Proof.TasksField
/-!
# Tasks calling helpers: invariants and progress (helper lemmas)
-/

namespace Verif.Proof.Tasks
open Verif.Spec Verif.Model Verif.Model.Args Verif.Model.Tasks
open Verif.Model.Method hiding put
open Verif.Model.AsyncMixed (Fr)
open Verif.Proof.AsyncMixed (num sum_same sum_erase sum_one sum_two)

set_option linter.unusedSectionVars false
set_option linter.unusedSimpArgs false
variable {F L V W E : Type} [DecidableEq F] [DecidableEq L] {eqv : Option W → Option W → Bool}
  {dep : F ⊕ L → F ⊕ L → Prop} {v₀ : F → Option V} {w₀ : L → Option W} {fal cl : F → Bool}
  {lazyCode : F → Kind → Option Body} {lockCode : L → Kind → Option Body} {s s' : St F L V W E}

/-! ## What happens in the fields -/

/-- The helpers have the bodies which the attribute macro generates. -/
structure Good (W : Type) (fal cl : F → Bool) (lazyCode : F → Kind → Option Body) (lockCode : L → Kind → Option Body) : Prop where
  lazy : ∀ i, AsyncCalls.Shapes (fal i) (cl i) (lazyCode i)
  lock : AsyncLockCalls.Shapes (V := W) lockCode

/-- Does the action use a guard, and so may be repeated? -/
def repeats : FAct L V W E → Bool
  | .use _ | .useLock _ => true
  | _ => false

theorem fstep_cases {f : Fr F} {b : FAct L V W E} (h : fstep lazyCode lockCode eqv s f b = some s') :
    (∃ i p o b', f = .lazy i p ∧ AsyncCalls.step (lazyCode i) (s.obj i) p b' = some o ∧ s' = put s i p o ∧
      (repeats b = true ∨ ∀ c, b' ≠ .call c)) ∨
    ∃ p l b', f = .lock p ∧ AsyncLockCalls.step lockCode eqv s.lk p b' = some l ∧ s' = { s with lk := l } ∧ linner b' = true ∧
      (repeats b = true ∨ AsyncLockCalls.hquiet b' = true) := by
  unfold fstep at h
  split at h
  case h_12 => cases h
  case h_1 i p =>
    split at h
    · simp only [Option.map_eq_some_iff] at h
      obtain ⟨o, ho, rfl⟩ := h
      exact .inl ⟨i, p, o, .go, rfl, ho, rfl, .inr (by simp)⟩
    · cases h
  all_goals
    simp only [Option.map_eq_some_iff] at h
    obtain ⟨o, ho, rfl⟩ := h
  case h_2 i p u => exact .inl ⟨i, p, o, .call u, rfl, ho, rfl, .inl rfl⟩
  case h_3 i p r => exact .inl ⟨i, p, o, .finish r, rfl, ho, rfl, .inr (by simp)⟩
  case h_4 i p => exact .inl ⟨i, p, o, .drop, rfl, ho, rfl, .inr (by simp)⟩
  case h_5 i p => exact .inl ⟨i, p, o, .cancel, rfl, ho, rfl, .inr (by simp)⟩
  case h_6 p => exact .inr ⟨p, o, .go, rfl, ho, rfl, rfl, .inr rfl⟩
  case h_7 p k => exact .inr ⟨p, o, .call (.deref k), rfl, ho, rfl, rfl, .inl rfl⟩
  case h_8 p k v => exact .inr ⟨p, o, .call (.assign k v), rfl, ho, rfl, rfl, .inl rfl⟩
  case h_9 p g => exact .inr ⟨p, o, .drop g, rfl, ho, rfl, rfl, .inr rfl⟩
  case h_10 p => exact .inr ⟨p, o, .panic, rfl, ho, rfl, rfl, .inr rfl⟩
  case h_11 p => exact .inr ⟨p, o, .cancel, rfl, ho, rfl, rfl, .inr rfl⟩

/-- What holds of the fields. -/
structure Pool (fal cl : F → Bool) (eqv : Option W → Option W → Bool) (dep : F ⊕ L → F ⊕ L → Prop) (v₀ : F → Option V)
    (w₀ : L → Option W) (s : St F L V W E) : Prop where
  obj : ∀ i, AsyncCalls.Inv (fal i) (cl i) (v₀ i) (s.obj i)
  lk : AsyncLockCalls.Inv eqv (fun i j => dep (.inr i) (.inr j)) w₀ s.lk
  waits : ∀ i p, p ∈ s.queue i ↔ AsyncMulti.queued ((s.obj i).c.pc p) = true
  once : ∀ i, (s.queue i).Nodup
  base : ∀ p, BaseOk (s.lk.pc p) (s.lk.c.held p)

theorem pool_init : Pool fal cl eqv dep v₀ w₀ (init v₀ w₀ : St F L V W E) :=
  ⟨fun i => AsyncCalls.inv_init _, AsyncLockCalls.inv_init _,
    by simp [init, AsyncCalls.init, Async.init, AsyncMulti.queued], by simp [init],
    by simp [init, AsyncLockCalls.init, AsyncLocks.init, BaseOk]⟩

theorem pool_congr (h : Pool fal cl eqv dep v₀ w₀ s) (h1 : s'.obj = s.obj) (h2 : s'.lk = s.lk) (h3 : s'.queue = s.queue) :
    Pool fal cl eqv dep v₀ w₀ s' :=
  ⟨by rw [h1]; exact h.obj, by rw [h2]; exact h.lk, by rw [h1, h3]; exact h.waits, by rw [h3]; exact h.once,
    by rw [h2]; exact h.base⟩

/-- Tasks are not touched. -/
theorem fstep_tasks {f : Fr F} {b : FAct L V W E} (h : fstep lazyCode lockCode eqv s f b = some s') :
    s'.stack = s.stack ∧ s'.next = s.next ∧ s'.kids = s.kids ∧ s'.par = s.par := by
  rcases fstep_cases h with ⟨i, p, o, b', _, _, rfl, _⟩ | ⟨p, l, b', _, _, rfl, _⟩
  · exact ⟨rfl, rfl, rfl, rfl⟩
  · exact ⟨rfl, rfl, rfl, rfl⟩

/-- Other calls and guards are not touched. -/
theorem fstep_other (hp : Pool fal cl eqv dep v₀ w₀ s) {f g : Fr F} {b : FAct L V W E}
    (h : fstep lazyCode lockCode eqv s f b = some s') (hg : g ≠ f) : look s' g = look s g := by
  rcases fstep_cases h with ⟨i, p, o, b', rfl, ho, rfl, _⟩ | ⟨p, l, b', rfl, hl, rfl, _⟩
  · cases g with
    | lock q => rfl
    | lazy j q =>
      by_cases hj : j = i
      · subst hj
        have hq : q ≠ p := by rintro rfl; exact hg rfl
        have := others (hp.obj j) ho hq
        simp [look, put, this.1, this.2]
      · simp [look, put, upd_other _ _ hj]
  · cases g with
    | lazy j q => rfl
    | lock q =>
      have hq : q ≠ p := by rintro rfl; exact hg rfl
      have := lothers hl hq
      simp [look, this.1, this.2.1, this.2.2]

theorem gone_lazy {i : F} {y : AsyncCalls.Pc V E} {x : Async.Pc V E} :
    gone (.lazy i y x : View F L V W E) = true ↔ y = .idle := by
  cases y <;> simp [gone]

theorem gone_lock {y : AsyncLockCalls.Pc L W} {x : AsyncLocks.Pc L (Option W)} {h : List (L × Bool)} :
    gone (.lock y x h : View F L V W E) = true ↔ y = .idle ∧ h = [] := by
  cases y <;> cases h <;> simp [gone]

theorem mem_targets_lazy {i : F} {y : AsyncCalls.Pc V E} {x : Async.Pc V E} {r : F ⊕ L} :
    r ∈ targets (.lazy i y x : View F L V W E) ↔ waits y x = true ∧ r = .inl i := by
  cases y
  case run =>
    simp only [targets, waits, List.contains_eq_mem, decide_eq_true_eq]
    split <;> simp [*]
  all_goals
    simp only [targets, waits]
    exact AsyncMixed.mem_targets_lazy

theorem mem_targets_lock {y : AsyncLockCalls.Pc L W} {x : AsyncLocks.Pc L (Option W)} {h : List (L × Bool)} {r : F ⊕ L} :
    r ∈ targets (.lock y x h : View F L V W E) ↔ ∃ k, lwaits y x k ∧ r = .inr k := by
  cases y
  case run f todo a =>
    simp only [targets, lwaits]
    split
    · rename_i ht; simp [ht]
    · rename_i ht; simp [ht]
  all_goals
    simp only [targets, lwaits, AsyncMixed.mem_targets_lock, ltg]
    constructor
    · rintro (⟨k, h1, h2⟩ | ⟨i, j, h1, h2⟩)
      · exact ⟨k, .inl h1, h2⟩
      · exact ⟨j, .inr ⟨i, h1⟩, h2⟩
    · rintro ⟨k, h1 | ⟨i, h1⟩, h2⟩
      · exact .inl ⟨k, h1, h2⟩
      · exact .inr ⟨i, k, h1, h2⟩

theorem atUser_lazy {i : F} {y : AsyncCalls.Pc V E} {x : Async.Pc V E} :
    atUser (.lazy i y x : View F L V W E) = user y x := by
  cases y <;> simp [atUser, Tasks.guard, building, user]

/-- Who waits is not at the user. -/
theorem wants_not_user (hp : Pool fal cl eqv dep v₀ w₀ s) {f : Fr F} {r : F ⊕ L} (h : r ∈ targets (look s f)) :
    atUser (look s f) = false := by
  cases f with
  | lazy i p =>
    simp only [look, mem_targets_lazy] at h
    simp only [look, atUser_lazy]
    exact waits_not_user (hp.obj i) h.1
  | lock p =>
    simp only [look, mem_targets_lock] at h
    obtain ⟨k, h1, _⟩ := h
    have := lwaits_busy hp.lk h1
    simp only [look]
    revert this
    cases s.lk.pc p <;> simp [atUser, Tasks.guard, building]

theorem user_not_gone {w : View F L V W E} (h : atUser w = true) : gone w = false := by
  cases w with
  | lazy i y x => revert h; cases y <;> simp [atUser, gone, Tasks.guard, building]
  | lock y x hd => revert h; cases y <;> cases hd <;> simp [atUser, gone, Tasks.guard, building]

theorem guard_user {w : View F L V W E} (h : Tasks.guard w = true) : atUser w = true := by
  simp [atUser, h]

/-- A call or guard waits for nothing new. -/
theorem fstep_targets (hp : Pool fal cl eqv dep v₀ w₀ s) {f : Fr F} {b : FAct L V W E}
    (h : fstep lazyCode lockCode eqv s f b = some s') (hg : gone (look s f) = false) {r : F ⊕ L}
    (hr : r ∈ targets (look s' f)) : r ∈ targets (look s f) := by
  rcases fstep_cases h with ⟨i, p, o, b', rfl, ho, rfl, _⟩ | ⟨p, l, b', rfl, hl, rfl, hb, _⟩
  · simp only [look, put, upd_same, mem_targets_lazy] at hr ⊢
    refine ⟨waits_step (hp.obj i) ho ?_ hr.1, hr.2⟩
    intro hc
    simp [look, hc, gone] at hg
  · simp only [look, mem_targets_lock] at hr ⊢
    obtain ⟨k, h1, h2⟩ := hr
    exact ⟨k, lwaits_step hp.lk hb hl h1, h2⟩

theorem mem_requeue {p q : Nat} {x x' : Async.Pc V E} {l : List Nat} (hn : l.Nodup) (h : p ∈ l ↔ AsyncMulti.queued x = true) :
    (p ∈ requeue p x x' l ↔ AsyncMulti.queued x' = true) ∧ (q ≠ p → (q ∈ requeue p x x' l ↔ q ∈ l)) ∧
      (requeue p x x' l).Nodup := by
  unfold requeue
  cases h' : AsyncMulti.queued x'
  · simp only [Bool.false_eq_true, if_false, iff_false]
    exact ⟨fun hm => (hn.mem_erase_iff.1 hm).1 rfl, fun hq => List.mem_erase_of_ne hq, hn.erase _⟩
  · cases hx : AsyncMulti.queued x
    · rw [hx] at h
      simp only [if_true, Bool.false_eq_true, if_false]
      refine ⟨by simp, fun hq => by simp [hq], ?_⟩
      rw [List.nodup_append]
      refine ⟨hn, by simp, ?_⟩
      intro a ha b hb hab
      simp only [List.mem_singleton] at hb
      subst hab hb
      exact absurd (h.1 ha) (by simp)
    · simp only [if_true]
      exact ⟨by simp [h, hx], fun _ => by simp, hn⟩

theorem pool_fstep (hgood : Good W fal cl lazyCode lockCode) {f : Fr F} {b : FAct L V W E}
    (hp : Pool fal cl eqv dep v₀ w₀ s) (h : fstep lazyCode lockCode eqv s f b = some s') : Pool fal cl eqv dep v₀ w₀ s' := by
  rcases fstep_cases h with ⟨i, p, o, b', rfl, ho, rfl, _⟩ | ⟨p, l, b', rfl, hl, rfl, hb, _⟩
  · refine ⟨?_, hp.lk, ?_, ?_, hp.base⟩
    · intro j
      by_cases hj : j = i
      · subst hj; simp only [put, upd_same]; exact AsyncCalls.inv_step (hgood.lazy j) (hp.obj j) ho
      · simp only [put, upd_other _ _ hj]; exact hp.obj j
    · intro j q
      by_cases hj : j = i
      · subst hj
        simp only [put, upd_same]
        have := mem_requeue (q := q) (x' := o.c.pc p) (hp.once j) (hp.waits j p)
        by_cases hq : q = p
        · subst hq; exact this.1
        · rw [this.2.1 hq, (others (hp.obj j) ho hq).2]; exact hp.waits j q
      · simp only [put, upd_other _ _ hj]; exact hp.waits j q
    · intro j
      by_cases hj : j = i
      · subst hj
        simp only [put, upd_same]
        exact (mem_requeue (q := p) (x' := o.c.pc p) (hp.once j) (hp.waits j p)).2.2
      · simp only [put, upd_other _ _ hj]; exact hp.once j
  · refine ⟨hp.obj, AsyncLockCalls.inv_step hgood.lock hp.lk ?_ hl, hp.waits, hp.once, ?_⟩
    · cases b' with
      | call c => cases c <;> first | trivial | cases hb
      | _ => trivial
    · intro q
      by_cases hqp : q = p
      · subst hqp; exact base_step hp.lk hb hl (hp.base q)
      · have := lothers hl hqp
        simp only [this.1, this.2.1]; exact hp.base q

/-! ## Tasks -/

theorem look_congr (h1 : s'.obj = s.obj) (h2 : s'.lk = s.lk) (f : Fr F) : look s' f = look s f := by
  cases f <;> simp [look, h1, h2]

/-- What holds of containers and tasks. -/
structure Inv (fal cl : F → Bool) (eqv : Option W → Option W → Bool) (dep : F ⊕ L → F ⊕ L → Prop) (v₀ : F → Option V)
    (w₀ : L → Option W) (s : St F L V W E) : Prop where
  pool : Pool fal cl eqv dep v₀ w₀ s
  inside : ∀ t f, f ∈ s.stack t → num f < s.next ∧ gone (look s f) = false
  owner : ∀ f, gone (look s f) = false → ∃ t, f ∈ s.stack t
  uniq : ∀ t u f, f ∈ s.stack t → f ∈ s.stack u → t = u
  nodup : ∀ t, (s.stack t).Nodup
  one : ∀ t f g, f ∈ s.stack t → g ∈ s.stack t → atUser (look s f) = false → atUser (look s g) = false → f = g
  rest : ∀ t, s.kids t ≠ [] → atRest s t = true
  kids : ∀ t c, c ∈ s.kids t ↔ s.par c = some t
  kidsOnce : ∀ t, (s.kids t).Nodup
  up : ∀ t c, s.par c = some t → t < c

theorem inv_init : Inv fal cl eqv dep v₀ w₀ (init v₀ w₀ : St F L V W E) := by
  refine ⟨pool_init, ?_, ?_, ?_, ?_, ?_, ?_, ?_, ?_, ?_⟩
  · simp [init]
  · intro f hf
    cases f <;> simp [init, look, AsyncCalls.init, AsyncLockCalls.init, AsyncLocks.init, gone] at hf
  all_goals simp [init]

theorem rest_user (h : atRest s t = true) {f : Fr F} (hf : f ∈ s.stack t) : atUser (look s f) = true :=
  List.all_eq_true.1 h f hf

theorem turn_iff : turn s t = true ↔ atRest s t = true ∧ s.kids t = [] := by
  simp [turn]

theorem alone_iff {f : Fr F} : alone s t f = true ↔ (∀ g ∈ s.stack t, g = f ∨ atUser (look s g) = true) ∧ s.kids t = [] := by
  simp [alone]

/-- A call has begun: `f` is its frame. -/
structure New (fal cl : F → Bool) (eqv : Option W → Option W → Bool) (dep : F ⊕ L → F ⊕ L → Prop) (v₀ : F → Option V)
    (w₀ : L → Option W) (s s' : St F L V W E) (t : Nat) (f : Fr F) : Prop where
  turn : atRest s t = true
  free : s.kids t = []
  num : num f = s.next
  stack : s'.stack = upd s.stack t (f :: s.stack t)
  next : s'.next = s.next + 1
  kids : s'.kids = s.kids
  par : s'.par = s.par
  same : ∀ g, g ≠ f → look s' g = look s g
  there : gone (look s' f) = false
  pool : Pool fal cl eqv dep v₀ w₀ s'
theorem fresh_lazy (hi : Inv fal cl eqv dep v₀ w₀ s) (i : F) : (s.obj i).pc s.next = .idle := by
  apply Classical.byContradiction
  intro hc
  have hg : gone (look s (.lazy i s.next)) = false := by
    cases h : gone (look s (.lazy i s.next))
    · rfl
    · exact absurd (gone_lazy.1 h) hc
  obtain ⟨t, ht⟩ := hi.owner _ hg
  exact Nat.lt_irrefl _ (hi.inside t _ ht).1

theorem fresh_lock (hi : Inv fal cl eqv dep v₀ w₀ s) : s.lk.pc s.next = .idle ∧ s.lk.c.held s.next = [] := by
  apply Classical.byContradiction
  intro hc
  have hg : gone (look s (.lock s.next)) = false := by
    cases h : gone (look s (.lock s.next))
    · rfl
    · exact absurd (gone_lock.1 h) hc
  obtain ⟨t, ht⟩ := hi.owner _ hg
  exact Nat.lt_irrefl _ (hi.inside t _ ht).1

theorem new_lazy (hgood : Good W fal cl lazyCode lockCode) {t : Nat} {j : F} {k : Kind} {v : V} {boom : Bool}
    (hi : Inv fal cl eqv dep v₀ w₀ s) (h : step lazyCode lockCode eqv s t (.call j k v boom) = some s') :
    New fal cl eqv dep v₀ w₀ s s' t (.lazy j s.next) ∧
      ∀ r ∈ targets (look s' (.lazy j s.next)), r = .inl j ∧ k ≠ .predicate := by
  simp only [step] at h
  split at h
  case isFalse => cases h
  rename_i ht
  rw [turn_iff] at ht
  simp only [Option.map_eq_some_iff] at h
  obtain ⟨o, ho, rfl⟩ := h
  obtain ⟨h1, h2, f, bd, h3, h4, h5⟩ := call_begins ho
  refine ⟨⟨ht.1, ht.2, rfl, rfl, rfl, rfl, rfl, ?_, ?_, ?_, hi.pool.lk, ?_, hi.pool.once, hi.pool.base⟩, ?_⟩
  · intro g hg
    cases g with
    | lock q => rfl
    | lazy i q =>
      by_cases hij : i = j
      · subst hij
        have hq : q ≠ s.next := by rintro rfl; exact hg rfl
        have := others (hi.pool.obj i) ho hq
        simp [look, this.1, this.2]
      · simp [look, upd_other _ _ hij]
  · cases hg : gone (look (E := E) _ _)
    · rfl
    · simp only [look, upd_same] at hg
      rw [gone_lazy, h5] at hg; cases hg
  · intro i
    by_cases hij : i = j
    · subst hij; simp only [upd_same]; exact AsyncCalls.inv_step (hgood.lazy i) (hi.pool.obj i) ho
    · simp only [upd_other _ _ hij]; exact hi.pool.obj i
  · intro i q
    by_cases hij : i = j
    · subst hij
      simp only [upd_same, h2]; exact hi.pool.waits i q
    · simp only [upd_other _ _ hij]; exact hi.pool.waits i q
  · intro r hr
    simp only [look, upd_same, mem_targets_lazy] at hr
    refine ⟨hr.2, ?_⟩
    rintro rfl
    obtain ⟨e1, _, e3⟩ := hgood.lazy j _ _ h3
    rw [h5, e1] at hr
    generalize bd.main = m at e3 hr
    cases e3
    simp [waits] at hr

/-- What a call on lock-protected fields must keep to. -/
theorem allowed_fields {t : Nat} {c : LockCalls.Call L W} (ha : Allowed dep s t (.lock c)) :
    (∀ k ∈ callFields c, Precedes dep s t (.inr k)) ∧ ∀ i j, c = .eq i j → dep (.inr i) (.inr j) := by
  cases c with
  | helper i k v b => exact ⟨fun k hk => by simp only [callFields, List.mem_singleton] at hk; subst hk; exact ha, fun _ _ h => by cases h⟩
  | clone i => exact ⟨fun k hk => by simp only [callFields, List.mem_singleton] at hk; subst hk; exact ha, fun _ _ h => by cases h⟩
  | eq i j =>
    refine ⟨fun k hk => ?_, fun _ _ h => by cases h; exact ha.2.2⟩
    simp only [callFields, List.mem_cons, List.not_mem_nil, or_false] at hk
    rcases hk with rfl | rfl
    · exact ha.1
    · exact ha.2.1
  | _ => exact ⟨fun k hk => absurd hk (by simp [callFields]), fun _ _ h => by cases h⟩

theorem new_lock (hgood : Good W fal cl lazyCode lockCode) {t : Nat} {c : LockCalls.Call L W}
    (hi : Inv fal cl eqv dep v₀ w₀ s) (ha : Allowed dep s t (.lock c))
    (h : step lazyCode lockCode eqv s t (.lock c) = some s') :
    New fal cl eqv dep v₀ w₀ s s' t (.lock s.next) ∧
      ∀ r ∈ targets (look s' (.lock s.next)), ∃ k ∈ callFields c, r = .inr k := by
  simp only [step] at h
  split at h
  case isFalse => cases h
  rename_i ht
  rw [turn_iff] at ht
  simp only [Option.map_eq_some_iff] at h
  obtain ⟨l, hl, rfl⟩ := h
  obtain ⟨h1, h2, h3, h4⟩ := lcall_waits hl
  have hidle := fresh_lock hi
  refine ⟨⟨ht.1, ht.2, rfl, rfl, rfl, rfl, rfl, ?_, ?_, hi.pool.obj, ?_, hi.pool.waits, hi.pool.once, ?_⟩, ?_⟩
  · intro g hg
    cases g with
    | lazy i q => rfl
    | lock q =>
      have hq : q ≠ s.next := by rintro rfl; exact hg rfl
      have := lothers hl hq
      simp [look, this.1, this.2.1, this.2.2]
  · cases hg : gone (look (E := E) _ _)
    · rfl
    · simp only [look] at hg
      exact absurd (gone_lock.1 hg).1 h2
  · refine AsyncLockCalls.inv_step hgood.lock hi.pool.lk ?_ hl
    have hd := (allowed_fields ha).2
    cases c with
    | helper i k v b => simp [AsyncLockCalls.Allowed, hidle.2]
    | clone i => simp [AsyncLockCalls.Allowed, hidle.2]
    | eq i j => exact ⟨by simp [hidle.2], hd i j rfl⟩
    | _ => trivial
  · intro q
    by_cases hq : q = s.next
    · subst hq; exact base_call hl hidle.2
    · have := lothers hl hq
      simp only [this.1, this.2.1]; exact hi.pool.base q
  · intro r hr
    simp only [look, mem_targets_lock] at hr
    obtain ⟨k, hk, rfl⟩ := hr
    exact ⟨k, h4 k hk, rfl⟩

/-- Something has happened to a call or guard. -/
structure Acted (lazyCode : F → Kind → Option Body) (lockCode : L → Kind → Option Body) (eqv : Option W → Option W → Bool)
    (s s' : St F L V W E) (t : Nat) (f : Fr F) (b : FAct L V W E) : Prop where
  mem : f ∈ s.stack t
  alone : ∀ g ∈ s.stack t, g = f ∨ atUser (look s g) = true
  free : s.kids t = []
  may : may s t f = true
  stack : s'.stack = upd s.stack t (if gone (look s' f) then (s.stack t).erase f else s.stack t)
  next : s'.next = s.next
  kids : s'.kids = s.kids
  par : s'.par = s.par
  same : ∀ g, g ≠ f → look s' g = look s g
  on : ∃ s₁, fstep lazyCode lockCode eqv s f b = some s₁ ∧ s'.obj = s₁.obj ∧ s'.lk = s₁.lk ∧ s'.queue = s₁.queue

theorem acted (hp : Pool fal cl eqv dep v₀ w₀ s) {t : Nat} {f : Fr F} {b : FAct L V W E}
    (h : step lazyCode lockCode eqv s t (.act f b) = some s') : Acted lazyCode lockCode eqv s s' t f b := by
  simp only [step] at h
  split at h
  case isFalse => cases h
  rename_i hc
  obtain ⟨h1, h2, h3⟩ := hc
  rw [alone_iff] at h2
  simp only [Option.map_eq_some_iff] at h
  obtain ⟨s₁, hs, rfl⟩ := h
  obtain ⟨e1, e2, e3, e4⟩ := fstep_tasks hs
  refine ⟨h1, h2.1, h2.2, h3, ?_, e2, e3, e4, ?_, s₁, hs, rfl, rfl, rfl⟩
  · have hl : ∀ st, look { s₁ with stack := st } f = look s₁ f := fun st => look_congr rfl rfl f
    simp only [e1, hl]
  · intro g hg
    exact (look_congr (s := s₁) rfl rfl g).trans (fstep_other hp hs hg)

theorem forked {t c : Nat} (h : step lazyCode lockCode eqv s t (.fork c) = some s') : (t < c ∧ atRest s t = true ∧ s.stack c = [] ∧
    s.kids c = [] ∧ s.par c = none) ∧ s' = { s with kids := upd s.kids t (c :: s.kids t), par := upd s.par c (some t) } := by
  simp only [step] at h
  split at h
  · rename_i hc
    exact ⟨hc, (Option.some.inj h).symm⟩
  · cases h

theorem returned {t : Nat} (h : step lazyCode lockCode eqv s t .ret = some s') : ∃ u, s.par t = some u ∧ s.kids t = [] ∧
    (∀ f ∈ s.stack t, Tasks.guard (look s f) = true) ∧
    s' = { s with
      stack := upd (upd s.stack t []) u (s.stack t ++ s.stack u)
      kids := upd s.kids u ((s.kids u).erase t), par := upd s.par t none } := by
  simp only [step] at h
  split at h
  · rename_i u hu
    split at h
    · rename_i hc
      exact ⟨u, hu, hc.1, List.all_eq_true.1 hc.2, (Option.some.inj h).symm⟩
    · cases h
  · cases h

theorem inv_new {t : Nat} {f : Fr F} (hi : Inv fal cl eqv dep v₀ w₀ s) (h : New fal cl eqv dep v₀ w₀ s s' t f) : Inv fal cl eqv dep v₀ w₀ s' := by
  have hf : ∀ u, f ∉ s.stack u := fun u hu => by
    have := (hi.inside u f hu).1; rw [h.num] at this; exact Nat.lt_irrefl _ this
  have hlk : ∀ u, ∀ g ∈ s.stack u, look s' g = look s g := fun u g hg => h.same g (by rintro rfl; exact hf u hg)
  have hst : ∀ u g, g ∈ s'.stack u → (u = t ∧ g = f) ∨ g ∈ s.stack u := by
    intro u g hg
    rw [h.stack] at hg
    by_cases hu : u = t
    · subst hu
      rw [upd_same] at hg
      rcases List.mem_cons.1 hg with rfl | hg
      · exact .inl ⟨rfl, rfl⟩
      · exact .inr hg
    · rw [upd_other _ _ hu] at hg; exact .inr hg
  have hst' : ∀ u g, g ∈ s.stack u → g ∈ s'.stack u := by
    intro u g hg
    rw [h.stack]
    by_cases hu : u = t
    · subst hu; rw [upd_same]; exact List.mem_cons_of_mem _ hg
    · rw [upd_other _ _ hu]; exact hg
  refine ⟨h.pool, ?_, ?_, ?_, ?_, ?_, ?_, ?_, ?_, ?_⟩
  · intro u g hg
    rcases hst u g hg with ⟨_, rfl⟩ | hg
    · exact ⟨by rw [h.num, h.next]; omega, h.there⟩
    · rw [hlk u g hg, h.next]
      have := hi.inside u g hg
      exact ⟨by omega, this.2⟩
  · intro g hg
    by_cases hgf : g = f
    · subst hgf
      exact ⟨t, by rw [h.stack, upd_same]; exact List.mem_cons_self⟩
    · rw [h.same g hgf] at hg
      obtain ⟨u, hu⟩ := hi.owner g hg
      exact ⟨u, hst' u g hu⟩
  · intro u v g hu hv
    rcases hst u g hu with ⟨rfl, rfl⟩ | hu
    · rcases hst v g hv with ⟨rfl, _⟩ | hv
      · rfl
      · exact absurd hv (hf v)
    · rcases hst v g hv with ⟨rfl, rfl⟩ | hv
      · exact absurd hu (hf u)
      · exact hi.uniq u v g hu hv
  · intro u
    rw [h.stack]
    by_cases hu : u = t
    · subst hu; rw [upd_same]; exact List.nodup_cons.2 ⟨hf u, hi.nodup u⟩
    · rw [upd_other _ _ hu]; exact hi.nodup u
  · intro u g g' hg hg' h1 h2
    rcases hst u g hg with ⟨rfl, rfl⟩ | hg
    · rcases hst u g' hg' with ⟨_, rfl⟩ | hg'
      · rfl
      · rw [hlk u g' hg', rest_user h.turn hg'] at h2; cases h2
    · rcases hst u g' hg' with ⟨rfl, rfl⟩ | hg'
      · rw [hlk u g hg, rest_user h.turn hg] at h1; cases h1
      · rw [hlk u g hg] at h1; rw [hlk u g' hg'] at h2
        exact hi.one u g g' hg hg' h1 h2
  · intro u hu
    rw [h.kids] at hu
    have hut : u ≠ t := by rintro rfl; exact hu h.free
    have := hi.rest u hu
    unfold atRest at this ⊢
    rw [h.stack, upd_other _ _ hut]
    rw [List.all_eq_true] at this ⊢
    intro g hg
    rw [hlk u g hg]; exact this g hg
  · rw [h.kids, h.par]; exact hi.kids
  · rw [h.kids]; exact hi.kidsOnce
  · rw [h.par]; exact hi.up

theorem pool_acted (hgood : Good W fal cl lazyCode lockCode) {t : Nat} {f : Fr F} {b : FAct L V W E} (hi : Inv fal cl eqv dep v₀ w₀ s) (h : Acted lazyCode lockCode eqv s s' t f b) :
    Pool fal cl eqv dep v₀ w₀ s' := by
  obtain ⟨s₁, h1, h2, h3, h4⟩ := h.on
  exact pool_congr (pool_fstep hgood hi.pool h1) h2 h3 h4

theorem acted_stack {t : Nat} {f : Fr F} {b : FAct L V W E} (hi : Inv fal cl eqv dep v₀ w₀ s) (h : Acted lazyCode lockCode eqv s s' t f b) (u : Nat)
    (g : Fr F) : g ∈ s'.stack u ↔ g ∈ s.stack u ∧ gone (look s' g) = false := by
  rw [h.stack]
  by_cases hu : u = t
  · subst hu
    rw [upd_same]
    by_cases hg : g = f
    · subst hg
      split
      · rename_i h1
        simp only [h1, Bool.true_eq_false, and_false, iff_false]
        exact fun hm => ((hi.nodup u).mem_erase_iff.1 hm).1 rfl
      · rename_i h1; simp [h1]
    · have : g ∈ (if gone (look s' f) = true then (s.stack u).erase f else s.stack u) ↔ g ∈ s.stack u := by
        split
        · exact List.mem_erase_of_ne hg
        · rfl
      rw [this]
      exact ⟨fun hm => ⟨hm, by rw [h.same g hg]; exact (hi.inside u g hm).2⟩, And.left⟩
  · rw [upd_other _ _ hu]
    refine ⟨fun hm => ⟨hm, ?_⟩, And.left⟩
    rw [h.same g (by rintro rfl; exact hu (hi.uniq _ _ _ hm h.mem))]
    exact (hi.inside u g hm).2

theorem inv_acted (hgood : Good W fal cl lazyCode lockCode) {t : Nat} {f : Fr F} {b : FAct L V W E} (hi : Inv fal cl eqv dep v₀ w₀ s) (h : Acted lazyCode lockCode eqv s s' t f b) :
    Inv fal cl eqv dep v₀ w₀ s' := by
  have hst := acted_stack hi h
  refine ⟨pool_acted hgood hi h, ?_, ?_, ?_, ?_, ?_, ?_, ?_, ?_, ?_⟩
  · intro u g hg
    rw [hst] at hg
    rw [h.next]
    exact ⟨(hi.inside u g hg.1).1, hg.2⟩
  · intro g hg
    by_cases hgf : g = f
    · subst hgf; exact ⟨t, (hst _ _).2 ⟨h.mem, hg⟩⟩
    · rw [h.same g hgf] at hg
      obtain ⟨u, hu⟩ := hi.owner g hg
      exact ⟨u, (hst _ _).2 ⟨hu, by rw [h.same g hgf]; exact hg⟩⟩
  · intro u v g hu hv
    exact hi.uniq u v g ((hst _ _).1 hu).1 ((hst _ _).1 hv).1
  · intro u
    rw [h.stack]
    by_cases hu : u = t
    · subst hu; rw [upd_same]; split
      · exact (hi.nodup u).erase _
      · exact hi.nodup u
    · rw [upd_other _ _ hu]; exact hi.nodup u
  · intro u g g' hg hg' h1 h2
    rw [hst] at hg hg'
    by_cases hu : u = t
    · subst hu
      have key : ∀ x ∈ s.stack u, atUser (look s' x) = false → x = f := by
        intro x hx hx1
        apply Classical.byContradiction
        intro hne
        rw [h.same x hne, (h.alone x hx).resolve_left hne] at hx1
        cases hx1
      rw [key g hg.1 h1, key g' hg'.1 h2]
    · have hne : ∀ x ∈ s.stack u, x ≠ f := by rintro x hx rfl; exact hu (hi.uniq _ _ _ hx h.mem)
      rw [h.same g (hne g hg.1)] at h1; rw [h.same g' (hne g' hg'.1)] at h2
      exact hi.one u g g' hg.1 hg'.1 h1 h2
  · intro u hu
    rw [h.kids] at hu
    have hut : u ≠ t := by rintro rfl; exact hu h.free
    have := hi.rest u hu
    unfold atRest at this ⊢
    rw [List.all_eq_true] at this ⊢
    intro g hg
    rw [hst] at hg
    rw [h.same g (by rintro rfl; exact hut (hi.uniq _ _ _ hg.1 h.mem))]; exact this g hg.1
  · rw [h.kids, h.par]; exact hi.kids
  · rw [h.kids]; exact hi.kidsOnce
  · rw [h.par]; exact hi.up

theorem inv_step (hgood : Good W fal cl lazyCode lockCode) {t : Nat} {a : Act F L V W E}
    (hi : Inv fal cl eqv dep v₀ w₀ s) (ha : Allowed dep s t a) (h : step lazyCode lockCode eqv s t a = some s') : Inv fal cl eqv dep v₀ w₀ s' := by
  cases a with
  | call j k v b => exact inv_new hi (new_lazy hgood hi h).1
  | lock c => exact inv_new hi (new_lock hgood hi ha h).1
  | act f b => exact inv_acted hgood hi (acted hi.pool h)
  | fork c =>
    obtain ⟨⟨h1, h2, h3, h4, h5⟩, rfl⟩ := forked h
    have hlk : ∀ f, look (E := E) { s with kids := upd s.kids t (c :: s.kids t), par := upd s.par c (some t) } f = look s f :=
      look_congr rfl rfl
    refine ⟨pool_congr hi.pool rfl rfl rfl, ?_, ?_, hi.uniq, hi.nodup, ?_, ?_, ?_, ?_, ?_⟩
    · intro u g hg; rw [hlk]; exact hi.inside u g hg
    · intro g hg; rw [hlk] at hg; exact hi.owner g hg
    · intro u g g' hg hg'; rw [hlk, hlk]; exact hi.one u g g' hg hg'
    · intro u hu
      have : atRest s u = true := by
        by_cases hut : u = t
        · rw [hut]; exact h2
        · exact hi.rest u (by simpa [upd_other _ _ hut] using hu)
      unfold atRest at this ⊢
      rw [List.all_eq_true] at this ⊢
      intro g hg; rw [hlk]; exact this g hg
    · intro u d
      by_cases hd : d = c
      · subst hd
        by_cases hut : u = t
        · subst hut; simp
        · have := hi.kids u d
          simp [upd_other _ _ hut, this, h5, Ne.symm hut]
      · by_cases hut : u = t
        · subst hut; simp [upd_other _ _ hd, hd, hi.kids]
        · simp [upd_other _ _ hd, upd_other _ _ hut, hi.kids]
    · intro u
      by_cases hut : u = t
      · subst hut
        simp only [upd_same]
        refine List.nodup_cons.2 ⟨?_, hi.kidsOnce u⟩
        rw [hi.kids, h5]; simp
      · simp only [upd_other _ _ hut]; exact hi.kidsOnce u
    · intro u d hd
      by_cases hdc : d = c
      · subst hdc; simp at hd; omega
      · simp only [upd_other _ _ hdc] at hd; exact hi.up u d hd
  | ret =>
    obtain ⟨u, h1, h2, h3, rfl⟩ := returned h
    have hut : u < t := hi.up _ _ h1
    have htu : t ≠ u := by omega
    have hlk : ∀ f, look (E := E) { s with
      stack := upd (upd s.stack t []) u (s.stack t ++ s.stack u)
      kids := upd s.kids u ((s.kids u).erase t), par := upd s.par t none } f = look s f := look_congr rfl rfl
    have hu : atRest s u = true := hi.rest u (by intro hc; have := (hi.kids u t).2 h1; rw [hc] at this; cases this)
    have hst : ∀ v g, g ∈ upd (upd s.stack t []) u (s.stack t ++ s.stack u) v ↔
        (v = u ∧ (g ∈ s.stack t ∨ g ∈ s.stack u)) ∨ (v ≠ u ∧ v ≠ t ∧ g ∈ s.stack v) := by
      intro v g
      by_cases hv : v = u
      · subst hv; simp
      · by_cases hv' : v = t
        · subst hv'; simp [upd_other _ _ hv, hv]
        · simp [upd_other _ _ hv, upd_other _ _ hv', hv, hv']
    have hw : ∀ v g, g ∈ upd (upd s.stack t []) u (s.stack t ++ s.stack u) v → ∃ x, g ∈ s.stack x := by
      intro v g hg
      rcases (hst v g).1 hg with ⟨_, hg | hg⟩ | ⟨_, _, hg⟩
      · exact ⟨_, hg⟩
      · exact ⟨_, hg⟩
      · exact ⟨_, hg⟩
    refine ⟨pool_congr hi.pool rfl rfl rfl, ?_, ?_, ?_, ?_, ?_, ?_, ?_, ?_, ?_⟩
    · intro v g hg
      obtain ⟨x, hx⟩ := hw v g hg
      rw [hlk]; exact hi.inside x g hx
    · intro g hg
      rw [hlk] at hg
      obtain ⟨x, hx⟩ := hi.owner g hg
      by_cases hxt : x = t ∨ x = u
      · exact ⟨u, (hst u g).2 (.inl ⟨rfl, by rcases hxt with rfl | rfl <;> simp [hx]⟩)⟩
      · exact ⟨x, (hst x g).2 (.inr ⟨fun h => hxt (.inr h), fun h => hxt (.inl h), hx⟩)⟩
    · intro v w g hv hw
      rcases (hst v g).1 hv with ⟨hvu, hv⟩ | ⟨hv1, hv2, hv⟩
      · rcases (hst w g).1 hw with ⟨hwu, hw⟩ | ⟨hw1, hw2, hw⟩
        · rw [hvu, hwu]
        · rcases hv with hv | hv
          · exact absurd (hi.uniq _ _ _ hw hv) hw2
          · exact absurd (hi.uniq _ _ _ hw hv) hw1
      · rcases (hst w g).1 hw with ⟨hwu, hw⟩ | ⟨hw1, hw2, hw⟩
        · rcases hw with hw | hw
          · exact absurd (hi.uniq _ _ _ hv hw) hv2
          · exact absurd (hi.uniq _ _ _ hv hw) hv1
        · exact hi.uniq _ _ _ hv hw
    · intro v
      by_cases hv : v = u
      · subst hv
        simp only [upd_same]
        rw [List.nodup_append]
        refine ⟨hi.nodup t, hi.nodup v, ?_⟩
        rintro a ha b hb rfl
        exact htu (hi.uniq _ _ _ ha hb)
      · by_cases hv' : v = t
        · subst hv'; simp [upd_other _ _ hv]
        · simp only [upd_other _ _ hv, upd_other _ _ hv']; exact hi.nodup v
    · intro v g g' hg hg' e1 e2
      rw [hlk] at e1 e2
      rcases (hst v g).1 hg with ⟨rfl, hg | hg⟩ | ⟨hv1, hv2, hg⟩
      · rw [guard_user (h3 g hg)] at e1; cases e1
      · rw [rest_user hu hg] at e1; cases e1
      · rcases (hst v g').1 hg' with ⟨rfl, _⟩ | ⟨_, _, hg'⟩
        · exact absurd rfl hv1
        · exact hi.one v g g' hg hg' e1 e2
    · intro v hv
      unfold atRest
      rw [List.all_eq_true]
      intro g hg
      rw [hlk]
      rcases (hst v g).1 hg with ⟨rfl, hg | hg⟩ | ⟨hv1, hv2, hg⟩
      · exact guard_user (h3 g hg)
      · exact rest_user hu hg
      · exact rest_user (hi.rest v (by simpa [upd_other _ _ hv1] using hv)) hg
    · intro v d
      by_cases hd : d = t
      · subst hd
        by_cases hv : v = u
        · subst hv
          simp only [upd_same, reduceCtorEq, iff_false]
          exact fun hm => ((hi.kidsOnce v).mem_erase_iff.1 hm).1 rfl
        · have := hi.kids v d
          simp [upd_other _ _ hv, this, h1, Ne.symm hv]
      · by_cases hv : v = u
        · subst hv
          simp only [upd_same, upd_other _ _ hd]
          rw [List.mem_erase_of_ne hd]; exact hi.kids v d
        · simp only [upd_other _ _ hd, upd_other _ _ hv]; exact hi.kids v d
    · intro v
      by_cases hv : v = u
      · subst hv; simp only [upd_same]; exact (hi.kidsOnce v).erase _
      · simp only [upd_other _ _ hv]; exact hi.kidsOnce v
    · intro v d hd
      by_cases hdt : d = t
      · subst hdt; simp at hd
      · simp only [upd_other _ _ hdt] at hd; exact hi.up v d hd

theorem inv_reach (hgood : Good W fal cl lazyCode lockCode) (h : Reach lazyCode lockCode eqv dep v₀ w₀ s) : Inv fal cl eqv dep v₀ w₀ s := by
  induction h with
  | init => exact inv_init
  | step _ ha hs ih => exact inv_step hgood ih ha hs


/-! ## Keeping to the order -/

/-- Who waits has only earlier things in hand. -/
structure Ord (dep : F ⊕ L → F ⊕ L → Prop) (s : St F L V W E) : Prop where
  all : ∀ u t f r g h, Awaits s u t → f ∈ s.stack t → r ∈ targets (look s f) → g ∈ s.stack u → g ≠ f → h ∈ hand (look s g) →
    dep h r

theorem ord_init : Ord dep (init v₀ w₀ : St F L V W E) := by
  constructor; simp [init]

/-- Who awaits another task has branches. -/
theorem awaits_kids (hi : Inv fal cl eqv dep v₀ w₀ s) {u t : Nat} (h : Awaits s u t) : u = t ∨ s.kids u ≠ [] := by
  rcases Relation.ReflTransGen.cases_head h with h | ⟨c, h, _⟩
  · exact .inl h
  · right; intro hc
    have := (hi.kids u c).2 h
    rw [hc] at this; cases this

theorem awaits_congr (h : s'.par = s.par) {u t : Nat} : Awaits s' u t ↔ Awaits s u t := by
  unfold Awaits; rw [h]

theorem ord_new {t : Nat} {f : Fr F} (hi : Inv fal cl eqv dep v₀ w₀ s) (ho : Ord dep s) (h : New fal cl eqv dep v₀ w₀ s s' t f)
    (h1 : ∀ r ∈ targets (look s' f), Precedes dep s t r) : Ord dep s' := by
  have hf : ∀ u, f ∉ s.stack u := fun u hu => by
    have := (hi.inside u f hu).1; rw [h.num] at this; exact Nat.lt_irrefl _ this
  have hlk : ∀ u, ∀ g ∈ s.stack u, look s' g = look s g := fun u g hg => h.same g (by rintro rfl; exact hf u hg)
  have hst : ∀ u g, g ∈ s'.stack u → (u = t ∧ g = f) ∨ g ∈ s.stack u := by
    intro u g hg
    rw [h.stack] at hg
    by_cases hu : u = t
    · subst hu
      rw [upd_same] at hg
      rcases List.mem_cons.1 hg with rfl | hg
      · exact .inl ⟨rfl, rfl⟩
      · exact .inr hg
    · rw [upd_other _ _ hu] at hg; exact .inr hg
  constructor
  · intro u v w r g x hw hw1 hr hg hgw hx
    rw [awaits_congr h.par] at hw
    rcases hst v w hw1 with ⟨rfl, rfl⟩ | hw1
    · rcases hst u g hg with ⟨_, rfl⟩ | hg
      · exact absurd rfl hgw
      · rw [hlk u g hg] at hx
        exact h1 r hr u hw g hg x hx
    · rw [hlk v w hw1] at hr
      rcases hst u g hg with ⟨rfl, rfl⟩ | hg
      · rcases awaits_kids hi hw with rfl | hk
        · have := wants_not_user hi.pool hr
          rw [rest_user h.turn hw1] at this; cases this
        · exact absurd h.free hk
      · rw [hlk u g hg] at hx
        exact ho.all u v w r g x hw hw1 hr hg hgw hx

theorem ord_acted {t : Nat} {f : Fr F} {b : FAct L V W E} (hi : Inv fal cl eqv dep v₀ w₀ s) (ho : Ord dep s)
    (h : Acted lazyCode lockCode eqv s s' t f b) : Ord dep s' := by
  have hst := acted_stack hi h
  obtain ⟨s₁, e1, e2, e3, _⟩ := h.on
  have hlf : look s' f = look s₁ f := look_congr e2 e3 f
  constructor
  · intro u v w r g x hw hw1 hr hg hgw hx
    rw [awaits_congr h.par] at hw
    rw [hst] at hw1 hg
    by_cases hwf : w = f
    · subst hwf
      rw [h.same g hgw] at hx
      rw [hlf] at hr
      exact ho.all u v w r g x hw hw1.1 (fstep_targets hi.pool e1 (hi.inside v w hw1.1).2 hr) hg.1 hgw hx
    · rw [h.same w hwf] at hr
      by_cases hgf : g = f
      · subst hgf
        have hut := hi.uniq _ _ _ hg.1 h.mem
        subst hut
        rcases awaits_kids hi hw with rfl | hk
        · have := wants_not_user hi.pool hr
          rw [(h.alone w hw1.1).resolve_left hwf] at this; cases this
        · exact absurd h.free hk
      · rw [h.same g hgf] at hx
        exact ho.all u v w r g x hw hw1.1 hr hg.1 hgw hx

theorem ord_step (hgood : Good W fal cl lazyCode lockCode) {t : Nat} {a : Act F L V W E} (hi : Inv fal cl eqv dep v₀ w₀ s) (ho : Ord dep s) (ha : Allowed dep s t a)
    (h : step lazyCode lockCode eqv s t a = some s') : Ord dep s' := by
  cases a with
  | call j k v b =>
    obtain ⟨h1, h2⟩ := new_lazy hgood hi h
    refine ord_new hi ho h1 ?_
    intro r hr
    obtain ⟨rfl, hne⟩ := h2 r hr
    cases k <;> first | exact absurd rfl hne | exact ha
  | lock c =>
    obtain ⟨h1, h2⟩ := new_lock hgood hi ha h
    refine ord_new hi ho h1 ?_
    intro r hr
    obtain ⟨k, hk, rfl⟩ := h2 r hr
    exact (allowed_fields ha).1 k hk
  | act f b => exact ord_acted hi ho (acted hi.pool h)
  | fork c =>
    obtain ⟨⟨h1, h2, h3, h4, h5⟩, rfl⟩ := forked h
    have hlk : ∀ f, look (E := E) { s with kids := upd s.kids t (c :: s.kids t), par := upd s.par c (some t) } f = look s f :=
      look_congr rfl rfl
    have haw : ∀ u v, v ≠ c → Awaits (E := E) { s with kids := upd s.kids t (c :: s.kids t), par := upd s.par c (some t) } u v →
        Awaits s u v := by
      intro u v hv hw
      induction hw using Relation.ReflTransGen.head_induction_on with
      | refl => exact .refl
      | @head a b hab _ ih =>
        by_cases hb : b = c
        · subst hb
          rcases awaits_kids hi ih with rfl | hk
          · exact absurd rfl hv
          · exact absurd h4 hk
        · simp only [upd_other _ _ hb] at hab
          exact .head hab ih
    constructor
    · intro u v w r g x hw hw1 hr hg hgw hx
      rw [hlk] at hr hx
      have hv : v ≠ c := by rintro rfl; simp [h3] at hw1
      exact ho.all u v w r g x (haw u v hv hw) hw1 hr hg hgw hx
  | ret =>
    obtain ⟨u, h1, h2, h3, rfl⟩ := returned h
    have hlk : ∀ f, look (E := E) { s with
      stack := upd (upd s.stack t []) u (s.stack t ++ s.stack u)
      kids := upd s.kids u ((s.kids u).erase t), par := upd s.par t none } f = look s f := look_congr rfl rfl
    have hu : atRest s u = true := hi.rest u (by intro hc; have := (hi.kids u t).2 h1; rw [hc] at this; cases this)
    have hst : ∀ v g, g ∈ upd (upd s.stack t []) u (s.stack t ++ s.stack u) v →
        (v = u ∧ g ∈ s.stack t) ∨ (v ≠ t ∧ g ∈ s.stack v) := by
      intro v g
      have htu : u ≠ t := by have := hi.up _ _ h1; omega
      by_cases hv : v = u
      · subst hv; simp [htu]
      · by_cases hv' : v = t
        · subst hv'; simp [upd_other _ _ hv]
        · intro hg; right; simpa [upd_other _ _ hv, upd_other _ _ hv', hv'] using hg
    have haw : ∀ x v, Awaits (E := E) { s with
        stack := upd (upd s.stack t []) u (s.stack t ++ s.stack u)
        kids := upd s.kids u ((s.kids u).erase t), par := upd s.par t none } x v → Awaits s x v := by
      intro x v hw
      unfold Awaits at hw ⊢
      refine Relation.ReflTransGen.mono ?_ _ _ hw
      intro a b hab
      by_cases hb : b = t
      · subst hb; simp at hab
      · simpa only [upd_other _ _ hb] using hab
    constructor
    · intro x v w r g y hw hw1 hr hg hgw hy
      rw [hlk] at hr hy
      rcases hst v w hw1 with ⟨_, hw1⟩ | ⟨hv, hw1⟩
      · have := wants_not_user hi.pool hr
        rw [guard_user (h3 w hw1)] at this; cases this
      · rcases hst x g hg with ⟨hxu, hg⟩ | ⟨_, hg⟩
        · exact ha _ h1 v (by rw [← hxu]; exact haw _ _ hw) hv w hw1 r hr g hg y hy
        · exact ho.all x v w r g y (haw _ _ hw) hw1 hr hg hgw hy

theorem ord_reach (hgood : Good W fal cl lazyCode lockCode) (h : Reach lazyCode lockCode eqv dep v₀ w₀ s) : Ord dep s := by
  induction h with
  | init => exact ord_init
  | step h ha hs ih => exact ord_step hgood (inv_reach hgood h) ih ha hs

/-! ## Who waits for whom -/

theorem finite_step (hgood : Good W fal cl lazyCode lockCode) {t : Nat} {a : Act F L V W E}
    (hi : Inv fal cl eqv dep v₀ w₀ s) (ha : Allowed dep s t a) (h : step lazyCode lockCode eqv s t a = some s') {n : Nat}
    (hn : ∀ u, n ≤ u → ¬ Inside s u) : ∃ n, ∀ u, n ≤ u → ¬ Inside s' u := by
  have new : ∀ f, New fal cl eqv dep v₀ w₀ s s' t f → ∃ n, ∀ u, n ≤ u → ¬ Inside s' u := by
    intro f hf
    refine ⟨max n (t + 1), fun u hu => ?_⟩
    have hut : u ≠ t := by omega
    have := hn u (by omega)
    simpa [Inside, hf.stack, hf.kids, hf.par, upd_other _ _ hut] using this
  cases a with
  | call j k v b => exact new _ (new_lazy hgood hi h).1
  | lock c => exact new _ (new_lock hgood hi ha h).1
  | act f b =>
    have ha := acted hi.pool h
    refine ⟨max n (t + 1), fun u hu => ?_⟩
    have hut : u ≠ t := by omega
    have := hn u (by omega)
    simpa [Inside, ha.stack, ha.kids, ha.par, upd_other _ _ hut] using this
  | fork c =>
    obtain ⟨⟨h1, h2, h3, h4, h5⟩, rfl⟩ := forked h
    refine ⟨max n (c + 1), fun u hu => ?_⟩
    have hut : u ≠ t := by omega
    have huc : u ≠ c := by omega
    have := hn u (by omega)
    simpa [Inside, upd_other _ _ hut, upd_other _ _ huc] using this
  | ret =>
    obtain ⟨v, h1, h2, h3, rfl⟩ := returned h
    have := hi.up _ _ h1
    refine ⟨max n (t + 1), fun u hu => ?_⟩
    have hut : u ≠ t := by omega
    have huv : u ≠ v := by omega
    have := hn u (by omega)
    simpa [Inside, upd_other _ _ hut, upd_other _ _ huv] using this

/-- Finitely many tasks are inside. -/
theorem finite_inside (hgood : Good W fal cl lazyCode lockCode) (h : Reach lazyCode lockCode eqv dep v₀ w₀ s) : ∃ n, ∀ t, n ≤ t → ¬ Inside s t := by
  induction h with
  | init => exact ⟨0, fun t _ => by simp [Inside, init]⟩
  | step h ha hs ih =>
    obtain ⟨n, hn⟩ := ih
    exact finite_step hgood (inv_reach hgood h) ha hs hn


end Verif.Proof.Tasks
