import Verif.Proof.Locks
/-!
# Lock-protected fields: C59, C60, C61

Model: `Verif.Model.Locks`, any number of `FXRwLockSync` containers (/repo/fieldx/src/sync/fxlock.rs) and the helpers which
go straight to them (/repo/fieldx_derive/src/codegen/sync.rs). `Reach eqv dep v₀ s`: some schedule of any number of threads
leads from contents `v₀` to `s`, where a thread waits for `j` while holding `i` only if `dep i j`; `eqv` is the user's `==`.
-/

namespace Verif.Props.Locks
open Verif.Spec Verif.Spec.Memory Verif.Model Verif.Model.Locks Verif.Proof Verif.Proof.Locks

variable {L V : Type} [DecidableEq L] {eqv : V → V → Bool} {dep : L → L → Prop} {v₀ : L → V} {s s' : St L V}

/-- Any order of locking. -/
abbrev anyOrder : L → L → Prop := fun _ _ => True

theorem reach_run {s₀ : St L V} (h₀ : Reach eqv anyOrder v₀ s₀) {sch : List (Nat × Act L V)}
    (h : run eqv s₀ sch = some s) : Reach eqv anyOrder v₀ s := by
  induction sch generalizing s₀ with
  | nil => simp [run] at h; exact h ▸ h₀
  | cons x sch ih =>
    obtain ⟨t, a⟩ := x
    simp only [run, Option.bind_eq_some_iff] at h
    obtain ⟨s₁, h1, h2⟩ := h
    refine ih (.step h₀ ?_ h1) h2
    unfold Allowed
    split <;> simp [anyOrder]

/-! ## C59 lock-protected fields together are linearizable; comparison looks at both sides at once -/

/-- The calls on all containers together, comparisons of two of them included, are linearizable with respect to plain
memory. -/
theorem C59_linearizable (h : Reach eqv dep v₀ s) : Linearizable (Step eqv) v₀ (hist s.log) :=
  (log_reach h).1.linearizable (log_reach h).2

/-- Calls are answered at most once and only after they began. -/
theorem C59_wellFormed (h : Reach eqv dep v₀ s) : WellFormed (hist s.log) := (log_reach h).1.wellFormed

/-- The contents are those the calls, in their order, lead to. -/
theorem C59_contents (h : Reach eqv dep v₀ s) :
    ∃ ds : List (Done (Op L V) (Ret V)), Legal (Step eqv) v₀ ds s.val ∧
      ∀ c r, HEv.res c r ∈ hist s.log → ∃ op, (⟨c, op, r⟩ : Done (Op L V) (Ret V)) ∈ ds :=
  ⟨lins s.log, (log_reach h).2, fun c r hr => by
    obtain ⟨op, _, h2⟩ := (log_reach h).1.facts.res_lin c r hr
    exact ⟨op, h2⟩⟩

theorem legal_split {S O R : Type} {spec : S → O → R → S → Prop} {a b : S} {ds : List (Done O R)} {d : Done O R}
    (h : Legal spec a ds b) (hd : d ∈ ds) : ∃ σ σ' l₁ l₂, ds = l₁ ++ d :: l₂ ∧ Legal spec a l₁ σ ∧ spec σ d.op d.ret σ' := by
  induction h with
  | nil => cases hd
  | @cons s₁ s₂ s₃ d' ds h1 h2 ih =>
    rcases List.mem_cons.1 hd with rfl | hd
    · exact ⟨s₁, s₂, [], ds, rfl, .nil, h1⟩
    · obtain ⟨σ, σ', l₁, l₂, rfl, h3, h4⟩ := ih hd
      exact ⟨σ, σ', d' :: l₁, l₂, rfl, .cons h1 h3, h4⟩

theorem eq_of_key {A B : Type} {f : A → B} {l : List A} (h : (l.map f).Nodup) {a b : A} (ha : a ∈ l) (hb : b ∈ l)
    (he : f a = f b) : a = b := by
  induction l with
  | nil => cases ha
  | cons x l ih =>
    rw [List.map_cons, List.nodup_cons] at h
    rcases List.mem_cons.1 ha with h1 | h1 <;> rcases List.mem_cons.1 hb with h2 | h2
    · rw [h1, h2]
    · subst h1; rw [he] at h; exact absurd (List.mem_map_of_mem h2) h.1
    · subst h2; rw [← he] at h; exact absurd (List.mem_map_of_mem h1) h.1
    · exact ih h.2 h1 h2

/-- An answered comparison compared two contents which were there at the same time. -/
theorem C59_eq_atomic (h : Reach eqv dep v₀ s) {c : CallId} {i j : L} {b : Bool}
    (hi : HEv.inv c (.eq i j) ∈ hist s.log) (hr : HEv.res c (.bool b) ∈ hist s.log) :
    ∃ (ds : List (Done (Op L V) (Ret V))) (σ : L → V), ds <+: lins s.log ∧ Legal (Step eqv) v₀ ds σ ∧
      b = eqv (σ i) (σ j) := by
  obtain ⟨op, h1, h2⟩ := (log_reach h).1.facts.res_lin c _ hr
  have hk := (C59_wellFormed h).once
  have hop : op = .eq i j := by
    have := eq_of_key hk h1 hi rfl
    simpa using this
  subst hop
  obtain ⟨σ, σ', l₁, l₂, h3, h4, h5⟩ := legal_split (log_reach h).2 h2
  refine ⟨l₁, σ, ⟨_, h3.symm⟩, h4, ?_⟩
  cases h5; rfl

/-- No call panics unless code of the user's type did. -/
theorem C59_panics_only_by_user {sch : List (Nat × Act L V)} (hs : run eqv (init v₀) sch = some s)
    (hp : ∀ x ∈ sch, x.2 ≠ .panic) (c : CallId) : HEv.res c .panicked ∉ hist s.log := by
  have key : ∀ (sch : List (Nat × Act L V)) (m : St L V), (∀ c op, LEv.lin c op .panicked ∉ m.log) →
      run eqv m sch = some s → (∀ x ∈ sch, x.2 ≠ .panic) → ∀ c op, LEv.lin c op .panicked ∉ s.log := by
    intro sch
    induction sch with
    | nil => intro m hm h _; simp [run] at h; exact h ▸ hm
    | cons x sch ih =>
      obtain ⟨t, a⟩ := x
      intro m hm h hp
      simp only [run, Option.bind_eq_some_iff] at h
      obtain ⟨m', h1, h2⟩ := h
      refine ih m' ?_ h2 (fun x hx => hp x (.tail _ hx))
      intro c op
      have ha := hp (t, a) (.head _)
      have h0 := hm c op
      cases a with
      | panic => exact absurd rfl ha
      | call op' =>
        simp only [step, invoke] at h1
        split at h1
        · cases op' <;> simp at h1
          case deref | assign => obtain ⟨_, rfl⟩ := h1; simpa [St.begin] using h0
          all_goals subst h1; simpa [St.begin] using h0
        · cases h1
      | drop g =>
        simp only [step, dropGuard] at h1
        split at h1
        · split at h1 <;> simp at h1
          subst h1; simpa [St.setLock] using h0
        · cases h1
      | go =>
        simp only [step, go] at h1
        split at h1
        case h_1 => cases h1
        case h_2 | h_9 | h_10 | h_5 | h_16 | h_15 =>
          simp only [Option.map_eq_some_iff] at h1
          obtain ⟨l, _, rfl⟩ := h1
          simpa [St.setLock, St.to, St.keep, St.ret, St.lin] using h0
        case h_6 | h_17 =>
          split at h1 <;> simp at h1
          subst h1
          simpa [St.to, St.keep, St.ret, St.lin] using h0
        all_goals
          simp at h1; subst h1
          simpa [St.setLock, St.to, St.keep, St.ret, St.lin] using h0
  intro hr
  obtain ⟨op, _, h2⟩ := (log_reach (reach_run .init hs)).1.facts.res_lin c _ hr
  simp only [lins, List.mem_filterMap] at h2
  obtain ⟨e, he, h3⟩ := h2
  have := key sch (init v₀) (by simp [init]) hs hp
  cases e <;> simp at h3
  obtain ⟨rfl, rfl, rfl⟩ := h3
  exact this _ _ he

/-- Containers of the examples: `false` and `true`, contents are numbers. -/
abbrev demoRun (sch : List (Nat × Act Bool Nat)) : Option (St Bool Nat) :=
  run (fun a b => a == b) (init fun b => if b then 2 else 1) sch

/-- Thread 0 compares, thread 1 sets the first to 2 in the meantime and has to wait; the answer is still `false`. -/
def demo : List (Nat × Act Bool Nat) :=
  [(0, .call (.eq false true)), (0, .go), (1, .call (.swap false 2)), (1, .go), (0, .go), (0, .go), (0, .go), (0, .go),
   (0, .go), (1, .go), (1, .go), (1, .go), (1, .call (.eq false true)), (1, .go), (1, .go), (1, .go), (1, .go), (1, .go),
   (1, .go)]

-- two comparisons with a setter between them: different answers
example : ∃ s, demoRun demo = some s ∧ hist s.log =
    [.inv ⟨0, 0⟩ (.eq false true), .inv ⟨1, 0⟩ (.swap false 2), .res ⟨0, 0⟩ (.bool false), .res ⟨1, 0⟩ (.value 1),
     .inv ⟨1, 1⟩ (.eq false true), .res ⟨1, 1⟩ (.bool true)] ∧ ∀ x ∈ demo, x.2 ≠ .panic :=
  ⟨_, rfl, rfl, by decide⟩

/-! ## C60 guards on lock-protected fields -/

/-- While somebody keeps a reading guard the content does not change. -/
theorem C60_read_guard_stable {t u : Nat} {i : L} {a : Act L V} (h : Reach eqv dep v₀ s) (hg : (i, false) ∈ s.held t)
    (hs : step eqv s u a = some s') : s'.val i = s.val i := by
  have hc := core_reach h
  have hsh : (s.lock i).shared ≠ [] := by
    intro h0
    have h1 := hc.sh i t
    rw [h0, List.count_nil] at h1
    have h2 := List.count_pos_iff.2 hg
    omega
  have key : ∀ u, (s.lock i).wr = some u → draining (s.pc u) = some i := by
    intro u hu
    apply Classical.byContradiction
    intro hd; exact hsh (hc.full i u hu hd)
  cases a with
  | call op =>
    simp only [step, invoke] at hs
    split at hs
    · cases op <;> simp at hs
      case deref | assign => obtain ⟨_, rfl⟩ := hs; rfl
      all_goals subst hs; rfl
    · cases hs
  | panic =>
    simp only [step, panics] at hs
    split at hs <;> simp at hs <;> subst hs <;> rfl
  | drop g =>
    simp only [step, dropGuard] at hs
    split at hs
    · split at hs <;> simp at hs
      subst hs; rfl
    · cases hs
  | go =>
    simp only [step, go] at hs
    split at hs <;> rename_i hpc
    case h_1 => cases hs
    case h_2 | h_9 | h_10 | h_5 | h_16 | h_15 =>
      simp only [Option.map_eq_some_iff] at hs
      obtain ⟨l, _, rfl⟩ := hs
      rfl
    case h_6 | h_17 =>
      split at hs <;> simp at hs
      subst hs; rfl
    case h_7 k v =>
      simp at hs; subst hs
      by_cases hk : i = k
      · subst hk
        have h1 := hc.wr i u
        rw [hpc] at h1
        have hw : (s.lock i).wr = some u := by
          by_cases hw : (s.lock i).wr = some u
          · exact hw
          · simp [claims, hw] at h1
        have := key u hw
        simp [hpc, draining] at this
      · simp [St.lin, St.to, upd, hk]
    case h_19 k v =>
      simp at hs; subst hs
      by_cases hk : i = k
      · subst hk
        have h1 := hc.wr i u
        have h2 := List.count_pos_iff.2 (hc.asg u i v hpc)
        have hw : (s.lock i).wr = some u := by
          by_cases hw : (s.lock i).wr = some u
          · exact hw
          · simp only [hw, if_false] at h1; omega
        have := key u hw
        simp [hpc, draining] at this
      · simp [St.lin, St.to, upd, hk]
    all_goals
      simp at hs; subst hs; rfl

/-- Steps during which thread `t` keeps the guard `g`. -/
inductive Keeping (eqv : V → V → Bool) (t : Nat) (g : L × Bool) : St L V → St L V → Prop where
  | refl (p) : Keeping eqv t g p p
  | step (p m q u a) : Keeping eqv t g p m → g ∈ m.held t → step eqv m u a = some q → Keeping eqv t g p q

/-- A reading guard shows one value for as long as it is kept. -/
theorem C60_read_guard_one_value {t : Nat} {i : L} (h : Reach eqv anyOrder v₀ s) (hk : Keeping eqv t (i, false) s s') :
    s'.val i = s.val i := by
  have : Reach eqv anyOrder v₀ s' ∧ s'.val i = s.val i := by
    induction hk with
    | refl => exact ⟨h, rfl⟩
    | step m q u a _ hg hs ih =>
      refine ⟨.step ih.1 ?_ hs, (C60_read_guard_stable ih.1 hg hs).trans ih.2⟩
      unfold Allowed; split <;> simp [anyOrder]
  exact this.2

/-- A writing guard excludes every other guard on the container. -/
theorem C60_write_guard_alone {t u : Nat} {i : L} {m : Bool} (h : Reach eqv dep v₀ s) (hg : (i, true) ∈ s.held t)
    (hu : (i, m) ∈ s.held u) : u = t ∧ m = true ∧ (s.held t).count (i, true) = 1 := by
  have hc := core_reach h
  have h1 := hc.wr i t
  have h2 := List.count_pos_iff.2 hg
  have hw : (s.lock i).wr = some t := by
    by_cases hw : (s.lock i).wr = some t
    · exact hw
    · simp only [hw, if_false] at h1; omega
  have hd : draining (s.pc t) ≠ some i := by
    intro hd
    have : claims (s.pc t) = some i := by
      cases hp : s.pc t <;> rw [hp] at hd <;> simp [draining] at hd <;> simp [claims, hd]
    simp only [this, hw, if_true] at h1
    omega
  have h3 := (hc.no_reader (u := u) hw hd).2
  cases m with
  | false => exact absurd hu (List.count_eq_zero.1 h3)
  | true =>
    have h4 := hc.wr i u
    have h5 := List.count_pos_iff.2 hu
    have hwu : (s.lock i).wr = some u := by
      by_cases hw' : (s.lock i).wr = some u
      · exact hw'
      · simp only [hw', if_false] at h4; omega
    have htu : u = t := by rw [hw] at hwu; simpa using hwu.symm
    refine ⟨htu, rfl, ?_⟩
    simp only [hw, if_true] at h1
    omega

/-- While thread `t` keeps a writing guard only `t` changes the content. -/
theorem C60_write_guard_stable {t u : Nat} {i : L} {a : Act L V} (h : Reach eqv dep v₀ s) (hg : (i, true) ∈ s.held t)
    (hut : u ≠ t) (hs : step eqv s u a = some s') : s'.val i = s.val i := by
  have hc := core_reach h
  have h1 := hc.wr i t
  have h2 := List.count_pos_iff.2 hg
  have hw : (s.lock i).wr = some t := by
    by_cases hw : (s.lock i).wr = some t
    · exact hw
    · simp only [hw, if_false] at h1; omega
  have hne : (s.lock i).wr ≠ some u := by rw [hw]; simpa using fun h => hut h.symm
  have h4 := hc.wr i u
  simp only [hne, if_false] at h4
  cases a with
  | call op =>
    simp only [step, invoke] at hs
    split at hs
    · cases op <;> simp at hs
      case deref | assign => obtain ⟨_, rfl⟩ := hs; rfl
      all_goals subst hs; rfl
    · cases hs
  | panic =>
    simp only [step, panics] at hs
    split at hs <;> simp at hs <;> subst hs <;> rfl
  | drop g =>
    simp only [step, dropGuard] at hs
    split at hs
    · split at hs <;> simp at hs
      subst hs; rfl
    · cases hs
  | go =>
    simp only [step, go] at hs
    split at hs <;> rename_i hpc
    case h_1 => cases hs
    case h_2 | h_9 | h_10 | h_5 | h_16 | h_15 =>
      simp only [Option.map_eq_some_iff] at hs
      obtain ⟨l, _, rfl⟩ := hs
      rfl
    case h_6 | h_17 =>
      split at hs <;> simp at hs
      subst hs; rfl
    case h_7 k v =>
      simp at hs; subst hs
      by_cases hk : i = k
      · subst hk; rw [hpc] at h4; simp [claims] at h4
      · simp [St.lin, St.to, upd, hk]
    case h_19 k v =>
      simp at hs; subst hs
      by_cases hk : i = k
      · subst hk
        have := List.count_pos_iff.2 (hc.asg u i v hpc)
        omega
      · simp [St.lin, St.to, upd, hk]
    all_goals
      simp at hs; subst hs; rfl

-- a reader keeps a guard and looks twice; a setter comes in between and waits
example : ∃ s, demoRun [(0, .call (.read false)), (0, .go), (1, .call (.swap false 9)), (1, .go), (0, .call (.deref false)),
      (0, .go), (0, .go)] = some s ∧ (false, false) ∈ s.held 0 ∧ HEv.res ⟨0, 1⟩ (.value 1) ∈ hist s.log ∧
    Stuck (fun a b => a == b) s 1 :=
  ⟨_, rfl, by decide, by decide, by decide, rfl⟩

-- a writer writes through its guard
example : ∃ s, demoRun [(0, .call (.write true)), (0, .go), (0, .go), (0, .call (.assign true 7)), (0, .go), (0, .go)] = some s ∧
    (true, true) ∈ s.held 0 ∧ s.val true = 7 :=
  ⟨_, rfl, by decide, rfl⟩

/-! ## C61 waiting for lock-protected fields

As stated ("comparing never deadlocks") it is false; it holds if locks are taken in an order without cycles. -/

/-- If locks are taken in an order without cycles, every stuck thread waits, through a chain of threads, for one which can
move or which is at the user with a guard. -/
theorem C61_chain_partial (hwf : WellFounded fun j i => dep i j) (h : Reach eqv dep v₀ s) {t : Nat}
    (ht : Stuck eqv s t) : ∃ u, Relation.TransGen (WaitsFor s) t u ∧ Inside s u ∧ ¬ Stuck eqv s u := by
  obtain ⟨i, hi, _⟩ := stuck_cases (core_reach h) ht
  exact chain hwf (core_reach h) (ord_reach h) i t ht hi

/-- So there is no deadlock. -/
theorem C61_no_deadlock_partial (hwf : WellFounded fun j i => dep i j) (h : Reach eqv dep v₀ s) : ¬ Deadlock eqv s := by
  rintro ⟨⟨t, ht⟩, hall⟩
  obtain ⟨u, _, h1, h2⟩ := C61_chain_partial hwf h (hall t ht)
  exact h2 (hall u h1)

/-- Steps left for a list of threads. -/
def total (s : St L V) (ts : List Nat) : Nat := (ts.map (load s)).sum

theorem total_step {t : Nat} {a : Act L V} {ts : List Nat} (hn : ts.Nodup) (ht : t ∈ ts) (ha : quiet a = true)
    (hs : step eqv s t a = some s') : total s' ts < total s ts := by
  obtain ⟨h1, h2⟩ := load_step ha hs
  have h3 : ∀ u, u ≠ t → load s' u = load s u := fun u hu => by simp [load, (h2 u hu).1, (h2 u hu).2]
  unfold total
  clear hs h2
  induction ts with
  | nil => cases ht
  | cons x ts ih =>
    simp only [List.map_cons, List.sum_cons]
    rw [List.nodup_cons] at hn
    by_cases hx : x = t
    · subst hx
      have : ts.map (load s') = ts.map (load s) := by
        apply List.map_congr_left
        intro u hu
        exact h3 u (by rintro rfl; exact hn.1 hu)
      rw [this]; omega
    · have := ih hn.2 (by rcases List.mem_cons.1 ht with rfl | h; exact absurd rfl hx; exact h)
      rw [h3 x hx]; omega

/-- Every call completes: once nothing new is begun, whatever steps are taken in whatever order, after at most six steps
for each call and one for each guard nothing is left to do, and then everybody is out. `ts` lists the threads that are
inside. -/
theorem C61_every_call_completes_partial (hwf : WellFounded fun j i => dep i j) (h : Reach eqv dep v₀ s) {ts : List Nat}
    (hn : ts.Nodup) (hts : ∀ t, t ∉ ts → ¬ Inside s t) {sch : List (Nat × Act L V)}
    (hq : ∀ x ∈ sch, quiet x.2 = true) (hr : run eqv s sch = some s') :
    sch.length ≤ (ts.map fun t => 6 + (s.held t).length).sum ∧
    ((∀ t a, quiet a = true → step eqv s' t a = none) → ∀ t, ¬ Inside s' t) := by
  have hmain : ∀ (sch : List (Nat × Act L V)) (s : St L V), Reach eqv dep v₀ s → (∀ t, t ∉ ts → ¬ Inside s t) →
      (∀ x ∈ sch, quiet x.2 = true) → run eqv s sch = some s' → sch.length ≤ total s ts ∧ Reach eqv dep v₀ s' := by
    intro sch
    induction sch with
    | nil => intro s h _ _ hr; simp [run] at hr; exact ⟨by simp, hr ▸ h⟩
    | cons x sch ih =>
      intro s h hts hq hr
      obtain ⟨t, a⟩ := x
      simp only [run, Option.bind_eq_some_iff] at hr
      obtain ⟨s₁, h1, h2⟩ := hr
      have ha : quiet a = true := hq (t, a) (.head _)
      have hld := load_step ha h1
      have ht : t ∈ ts := by
        apply Classical.byContradiction
        intro ht
        have hni := hts t ht
        simp only [Inside, not_or, Classical.not_not] at hni
        have : load s t = 0 := by simp [load, hni.1, hni.2, left]
        omega
      have hal : Allowed dep s t a := by cases a <;> first | cases ha; done | trivial
      obtain ⟨h3, h4⟩ := ih s₁ (.step h hal h1) (fun u hu hi => by
          have hut : u ≠ t := by rintro rfl; exact hu ht
          refine hts u hu ?_
          simpa [Inside, (hld.2 u hut).1, (hld.2 u hut).2] using hi)
        (fun x hx => hq x (.tail _ hx)) h2
      have := total_step hn ht ha h1
      exact ⟨by simp only [List.length_cons]; omega, h4⟩
  obtain ⟨h1, h2⟩ := hmain sch s h hts hq hr
  refine ⟨Nat.le_trans h1 ?_, ?_⟩
  · unfold total
    clear hn hts h1 hmain
    induction ts with
    | nil => simp
    | cons x ts ih =>
      simp only [List.map_cons, List.sum_cons]
      have : load s x ≤ 6 + (s.held x).length := by
        have := left_le (s.pc x)
        simp only [load]; omega
      omega
  · intro hend t ht
    have move : ∀ u, Inside s' u → ¬ Stuck eqv s' u → False := by
      intro u hu hs
      by_cases hp : s'.pc u = .idle
      · rcases hu with hu | hu
        · exact hu hp
        · obtain ⟨g, hg⟩ := List.exists_mem_of_ne_nil _ hu
          have := hend u (.drop g) rfl
          simp [step, dropGuard, hp, hg] at this
      · exact hs ⟨hp, hend u .go rfl⟩
    by_cases hs : Stuck eqv s' t
    · obtain ⟨u, _, h3, h4⟩ := C61_chain_partial hwf h2 hs
      exact move u h3 h4
    · exact move t ht hs

/-- Without writers nobody waits at all. -/
theorem C61_readers_never_wait (h : Reach eqv dep v₀ s) (hw : ∀ t i, claims (s.pc t) ≠ some i ∧ (i, true) ∉ s.held t) (t : Nat) : ¬ Stuck eqv s t := by
  intro ht
  have hc := core_reach h
  obtain ⟨i, h1, h2⟩ := stuck_cases hc ht
  rcases h2 with ⟨h2, _⟩ | ⟨_, u, hu⟩
  · apply (hw t i).1
    cases hp : s.pc t <;> rw [hp] at h2 <;> simp [draining] at h2 <;> simp [claims, h2]
  · have := hc.wr i u
    rw [if_pos hu, List.count_eq_zero.2 (hw u i).2] at this
    simp [(hw u i).1] at this

/-- A container compared with itself while another thread sets it: both wait for ever. -/
theorem C61_self_comparison_deadlocks : ∃ (v₀ : Bool → Nat) (s : St Bool Nat),
    Reach (fun a b => a == b) anyOrder v₀ s ∧ Deadlock (fun a b => a == b) s ∧
    HEv.inv ⟨0, 0⟩ (.eq false false) ∈ hist s.log ∧ s.held 0 = [] ∧ s.held 1 = [] := by
  refine ⟨fun b => if b then 2 else 1, _, reach_run (sch := [(0, .call (.eq false false)), (0, .go),
    (1, .call (.swap false 5)), (1, .go)]) .init rfl, ⟨⟨0, .inl (by decide)⟩, ?_⟩, by decide, rfl, rfl⟩
  intro t ht
  match t with
  | 0 => exact ⟨by decide, rfl⟩
  | 1 => exact ⟨by decide, rfl⟩
  | n + 2 => rcases ht with h | h <;> exact absurd rfl h

/-- Two threads compare two objects in opposite directions, two others set them: all four wait for ever. -/
theorem C61_crossing_deadlocks : ∃ (v₀ : Bool → Nat) (s : St Bool Nat),
    Reach (fun a b => a == b) anyOrder v₀ s ∧ Deadlock (fun a b => a == b) s ∧
    HEv.inv ⟨0, 0⟩ (.eq false true) ∈ hist s.log ∧ HEv.inv ⟨1, 0⟩ (.eq true false) ∈ hist s.log ∧
    ∀ t, s.held t = [] := by
  refine ⟨fun b => if b then 2 else 1, _, reach_run (sch := [(0, .call (.eq false true)), (0, .go),
    (1, .call (.eq true false)), (1, .go), (2, .call (.swap false 5)), (2, .go), (3, .call (.swap true 5)), (3, .go)])
    .init rfl, ⟨⟨0, .inl (by decide)⟩, ?_⟩, by decide, by decide, fun _ => rfl⟩
  intro t ht
  match t with
  | 0 => exact ⟨by decide, rfl⟩
  | 1 => exact ⟨by decide, rfl⟩
  | 2 => exact ⟨by decide, rfl⟩
  | 3 => exact ⟨by decide, rfl⟩
  | n + 4 => rcases ht with h | h <;> exact absurd rfl h

/-- The first object before the second. -/
def firstSecond (i j : Bool) : Prop := i = false ∧ j = true

-- the hypotheses can be met: a comparison in that order, held up by a setter, which is held up by nobody
example : WellFounded (fun j i => firstSecond i j) ∧ ∃ s, Reach (fun a b => a == b) firstSecond (fun _ => 1) s ∧
    Stuck (fun a b => a == b) s 0 ∧ WaitsFor s 0 1 := by
  refine ⟨⟨fun a => ?_⟩, _, .step (t := 1) (a := .go) (.step (t := 1) (a := .call (.swap true 5)) (.step (t := 0) (a := .go)
    (.step (t := 0) (a := .call (.eq false true)) .init ⟨by simp [init], rfl, rfl⟩ rfl) trivial rfl)
    (by intro g hg; cases hg) rfl) trivial rfl, ⟨by decide, rfl⟩, .owner (i := true) rfl rfl rfl⟩
  have ht : Acc (fun j i => firstSecond i j) true := ⟨_, fun b hb => by cases hb.1⟩
  cases a with
  | true => exact ht
  | false => exact ⟨_, fun b hb => by rw [hb.2]; exact ht⟩

end Verif.Props.Locks
