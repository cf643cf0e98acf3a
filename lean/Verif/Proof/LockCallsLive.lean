import Verif.Proof.LockCalls
import Verif.Props.Locks
/-!
# The helpers of lock-protected fields come to an end (helper lemmas)
-/

namespace Verif.Proof.LockCalls
open Verif.Spec Verif.Spec.Memory Verif.Spec.LockCalls Verif.Model Verif.Model.Args Verif.Model.Method
open Verif.Model.LockCalls Verif.Proof Verif.Proof.Locks

variable {L V : Type} [DecidableEq L] {eqv : Option V → Option V → Bool} {dep : L → L → Prop} {v₀ : L → Option V}
variable {own cl : L → Bool} {code : L → Kind → Option Body} {s s' : St L V}

theorem drop_enabled {c : Locks.St L (Option V)} {p : Nat} {g : L × Bool} (h1 : c.pc p = .idle) (h2 : g ∈ c.held p) :
    ∃ c', Locks.dropGuard c p g = some c' := by
  simp [Locks.dropGuard, h1, h2]

/-- Between two operations a helper can go on. -/
theorem run_enabled (h : Inv own cl eqv dep v₀ s) {p : Nat} {f : Frame L V} {todo : List MOp} {a : Cur V}
    (hpc : s.pc p = .run f todo a) : ∃ s', step code eqv s p .go = some s' := by
  have hl := h.loc p
  rw [hpc] at hl
  simp only [step, go, hpc]
  generalize hx : s.c.pc p = x at hl
  generalize hh : s.c.held p = hd at hl
  cases hl with
  | @start _ ex rest h1 h2 h3 h4 =>
    cases ex <;> simp [goRun, lockOp, converts, next, Locks.invoke, hx]
  | @mid _ ex _ _ h1 h2 h3 h4 =>
    cases h4 with
    | now hn hc _ hp => simp [goRun, hn, hc]
    | @call m _ op hn hj =>
      by_cases hb : (f.boom && converts m) = true
      · simp only [goRun, hb, if_true]; exact ⟨_, rfl⟩
      · simp only [goRun, hb, Bool.false_eq_true, if_false, hn]
        rcases job_op hj with rfl | ⟨rfl, w, rfl⟩
        · cases ex <;> simp [Locks.invoke, hx, hh]
        · simp [Locks.invoke, hx, hh]
    | keep => exact absurd rfl h3
  | @«have» _ ex _ h1 h2 h3 =>
    by_cases hk : a.keeps = true
    · simp [goRun, hk]
    · obtain ⟨c', hc'⟩ := drop_enabled (p := p) (g := (f.field, ex)) hx (by rw [hh]; simp)
      simp [goRun, hk, h1, hc']
  | fin h1 h2 h3 => simp [goRun, h1]

theorem stop_enabled (h : Inv own cl eqv dep v₀ s) {p : Nat} {f : Frame L V} (hpc : s.pc p = .stop f) :
    ∃ s', step code eqv s p .go = some s' := by
  have hl := h.loc p
  rw [hpc] at hl
  simp only [step, go, hpc]
  generalize hx : s.c.pc p = x at hl
  generalize hh : s.c.held p = hd at hl
  cases hl with
  | @stop _ ex h1 h2 =>
    obtain ⟨c', hc'⟩ := drop_enabled (p := p) (g := (f.field, ex)) hx (by rw [hh]; simp)
    simp [h1, hc']
  | stopped h1 h2 => simp [h1]

/-- Inside an operation of the locks exactly if waiting for it. -/
theorem busy_iff (h : Inv own cl eqv dep v₀ s) (p : Nat) :
    s.c.pc p ≠ .idle ↔ (∃ f m todo, s.pc p = .wait f m todo) ∨ ∃ u dec, s.pc p = .other u dec := by
  have hl := h.loc p
  revert hl
  generalize s.pc p = y
  generalize s.c.pc p = x
  generalize s.c.held p = hd
  intro hl
  cases hl with
  | @acq f ex rest x h1 h2 h3 h4 =>
    cases ex
    · simp only [Bool.false_eq_true, if_false] at h4; subst h4; simp
    · simp only [if_true] at h4; rcases h4 with rfl | rfl <;> simp
  | @call f ex m op x h1 hj hb h4 =>
    rcases h4 with ⟨rfl, _⟩ | ⟨o, rfl, _⟩
    · rcases job_op hj with rfl | ⟨_, w, rfl⟩ <;> simp [begun]
    · simp
  | @other u op dec x hd h1 h2 h3 =>
    have : x ≠ .idle := by
      rintro rfl
      rcases h3 with ⟨h3, _⟩ | ⟨r, h3, _⟩ <;> cases h3
    simp [this]
  | idle => simp
  | start => simp
  | mid => simp
  | «have» => simp
  | fin => simp
  | stop => simp
  | stopped => simp

/-- If locks are taken in an order without cycles and somebody is inside a call or keeps a guard, somebody can go on or
drop a guard. -/
theorem helpers_progress (hwf : WellFounded fun j i => dep i j) (h : Inv own cl eqv dep v₀ s) {p : Nat}
    (hp : s.pc p ≠ .idle ∨ s.c.held p ≠ []) :
    ∃ q a s', (a = .go ∨ ∃ g, a = .drop g) ∧ step code eqv s q a = some s' := by
  have key : ∀ q, Locks.Inside s.c q → ¬ Locks.Stuck eqv s.c q →
      ∃ q a s', (a = .go ∨ ∃ g, a = .drop g) ∧ step code eqv s q a = some s' := by
    intro q hi hs
    cases hpc : s.pc q with
    | run f todo a => obtain ⟨s', h1⟩ := run_enabled (code := code) h hpc; exact ⟨q, _, s', .inl rfl, h1⟩
    | stop f => obtain ⟨s', h1⟩ := stop_enabled (code := code) h hpc; exact ⟨q, _, s', .inl rfl, h1⟩
    | idle =>
      have hid : s.c.pc q = .idle := by
        apply Classical.byContradiction
        intro hc
        rcases (busy_iff h q).1 hc with ⟨f, m, todo, h1⟩ | ⟨u, d, h1⟩ <;> rw [hpc] at h1 <;> cases h1
      rcases hi with hi | hi
      · exact absurd hid hi
      · obtain ⟨g, hg⟩ := List.exists_mem_of_ne_nil _ hi
        obtain ⟨c', hc'⟩ := drop_enabled hid hg
        exact ⟨q, .drop g, _, .inr ⟨g, rfl⟩, by simp only [step, LockCalls.dropGuard, hpc, hc']; rfl⟩
    | wait f m todo =>
      have hb := (busy_iff h q).2 (.inl ⟨f, m, todo, hpc⟩)
      cases hg : Locks.go eqv s.c q with
      | none => exact absurd ⟨hb, hg⟩ hs
      | some c' => exact ⟨q, .go, _, .inl rfl, by simp only [step, go, hpc, hg]; rfl⟩
    | other u dec =>
      have hb := (busy_iff h q).2 (.inr ⟨u, dec, hpc⟩)
      cases hg : Locks.go eqv s.c q with
      | none => exact absurd ⟨hb, hg⟩ hs
      | some c' => exact ⟨q, .go, _, .inl rfl, by simp only [step, go, hpc, hg]; rfl⟩
  by_cases hin : Locks.Inside s.c p
  · have := Verif.Props.Locks.C61_no_deadlock_partial hwf h.reach
    have : ∃ q, Locks.Inside s.c q ∧ ¬ Locks.Stuck eqv s.c q := by
      apply Classical.byContradiction
      intro hn
      exact this ⟨⟨p, hin⟩, fun t ht => Classical.byContradiction fun hs => hn ⟨t, ht, hs⟩⟩
    obtain ⟨q, h1, h2⟩ := this
    exact key q h1 h2
  · have hid : s.c.pc p = .idle ∧ s.c.held p = [] := by simpa [Locks.Inside] using hin
    cases hpc : s.pc p with
    | run f todo a => obtain ⟨s', h1⟩ := run_enabled (code := code) h hpc; exact ⟨p, _, s', .inl rfl, h1⟩
    | stop f => obtain ⟨s', h1⟩ := stop_enabled (code := code) h hpc; exact ⟨p, _, s', .inl rfl, h1⟩
    | idle => rcases hp with hp | hp
              · exact absurd hpc hp
              · exact absurd hid.2 hp
    | wait f m todo => exact absurd hid.1 ((busy_iff h p).2 (.inl ⟨f, m, todo, hpc⟩))
    | other u dec => exact absurd hid.1 ((busy_iff h p).2 (.inr ⟨u, dec, hpc⟩))

/-! ### Counting steps -/

/-- Steps left in the body of a helper. -/
def hleft : Pc L V → Nat
  | .idle => 0
  | .run _ todo _ => 6 * todo.length + 3
  | .wait _ _ todo => 6 * todo.length + 4
  | .stop _ => 3
  | .other _ _ => 1

/-- Steps left for a thread. -/
def hload (s : St L V) (p : Nat) : Nat := hleft (s.pc p) + load s.c p

/-- Actions which begin nothing new. -/
def hquiet : Act L V → Bool
  | .call _ => false
  | _ => true

theorem load_invoke {c c' : Locks.St L (Option V)} {p : Nat} {op} (hop : ∀ i j, op ≠ .eq i j)
    (hs : Locks.invoke c p op = some c') : load c' p ≤ load c p + 4 := by
  obtain ⟨h1, h2, _⟩ := invoke_other hs
  simp only [load, h2]
  have : left (c'.pc p) ≤ 4 := by
    cases op with
    | eq i j => exact absurd rfl (hop i j)
    | _ => cases hx : c'.pc p <;> rw [hx] at h1 <;> simp [phaseAt] at h1 <;> simp [left]
  omega

theorem hload_step {p : Nat} {a : Act L V} (ha : hquiet a = true) (hs : step code eqv s p a = some s') :
    hload s' p < hload s p ∧ ∀ q, q ≠ p → s'.pc q = s.pc q ∧ s'.c.held q = s.c.held q ∧ s'.c.pc q = s.c.pc q := by
  have other : ∀ {c' : Locks.St L (Option V)} {b : Locks.Act L (Option V)} {s₁ : St L V},
      Locks.step eqv s.c p b = some c' → s₁.c = c' → (∃ x, s₁.pc = upd s.pc p x) →
      ∀ q, q ≠ p → s₁.pc q = s.pc q ∧ s₁.c.held q = s.c.held q ∧ s₁.c.pc q = s.c.pc q := by
    rintro c' b s₁ h1 h2 ⟨x, h3⟩ q hq
    obtain ⟨h4, h5⟩ := step_other h1 hq
    exact ⟨by rw [h3, upd_other _ _ hq], by rw [h2, h5], by rw [h2, h4]⟩
  have same : ∀ {s₁ : St L V}, s₁.c = s.c → (∃ x, s₁.pc = upd s.pc p x) →
      ∀ q, q ≠ p → s₁.pc q = s.pc q ∧ s₁.c.held q = s.c.held q ∧ s₁.c.pc q = s.c.pc q := by
    rintro s₁ h2 ⟨x, h3⟩ q hq
    exact ⟨by rw [h3, upd_other _ _ hq], by rw [h2], by rw [h2]⟩
  have settled : ∀ {f : Frame L V} {m todo} {c' : Locks.St L (Option V)}, s.pc p = .wait f m todo →
      Locks.step eqv s.c p .go = some c' → s' = settle s p f m todo c' →
      hload s' p < hload s p ∧ ∀ q, q ≠ p → s'.pc q = s.pc q ∧ s'.c.held q = s.c.held q ∧ s'.c.pc q = s.c.pc q := by
    intro f m todo c' hpc h1 h2
    have hlt := (load_step (a := .go) rfl h1).1
    have hc : s'.c = c' ∧ ∃ x, s'.pc = upd s.pc p x ∧ hleft x ≤ hleft (s.pc p) := by
      have hn : (note s p f m todo s.c c').1.pc = s.pc := by
        unfold note
        split
        · split <;> rfl
        · rfl
      subst h2
      simp only [settle]
      split
      · exact ⟨rfl, _, congrArg (fun z => upd z p _) hn, by rw [hpc]; exact Nat.le_refl _⟩
      · split
        · exact ⟨rfl, _, congrArg (fun z => upd z p _) hn, by rw [hpc]; simp only [hleft]; omega⟩
        · exact ⟨rfl, _, congrArg (fun z => upd z p _) hn, by rw [hpc]; simp only [hleft]; omega⟩
    obtain ⟨h3, x, h4, h5⟩ := hc
    refine ⟨?_, other h1 h3 ⟨x, h4⟩⟩
    unfold hload
    rw [h3, h4, upd_same]
    omega
  have settledO : ∀ {u : Call L V} {dec} {c' : Locks.St L (Option V)} {b : Locks.Act L (Option V)},
      s.pc p = .other u dec → Locks.quiet b = true → Locks.step eqv s.c p b = some c' → s' = settleOther s p u dec c' →
      hload s' p < hload s p ∧ ∀ q, q ≠ p → s'.pc q = s.pc q ∧ s'.c.held q = s.c.held q ∧ s'.c.pc q = s.c.pc q := by
    intro u dec c' b hpc hb h1 h2
    have hlt := (load_step hb h1).1
    have hc : s'.c = c' ∧ ∃ x, s'.pc = upd s.pc p x ∧ hleft x ≤ hleft (s.pc p) := by
      subst h2
      unfold settleOther
      rw [hpc]
      cases decided s.c c' <;> cases answered s.c c' p <;>
        exact ⟨rfl, _, rfl, by simp [hleft]⟩
    obtain ⟨h3, x, h4, h5⟩ := hc
    refine ⟨?_, other h1 h3 ⟨x, h4⟩⟩
    unfold hload
    rw [h3, h4, upd_same]
    omega
  cases a with
  | call c => cases ha
  | go =>
    simp only [step] at hs
    cases hpc : s.pc p with
    | idle => simp [go, hpc] at hs
    | wait f m todo =>
      simp only [go, hpc, Option.map_eq_some_iff] at hs
      obtain ⟨c', h1, h2⟩ := hs
      exact settled hpc h1 h2.symm
    | other u dec =>
      simp only [go, hpc, Option.map_eq_some_iff] at hs
      obtain ⟨c', h1, h2⟩ := hs
      exact settledO (b := .go) hpc rfl h1 h2.symm
    | stop f =>
      simp only [go, hpc] at hs
      split at hs
      · simp only [Option.map_eq_some_iff] at hs
        obtain ⟨c', h1, rfl⟩ := hs
        rename_i ex _
        have h1' : Locks.step eqv s.c p (.drop (f.field, ex)) = some c' := h1
        refine ⟨?_, other h1' rfl ⟨_, rfl⟩⟩
        have := (load_step (a := .drop (f.field, ex)) rfl h1').1
        simp only [hload, St.to, upd_same, hpc, hleft]; omega
      · cases hs
        refine ⟨?_, same rfl ⟨_, rfl⟩⟩
        simp [hload, St.ret, hpc, hleft]
    | run f todo a =>
      simp only [go, hpc] at hs
      cases todo with
      | nil =>
        simp only [goRun] at hs
        split at hs
        · simp only [Option.map_eq_some_iff] at hs
          obtain ⟨c', h1, rfl⟩ := hs
          rename_i ex _
          have h1' : Locks.step eqv s.c p (.drop (f.field, ex)) = some c' := h1
          refine ⟨?_, other h1' rfl ⟨_, rfl⟩⟩
          have := (load_step (a := .drop (f.field, ex)) rfl h1').1
          simp only [hload, St.to, upd_same, hpc, hleft]; omega
        · cases hs
          refine ⟨?_, same rfl ⟨_, rfl⟩⟩
          simp [hload, St.ret, hpc, hleft]
      | cons m todo =>
        simp only [goRun] at hs
        split at hs
        · cases hs
          refine ⟨?_, same rfl ⟨_, rfl⟩⟩
          simp [hload, St.to, St.lin, hpc, hleft]
        · split at hs
          · cases hs
            refine ⟨?_, same rfl ⟨_, rfl⟩⟩
            simp [hload, St.to, hpc, hleft]
          · rename_i op hn
            simp only [Option.map_eq_some_iff] at hs
            obtain ⟨c', h1, rfl⟩ := hs
            have h1' : Locks.step eqv s.c p (.call op) = some c' := h1
            refine ⟨?_, other h1' rfl ⟨_, rfl⟩⟩
            have hop : ∀ i j, op ≠ .eq i j := by
              rintro i j rfl
              cases m <;> cases a <;> cases hn
            have := load_invoke hop h1
            simp only [hload, St.to, upd_same, hpc, hleft, List.length_cons]; omega
          · cases hs
  | panic =>
    simp only [step, panics] at hs
    split at hs
    · rename_i u dec hpc
      simp only [Option.map_eq_some_iff] at hs
      obtain ⟨c', h1, h2⟩ := hs
      exact settledO (b := .panic) hpc rfl h1 h2.symm
    · cases hs
  | drop g =>
    simp only [step, LockCalls.dropGuard] at hs
    split at hs
    · simp only [Option.map_eq_some_iff] at hs
      obtain ⟨c', h1, rfl⟩ := hs
      have h1' : Locks.step eqv s.c p (.drop g) = some c' := h1
      refine ⟨?_, fun q hq => ⟨rfl, (step_other h1' hq).2, (step_other h1' hq).1⟩⟩
      have := (load_step (a := .drop g) rfl h1').1
      simp only [hload]; omega
    · cases hs

/-- Steps left for a list of threads. -/
def htotal (s : St L V) (ts : List Nat) : Nat := (ts.map (hload s)).sum

theorem htotal_step {p : Nat} {a : Act L V} {ts : List Nat} (hn : ts.Nodup) (ht : p ∈ ts) (ha : hquiet a = true)
    (hs : step code eqv s p a = some s') : htotal s' ts < htotal s ts := by
  obtain ⟨h1, h2⟩ := hload_step ha hs
  have h3 : ∀ u, u ≠ p → hload s' u = hload s u := fun u hu => by
    simp [hload, load, (h2 u hu).1, (h2 u hu).2.1, (h2 u hu).2.2]
  unfold htotal
  clear hs h2
  induction ts with
  | nil => cases ht
  | cons x ts ih =>
    simp only [List.map_cons, List.sum_cons]
    rw [List.nodup_cons] at hn
    by_cases hx : x = p
    · subst hx
      have : ts.map (hload s') = ts.map (hload s) := by
        apply List.map_congr_left
        intro u hu
        exact h3 u (by rintro rfl; exact hn.1 hu)
      rw [this]; omega
    · have := ih hn.2 (by rcases List.mem_cons.1 ht with rfl | h; exact absurd rfl hx; exact h)
      rw [h3 x hx]; omega

omit [DecidableEq L] in
/-- A quiet action is always allowed. -/
theorem quiet_allowed {p : Nat} {a : Act L V} (ha : hquiet a = true) : Allowed dep s p a := by
  cases a with
  | call => cases ha
  | _ => trivial

theorem hload_le (h : Inv own cl eqv dep v₀ s) (p : Nat) : hload s p ≤ 27 + (s.c.held p).length := by
  have hl := h.loc p
  unfold hload load
  revert hl
  generalize s.pc p = y
  generalize s.c.pc p = x
  generalize s.c.held p = hd
  intro hl
  have plen : ∀ {o c : Bool} {i : L} {v : V} {k ex todo} {a : Cur V}, Plan o c i v k ex todo a → todo.length ≤ 3 := by
    intro o c i v k ex todo a hp
    cases hp with
    | now _ _ h _ => simp only [List.length_cons]; omega
    | call => simp
    | keep => simp
  cases hl with
  | idle => simp [hleft, left]
  | start _ _ _ hp => have := plen hp; simp only [hleft, left, List.length_cons]; omega
  | @acq f ex rest x h1 h2 hp h4 =>
    have := plen hp
    have : left x ≤ 3 := by
      cases ex
      · simp only [Bool.false_eq_true, if_false] at h4; subst h4; simp [left]
      · simp only [if_true] at h4; rcases h4 with rfl | rfl <;> simp [left]
    simp only [hleft]; omega
  | mid _ _ _ hp => have := plen hp; simp only [hleft, left]; omega
  | call => have := left_le x; simp only [hleft, List.length_nil]; omega
  | «have» => simp only [hleft, left, List.length_nil]; omega
  | fin => simp only [hleft, left, List.length_nil]; omega
  | stop => simp only [hleft, left]; omega
  | stopped => simp only [hleft, left]; omega
  | other => have := left_le x; simp only [hleft]; omega

theorem reach_quiet_run : ∀ (sch : List (Nat × Act L V)) (s : St L V), Reach code eqv dep v₀ s →
    (∀ x ∈ sch, hquiet x.2 = true) → run code eqv s sch = some s' → Reach code eqv dep v₀ s'
  | [], s, h, _, hr => by simp [run] at hr; exact hr ▸ h
  | (p, a) :: sch, s, h, hq, hr => by
    simp only [run, Option.bind_eq_some_iff] at hr
    obtain ⟨s₁, h1, h2⟩ := hr
    exact reach_quiet_run sch s₁ (.step h (quiet_allowed (hq (p, a) (.head _))) h1) (fun x hx => hq x (.tail _ hx)) h2

theorem run_bounded {ts : List Nat} (hn : ts.Nodup) : ∀ (sch : List (Nat × Act L V)) (s : St L V),
    (∀ p, p ∉ ts → hload s p = 0) → (∀ x ∈ sch, hquiet x.2 = true) → run code eqv s sch = some s' →
    sch.length ≤ htotal s ts
  | [], s, _, _, _ => by simp
  | (p, a) :: sch, s, hts, hq, hr => by
    simp only [run, Option.bind_eq_some_iff] at hr
    obtain ⟨s₁, h1, h2⟩ := hr
    have ha : hquiet a = true := hq (p, a) (.head _)
    have hld := hload_step ha h1
    have ht : p ∈ ts := by
      apply Classical.byContradiction
      intro ht
      have := hts p ht
      omega
    have := run_bounded hn sch s₁ (fun u hu => by
        have hup : u ≠ p := by rintro rfl; exact hu ht
        have := hts u hu
        have h3 := hld.2 u hup
        simp only [hload, load, h3.1, h3.2.1, h3.2.2] at this ⊢
        exact this) (fun x hx => hq x (.tail _ hx)) h2
    have := htotal_step hn ht ha h1
    simp only [List.length_cons]; omega

theorem htotal_le (h : Inv own cl eqv dep v₀ s) (ts : List Nat) :
    htotal s ts ≤ (ts.map fun p => 27 + (s.c.held p).length).sum := by
  unfold htotal
  induction ts with
  | nil => simp
  | cons x ts ih =>
    simp only [List.map_cons, List.sum_cons]
    have := hload_le h x
    omega

/-! ### The guards of a call -/

/-- In the helper `k` of field `i`, called with the guards `base`. -/
def About (i : L) (k : Kind) (base : List (L × Bool)) : Pc L V → Prop
  | .run f _ _ | .wait f _ _ | .stop f => f.field = i ∧ f.kind = k ∧ f.base = base
  | _ => False

omit [DecidableEq L] in
theorem note_frame (s : St L V) (p : Nat) (f : Frame L V) (m : MOp) (todo : List MOp) (c c' : Locks.St L (Option V)) :
    (note s p f m todo c c').2.field = f.field ∧ (note s p f m todo c c').2.kind = f.kind ∧
      (note s p f m todo c c').2.base = f.base := by
  unfold note
  split
  · split <;> simp
  · simp

/-- Other threads stay where they are. -/
theorem others_stay {p q : Nat} {a : Act L V} (hq : q ≠ p) (hs : step code eqv s p a = some s') :
    s'.pc q = s.pc q ∧ s'.c.held q = s.c.held q := by
  cases a with
  | call call =>
    simp only [step, invoke] at hs
    split at hs
    · split at hs
      · split at hs
        · split at hs
          · cases hs; exact ⟨upd_other _ _ hq, rfl⟩
          · cases hs
        · cases hs
      · simp only [Option.bind_eq_some_iff, Option.map_eq_some_iff] at hs
        obtain ⟨op, _, c', hc', rfl⟩ := hs
        exact ⟨upd_other _ _ hq, (step_other (eqv := eqv) (a := .call op) hc' hq).2⟩
    · cases hs
  | go => have := (hload_step (a := .go) rfl hs).2 q hq; exact ⟨this.1, this.2.1⟩
  | panic => have := (hload_step (a := .panic) rfl hs).2 q hq; exact ⟨this.1, this.2.1⟩
  | drop g => have := (hload_step (a := .drop g) rfl hs).2 q hq; exact ⟨this.1, this.2.1⟩

/-- The guards after a helper. -/
def after (own : L → Bool) (i : L) (k : Kind) (base : List (L × Bool)) : List (L × Bool) :=
  match gives (own i) k with
  | some ex => (i, ex) :: base
  | none => base

/-- A helper stays in its call, or it is over with the guards as promised. -/
theorem about_step (h : Inv own cl eqv dep v₀ s) {p : Nat} {i : L} {k : Kind} {base : List (L × Bool)}
    (hab : About i k base (s.pc p)) {a : Act L V} (hs : step code eqv s p a = some s') :
    About i k base (s'.pc p) ∨ s'.pc p = .idle ∧ s'.c.held p = after own i k base := by
  have hl := h.loc p
  cases a with
  | call call =>
    simp only [step, invoke] at hs
    split at hs
    · rename_i hpc; rw [hpc] at hab; exact hab.elim
    · cases hs
  | panic =>
    simp only [step, panics] at hs
    split at hs
    · rename_i hpc; rw [hpc] at hab; exact hab.elim
    · cases hs
  | drop g =>
    simp only [step, LockCalls.dropGuard] at hs
    split at hs
    · rename_i hpc; rw [hpc] at hab; exact hab.elim
    · cases hs
  | go =>
    simp only [step, go] at hs
    cases hpc : s.pc p with
    | idle => rw [hpc] at hab; exact hab.elim
    | other u d => rw [hpc] at hab; exact hab.elim
    | wait f m todo =>
      rw [hpc] at hab hs
      simp only [Option.map_eq_some_iff] at hs
      obtain ⟨c', _, rfl⟩ := hs
      have hn := note_frame s p f m todo s.c c'
      obtain ⟨a1, a2, a3⟩ := hab
      left
      simp only [settle]
      split
      · simp only [St.to, upd_same, About]; exact ⟨hn.1.trans a1, hn.2.1.trans a2, hn.2.2.trans a3⟩
      · split <;> simp only [St.to, upd_same, About] <;> exact ⟨hn.1.trans a1, hn.2.1.trans a2, hn.2.2.trans a3⟩
    | stop f =>
      rw [hpc] at hab hs hl
      obtain ⟨rfl, rfl, rfl⟩ := hab
      generalize hx : s.c.pc p = x at hl
      generalize hh : s.c.held p = hd at hl
      cases hl with
      | @stop _ ex h1 h2 h3 =>
        simp only [h1, Option.map_eq_some_iff] at hs
        obtain ⟨c', _, rfl⟩ := hs
        left; simp [St.to, About]
      | stopped h1 h2 h3 =>
        simp only [h1, Option.some.injEq] at hs
        subst hs
        right; simp [St.ret, after, h3, hh]
    | run f todo a =>
      rw [hpc] at hab hs hl
      obtain ⟨rfl, rfl, rfl⟩ := hab
      cases todo with
      | cons m todo =>
        left
        simp only [goRun] at hs
        split at hs
        · cases hs; simp [St.to, St.lin, About]
        · split at hs
          · cases hs; simp [St.to, About]
          · simp only [Option.map_eq_some_iff] at hs
            obtain ⟨c', _, rfl⟩ := hs
            simp [St.to, About]
          · cases hs
      | nil =>
        generalize hx : s.c.pc p = x at hl
        generalize hh : s.c.held p = hd at hl
        cases hl with
        | mid _ _ h3 => exact absurd rfl h3
        | @«have» _ ex _ h1 h2 h3 =>
          by_cases hk : a.keeps = true
          · simp only [goRun, hk, if_true, Option.some.injEq] at hs
            subst hs
            rw [hk, if_pos rfl] at h3
            right; simp [St.ret, after, h3, hh]
          · simp only [goRun, hk, h1, Bool.false_eq_true, if_false, Option.map_eq_some_iff] at hs
            obtain ⟨c', _, rfl⟩ := hs
            left; simp [St.to, About]
        | fin h1 h2 h3 h4 =>
          simp only [goRun, h3, h1, Bool.false_eq_true, if_false, Option.some.injEq] at hs
          subst hs
          right; simp [St.ret, after, h4, hh]

end Verif.Proof.LockCalls
