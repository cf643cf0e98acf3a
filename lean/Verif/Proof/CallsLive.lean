import Verif.Proof.Calls
import Verif.Proof.SyncLive
/-!
# Helpers never wedge (helper lemmas)
-/

namespace Verif.Proof.Calls
open Verif.Spec Verif.Spec.Calls Verif.Model Verif.Model.Args Verif.Model.Method Verif.Model.Calls Verif.Proof Verif.Proof.Sync
open Verif.Model.Sync (heldGuard)

variable {V E : Type} {fal cl : Bool}

theorem isGuard_drop {c : Sync.St V E} {p : Nat} (h : isGuard (c.pc p) = true) : ∃ c', Sync.dropGuard c p = some c' := by
  cases hd : Sync.dropGuard c p with
  | some c' => exact ⟨c', rfl⟩
  | none => rw [drop_none hd] at h; cases h

theorem goRun_call {s : St V E} {p : Nat} {f : Frame V E} {m todo a op} (hn : next f.arg m a = .call op)
    (hb : userCode m = false) {c' : Sync.St V E} (hi : Sync.invoke s.c p op = some c') :
    ∃ s', goRun s p f (m :: todo) a = some s' := by
  simp [goRun, hb, hn, hi]

/-- Between two operations of its body a helper is never stuck. -/
theorem run_enabled {s : St V E} {v₀ : Option V} (h : Inv fal cl v₀ s) {p : Nat} {f : Frame V E} {todo a}
    (hpc : s.pc p = .run f todo a) : ∃ s', go s p = some s' := by
  simp only [go, hpc]
  have hl := h.loc p
  rw [hpc] at hl
  generalize hx : s.c.pc p = x at hl
  generalize hv : s.c.value = v at hl
  cases hl with
  | start h1 hsh hdec hr =>
    obtain ⟨k, hk⟩ : ∃ k, f.kind = k := ⟨_, rfl⟩
    rw [hk] at hsh
    cases hsh <;> exact goRun_call rfl rfl (by simp only [Sync.invoke, hx]; rfl)
  | whave h1 hk hdec hr => cases hb : f.boom <;> simp [goRun, hb, userCode, hdec, next, Sync.invoke, hx]
  | ask => simp [goRun, tail, userCode, next]
  | askErr => simp [goRun, tail, userCode, next]
  | star => simp [goRun, userCode, next]
  | @place _ c g w _ hf h1 hk hc hdec =>
    rcases hc with ⟨rfl, _⟩ | ⟨rfl, _⟩
    · simp [goRun, userCode, next, Sync.invoke, hx]
    · cases hb : f.boom <;> simp [goRun, hb, userCode, hdec, next, Sync.invoke, hx]
  | wrap => simp [goRun, userCode, next]
  | fin h1 =>
    simp only [goRun]
    split
    · exact ⟨_, rfl⟩
    · simp [h1.1]

theorem stop_enabled {s : St V E} {p : Nat} {f : Frame V E} {r} (hpc : s.pc p = .stop f r) :
    ∃ s', go s p = some s' := by
  simp only [go, hpc]
  split <;> exact ⟨_, rfl⟩

/-- The process is inside a call on the container. -/
theorem under_busy {v : Option V} {x : Sync.Pc V E} {op : Op V} {dec} {f : Res V E → Res V E} (h : Under v x op dec f) :
    x ≠ .idle ∧ isGuard x = false := by
  constructor
  · rintro rfl; rcases h with ⟨h, _⟩ | ⟨_, h, _⟩ <;> cases h
  · cases x <;> try rfl
    all_goals rcases h with ⟨h, _⟩ | ⟨_, h, _⟩ <;> cases h

theorem wait_busy {s : St V E} {v₀ : Option V} (h : Inv fal cl v₀ s) {p : Nat}
    (hpc : (∃ f m todo, s.pc p = .wait f m todo) ∨ ∃ u dec, s.pc p = .use u dec) :
    s.c.pc p ≠ .idle ∧ isGuard (s.c.pc p) = false := by
  have hl := h.loc p
  rcases hpc with ⟨f, m, todo, hpc⟩ | ⟨u, dec, hpc⟩
  · rw [hpc] at hl
    generalize s.c.pc p = x at hl
    generalize s.c.value = v at hl
    cases hl with
    | dwait _ _ _ _ hu => exact under_busy hu
    | wwait _ _ _ _ hu => exact under_busy (dec := none) (f := id) (.inl ⟨hu, rfl⟩)
    | deref _ _ _ _ _ hx => rcases hx with rfl | rfl <;> exact ⟨by simp, rfl⟩
  · rw [hpc] at hl
    cases hl with
    | use _ _ hu => exact under_busy hu

theorem helpers_progress {code : Kind → Option Body} {s : St V E} {v₀ : Option V} (h : Inv fal cl v₀ s) {p : Nat}
    (hp : s.pc p ≠ .idle) (o : Outcome V E) :
    ∃ q a s', (a = .go ∨ a = .drop ∨ a = .finish o) ∧ step code s q a = some s' := by
  by_cases h1 : ∃ q f todo a, s.pc q = .run f todo a
  · obtain ⟨q, f, todo, a, hq⟩ := h1
    obtain ⟨s', hs⟩ := run_enabled h hq
    exact ⟨q, .go, s', .inl rfl, hs⟩
  by_cases h2 : ∃ q f r, s.pc q = .stop f r
  · obtain ⟨q, f, r, hq⟩ := h2
    obtain ⟨s', hs⟩ := stop_enabled hq
    exact ⟨q, .go, s', .inl rfl, hs⟩
  by_cases h3 : ∃ q, s.pc q = .keeps
  · obtain ⟨q, hq⟩ := h3
    have hl := h.loc q
    rw [hq] at hl
    have hg : isGuard (s.c.pc q) = true := by
      generalize s.c.pc q = x at hl
      generalize s.c.value = v at hl
      cases hl with | keeps hg => exact hg
    obtain ⟨c', hc⟩ := isGuard_drop hg
    exact ⟨q, .drop, { s with c := c' }.to q .idle, .inr (.inl rfl), by simp [step, Calls.dropGuard, hq, hc]⟩
  have hall : ∀ q, s.pc q = .idle ∨ (∃ f m todo, s.pc q = .wait f m todo) ∨ ∃ u dec, s.pc q = .use u dec := by
    intro q
    cases hq : s.pc q with
    | idle => exact .inl rfl
    | keeps => exact absurd ⟨q, hq⟩ h3
    | run f todo a => exact absurd ⟨q, f, todo, a, hq⟩ h1
    | wait f m todo => exact .inr (.inl ⟨f, m, todo, rfl⟩)
    | stop f r => exact absurd ⟨q, f, r, hq⟩ h2
    | use u dec => exact .inr (.inr ⟨u, dec, rfl⟩)
  have hbusy := wait_busy h ((hall p).resolve_left hp)
  obtain ⟨q, a, c', ha, hs⟩ := progress_any (core_reach h.reach) hbusy.1 o
  have hq : (∃ f m todo, s.pc q = .wait f m todo) ∨ ∃ u dec, s.pc q = .use u dec := by
    refine (hall q).resolve_left fun hq => ?_
    have hl := h.loc q
    rw [hq] at hl
    have hi : s.c.pc q = .idle := by
      generalize s.c.pc q = x at hl
      generalize s.c.value = v at hl
      cases hl; rfl
    rcases ha with rfl | rfl | rfl
    · simp [Sync.step, Sync.go, hi] at hs
    · simp [Sync.step, Sync.dropGuard, hi] at hs
    · simp [Sync.step, Sync.builderReturns, hi] at hs
  have hqb := wait_busy h hq
  rcases ha with rfl | rfl | rfl
  · simp only [Sync.step] at hs
    rcases hq with ⟨f, m, todo, hq⟩ | ⟨u, dec, hq⟩
    · exact ⟨q, .go, settle s q f m todo c', .inl rfl, by simp [step, go, hq, hs]⟩
    · exact ⟨q, .go, settleUse s q u dec c', .inl rfl, by simp [step, go, hq, hs]⟩
  · simp only [Sync.step, Sync.dropGuard] at hs
    have := hqb.2
    revert this hs
    cases s.c.pc q <;> simp [isGuard]
  · rcases hq with ⟨f, m, todo, hq⟩ | ⟨u, dec, hq⟩
    · simp only [Sync.step] at hs
      exact ⟨q, .finish o, settle s q f m todo c', .inr (.inr rfl), by simp [step, Calls.finish, hq, hs]⟩
    · exfalso
      have hl := h.loc q
      rw [hq] at hl
      simp only [Sync.step, Sync.builderReturns] at hs
      revert hs
      generalize s.c.pc q = x at hl
      generalize s.c.value = v at hl
      cases hl with
      | use hm hn hu =>
        cases x <;> simp
        rcases hu with ⟨hu, _⟩ | ⟨_, hu, _⟩
        · cases hu
          cases hm
          exact absurd rfl (hn _ _ _)
        · cases hu

/-! ### Every call ends -/

/-- What a process still has to do. -/
def weight : Pc V E → Sync.Pc V E → Nat
  | .idle, _ => 0
  | .keeps, x => rank x + 1
  | .run _ todo _, x | .wait _ _ todo, x => 15 * todo.length + rank x + 4
  | .stop _ _, x => rank x + 2
  | .use _ _, x => rank x + 3

theorem shape_length {k main} (h : Shape fal cl k main) : main.length ≤ 5 := by
  cases h <;> simp [tail]
  split <;> simp

theorem job_length {v : V} {k m todo op} (h : Job fal cl v k m todo op) : todo.length ≤ 4 := by
  cases h <;> simp [tail]
  split <;> simp

theorem weight_le {s : St V E} {v₀ : Option V} (h : Inv fal cl v₀ s) (p : Nat) : weight (s.pc p) (s.c.pc p) ≤ 79 := by
  have hl := h.loc p
  generalize s.pc p = y at hl
  generalize s.c.pc p = x at hl
  generalize s.c.value = v at hl
  have hr := rank_le x
  cases hl with
  | idle => simp [weight]
  | keeps => simp only [weight]; omega
  | start _ hsh => have := shape_length hsh; simp only [weight, rank]; omega
  | dwait _ _ hj => have := job_length hj; simp only [weight]; omega
  | wwait => simp only [weight, List.length_cons, List.length_nil]; omega
  | whave => simp only [weight, List.length_cons, List.length_nil]; omega
  | ask => simp only [weight, tail, if_true, List.length_append, List.length_cons, List.length_nil, rank]; omega
  | askErr => simp only [weight, tail, if_true, List.length_append, List.length_cons, List.length_nil, rank]; omega
  | star hw =>
    rw [hw]; simp only [weight, List.length_cons, rank]; split <;> simp
  | place hw =>
    rw [hw]; simp only [weight, List.length_cons, rank]; split <;> simp
  | deref hw =>
    rw [hw]; simp only [weight]; split <;> simp <;> omega
  | wrap => simp only [weight, List.length_cons, List.length_nil]; omega
  | fin => simp only [weight, List.length_nil]; omega
  | stop => simp only [weight]; omega
  | use => simp only [weight]; omega

theorem invoke_others {c c' : Sync.St V E} {p q : Nat} {op : Op V} (hs : Sync.invoke c p op = some c') (hq : q ≠ p) :
    c'.pc q = c.pc q := by
  unfold Sync.invoke at hs
  split at hs
  all_goals try split at hs
  all_goals first
    | (simp at hs; done)
    | (simp only [Option.some.injEq] at hs
       subst hs
       simp [Sync.St.begin, upd, hq])

/-- Less to do for the process, nothing new for the others. -/
def Less (s s' : St V E) (p : Nat) : Prop :=
  weight (s'.pc p) (s'.c.pc p) < weight (s.pc p) (s.c.pc p) ∧
    ∀ q, q ≠ p → s'.pc q = s.pc q ∧ s'.c.pc q = s.c.pc q

theorem less_of {s s' : St V E} {p : Nat} {y : Pc V E} (h1 : s'.pc = upd s.pc p y)
    (h2 : ∀ q, q ≠ p → s'.c.pc q = s.c.pc q) (h3 : weight y (s'.c.pc p) < weight (s.pc p) (s.c.pc p)) : Less s s' p := by
  refine ⟨by rw [h1, upd_same]; exact h3, fun q hq => ⟨by rw [h1, upd_other _ _ hq], h2 q hq⟩⟩

theorem less_settle {s : St V E} {p : Nat} {f : Frame V E} {m todo} (hpc : s.pc p = .wait f m todo) {c' : Sync.St V E}
    (h1 : rank (c'.pc p) < rank (s.c.pc p)) (h2 : ∀ q, q ≠ p → c'.pc q = s.c.pc q) :
    Less s (settle s p f m todo c') p := by
  have key : ∃ y, (settle s p f m todo c').pc = upd s.pc p y ∧ (settle s p f m todo c').c = c' ∧
      weight y (c'.pc p) ≤ 15 * todo.length + rank (c'.pc p) + 4 := by
    have hn : ∀ t f', note s p f m todo s.c c' = (t, f') → t.pc = s.pc := by
      intro t f' h
      unfold note at h
      split at h
      · split at h <;> cases h <;> rfl
      · cases h; rfl
    unfold settle
    cases hnn : note s p f m todo s.c c' with
    | mk t f' =>
      have := hn t f' hnn
      simp only
      cases answered s.c c' p with
      | none => exact ⟨_, by simp only [St.to, this]; rfl, rfl, by simp [weight]⟩
      | some r =>
        simp only
        cases got m (s.c.me p) r.ret with
        | some a => exact ⟨_, by simp only [St.to, this]; rfl, rfl, by simp [weight]⟩
        | none => exact ⟨_, by simp only [St.to, this]; rfl, rfl, by simp only [weight]; omega⟩
  obtain ⟨y, k1, k2, k3⟩ := key
  refine less_of k1 (by rw [k2]; exact h2) ?_
  rw [k2, hpc]
  refine Nat.lt_of_le_of_lt k3 ?_
  simp only [weight]
  omega

theorem less_settleUse {s : St V E} {p : Nat} {u : Call V} {dec} (hpc : s.pc p = .use u dec) {c' : Sync.St V E}
    (h1 : rank (c'.pc p) < rank (s.c.pc p)) (h2 : ∀ q, q ≠ p → c'.pc q = s.c.pc q) :
    Less s (settleUse s p u dec c') p := by
  have key : ∃ y, (settleUse s p u dec c').pc = upd s.pc p y ∧ (settleUse s p u dec c').c = c' ∧
      weight y (c'.pc p) ≤ rank (c'.pc p) + 3 := by
    unfold settleUse
    cases decided s.c c' <;> simp only <;> cases answered s.c c' p <;>
      exact ⟨_, rfl, rfl, by simp only [weight]; omega⟩
  obtain ⟨y, k1, k2, k3⟩ := key
  refine less_of k1 (by rw [k2]; exact h2) ?_
  rw [k2, hpc]
  refine Nat.lt_of_le_of_lt k3 ?_
  simp only [weight]
  omega

theorem less_drop {s : St V E} {p : Nat} {c' : Sync.St V E} (hd : Sync.dropGuard s.c p = some c')
    (hp : ∀ x, weight (s.pc p) x = rank x + (weight (s.pc p) .idle)) : Less s { s with c := c' } p := by
  obtain ⟨h1, h2⟩ := rank_step (a := .drop) (by simp) hd
  refine ⟨?_, fun q hq => ⟨rfl, h2 q hq⟩⟩
  rw [hp (s.c.pc p)]
  show weight (s.pc p) (c'.pc p) < _
  rw [hp (c'.pc p)]
  omega

theorem less_goRun {s : St V E} {p : Nat} {f : Frame V E} {todo a} (hone : todo = [] → One f)
    (hpc : s.pc p = .run f todo a) {s' : St V E} (hs : goRun s p f todo a = some s') : Less s s' p := by
  cases todo with
  | cons m todo =>
    simp only [goRun] at hs
    have hw : weight (s.pc p) (s.c.pc p) = 15 * (todo.length + 1) + rank (s.c.pc p) + 4 := by rw [hpc]; rfl
    split at hs
    · split at hs <;> cases hs
      · exact less_of rfl (fun _ _ => rfl) (by rw [hw]; simp only [weight, St.to]; omega)
      · exact less_of rfl (fun _ _ => rfl) (by rw [hw]; simp only [weight, St.to, St.lin]; omega)
    · split at hs
      · cases hs
        exact less_of rfl (fun _ _ => rfl) (by rw [hw]; simp only [weight, St.to]; omega)
      · cases hs
        exact less_of rfl (fun _ _ => rfl) (by rw [hw]; simp only [weight, St.to]; omega)
      · simp only [Option.map_eq_some_iff] at hs
        obtain ⟨c', hc, rfl⟩ := hs
        have := rank_le (c'.pc p)
        exact less_of rfl (fun q hq => invoke_others hc hq) (by rw [hw]; simp only [weight, St.to]; omega)
      · cases hs
  | nil =>
    simp only [goRun] at hs
    have h1 := hone rfl
    split at hs
    · rename_i c' hd
      cases hs
      split at hd
      · cases hd
      · exact less_drop hd (by intro x; rw [hpc]; simp only [weight, List.length_nil, rank]; omega)
    · simp only [h1.1, Option.some.injEq] at hs
      subst hs
      refine less_of rfl (fun _ _ => rfl) ?_
      rw [hpc]
      simp only [St.ret]
      split <;> simp only [weight, List.length_nil] <;> omega

/-- Every step which begins no call leaves less to do. -/
theorem less_step {code : Kind → Option Body} {s : St V E} {v₀ : Option V} (h : Inv fal cl v₀ s) {p : Nat} {a : Act V E}
    (ha : ∀ c, a ≠ .call c) {s' : St V E} (hs : step code s p a = some s') : Less s s' p := by
  cases a with
  | call c => exact absurd rfl (ha c)
  | go =>
    simp only [step, go] at hs
    split at hs <;> rename_i hpc
    · cases hs
    · cases hs
    · refine less_goRun ?_ hpc hs
      rintro rfl
      have hl := h.loc p
      rw [hpc] at hl
      generalize hm : s.c.pc p = x at hl
      generalize s.c.value = v at hl
      cases hl with
      | start h1 _ => exact h1
      | fin h1 => exact h1
    · simp only [Option.map_eq_some_iff] at hs
      obtain ⟨c', hc, rfl⟩ := hs
      obtain ⟨h1, h2⟩ := rank_step (a := .go) (by simp) hc
      exact less_settle hpc h1 h2
    · simp only [Option.map_eq_some_iff] at hs
      obtain ⟨c', hc, rfl⟩ := hs
      obtain ⟨h1, h2⟩ := rank_step (a := .go) (by simp) hc
      exact less_settleUse hpc h1 h2
    · split at hs <;> cases hs
      · rename_i hd
        exact less_drop hd (by intro x; rw [hpc]; simp only [weight, rank]; try omega)
      · refine less_of rfl (fun _ _ => rfl) ?_
        rw [hpc]
        simp only [weight]
        omega
  | finish o =>
    simp only [step, Calls.finish] at hs
    split at hs <;> rename_i hpc
    · simp only [Option.map_eq_some_iff] at hs
      obtain ⟨c', hc, rfl⟩ := hs
      obtain ⟨h1, h2⟩ := rank_step (a := .finish o) (by simp) hc
      exact less_settle hpc h1 h2
    · cases hs
  | drop =>
    simp only [step, Calls.dropGuard] at hs
    split at hs <;> rename_i hpc
    · simp only [Option.map_eq_some_iff] at hs
      obtain ⟨c', hc, rfl⟩ := hs
      obtain ⟨h1, h2⟩ := rank_step (a := .drop) (by simp) hc
      refine less_of rfl h2 ?_
      rw [hpc]
      simp only [weight]
      omega
    · cases hs

/-- What all processes of `ps` still have to do. -/
def toDo (s : St V E) (ps : List Nat) : Nat := (ps.map fun p => weight (s.pc p) (s.c.pc p)).sum

theorem toDo_le {s : St V E} {v₀ : Option V} (h : Inv fal cl v₀ s) (ps : List Nat) : toDo s ps ≤ 79 * ps.length := by
  induction ps with
  | nil => simp [toDo]
  | cons p ps ih =>
    have := weight_le h p
    simp only [toDo, List.map_cons, List.sum_cons, List.length_cons] at ih ⊢
    omega

theorem toDo_step {s s' : St V E} {p : Nat} {ps : List Nat} (h : Less s s' p) (hn : ps.Nodup) (hp : p ∈ ps) :
    toDo s' ps < toDo s ps := by
  obtain ⟨h1, h2⟩ := h
  induction ps with
  | nil => simp at hp
  | cons q ps ih =>
    simp only [List.nodup_cons] at hn
    simp only [toDo, List.map_cons, List.sum_cons] at ih ⊢
    by_cases hq : q = p
    · subst hq
      have : (ps.map fun p => weight (s'.pc p) (s'.c.pc p)) = ps.map fun p => weight (s.pc p) (s.c.pc p) := by
        apply List.map_congr_left
        intro r hr
        obtain ⟨e1, e2⟩ := h2 r (by rintro rfl; exact hn.1 hr)
        rw [e1, e2]
      rw [this]
      omega
    · obtain ⟨e1, e2⟩ := h2 q hq
      rw [e1, e2]
      have := ih hn.2 ((List.mem_cons.1 hp).resolve_left (fun h => hq h.symm))
      omega

theorem run_bounded {code : Kind → Option Body} (hcode : Shapes fal cl code) {v₀ : Option V} {ps : List Nat}
    (hps : ps.Nodup) {s' : St V E} : ∀ (sch : List (Nat × Act V E)) (s : St V E), Inv fal cl v₀ s →
    (∀ p, p ∉ ps → s.pc p = .idle) → (∀ x ∈ sch, ∀ c, x.2 ≠ .call c) → run code s sch = some s' →
    sch.length ≤ toDo s ps := by
  intro sch
  induction sch with
  | nil => intros; simp
  | cons x sch ih =>
    intro s h hid hc hr
    obtain ⟨p, a⟩ := x
    simp only [run, Option.bind_eq_some_iff] at hr
    obtain ⟨s₁, h1, h2⟩ := hr
    have hlt := less_step h (hc (p, a) (by simp)) h1
    have hp : p ∈ ps := by
      apply Classical.byContradiction
      intro hn
      have := hlt.1
      rw [hid p hn] at this
      simp [weight] at this
    have h3 := toDo_step hlt hps hp
    have h4 := ih s₁ (inv_step hcode h h1) (by
      intro q hq
      rw [(hlt.2 q (by rintro rfl; exact hq hp)).1]; exact hid q hq) (fun x hx => hc x (by simp [hx])) h2
    simp only [List.length_cons]
    omega

theorem reach_run {code : Kind → Option Body} {v₀ : Option V} : ∀ (sch : List (Nat × Act V E)) {s s' : St V E},
    Reach code v₀ s → run code s sch = some s' → Reach code v₀ s'
  | [], s, s', h, hr => by cases hr; exact h
  | (p, a) :: sch, s, s', h, hr => by
    simp only [run, Option.bind_eq_some_iff] at hr
    obtain ⟨s₁, h1, h2⟩ := hr
    exact reach_run sch (.step h h1) h2

end Verif.Proof.Calls
