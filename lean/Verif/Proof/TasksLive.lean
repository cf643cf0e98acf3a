import Verif.Proof.Tasks
/-!
# Tasks calling helpers: who waits for whom, and that everything ends (helper lemmas)
-/

namespace Verif.Proof.Tasks
open Verif.Spec Verif.Model Verif.Model.Args Verif.Model.Tasks
open Verif.Model.Method hiding put
open Verif.Model.AsyncMixed (Fr frame)
open Verif.Proof.AsyncMixed (num sum_same sum_erase sum_one sum_two)

set_option linter.unusedSectionVars false
set_option linter.unusedSimpArgs false
variable {F L V W E : Type} [DecidableEq F] [DecidableEq L] {eqv : Option W → Option W → Bool}
  {dep : F ⊕ L → F ⊕ L → Prop} {v₀ : F → Option V} {w₀ : L → Option W} {fal cl : F → Bool}
  {lazyCode : F → Kind → Option Body} {lockCode : L → Kind → Option Body} {s s' : St F L V W E}

/-! ## The containers under the helpers -/

/-- Is a frame at work in its container, or does it have a guard there? -/
def atWork (s : St F L V W E) (f : Fr F) : Bool := !AsyncMixed.gone (AsyncMixed.look (containers s) f)

/-- The containers, with the frames which are at work in them. -/
def proj (s : St F L V W E) : AsyncMixed.St F L V (Option W) E :=
  { containers s with stack := fun t => (s.stack t).filter (atWork s) }

theorem mem_proj {t : Nat} {f : Fr F} :
    f ∈ (proj s).stack t ↔ f ∈ s.stack t ∧ AsyncMixed.gone (AsyncMixed.look (containers s) f) = false := by
  simp [proj, atWork]

theorem look_proj (f : Fr F) : AsyncMixed.look (proj s) f = AsyncMixed.look (containers s) f := by
  cases f <;> rfl

/-- The user runs, as the containers see it. -/
theorem atUser_container (hp : Pool fal cl eqv dep v₀ w₀ s) {f : Fr F} (h : atUser (look s f) = true) :
    AsyncMixed.atUser (AsyncMixed.look (containers s) f) = true := by
  cases f with
  | lazy i p =>
    simp only [look, atUser_lazy] at h
    exact user_user i (hp.obj i) h
  | lock p =>
    simp only [look] at h
    cases hpc : s.lk.pc p <;> simp [hpc, atUser, Tasks.guard, building] at h
    have hc := lidle_idle hp.lk hpc
    cases hh : s.lk.c.held p with
    | nil => simp [hh] at h
    | cons g gs => simp [AsyncMixed.look, containers, hc, hh, AsyncMixed.atUser]

/-- What the containers have in hand while the user runs, the frame has in hand. -/
theorem hand_container (hp : Pool fal cl eqv dep v₀ w₀ s) {f : Fr F} (h : atUser (look s f) = true) {r : F ⊕ L}
    (hr : r ∈ AsyncMixed.hand (AsyncMixed.look (containers s) f)) : r ∈ hand (look s f) := by
  cases f with
  | lazy i p =>
    simp only [AsyncMixed.look, AsyncMixed.hand] at hr
    split at hr
    · cases hr
    · exact hr
  | lock p =>
    simp only [look] at h
    cases hpc : s.lk.pc p <;> simp [hpc, atUser, Tasks.guard, building] at h
    have hc := lidle_idle hp.lk hpc
    simpa [AsyncMixed.look, containers, hc, AsyncMixed.hand, AsyncMixed.during, look, hand] using hr

/-- What a container waits for, the frame waits for. -/
theorem targets_container (hp : Pool fal cl eqv dep v₀ w₀ s) {f : Fr F} {r : F ⊕ L}
    (hr : r ∈ AsyncMixed.targets (AsyncMixed.look (containers s) f)) : r ∈ targets (look s f) := by
  cases f with
  | lazy i p =>
    simp only [AsyncMixed.look, AsyncMixed.mem_targets_lazy] at hr
    simp only [look, mem_targets_lazy]
    exact ⟨queued_waits (hp.obj i) hr.1, hr.2⟩
  | lock p =>
    simp only [AsyncMixed.look, AsyncMixed.mem_targets_lock] at hr
    simp only [look, mem_targets_lock]
    rcases hr with ⟨k, h1, h2⟩ | ⟨i, j, h1, h2⟩
    · exact ⟨k, ltg_lwaits hp.lk (.inl h1), h2⟩
    · exact ⟨j, ltg_lwaits hp.lk (.inr ⟨i, h1⟩), h2⟩

theorem gone_container (hp : Pool fal cl eqv dep v₀ w₀ s) {f : Fr F} (h : gone (look s f) = true) :
    AsyncMixed.gone (AsyncMixed.look (containers s) f) = true := by
  cases f with
  | lazy i p =>
    simp only [look, gone_lazy] at h
    exact AsyncMixed.gone_lazy.2 (idle_idle (hp.obj i) h)
  | lock p =>
    simp only [look, gone_lock] at h
    exact AsyncMixed.gone_lock.2 ⟨lidle_idle hp.lk h.1, h.2⟩

theorem proj_inv (hi : Inv fal cl eqv dep v₀ w₀ s) : AsyncMixed.Inv eqv v₀ w₀ (proj s) := by
  refine ⟨⟨fun i => (hi.pool.obj i).reach, lreach_mono hi.pool.lk.reach (fun _ _ _ => trivial), hi.pool.waits, hi.pool.once,
    fun p => base_hold hi.pool.lk (hi.pool.base p), fun p => base_short hi.pool.lk (hi.pool.base p)⟩,
    ?_, ?_, ?_, ?_, ?_, ?_, hi.kids, hi.kidsOnce, hi.up⟩
  · intro t f hf
    rw [mem_proj] at hf
    exact ⟨(hi.inside t f hf.1).1, by rw [look_proj]; exact hf.2⟩
  · intro f hf
    rw [look_proj] at hf
    have hg : gone (look s f) = false := by
      cases h : gone (look s f)
      · rfl
      · rw [gone_container hi.pool h] at hf; cases hf
    obtain ⟨t, ht⟩ := hi.owner f hg
    exact ⟨t, mem_proj.2 ⟨ht, hf⟩⟩
  · intro t u f ht hu
    exact hi.uniq t u f (mem_proj.1 ht).1 (mem_proj.1 hu).1
  · intro t; exact (hi.nodup t).filter _
  · intro t f g hf hg h1 h2
    rw [look_proj] at h1 h2
    have key : ∀ f, AsyncMixed.atUser (AsyncMixed.look (containers s) f) = false → atUser (look s f) = false := by
      intro f hf
      cases h : atUser (look s f)
      · rfl
      · rw [atUser_container hi.pool h] at hf; cases hf
    exact hi.one t f g (mem_proj.1 hf).1 (mem_proj.1 hg).1 (key f h1) (key g h2)
  · intro t ht
    unfold AsyncMixed.atRest
    rw [List.all_eq_true]
    intro f hf
    rw [look_proj]
    exact atUser_container hi.pool (rest_user (hi.rest t ht) (mem_proj.1 hf).1)

theorem proj_ord (hi : Inv fal cl eqv dep v₀ w₀ s) (ho : Ord dep s) : AsyncMixed.Ord dep (proj s) := by
  constructor
  · intro u t f r g h hw hf hr hg hgf hh
    rw [look_proj] at hr hh
    have hf' := (mem_proj.1 hf).1
    have hg' := (mem_proj.1 hg).1
    have hr' := targets_container hi.pool hr
    have hu : atUser (look s g) = true := by
      rcases awaits_kids hi hw with rfl | hk
      · cases h : atUser (look s g)
        · exact absurd (hi.one u g f hg' hf' h (wants_not_user hi.pool hr')) hgf
        · rfl
      · exact rest_user (hi.rest u hk) hg'
    exact ho.all u t f r g h hw hf' hr' hg' hgf (hand_container hi.pool hu hh)
  · intro t f i j hf hp
    have hlo := Proof.AsyncLocks.ord_reach hi.pool.lk.reach
    rw [look_proj] at hp
    cases f with
    | lazy i p => cases hp
    | lock p =>
      simp only [AsyncMixed.look, containers, AsyncMixed.pair] at hp
      cases hpc : s.lk.c.pc p <;> simp [hpc, AsyncMixed.sides] at hp
      · obtain ⟨rfl, rfl⟩ := hp
        exact (hlo.first p _ _ hpc).2
      · obtain ⟨rfl, rfl⟩ := hp
        exact (hlo.wait p _ (by rw [hpc]; rfl)).2 _ (by rw [hpc]; simp [AsyncLocks.temps])

theorem proj_waits {t u : Nat} (h : AsyncMixed.WaitsFor (proj s) t u) : WaitsFor s t u := by
  cases h with
  | branch h => exact .branch h
  | before h1 h2 h3 h4 h5 =>
    rw [look_proj] at h2
    exact .before (mem_proj.1 h1).1 h2 h3 h4 (mem_proj.1 h5).1
  | owner h1 h2 h3 h4 h5 =>
    rw [look_proj] at h2
    exact .owner (mem_proj.1 h1).1 h2 h3 h4 (mem_proj.1 h5).1
  | reader h1 h2 h3 h4 h5 h6 =>
    rw [look_proj] at h2 h4
    exact .reader (mem_proj.1 h1).1 h2 h3 h4 h5 (mem_proj.1 h6).1

theorem proj_inside {t : Nat} (h : AsyncMixed.Inside (proj s) t) : Inside s t := by
  rcases h with h | h | h
  · left; intro hc
    exact h (by simp [proj, hc])
  · exact .inr (.inl h)
  · exact .inr (.inr h)

/-- If the code of the library cannot move then it is the container which cannot. -/
theorem proj_stuck (hi : Inv fal cl eqv dep v₀ w₀ s) {t : Nat} (h : Stuck lazyCode lockCode eqv s t) :
    AsyncMixed.Stuck eqv (proj s) t := by
  rcases h with h | ⟨f, h1, h2, h3⟩
  · exact .inl h
  right
  have hg := (hi.inside t f h1).2
  have key : AsyncMixed.gone (AsyncMixed.look (containers s) f) = false ∧
      AsyncMixed.atUser (AsyncMixed.look (containers s) f) = false ∧ (AsyncMixed.fstep eqv (proj s) f .go).isNone = true := by
    cases f with
    | lazy i p =>
      simp only [look, atUser_lazy] at h2
      have hne : (s.obj i).pc p ≠ .idle := by
        intro hc; simp [look, hc, gone] at hg
      simp only [fstep] at h3
      split at h3
      · rename_i hq
        simp only [Option.isNone_map, Option.isNone_iff_eq_none, AsyncCalls.step] at h3
        obtain ⟨e1, e2, e3⟩ := go_none (L := L) (W := Option W) i (hi.pool.obj i) h2 hne h3
        refine ⟨?_, e2, ?_⟩
        · cases hx : AsyncMixed.gone (AsyncMixed.look (containers s) (.lazy i p))
          · rfl
          · exact absurd (AsyncMixed.gone_lazy.1 hx) e1
        · simp only [AsyncMixed.fstep, proj, containers]
          simp [e3]
      · rename_i hq
        have hqu : AsyncMulti.queued ((s.obj i).c.pc p) = true := by
          cases hx : AsyncMulti.queued ((s.obj i).c.pc p)
          · exact absurd (.inl hx) hq
          · rfl
        have ht : (.inl i : F ⊕ L) ∈ AsyncMixed.targets (AsyncMixed.look (containers s) (.lazy i p)) :=
          AsyncMixed.mem_targets_lazy.2 ⟨hqu, rfl⟩
        refine ⟨?_, AsyncMixed.wants_not_user ht, ?_⟩
        · cases hx : AsyncMixed.gone (AsyncMixed.look (containers s) (.lazy i p))
          · rfl
          · have hx' : (s.obj i).c.pc p = .idle := AsyncMixed.gone_lazy.1 hx
            rw [hx'] at hqu; cases hqu
        · simp only [AsyncMixed.fstep]
          rw [if_neg (show ¬ (AsyncMulti.queued (((proj s).obj i).pc p) = false ∨ ((proj s).queue i).head? = some p) from hq)]
          rfl
    | lock p =>
      have hne : s.lk.pc p ≠ .idle := by
        intro hc
        simp only [look, hc] at hg h2
        cases hh : s.lk.c.held p with
        | nil => simp [hh, gone] at hg
        | cons => simp [hh, atUser, Tasks.guard] at h2
      simp only [fstep, Option.isNone_map, Option.isNone_iff_eq_none, AsyncLockCalls.step] at h3
      have hst := lgo_none hi.pool.lk hne h3
      have hw : AsyncLocks.wants (s.lk.c.pc p) ≠ none := by
        obtain ⟨k, hk, _⟩ := Proof.AsyncLocks.stuck_cases (Proof.AsyncLocks.core_reach hi.pool.lk.reach) hst
        rw [hk]; simp
      obtain ⟨k, hk⟩ := Option.ne_none_iff_exists'.1 hw
      have ht : (.inr k : F ⊕ L) ∈ AsyncMixed.targets (AsyncMixed.look (containers s) (.lock p)) :=
        AsyncMixed.mem_targets_lock.2 (.inl ⟨k, hk, rfl⟩)
      refine ⟨?_, AsyncMixed.wants_not_user ht, ?_⟩
      · cases hx : AsyncMixed.gone (AsyncMixed.look (containers s) (.lock p))
        · rfl
        · exact absurd (AsyncMixed.gone_lock.1 hx).1 hst.1
      · simp only [AsyncMixed.fstep, proj, containers, Option.isNone_map, Option.isNone_iff_eq_none]
        exact hst.2
  exact ⟨f, mem_proj.2 ⟨h1, key.1⟩, by rw [look_proj]; exact key.2.1, key.2.2⟩

theorem inside_of_mem {t : Nat} {f : Fr F} (h : f ∈ s.stack t) : Inside s t :=
  .inl (by intro hc; rw [hc] at h; cases h)

theorem proj_wf (hac : ∀ r, ¬ Relation.TransGen dep r r) {n : Nat} (hn : ∀ t, n ≤ t → ¬ Inside s t) :
    WellFounded fun r' r => dep r r' ∧ ∃ t, ∃ f ∈ (proj s).stack t, AsyncMixed.wants (AsyncMixed.look (proj s) f) = some r' := by
  refine Subrelation.wf ?_ (Proof.Mixed.acyclic_wf hac
    ((List.range n).flatMap fun t => ((proj s).stack t).flatMap fun f => (AsyncMixed.wants (AsyncMixed.look (proj s) f)).toList))
  rintro r' r ⟨h1, t, f, h2, h3⟩
  refine ⟨h1, ?_⟩
  simp only [List.mem_flatMap, List.mem_range]
  refine ⟨t, ?_, f, h2, by simp [h3]⟩
  apply Classical.byContradiction
  intro hlt
  exact hn t (by omega) (inside_of_mem (mem_proj.1 h2).1)

theorem stuck_inside {t : Nat} (h : Stuck lazyCode lockCode eqv s t) : Inside s t := by
  rcases h with h | ⟨f, h, _⟩
  · exact .inr (.inl h)
  · exact inside_of_mem h

/-- Whoever waits, waits in the end for somebody who can move. -/
theorem chain_inside (hgood : Good W fal cl lazyCode lockCode) (hac : ∀ r, ¬ Relation.TransGen dep r r)
    (h : Reach lazyCode lockCode eqv dep v₀ w₀ s) {t : Nat} (ht : Inside s t) :
    ∃ u, Relation.ReflTransGen (WaitsFor s) t u ∧ Inside s u ∧ ¬ Stuck lazyCode lockCode eqv s u := by
  by_cases hs : Stuck lazyCode lockCode eqv s t
  · have hi := inv_reach hgood h
    have hpi := proj_inv hi
    obtain ⟨n, hn⟩ := finite_inside hgood h
    have hn' : ∀ t, n ≤ t → ¬ AsyncMixed.Inside (proj s) t := fun t ht hc => hn t ht (proj_inside hc)
    have lift : ∀ {a b}, Relation.ReflTransGen (AsyncMixed.WaitsFor (proj s)) a b → Relation.ReflTransGen (WaitsFor s) a b :=
      fun hab => Relation.ReflTransGen.mono (fun _ _ h => proj_waits h) _ _ hab
    have down : ∀ {u}, AsyncMixed.Inside (proj s) u → ¬ AsyncMixed.Stuck eqv (proj s) u →
        Inside s u ∧ ¬ Stuck lazyCode lockCode eqv s u := fun h1 h2 => ⟨proj_inside h1, fun hc => h2 (proj_stuck hi hc)⟩
    obtain ⟨v, _, h2, h3, h4⟩ := AsyncMixed.descend hpi hn' t (AsyncMixed.stuck_inside (proj_stuck hi hs))
    by_cases hv : AsyncMixed.Stuck eqv (proj s) v
    · obtain ⟨r, p, h5, h6, _⟩ := AsyncMixed.stuck_wants hpi h4 hv
      obtain ⟨u, h7, h8, h9⟩ := AsyncMixed.chain (proj_wf hac hn) hpi (proj_ord hi (ord_reach hgood h)) hn' r v p h5 h6 hv
      exact ⟨u, (lift h2).trans (lift h7), down h8 h9⟩
    · exact ⟨v, lift h2, down h3 hv⟩
  · exact ⟨t, .refl, ht, hs⟩

/-! ## Everything ends -/

theorem building_user {w : View F L V W E} (h : building w = true) : atUser w = true := by
  simp [atUser, h]

theorem act_some {t : Nat} {f : Fr F} {b : FAct L V W E} (h1 : f ∈ s.stack t)
    (h2 : ∀ g ∈ s.stack t, g = f ∨ atUser (look s g) = true) (h3 : s.kids t = []) (h4 : may s t f = true)
    (h5 : (fstep lazyCode lockCode eqv s f b).isSome = true) : (step lazyCode lockCode eqv s t (.act f b)).isSome = true := by
  simp only [step]
  rw [if_pos ⟨h1, alone_iff.2 ⟨h2, h3⟩, h4⟩, Option.isSome_map]
  exact h5

/-- A task inside which is not stuck can do something which begins nothing new. -/
theorem quiet_enabled (hi : Inv fal cl eqv dep v₀ w₀ s) {t : Nat} (ht : Inside s t) (hs : ¬ Stuck lazyCode lockCode eqv s t)
    (o : Outcome V E) : ∃ a, quiet a = true ∧ eager o a ∧ Allowed dep s t a ∧ (step lazyCode lockCode eqv s t a).isSome = true := by
  have hk : s.kids t = [] := by
    apply Classical.byContradiction
    intro hc; exact hs (.inl hc)
  by_cases hu : ∃ f ∈ s.stack t, atUser (look s f) = false
  · obtain ⟨f, h1, h2⟩ := hu
    refine ⟨.act f .go, rfl, trivial, trivial, act_some h1 ?_ hk ?_ ?_⟩
    · intro g hg
      by_cases hgu : atUser (look s g) = false
      · exact .inl (hi.one t g f hg h1 hgu h2)
      · right; simpa using hgu
    · cases hb : building (look s f)
      · simp [may, hb]
      · rw [building_user hb] at h2; cases h2
    · cases hx : fstep lazyCode lockCode eqv s f .go
      · exact absurd (.inr ⟨f, h1, h2, by simp [hx]⟩) hs
      · rfl
  · have hall : ∀ f ∈ s.stack t, atUser (look s f) = true := by
      intro f hf
      cases hx : atUser (look s f)
      · exact absurd ⟨f, hf, hx⟩ hu
      · rfl
    cases hin : innermost s t with
    | some f =>
      have h1 : f ∈ s.stack t := List.mem_of_find?_eq_some hin
      have h2 : building (look s f) = true := by simpa using List.find?_some hin
      refine ⟨.act f (.finish o), rfl, rfl, trivial, act_some h1 (fun g hg => .inr (hall g hg)) hk (by simp [may, hin]) ?_⟩
      cases f with
      | lock p => cases h2
      | lazy i p =>
        simp only [look] at h2
        cases hpc : (s.obj i).pc p <;> simp [hpc, building] at h2
        simp only [fstep, Option.isSome_map, AsyncCalls.step, AsyncCalls.finish, hpc, Async.builderReturns]
        revert h2
        cases (s.obj i).c.pc p <;> simp [AsyncMulti.building]
        cases o <;> simp
    | none =>
      cases hst : s.stack t with
      | nil =>
        have hp : s.par t ≠ none := by
          rcases ht with ht | ht | ht
          · exact absurd hst ht
          · exact absurd hk ht
          · exact ht
        obtain ⟨u, hu⟩ := Option.ne_none_iff_exists'.1 hp
        refine ⟨.ret, rfl, trivial, ?_, ?_⟩
        · intro v hv x hx hxt f hf r hr g hg
          rw [hst] at hg; cases hg
        · simp [step, hu, hk, hst]
      | cons f fs =>
        have h1 : f ∈ s.stack t := by rw [hst]; exact .head _
        have h2 : building (look s f) = false := by
          have := List.find?_eq_none.1 hin f h1
          simpa using this
        have h3 : Tasks.guard (look s f) = true := by
          have := hall f h1
          rw [atUser, h2, Bool.or_false] at this
          exact this
        have key : ∀ b, (fstep lazyCode lockCode eqv s f b).isSome = true →
            (step lazyCode lockCode eqv s t (.act f b)).isSome = true := fun b hb =>
          act_some h1 (fun g hg => .inr (hall g hg)) hk (by simp [may, h2]) hb
        cases f with
        | lazy i p =>
          simp only [look] at h3
          cases hpc : (s.obj i).pc p <;> simp [hpc, Tasks.guard] at h3
          have hg := keeps_guard (hi.pool.obj i) hpc
          refine ⟨.act _ .drop, rfl, trivial, trivial, key _ ?_⟩
          simp only [fstep, Option.isSome_map, AsyncCalls.step, AsyncCalls.dropGuard, hpc, Async.dropGuard]
          revert hg
          cases (s.obj i).c.pc p <;> simp [AsyncCalls.isGuard]
        | lock p =>
          simp only [look] at h3
          cases hpc : s.lk.pc p <;> simp [hpc, Tasks.guard] at h3
          cases hh : s.lk.c.held p with
          | nil => simp [hh] at h3
          | cons g gs =>
            obtain ⟨c', hc'⟩ := AsyncLockCalls.drop_enabled (lidle_idle hi.pool.lk hpc)
              (show g ∈ s.lk.c.held p by rw [hh]; exact .head _)
            exact ⟨.act _ (.dropLock g), rfl, trivial, trivial, key _ (by
              simp [fstep, AsyncLockCalls.step, AsyncLockCalls.dropGuard, hpc, hc'])⟩

/-- Steps left for a frame. -/
def frank (s : St F L V W E) : Fr F → Nat
  | .lazy i p => AsyncCalls.weight ((s.obj i).pc p) ((s.obj i).c.pc p)
  | .lock p => AsyncLockCalls.hload s.lk p

theorem frank_congr (h1 : s'.obj = s.obj) (h2 : s'.lk = s.lk) (f : Fr F) : frank s' f = frank s f := by
  cases f <;> simp [frank, h1, h2]

theorem frank_look {f : Fr F} (h : look s' f = look s f) : frank s' f = frank s f := by
  cases f with
  | lazy i p => simp only [look, View.lazy.injEq, true_and] at h; simp [frank, h.1, h.2]
  | lock p =>
    simp only [look, View.lock.injEq] at h
    simp [frank, AsyncLockCalls.hload, AsyncLocks.load, h.1, h.2.1, h.2.2]

theorem fstep_rank (hp : Pool fal cl eqv dep v₀ w₀ s) {f : Fr F} {b : FAct L V W E}
    (h : fstep lazyCode lockCode eqv s f b = some s') (hb : repeats b = false) : frank s' f < frank s f := by
  rcases fstep_cases h with ⟨i, p, o, b', rfl, ho, rfl, h1⟩ | ⟨p, l, b', rfl, hl, rfl, _, h1⟩
  · simpa [frank, put] using (AsyncCalls.less_step (hp.obj i) (h1.resolve_left (by simp [hb])) ho).1
  · exact (AsyncLockCalls.hload_step (h1.resolve_left (by simp [hb])) hl).1

/-- Steps left for a task. -/
def weight (s : St F L V W E) (t : Nat) : Nat :=
  ((s.stack t).map fun f => frank s f).sum + if s.par t = none then 0 else 1

theorem rank_le (hp : Pool fal cl eqv dep v₀ w₀ s) (f : Fr F) : frank s f ≤ 64 := by
  cases f with
  | lazy i p => exact AsyncCalls.weight_le (hp.obj i) p
  | lock p =>
    have h1 := AsyncLockCalls.hload_le hp.lk p
    have h2 := base_short hp.lk (hp.base p)
    simp only [frank]; omega

theorem weight_le (hp : Pool fal cl eqv dep v₀ w₀ s) (t : Nat) : weight s t ≤ 64 * (s.stack t).length + 1 := by
  have : ∀ l : List (Fr F), (l.map fun f => frank s f).sum ≤ 64 * l.length := by
    intro l
    induction l with
    | nil => simp
    | cons f l ih =>
      have := rank_le hp f
      simp only [List.map_cons, List.sum_cons, List.length_cons]; omega
  have := this (s.stack t)
  unfold weight
  split <;> omega

/-- Steps left for a list of tasks. -/
def total (s : St F L V W E) (ts : List Nat) : Nat := (ts.map (weight s)).sum

theorem quiet_inside {t : Nat} {a : Act F L V W E} (hi : Inv fal cl eqv dep v₀ w₀ s) (ha : quiet a = true) (h : step lazyCode lockCode eqv s t a = some s') : Inside s t := by
  cases a with
  | call => cases ha
  | lock => cases ha
  | fork => cases ha
  | act f b => exact inside_of_mem (acted hi.pool h).mem
  | ret =>
    obtain ⟨u, h1, _⟩ := returned h
    exact .inr (.inr (by rw [h1]; simp))

theorem quiet_inside_step {t : Nat} {a : Act F L V W E} (hi : Inv fal cl eqv dep v₀ w₀ s) (ha : quiet a = true)
    (h : step lazyCode lockCode eqv s t a = some s') {u : Nat} (hu : Inside s' u) : Inside s u := by
  cases a with
  | call => cases ha
  | lock => cases ha
  | fork => cases ha
  | act f b =>
    have hc := acted hi.pool h
    by_cases hut : u = t
    · subst hut; exact inside_of_mem hc.mem
    · simpa [Inside, hc.stack, hc.kids, hc.par, upd_other _ _ hut] using hu
  | ret =>
    obtain ⟨v, h1, h2, h3, rfl⟩ := returned h
    have hvt := hi.up _ _ h1
    by_cases huv : u = v
    · subst huv
      exact .inr (.inl (by intro hc; have := (hi.kids u t).2 h1; rw [hc] at this; cases this))
    · by_cases hut : u = t
      · subst hut; exact .inr (.inr (by rw [h1]; simp))
      · simpa [Inside, upd_other _ _ huv, upd_other _ _ hut] using hu

theorem total_step {t : Nat} {a : Act F L V W E} (hi : Inv fal cl eqv dep v₀ w₀ s) (ha : quiet a = true)
    (h : step lazyCode lockCode eqv s t a = some s') {ts : List Nat} (hn : ts.Nodup) (hts : ∀ t, t ∉ ts → ¬ Inside s t) :
    total s' ts < total s ts := by
  have hin : ∀ u, Inside s u → u ∈ ts := fun u hu => Classical.byContradiction fun hc => hts u hc hu
  have ht := hin t (quiet_inside hi ha h)
  cases a with
  | call => cases ha
  | lock => cases ha
  | fork => cases ha
  | act f b =>
    have hc := acted hi.pool h
    obtain ⟨s₁, e1, e2, e3, _⟩ := hc.on
    have hb : repeats b = false := by cases b <;> first | rfl | cases ha
    have hr : frank s' f < frank s f := by rw [frank_congr e2 e3 f]; exact fstep_rank hi.pool e1 hb
    refine sum_one hn ht ?_ ?_
    · intro u hu
      have hl : (s.stack u).map (fun f => frank s' f) = (s.stack u).map fun f => frank s f := by
        refine List.map_congr_left ?_
        intro g hg
        exact frank_look (hc.same g (by rintro rfl; exact hu (hi.uniq _ _ _ hg hc.mem)))
      simp only [weight, hc.stack, hc.par, upd_other _ _ hu, hl]
    · have hl : ((s.stack t).erase f).map (fun f => frank s' f) = ((s.stack t).erase f).map fun f => frank s f := by
        refine List.map_congr_left ?_
        intro g hg
        exact frank_look (hc.same g (((hi.nodup t).mem_erase_iff.1 hg).1))
      simp only [weight, hc.stack, hc.par, upd_same]
      have h1 := sum_erase (fun f => frank s f) hc.mem
      have h2 := sum_erase (fun f => frank s' f) hc.mem
      rw [hl] at h2
      by_cases hg : gone (look s' f) = true
      · rw [if_pos hg, hl]; omega
      · rw [if_neg hg]; omega
  | ret =>
    obtain ⟨v, h1, h2, h3, rfl⟩ := returned h
    have hvt := hi.up _ _ h1
    have hv := hin v (.inr (.inl (by intro hc; have := (hi.kids v t).2 h1; rw [hc] at this; cases this)))
    have htv : t ≠ v := by omega
    have hlk : ∀ f, frank (E := E) { s with
      stack := upd (upd s.stack t []) v (s.stack t ++ s.stack v)
      kids := upd s.kids v ((s.kids v).erase t), par := upd s.par t none } f = frank s f := frank_congr rfl rfl
    refine sum_two hn ht hv htv ?_ ?_
    · intro c hct hcv
      simp only [weight, hlk, upd_other _ _ hct, upd_other _ _ hcv]
    · simp only [weight, hlk, upd_same, upd_other _ _ htv, upd_other _ _ (Ne.symm htv), List.map_append, List.sum_append,
        h1, List.map_nil, List.sum_nil, if_true, if_false, reduceCtorEq]
      omega

/-! ## The record -/

variable {g : List (Tagged F L V W E)}

theorem trace_reach (h : Trace lazyCode lockCode eqv dep v₀ w₀ s g) : Reach lazyCode lockCode eqv dep v₀ w₀ s := by
  induction h with
  | init => exact .init
  | step _ ha hs ih => exact .step ih ha hs

/-- The record of the async containers. -/
def HRec (s : St F L V W E) (g : List (Tagged F L V W E)) : Prop :=
  Whole.Rec (fun i => (s.obj i).log) s.lk.log s.next (fun i p => ∃ t, .lazy i p ∈ s.stack t) g

theorem hrec (hgood : Good W fal cl lazyCode lockCode) (h : Trace lazyCode lockCode eqv dep v₀ w₀ s g) : HRec s g := by
  induction h with
  | init =>
    constructor
    · intro i; rfl
    · rfl
    · intro _ _ _ h; cases h
    · rintro _ _ ⟨t, ht⟩; cases ht
    · rintro _ _ ⟨t, ht⟩; cases ht
    · rintro _ _ _ ⟨t, ht⟩; cases ht
    · intro _ _ _ _ _ h; cases h
  | @step s s' g t a ht ha hs ih =>
    cases a with
    | call j k v boom =>
      simp only [step] at hs
      split at hs
      · simp only [Option.map_eq_some_iff] at hs
        obtain ⟨o, ho, rfl⟩ := hs
        simp only [news, upd_same]
        refine ih.onLazy (p := s.next) (grows (a := .call (.helper k v boom)) ho) (.inl ⟨rfl, rfl⟩) ?_ ?_
        · funext k
          by_cases hk : k = j
          · subst hk; simp [upd]
          · simp [upd, hk]
        · rintro k q ⟨u, hu⟩
          simp only [upd] at hu
          split at hu
          · rename_i hut; subst hut
            rcases List.mem_cons.1 hu with h1 | h1
            · cases h1; exact .inr ⟨rfl, rfl⟩
            · exact .inl ⟨_, h1⟩
          · exact .inl ⟨u, hu⟩
      · cases hs
    | lock op =>
      simp only [step] at hs
      split at hs
      · simp only [Option.map_eq_some_iff] at hs
        obtain ⟨l, hl, rfl⟩ := hs
        refine ih.onLock (lgrows hl) (Nat.le_succ _) ?_
        rintro k q ⟨u, hu⟩
        simp only [upd] at hu
        split at hu
        · rename_i hut; subst hut
          rcases List.mem_cons.1 hu with h1 | h1
          · cases h1
          · exact ⟨_, h1⟩
        · exact ⟨u, hu⟩
      · cases hs
    | act f b =>
      have hact := acted (inv_reach hgood (trace_reach ht)).pool hs
      obtain ⟨s₁, h1, h2, h3, _⟩ := hact.on
      have hst : ∀ k q, (∃ u, .lazy k q ∈ s'.stack u) → ∃ u, .lazy k q ∈ s.stack u := by
        rintro k q ⟨u, hu⟩
        rw [hact.stack] at hu
        simp only [upd] at hu
        split at hu
        · rename_i hut; subst hut
          split at hu
          · exact ⟨_, List.mem_of_mem_erase hu⟩
          · exact ⟨_, hu⟩
        · exact ⟨u, hu⟩
      rcases fstep_cases h1 with ⟨i, p, o, b', rfl, ho, rfl, _⟩ | ⟨p, l, b', rfl, hl, rfl, _, _⟩
      · have e : s'.obj i = o := by rw [h2]; simp [put]
        have e2 : s'.lk = s.lk := h3
        simp only [news, e]
        have := ih.onLazy (n' := s.next) (mine' := fun i p => ∃ t, .lazy i p ∈ s'.stack t)
          (lg' := fun i => (s'.obj i).log) (grows ho) (.inr ⟨⟨t, hact.mem⟩, rfl⟩) ?_ fun k q hk => .inl (hst k q hk)
        · unfold HRec; rw [e2, hact.next]; exact this
        · funext k
          by_cases hk : k = i
          · subst hk; simp [h2, put, upd]
          · simp [h2, put, upd, hk]
      · have e : s'.lk = l := h3
        have e2 : s'.obj = s.obj := h2
        simp only [news, e]
        unfold HRec
        rw [e, e2, hact.next]
        exact ih.onLock (lgrows hl) (Nat.le_refl _) hst
    | fork c =>
      simp only [step] at hs
      split at hs
      · cases hs
        simp only [news, List.append_nil]
        exact ih
      · cases hs
    | ret =>
      simp only [step] at hs
      split at hs
      · rename_i u hu
        split at hs
        · cases hs
          simp only [news, List.append_nil]
          refine ih.keep ?_
          rintro k q ⟨x, hx⟩
          simp only [upd] at hx
          split at hx
          · rcases List.mem_append.1 hx with hx | hx <;> exact ⟨_, hx⟩
          · split at hx
            · cases hx
            · exact ⟨x, hx⟩
        · cases hs
      · cases hs

theorem all (hgood : Good W fal cl lazyCode lockCode) (h : Trace lazyCode lockCode eqv dep v₀ w₀ s g) :
    ∃ T τ, Disc (Model.Whole.whole g) T ∧
      Legal (Spec.Whole.Step (fun i => Spec.Calls.CallStep (fal i) (cl i))
        (Spec.LockCalls.CallStep (fun _ => false) (fun _ => false) eqv)) ⟨v₀, w₀⟩ (lins (Model.Whole.whole g)) τ ∧
      ((∀ t i p, .lazy i p ∉ s.stack t) → τ = ⟨fun i => (s.obj i).c.value, s.lk.c.val⟩) := by
  have hi := inv_reach hgood (trace_reach h)
  refine (hrec hgood h).all (fun i => ?_) ⟨_, hi.pool.lk.disc, hi.pool.lk.legal⟩
  obtain ⟨c, h1, h2⟩ := (hi.pool.obj i).legal
  refine ⟨_, c, (hi.pool.obj i).disc, h2, fun hq => ?_⟩
  obtain ⟨L', hr, _⟩ := Async.sim (hi.pool.obj i).reach
  obtain ⟨_, c', h3, _, h4⟩ := Sync.logInv_reachC hr
  have : c = c' := legal_det h1 h3
  subst this
  refine h4 fun p => ?_
  cases hg : gone (look s (.lazy i p)) with
  | true =>
    have hl := (hi.pool.obj i).loc p
    rw [gone_lazy.1 hg] at hl
    revert hl
    show _ → Sync.mid (Async.emb ((s.obj i).c.pc p)) = false
    generalize (s.obj i).c.pc p = x
    intro hl
    cases hl; rfl
  | false =>
    obtain ⟨t, ht⟩ := hi.owner _ hg
    exact absurd ht (hq t i p)

end Verif.Proof.Tasks
