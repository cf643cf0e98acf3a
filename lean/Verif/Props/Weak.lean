import Verif.Proof.WeakAsync
/-!
# Lazy containers without a global order of memory accesses: C89

Model: `Verif.Model.Weak`, on top of `Verif.Model.Sync` and `Verif.Model.Async`. Specification: `Verif.Spec.Ordered`.
-/

namespace Verif.Props.Weak
open Verif.Spec Verif.Model Verif.Model.Weak Verif.Proof Verif.Proof.Weak Verif.Proof.WeakAsync

variable {V E : Type} {v₀ : Option V}

/-- A schedule of the model is a run. -/
theorem reach_run {σ A : Type} {M : Machine σ A V E} {b : σ} {f : Bool} {s s' : St σ V E} {l : List (Nat × Act A)} (h : Reach M b f s)
    (hr : run M s l = some s') : Reach M b f s' := by
  induction l generalizing s with
  | nil => simp [run] at hr; exact hr ▸ h
  | cons x l ih =>
    obtain ⟨p, a⟩ := x
    simp only [run, Option.bind_eq_some_iff] at hr
    obtain ⟨s₁, h1, h2⟩ := hr
    exact ih (.step h h1) h2

/-! ## Linearizable with respect to happens-before -/

/-- C89 (sync): whatever stores the loads of the flag see and whether or not they synchronise with them, the calls can be put in one order which explains every answer and
agrees with happens-before. -/
theorem C89_sync_hb_linearizable {s : St (Sync.St V E) V E} (h : Reach sync (Sync.init v₀) v₀.isSome s) :
    HbLinearizable CellStep v₀ s.log := by
  have := all_sync h
  obtain ⟨W, hW⟩ := this.ln
  exact ln_hb (sound_sync v₀) this.base hW

/-- C89 (async). -/
theorem C89_async_hb_linearizable {s : St (Async.St V E) V E} (h : Reach async (Async.init v₀) v₀.isSome s) :
    HbLinearizable CellStep v₀ s.log := by
  have := all_async h
  obtain ⟨W, hW⟩ := this.ln
  exact ln_hb (sound_async v₀) this.base hW

/-! ## No data races -/

/-- C89 (sync): of two accesses to the content, one of them a write, one happens before the other. -/
theorem C89_sync_race_free {s : St (Sync.St V E) V E} (h : Reach sync (Sync.init v₀) v₀.isSome s) : RaceFree s.acc :=
  (all_sync h).rc.free

/-- C89 (async). -/
theorem C89_async_race_free {s : St (Async.St V E) V E} (h : Reach async (Async.init v₀) v₀.isSome s) : RaceFree s.acc :=
  (all_async h).rc.free

/-! ## Nothing is lost -/

/-- C89 (sync): every run of the container with a global order is a run here, with the same history. -/
theorem C89_sync_interleavings {t : Sync.St V E} (h : Sync.Reach v₀ t) :
    ∃ s, Reach sync (Sync.init v₀) v₀.isSome s ∧ s.base = t ∧ s.log.map OEv.ev = hist t.log :=
  plain_reach (sound_sync v₀) plain_sync .init rfl (fun _ => rfl) (fun _ => rfl) (fun _ => rfl) rfl (B := Sync.Reach v₀)
    (fun Q h0 hs t ht => by
      induction ht with
      | init => exact h0
      | step _ h1 ih => exact hs _ _ _ _ ih h1) h

/-- C89 (async). -/
theorem C89_async_interleavings {t : Async.St V E} (h : Async.Reach v₀ t) :
    ∃ s, Reach async (Async.init v₀) v₀.isSome s ∧ s.base = t ∧ s.log.map OEv.ev = hist t.log :=
  plain_reach (sound_async v₀) plain_async .init rfl (fun _ => rfl) (fun _ => rfl) (fun _ => rfl) rfl (B := Async.Reach v₀)
    (fun Q h0 hs t ht => by
      induction ht with
      | init => exact h0
      | step _ h1 ih => exact hs _ _ _ _ ih h1) h

/-! ## `is_set` after the value has been published -/

/-- A value stays as long as nobody clears. -/
theorem stays {c c' : Option V} {l : List (Done (Op V) (Res V E))} (h : Legal CellStep c l c') (hc : c.isSome = true)
    (hn : ∀ d ∈ l, d.op ≠ .clear ∧ d.op ≠ .take) : c'.isSome = true := by
  induction h with
  | nil => exact hc
  | @cons c c₁ c' d l h1 _ ih =>
    refine ih ?_ fun d hd => hn d (.tail _ hd)
    have hd := hn d (.head _)
    revert h1 hd
    generalize d.op = op
    generalize d.ret = r
    intro h1 hd
    cases h1 <;> simp_all

/-- A `set` comes before an `is_set`, nobody clears: the answer is `true`. -/
theorem seen_after {c' : Option V} {l : List (Done (Op V) (Res V E))} (h : Legal CellStep v₀ l c') {i j : CallId} {v : V} {r r' : Res V E}
    {b : Bool} (hb : Before l ⟨i, .set v, r⟩ ⟨j, .isSet, r'⟩) (hr : r'.ret = .bool b)
    (hn : ∀ d ∈ l, d.op ≠ .clear ∧ d.op ≠ .take) : b = true := by
  obtain ⟨l₁, l₂, l₃, rfl⟩ := hb
  rw [List.append_assoc] at h
  obtain ⟨c₁, _, h2⟩ := Sync.legal_append h
  rw [List.cons_append] at h2
  cases h2 with
  | cons h3 h4 =>
    obtain ⟨c₂, h5, h6⟩ := Sync.legal_append h4
    cases h3
    have h7 := stays h5 rfl fun d hd => hn d (by simp [hd])
    cases h6 with
    | cons h8 _ =>
      dsimp only at h8
      cases h8
      simp at hr
      rw [← hr]; exact h7

/-- Calls are invoked once. -/
theorem inv_once {σ A : Type} {M : Machine σ A V E} {R : σ → Prop} {flag : σ → Bool} {me : σ → Nat → CallId} (S : Sound M v₀ R flag me)
    {s : St σ V E} (h : All M v₀ R flag me s) {i : CallId} {op op' : Op V} (h1 : ∃ x ∈ s.log, x.ev = .inv i op)
    (h2 : ∃ x ∈ s.log, x.ev = .inv i op') : op = op' := by
  obtain ⟨W, hW⟩ := h.ln
  obtain ⟨t, hd⟩ := S.disc h.base
  exact hd.inv_unique (mem_hist_inv.1 ((hW.inv _ _).2 h1)) (mem_hist_inv.1 ((hW.inv _ _).2 h2))

theorem published {σ A : Type} {M : Machine σ A V E} {R : σ → Prop} {flag : σ → Bool} {me : σ → Nat → CallId} (S : Sound M v₀ R flag me)
    {s : St σ V E} (h : All M v₀ R flag me s) {w x y z : OEv (Op V) (Res V E)} (hw : w ∈ s.log) (hx : x ∈ s.log) (hy : y ∈ s.log)
    (hz : z ∈ s.log) {i j : CallId} {v : V} {r r' : Res V E} {b : Bool} (hwe : w.ev = .inv i (.set v)) (hxe : x.ev = .res i r)
    (hye : y.ev = .inv j .isSet) (hze : z.ev = .res j r') (hr : r'.ret = .bool b) (hxy : x.num ∈ y.past)
    (hn : ∀ u ∈ s.log, ∀ k, u.ev ≠ .inv k .clear ∧ u.ev ≠ .inv k .take) : b = true := by
  obtain ⟨W, hW⟩ := h.ln
  obtain ⟨l, c, h1, _, h3, h4, h5⟩ := ln_hb S h.base hW
  obtain ⟨op, h6, h7⟩ := h4 x hx i r hxe
  obtain ⟨op', h8, h9⟩ := h4 z hz j r' hze
  have hop := inv_once S h h6 ⟨w, hw, hwe⟩
  have hop' := inv_once S h h8 ⟨y, hy, hye⟩
  subst hop hop'
  refine seen_after h1 (h5 _ h7 _ h9 x hx y hy hxe hye hxy) hr fun d hd => ?_
  obtain ⟨u, hu, hue⟩ := h3 d hd
  constructor
  · intro hc; rw [hc] at hue; exact (hn u hu _).1 hue
  · intro hc; rw [hc] at hue; exact (hn u hu _).2 hue

/-- C89 (sync): if a `set` was answered before an `is_set` was called, in the sense of happens-before, and nobody clears, then
`is_set` says `true`. -/
theorem C89_sync_published {s : St (Sync.St V E) V E} (h : Reach sync (Sync.init v₀) v₀.isSome s)
    {w x y z : OEv (Op V) (Res V E)} (hw : w ∈ s.log) (hx : x ∈ s.log) (hy : y ∈ s.log) (hz : z ∈ s.log) {i j : CallId} {v : V}
    {r r' : Res V E} {b : Bool} (hwe : w.ev = .inv i (.set v)) (hxe : x.ev = .res i r) (hye : y.ev = .inv j .isSet)
    (hze : z.ev = .res j r') (hr : r'.ret = .bool b) (hxy : x.num ∈ y.past)
    (hn : ∀ u ∈ s.log, ∀ k, u.ev ≠ .inv k .clear ∧ u.ev ≠ .inv k .take) : b = true :=
  published (sound_sync v₀) (all_sync h) hw hx hy hz hwe hxe hye hze hr hxy hn

/-- C89 (async). -/
theorem C89_async_published {s : St (Async.St V E) V E} (h : Reach async (Async.init v₀) v₀.isSome s)
    {w x y z : OEv (Op V) (Res V E)} (hw : w ∈ s.log) (hx : x ∈ s.log) (hy : y ∈ s.log) (hz : z ∈ s.log) {i j : CallId} {v : V}
    {r r' : Res V E} {b : Bool} (hwe : w.ev = .inv i (.set v)) (hxe : x.ev = .res i r) (hye : y.ev = .inv j .isSet)
    (hze : z.ev = .res j r') (hr : r'.ret = .bool b) (hxy : x.num ∈ y.past)
    (hn : ∀ u ∈ s.log, ∀ k, u.ev ≠ .inv k .clear ∧ u.ev ≠ .inv k .take) : b = true :=
  published (sound_async v₀) (all_async h) hw hx hy hz hwe hxe hye hze hr hxy hn

/-! ## Real time -/

/-- Process 0 sets the value 7 and returns. Then process 1 asks `is_set`, seeing the store with index `k`. -/
def stale (k : Nat) : List (Nat × Act (Sync.Act Nat String)) :=
  [(0, .run (.call (.set 7)) 0 true), (0, .run .go 0 true), (0, .run .go 0 true), (0, .run .go 0 true), (0, .run .go 0 true), (0, .run .go 0 true),
   (1, .run (.call .isSet) 0 true), (1, .run .go k true), (1, .run .go 0 true)]

/-- The same, but process 0 tells process 1 by other means that it has returned. -/
def told (k : Nat) : List (Nat × Act (Sync.Act Nat String)) :=
  (stale k).take 6 ++ [(0, .post), (1, .take 0)] ++ (stale k).drop 6

/-- The history of the first schedule. -/
def staleLog (b : Bool) : List (HEv (Op Nat) (Res Nat String)) :=
  [.inv ⟨0, 0⟩ (.set 7), .res ⟨0, 0⟩ ⟨none, .old none⟩, .inv ⟨1, 0⟩ .isSet, .res ⟨1, 0⟩ ⟨none, .bool b⟩]

/-- The answer `false` contradicts real time. -/
theorem stale_not_linearizable : ¬ Linearizable CellStep none (staleLog false) := by
  rintro ⟨l, c, h1, _, h3, h4, h5⟩
  obtain ⟨op, h6, h7⟩ := h4 ⟨0, 0⟩ ⟨none, .old none⟩ (by simp [staleLog])
  obtain ⟨op', h8, h9⟩ := h4 ⟨1, 0⟩ ⟨none, .bool false⟩ (by simp [staleLog])
  simp [staleLog] at h6 h8
  subst h6 h8
  have hb := h5 _ h7 _ h9 ⟨[.inv ⟨0, 0⟩ (.set 7)], [], [.res ⟨1, 0⟩ ⟨none, .bool false⟩], rfl⟩
  have := seen_after (b := false) h1 hb rfl fun d hd => by
    have := h3 d hd
    simp only [staleLog, List.mem_cons, HEv.inv.injEq, reduceCtorEq, List.not_mem_nil, or_false, false_or] at this
    rcases this with ⟨_, h⟩ | ⟨_, h⟩ <;> rw [h] <;> simp
  cases this

/-- C89: in real time the sync container is *not* linearizable unless the flag is. `set` returns, later `is_set` says `false`. -/
theorem C89_sync_real_time_fails :
    ∃ s : St (Sync.St Nat String) Nat String, Reach sync (Sync.init none) false s ∧
      ¬ Linearizable CellStep none (s.log.map OEv.ev) := by
  refine ⟨((run sync (init (Sync.init none) false) (stale 0)).get rfl), reach_run (l := stale 0) .init (Option.some_get _).symm, ?_⟩
  rw [show ((run sync (init (Sync.init none) false) (stale 0)).get rfl).log.map OEv.ev = staleLog false from rfl]
  exact stale_not_linearizable

/-- The schedule of the async container. -/
def staleA (k : Nat) : List (Nat × Act (Async.Act Nat String)) :=
  [(0, .run (.call (.set 7)) 0 true), (0, .run .go 0 true), (0, .run .go 0 true), (0, .run .go 0 true), (0, .run .go 0 true),
   (1, .run (.call .isSet) 0 true), (1, .run .go k true), (1, .run .go 0 true)]

/-- C89 (async). -/
theorem C89_async_real_time_fails :
    ∃ s : St (Async.St Nat String) Nat String, Reach async (Async.init none) false s ∧
      ¬ Linearizable CellStep none (s.log.map OEv.ev) := by
  refine ⟨((run async (init (Async.init none) false) (staleA 0)).get rfl), reach_run (l := staleA 0) .init (Option.some_get _).symm, ?_⟩
  rw [show ((run async (init (Async.init none) false) (staleA 0)).get rfl).log.map OEv.ev = staleLog false from rfl]
  exact stale_not_linearizable

set_option linter.unusedSimpArgs false

/-! ## What counts as an access -/

/-- All of the container and the processes but the content, and but the log, which is bookkeeping. -/
def syncButValue (t : Sync.St V E) : Bool × Lock × (Nat → Sync.Pc V E) × (Nat → Nat) := (t.flag, t.lk, t.pc, t.seq)

/-- ... but the flag. -/
def syncButFlag (t : Sync.St V E) : Option V × Lock × (Nat → Sync.Pc V E) × (Nat → Nat) := (t.value, t.lk, t.pc, t.seq)

/-- C89 (sync): a step which changes the content counts as a write, ... -/
theorem C89_sync_writes {t t' : Sync.St V E} {p : Nat} {a : Sync.Act V E} (h : Sync.step t p a = some t')
    (hv : t'.value ≠ t.value) : sync.touches t p a = some true := by
  cases a <;> simp only [Sync.step, Sync.go, Sync.invoke, Sync.builderReturns, Sync.dropGuard] at h
  all_goals
    revert h
    repeat' split
    all_goals intro h
    all_goals first
      | cases h; done
      | (rename_i hp; simp only [sync, hp]; done)
      | (rename_i hp _; simp only [sync, hp]; done)
      | (rename_i hp _ _ _; simp only [sync, hp]; done)
      | (exfalso; apply hv; simp only [Option.map_eq_some_iff, Option.some.injEq] at h; subst h; rfl)
      | (exfalso; apply hv; simp only [Option.map_eq_some_iff, Option.some.injEq] at h; obtain ⟨_, _, rfl⟩ := h; rfl)

/-- ... and one which counts as no access does not depend on it. -/
theorem C89_sync_reads {t : Sync.St V E} {p : Nat} {a : Sync.Act V E} (h : sync.touches t p a = none) (o : Option V) :
    (Sync.step { t with value := o } p a).map syncButValue = (Sync.step t p a).map syncButValue := by
  cases a <;> simp only [Sync.step]
  case go =>
    unfold Sync.go
    simp only [sync] at h
    cases hp : t.pc p <;> simp only [hp] at h ⊢ <;> first | cases h | skip
    all_goals
      repeat' split
      all_goals simp_all [syncButValue, Sync.St.to, Sync.St.lin, Sync.St.ret, Sync.St.ev, Sync.St.me, Option.map_map,
        Function.comp_def]
  all_goals
      simp only [Sync.invoke, Sync.builderReturns, Sync.dropGuard]
      repeat' split
      all_goals simp_all [syncButValue, Sync.St.to, Sync.St.lin, Sync.St.ret, Sync.St.ev, Sync.St.begin, Sync.St.me]

/-- C89 (sync): the flag becomes what the step counts as storing and stays otherwise, ... -/
theorem C89_sync_stores {t t' : Sync.St V E} {p : Nat} {a : Sync.Act V E} (h : Sync.step t p a = some t') :
    t'.flag = (sync.stores t p a).getD t.flag := by
  cases a <;> simp only [Sync.step, Sync.go, Sync.invoke, Sync.builderReturns, Sync.dropGuard] at h
  all_goals
    revert h
    repeat' split
    all_goals intro h
    all_goals first
      | cases h; done
      | (simp only [Option.map_eq_some_iff, Option.some.injEq] at h; subst h; first | rfl | simp_all [sync, Sync.St.to, Sync.St.lin, Sync.St.ret, Sync.St.ev])
      | (simp only [Option.map_eq_some_iff, Option.some.injEq] at h; obtain ⟨_, _, rfl⟩ := h; first | rfl | simp_all [sync, Sync.St.to, Sync.St.lin, Sync.St.ret, Sync.St.ev])

/-- ... and a step which does not count as loading the flag does not depend on it. -/
theorem C89_sync_loads {t : Sync.St V E} {p : Nat} {a : Sync.Act V E} (h : sync.loads t p a = false) (b : Bool) :
    (Sync.step { t with flag := b } p a).map syncButFlag = (Sync.step t p a).map syncButFlag := by
  cases a <;> simp only [Sync.step]
  case go =>
    unfold Sync.go
    simp only [sync] at h
    cases hp : t.pc p <;> simp only [hp] at h ⊢ <;> first | cases h; done | skip
    all_goals
      repeat' split
      all_goals simp_all [syncButFlag, Sync.St.to, Sync.St.lin, Sync.St.ret, Sync.St.ev, Sync.St.me, Option.map_map,
        Function.comp_def]
  all_goals
      simp only [Sync.invoke, Sync.builderReturns, Sync.dropGuard]
      repeat' split
      all_goals simp_all [syncButFlag, Sync.St.to, Sync.St.lin, Sync.St.ret, Sync.St.ev, Sync.St.begin, Sync.St.me]

/-- All of the container and the processes but the content, and but the log, which is bookkeeping. -/
def asyncButValue (t : Async.St V E) : Bool × Async.ALock × (Nat → Async.Pc V E) × (Nat → Nat) := (t.flag, t.lk, t.pc, t.seq)

/-- ... but the flag. -/
def asyncButFlag (t : Async.St V E) : Option V × Async.ALock × (Nat → Async.Pc V E) × (Nat → Nat) := (t.value, t.lk, t.pc, t.seq)

/-- C89 (async): a step which changes the content counts as a write, ... -/
theorem C89_async_writes {t t' : Async.St V E} {p : Nat} {a : Async.Act V E} (h : Async.step t p a = some t')
    (hv : t'.value ≠ t.value) : async.touches t p a = some true := by
  cases a <;> simp only [Async.step, Async.go, Async.invoke, Async.builderReturns, Async.dropGuard, Async.cancel] at h
  all_goals
    revert h
    repeat' split
    all_goals intro h
    all_goals first
      | cases h; done
      | (rename_i hp; simp only [async, hp]; done)
      | (rename_i hp _; simp only [async, hp]; done)
      | (rename_i hp _ _ _; simp only [async, hp]; done)
      | (exfalso; apply hv; simp only [Option.map_eq_some_iff, Option.some.injEq] at h; subst h; rfl)
      | (exfalso; apply hv; simp only [Option.map_eq_some_iff, Option.some.injEq] at h; obtain ⟨_, _, rfl⟩ := h; rfl)

/-- ... and one which counts as no access does not depend on it. -/
theorem C89_async_reads {t : Async.St V E} {p : Nat} {a : Async.Act V E} (h : async.touches t p a = none) (o : Option V) :
    (Async.step { t with value := o } p a).map asyncButValue = (Async.step t p a).map asyncButValue := by
  cases a <;> simp only [Async.step]
  case go =>
    unfold Async.go
    simp only [async] at h
    cases hp : t.pc p <;> simp only [hp] at h ⊢ <;> first | cases h | skip
    all_goals
      repeat' split
      all_goals simp_all [asyncButValue, Async.St.to, Async.St.lin, Async.St.ret, Async.St.ev, Async.St.me, Option.map_map,
        Function.comp_def]
  all_goals
      simp only [Async.invoke, Async.builderReturns, Async.dropGuard, Async.cancel]
      repeat' split
      all_goals simp_all [asyncButValue, Async.St.to, Async.St.lin, Async.St.ret, Async.St.ev, Async.St.begin, Async.St.me, Async.St.quit]

/-- C89 (async): the flag becomes what the step counts as storing and stays otherwise, ... -/
theorem C89_async_stores {t t' : Async.St V E} {p : Nat} {a : Async.Act V E} (h : Async.step t p a = some t') :
    t'.flag = (async.stores t p a).getD t.flag := by
  cases a <;> simp only [Async.step, Async.go, Async.invoke, Async.builderReturns, Async.dropGuard, Async.cancel] at h
  all_goals
    revert h
    repeat' split
    all_goals intro h
    all_goals first
      | cases h; done
      | (simp only [Option.map_eq_some_iff, Option.some.injEq] at h; subst h; first | rfl | simp_all [async, Async.St.to, Async.St.lin, Async.St.ret, Async.St.ev])
      | (simp only [Option.map_eq_some_iff, Option.some.injEq] at h; obtain ⟨_, _, rfl⟩ := h; first | rfl | simp_all [async, Async.St.to, Async.St.lin, Async.St.ret, Async.St.ev])

/-- ... and a step which does not count as loading the flag does not depend on it. -/
theorem C89_async_loads {t : Async.St V E} {p : Nat} {a : Async.Act V E} (h : async.loads t p a = false) (b : Bool) :
    (Async.step { t with flag := b } p a).map asyncButFlag = (Async.step t p a).map asyncButFlag := by
  cases a <;> simp only [Async.step]
  case go =>
    unfold Async.go
    simp only [async] at h
    cases hp : t.pc p <;> simp only [hp] at h ⊢ <;> first | cases h; done | skip
    all_goals
      repeat' split
      all_goals simp_all [asyncButFlag, Async.St.to, Async.St.lin, Async.St.ret, Async.St.ev, Async.St.me, Option.map_map,
        Function.comp_def]
  all_goals
      simp only [Async.invoke, Async.builderReturns, Async.dropGuard, Async.cancel]
      repeat' split
      all_goals simp_all [asyncButFlag, Async.St.to, Async.St.lin, Async.St.ret, Async.St.ev, Async.St.begin, Async.St.me, Async.St.quit]

/-! ## Concrete cases -/

/-- `set` writes the content in its step after the store of the flag; the store counts as no access to the content. -/
example : (Sync.run (Sync.init none : Sync.St Nat String) [(0, .call (.set 5)), (0, .go), (0, .go)]).map
    (fun t => (sync.touches t 0 .go, sync.stores t 0 .go, (Sync.step t 0 .go).map fun t' => (t'.value, t'.flag))) =
    some (none, some true, some (none, true)) := rfl
example : (Sync.run (Sync.init none : Sync.St Nat String) [(0, .call (.set 5)), (0, .go), (0, .go), (0, .go)]).map
    (fun t => (sync.touches t 0 .go, sync.stores t 0 .go, (Sync.step t 0 .go).map fun t' => (t'.value, t'.flag))) =
    some (some true, none, some (some 5, true)) := rfl

/-- Both stores of the flag may be seen, a third one does not exist. -/
example : ((run sync (init (Sync.init none) false) (stale 0)).map fun s => s.log.map OEv.ev) = some (staleLog false) := rfl
example : ((run sync (init (Sync.init none) false) (stale 1)).map fun s => s.log.map OEv.ev) = some (staleLog true) := rfl
example : ((run sync (init (Sync.init none) false) (stale 2)).map fun s => s.log.map OEv.ev) = none := rfl

/-- If process 1 knows that process 0 has returned, only the second one. -/
example : ((run sync (init (Sync.init none) false) (told 0)).map fun s => s.log.map OEv.ev) = none := rfl
example : ((run sync (init (Sync.init none) false) (told 1)).map fun s => s.log.map OEv.ev) = some (staleLog true) := rfl

/-- `C89_sync_published` applies to this run: the answer of `set` is in the past of the invocation of `is_set`. -/
example : ((run sync (init (Sync.init none) false) (told 1)).map fun s => s.log.map fun e => (e.num, decide (5 ∈ e.past))) =
    some [(0, false), (5, false), (6, true), (8, true)] := rfl

/-- The async container: the same two answers. -/
example : ((run async (init (Async.init none) false) (staleA 0)).map fun s => s.log.map OEv.ev) = some (staleLog false) := rfl
example : ((run async (init (Async.init none) false) (staleA 1)).map fun s => s.log.map OEv.ev) = some (staleLog true) := rfl

/-- `set` by process 0, `read` by process 1: a write and two reads of the content, the write known to the reads. -/
example : ((run sync (init (Sync.init none) false) ((stale 0).take 6 ++
    [(1, .run (.call (.get .read)) 0 true), (1, .run .go 0 true), (1, .run .go 0 true), (1, .run .go 0 true), (1, .run .go 0 true)])).map
      fun s => s.acc.map fun a => (a.num, a.write, decide (4 ∈ a.past))) =
    some [(4, true, false), (8, false, true), (10, false, true)] := rfl

end Verif.Props.Weak
