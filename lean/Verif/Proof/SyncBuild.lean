import Verif.Proof.SyncLog
/-!
# Builder runs of the sync lazy container (helper lemmas)

A monitor reads the log from left to right and keeps track of the running builder, of a finished successful run whose
value is not yet counted as content, and of the content. Every reachable log is accepted.
-/

namespace Verif.Proof
open Verif.Spec Verif.Model

/-- Content after a call with the given result. -/
def after {V E : Type} (c : Option V) : Op V → Res V E → Option V
  | .get _, ⟨some o, _⟩ => o.value?
  | .set v, _ | .store v, _ => some v
  | .clear, _ | .take, _ => none
  | .assign _ v, _ => some v
  | _, _ => c

theorem after_of_step {V E : Type} {c c' : Option V} {op : Op V} {r : Res V E} (h : CellStep c op r c') :
    c' = after c op r := by
  cases h <;> rfl

theorem legal_det {V E : Type} {c c₁ c₂ : Option V} {ds : List (Done (Op V) (Res V E))}
    (h₁ : Legal CellStep c ds c₁) (h₂ : Legal CellStep c ds c₂) : c₁ = c₂ := by
  induction h₁ with
  | nil => cases h₂; rfl
  | cons h _ ih =>
    cases h₂ with
    | cons h' h'' =>
      rw [after_of_step h'] at h''
      rw [after_of_step h] at ih
      exact ih h''

/-- Monitor state. -/
structure Mon (V : Type) where
  run  : Option CallId
  pend : Bool
  cont : Option V

end Verif.Proof

namespace Verif.Proof.Sync
open Verif.Spec Verif.Model Verif.Model.Sync

variable {V E : Type}

/-- Does the call write the content (other than by building)? -/
def writes : Op V → Bool
  | .set _ | .store _ | .clear | .take | .assign _ _ => true
  | _ => false

/-- One step of the monitor. -/
def Mon.next (m : Mon V) : Ev V E → Option (Mon V)
  | .other (.bstart i) =>
    match m with
    | ⟨none, false, none⟩ => some ⟨some i, false, none⟩
    | _ => none
  | .other (.bend i o) =>
    match m, o with
    | ⟨some j, false, none⟩, .ok _ => if i = j then some ⟨none, true, none⟩ else none
    | ⟨some j, false, none⟩, _ => if i = j then some ⟨none, false, none⟩ else none
    | _, _ => none
  | .other (.abort i) =>
    match m with
    | ⟨some j, false, none⟩ => if i = j then some ⟨none, false, none⟩ else none
    | _ => none
  | .lin _ op r =>
    match op, r.ran with
    | .get _, some (.ok v) =>
      match m with
      | ⟨none, true, none⟩ => some ⟨none, false, some v⟩
      | _ => none
    | .get _, some _ => if m.cont = none then some m else none
    | .get _, none => some m
    | _, some _ => none
    | op, none =>
      if writes op then
        match m with
        | ⟨none, false, c⟩ => some ⟨none, false, after c op r⟩
        | _ => none
      else some m
  | _ => some m

/-- The monitor over a log. -/
def Mon.over (m : Mon V) : List (Ev V E) → Option (Mon V)
  | [] => some m
  | e :: l => (Mon.next m e).bind fun m' => Mon.over m' l

theorem Mon.over_append (m : Mon V) (l l' : List (Ev V E)) :
    Mon.over m (l ++ l') = (Mon.over m l).bind fun m' => Mon.over m' l' := by
  induction l generalizing m with
  | nil => simp [Mon.over]
  | cons e l ih =>
    simp only [List.cons_append, Mon.over]
    cases Mon.next m e with
    | none => rfl
    | some m' => simp [ih]

/-- What a program point says about the monitor. -/
def monAt (m : Mon V) (i : CallId) : Pc V E → Prop
  | .rBuild _ => m.run = some i ∧ m.pend = false ∧ m.cont = none
  | .rSet _ _ => m.run = none ∧ m.pend = true ∧ m.cont = none
  | .rFlag _ _ => m.run = none ∧ m.pend = true ∧ m.cont = none
  | _ => True

/-- Points while the builder runs or its value is on the way. -/
def busy : Pc V E → Bool
  | .rBuild _ | .rSet _ _ | .rFlag _ _ => true
  | _ => false

theorem busy_excl {c : Pc V E} (h : busy c = true) : excl c = true := by
  cases c <;> simp_all [busy, excl]

/-- Content changes of the monitor and of the linearized log agree. -/
theorem Mon.over_cont {m m' : Mon V} {l : List (Ev V E)} (h : Mon.over m l = some m') :
    m'.cont = (lins l).foldl (fun c d => after c d.op d.ret) m.cont := by
  induction l generalizing m with
  | nil => simp [Mon.over] at h; subst h; rfl
  | cons e l ih =>
    simp only [Mon.over, Option.bind_eq_some_iff] at h
    obtain ⟨m₁, h1, h2⟩ := h
    rw [ih h2]
    cases e with
    | inv i op => simp [Mon.next] at h1; subst h1; rfl
    | res i r => simp [Mon.next] at h1; subst h1; rfl
    | cancel i => simp [Mon.next] at h1; subst h1; rfl
    | other x =>
      have : m₁.cont = m.cont := by
        cases x with
        | bstart i => simp only [Mon.next] at h1; split at h1 <;> simp at h1; subst h1; rfl
        | bend i o =>
          simp only [Mon.next] at h1
          split at h1
          · split at h1 <;> simp at h1; subst h1; rfl
          · split at h1 <;> simp at h1; subst h1; rfl
          · simp at h1
        | abort i =>
          simp only [Mon.next] at h1
          split at h1
          · split at h1 <;> simp at h1; subst h1; rfl
          · simp at h1
        | drop g => simp [Mon.next] at h1; subst h1; rfl
      rw [this]; rfl
    | lin i op r =>
      have : m₁.cont = after m.cont op r := by
        obtain ⟨ran, ret⟩ := r
        simp only [Mon.next] at h1
        split at h1
        · split at h1 <;> simp at h1
          subst h1; simp_all [after, Outcome.value?]
        · split at h1 <;> simp at h1
          subst h1
          rename_i o hne _
          cases o with
          | ok v => exact absurd rfl (hne v)
          | err e => simp_all [after, Outcome.value?]
          | panic => simp_all [after, Outcome.value?]
        · simp at h1; subst h1; simp_all [after]
        · simp at h1
        · rename_i hng hn
          split at h1
          · split at h1 <;> simp at h1
            subst h1; rfl
          · simp at h1; subst h1
            rename_i hw
            cases op <;> simp_all [writes, after]
      rw [this]; rfl

theorem legal_fold {c c' : Option V} {ds : List (Done (Op V) (Res V E))} (h : Legal CellStep c ds c') :
    c' = ds.foldl (fun c d => after c d.op d.ret) c := by
  induction h with
  | nil => rfl
  | cons h _ ih => rw [after_of_step h] at ih; exact ih

/-- Monitor invariant. -/
def MonInv (v₀ : Option V) (s : St V E) : Prop :=
  ∃ m, Mon.over ⟨none, false, v₀⟩ s.log = some m ∧ (∀ p, monAt m (s.me p) (s.pc p)) ∧
    ((∀ p, busy (s.pc p) = false) → m.run = none ∧ m.pend = false)

theorem monInv_init (v₀ : Option V) : MonInv v₀ (init v₀ : St V E) :=
  ⟨_, rfl, fun p => by simp [init, monAt], fun _ => ⟨rfl, rfl⟩⟩

/-- A step with events the monitor ignores, not from or to a busy point. -/
theorem mon_quiet {v₀ : Option V} {s s' : St V E} {p : Nat} {x : Pc V E} {es : List (Ev V E)} (h : MonInv v₀ s)
    (hl : s'.log = s.log ++ es) (he : ∀ m : Mon V, Mon.over m es = some m) (hpc : s'.pc = upd s.pc p x)
    (hseq : ∀ q, q ≠ p → s'.seq q = s.seq q)
    (h0 : busy (s.pc p) = false) (h1 : busy x = false) : MonInv v₀ s' := by
  obtain ⟨m, h2, h3, h4⟩ := h
  refine ⟨m, by rw [hl, Mon.over_append, h2]; exact he m, ?_, ?_⟩
  · intro q
    by_cases hq : q = p
    · subst hq; rw [hpc, upd_same]; revert h1; cases x <;> simp [busy, monAt]
    · rw [hpc, upd_other _ _ hq]
      have := h3 q
      simpa [St.me, hseq q hq] using this
  · intro hm
    apply h4
    intro q
    by_cases hq : q = p
    · rw [hq]; exact h0
    · have := hm q; rwa [hpc, upd_other _ _ hq] at this

/-- A step of a process with exclusive access. -/
theorem mon_excl {v₀ : Option V} {s s' : St V E} {p : Nat} {x : Pc V E} {m' : Mon V} (hc : Core s)
    (hpe : excl (s.pc p) = true) (hm : Mon.over ⟨none, false, v₀⟩ s'.log = some m') (hpc : s'.pc = upd s.pc p x)
    (hx : monAt m' (s'.me p) x) (hb : busy x = false → m'.run = none ∧ m'.pend = false) : MonInv v₀ s' := by
  have hq' : ∀ q, q ≠ p → busy (s.pc q) = false := by
    intro q hq
    have := (hc.alone hpe hq).2.2.1
    revert this; cases s.pc q <;> simp [excl, busy]
  refine ⟨m', hm, ?_, ?_⟩
  · intro q
    by_cases hq : q = p
    · subst hq; rw [hpc, upd_same]; exact hx
    · rw [hpc, upd_other _ _ hq]
      have := hq' q hq
      revert this; cases s.pc q <;> simp [busy, monAt]
  · intro h
    apply hb
    have := h p
    rwa [hpc, upd_same] at this

/-- The monitor while a process which is not busy has exclusive access. -/
theorem mon_free {v₀ : Option V} {s : St V E} {p : Nat} (hc : Core s) (hl : LogInv v₀ s) (h : MonInv v₀ s)
    (hpe : excl (s.pc p) = true) (h0 : busy (s.pc p) = false) (h1 : mid (s.pc p) = false) :
    Mon.over ⟨none, false, v₀⟩ s.log = some ⟨none, false, s.value⟩ := by
  obtain ⟨m, h2, h3, h4⟩ := h
  have hb : ∀ q, busy (s.pc q) = false := by
    intro q
    by_cases hq : q = p
    · rw [hq]; exact h0
    · have := (hc.alone hpe hq).2.2.1
      revert this; cases s.pc q <;> simp [excl, busy]
  obtain ⟨h5, h6⟩ := h4 hb
  obtain ⟨_, c, h7, _, h8⟩ := hl
  have h9 := h8 (hc.no_mid h1 (by simp [hpe]))
  have h10 := Mon.over_cont h2
  rw [← legal_fold h7, h9] at h10
  rw [h2]
  obtain ⟨r, pe, c'⟩ := m
  simp_all

theorem mon_writes {m : Option V} {l : List (Ev V E)} {m₀ : Mon V} {i op r} (h : Mon.over m₀ l = some ⟨none, false, m⟩)
    (hw : writes op = true) (hr : r.ran = none) :
    Mon.over m₀ (l ++ [.lin i op r]) = some ⟨none, false, after m op r⟩ := by
  rw [Mon.over_append, h]
  obtain ⟨ran, ret⟩ := r
  simp at hr; subst hr
  cases op <;> simp_all [Mon.over, Mon.next, writes]

theorem writes_put (t : Option V) : writes (XKind.op (.put t)) = true := by cases t <;> rfl
theorem writes_guardOp (t : Option V) : writes (guardOp t) = true := by cases t <;> rfl

set_option linter.unusedSimpArgs false
set_option maxHeartbeats 2000000 in
theorem mon_go {v₀ : Option V} {s s' : St V E} {p} (hc : Core s) (hl : LogInv v₀ s) (h : MonInv v₀ s)
    (hs : go s p = some s') : MonInv v₀ s' := by
  have hmp := hc.mem p
  have hfree := @mon_free V E v₀ s p hc hl h
  unfold go at hs
  split at hs <;> rename_i hpc
  all_goals try (repeat' split at hs)
  all_goals first
    | (simp at hs; done)
    | (simp only [Option.map_eq_some_iff, Lock.tryUpgradable, Lock.claim, Lock.tryShared] at hs
       obtain ⟨l, hl, rfl⟩ := hs
       split at hl <;> simp at hl
       subst hl)
    | (simp only [Option.some.injEq] at hs
       subst hs)
  all_goals rw [hpc] at hmp
  all_goals simp [memAt, ranOk] at hmp
  all_goals first
    | (exfalso; simp_all; done)
    | (refine mon_quiet (p := p) (es := []) h (List.append_nil _).symm (fun _ => rfl) rfl (fun _ _ => rfl) (by rw [hpc]; rfl) rfl; done)
    | (refine mon_quiet (p := p) h rfl (fun _ => rfl) rfl ?_ (by rw [hpc]; rfl) ?_ <;>
        first
          | rfl
          | (intro q hq; rfl)
          | (intro q hq; simp [St.ret, upd, hq]; done)
          | (simp only [heldGuard]; split <;> rfl))
    | (refine mon_quiet (p := p) (es := [_, _]) h (List.append_assoc _ _ _) (fun _ => rfl) rfl ?_ (by rw [hpc]; rfl) rfl
       intro q hq; simp [St.ret, upd, hq, St.lin, St.ev]; done)
    | (have h1 := hfree (by rw [hpc]; rfl) (by rw [hpc]; rfl) (by rw [hpc]; rfl)
       refine mon_excl (p := p) hc (by rw [hpc]; rfl) (mon_writes h1 ?_ rfl) rfl trivial (fun _ => ⟨rfl, rfl⟩)
       first | rfl | exact writes_put _ | exact writes_guardOp _)
    | (have h1 := hfree (by rw [hpc]; rfl) (by rw [hpc]; rfl) (by rw [hpc]; rfl)
       rw [hmp] at h1
       refine mon_excl (p := p) (m' := ⟨some (s.me p), false, none⟩) hc (by rw [hpc]; rfl) ?_ rfl ⟨rfl, rfl, rfl⟩ (by intro hb; cases hb)
       show Mon.over _ (s.log ++ [_]) = _
       rw [Mon.over_append, h1]; rfl)
    | (obtain ⟨m, h1, h2, h3⟩ := h
       have h4 := h2 p
       rw [hpc] at h4
       refine mon_excl (p := p) (m' := m) hc (by rw [hpc]; rfl) h1 rfl h4 (by intro hb; cases hb))
    | (obtain ⟨⟨mr, mp, mc⟩, h1, h2, h3⟩ := h
       have h4 := h2 p
       rw [hpc] at h4
       obtain ⟨h5, h6, h7⟩ := h4
       simp only at h5 h6 h7
       subst h5 h6 h7
       rename_i v
       refine mon_excl (p := p) (m' := ⟨none, false, some v⟩) hc (by rw [hpc]; rfl) ?_ rfl trivial (fun _ => ⟨rfl, rfl⟩)
       show Mon.over _ (s.log ++ [_]) = _
       rw [Mon.over_append, h1]; rfl)

theorem mon_step {v₀ : Option V} {s s' : St V E} {p a} (hc : Core s) (hl : LogInv v₀ s) (h : MonInv v₀ s)
    (hs : step s p a = some s') : MonInv v₀ s' := by
  cases a with
  | go => exact mon_go hc hl h hs
  | call op =>
    simp only [step, invoke] at hs
    split at hs <;> rename_i hpc
    all_goals try split at hs
    all_goals first
      | (simp at hs; done)
      | (simp only [Option.some.injEq] at hs
         subst hs)
    all_goals exact mon_quiet (p := p) h rfl (fun _ => rfl) rfl (fun _ _ => rfl) (by rw [hpc]; rfl) rfl
  | finish o =>
    simp only [step, builderReturns] at hs
    split at hs <;> rename_i hpc
    all_goals try split at hs
    all_goals first
      | (simp at hs; done)
      | (simp only [Option.some.injEq] at hs
         subst hs)
    all_goals
      obtain ⟨⟨mr, mp, mc⟩, h1, h2, h3⟩ := h
      have h4 := h2 p
      rw [hpc] at h4
      obtain ⟨h5, h6, h7⟩ := h4
      simp only at h5 h6 h7
      subst h5 h6 h7
    · refine mon_excl (p := p) (m' := ⟨none, true, none⟩) hc (by rw [hpc]; rfl) ?_ rfl ⟨rfl, rfl, rfl⟩ (by intro hb; cases hb)
      show Mon.over _ (s.log ++ [_]) = _
      rw [Mon.over_append, h1]; simp [Mon.over, Mon.next]
    · rename_i hne
      refine mon_excl (p := p) (m' := ⟨none, false, none⟩) hc (by rw [hpc]; rfl) ?_ rfl trivial (fun _ => ⟨rfl, rfl⟩)
      show Mon.over _ ((s.log ++ [_]) ++ [_]) = _
      rw [Mon.over_append, Mon.over_append, h1]
      cases o with
      | ok v => exact absurd rfl (hne v)
      | err e => simp [Mon.over, Mon.next]
      | panic => simp [Mon.over, Mon.next]
  | drop =>
    simp only [step, dropGuard] at hs
    split at hs <;> rename_i hpc
    all_goals first
      | (simp at hs; done)
      | (simp only [Option.some.injEq] at hs
         subst hs)
    all_goals exact mon_quiet (p := p) h rfl (fun _ => rfl) rfl (fun _ _ => rfl) (by rw [hpc]; rfl) rfl

theorem mon_abandon {v₀ : Option V} {s s' : St V E} {p} (hc : Core s) (h : MonInv v₀ s)
    (hs : abandon s p = some s') : MonInv v₀ s' := by
  unfold abandon at hs
  split at hs <;> rename_i hpc
  all_goals first
    | (simp at hs; done)
    | (simp only [Option.some.injEq] at hs
       subst hs)
  · exact mon_quiet (p := p) h rfl (fun _ => rfl) rfl (fun q hq => by simp [quit, upd, hq]) (by rw [hpc]; rfl) rfl
  · exact mon_quiet (p := p) h rfl (fun _ => rfl) rfl (fun q hq => by simp [quit, upd, hq]) (by rw [hpc]; rfl) rfl
  · exact mon_quiet (p := p) h rfl (fun _ => rfl) rfl (fun q hq => by simp [quit, upd, hq]) (by rw [hpc]; rfl) rfl
  · obtain ⟨⟨mr, mp, mc⟩, h1, h2, h3⟩ := h
    have h4 := h2 p
    rw [hpc] at h4
    obtain ⟨h5, h6, h7⟩ := h4
    simp only at h5 h6 h7
    subst h5 h6 h7
    refine mon_excl (p := p) (m' := ⟨none, false, none⟩) hc (by rw [hpc]; rfl) ?_ rfl trivial (fun _ => ⟨rfl, rfl⟩)
    show Mon.over _ ((s.log ++ [_]) ++ [_]) = _
    rw [Mon.over_append, Mon.over_append, h1]
    simp [Mon.over, Mon.next]

theorem monInv_reachC {v₀ : Option V} {s : St V E} (h : ReachC v₀ s) : MonInv v₀ s := by
  induction h with
  | init => exact monInv_init _
  | step hr hs ih => exact mon_step (core_reachC hr) (logInv_reachC hr) ih hs
  | abandon hr hs ih => exact mon_abandon (core_reachC hr) ih hs

/-- Something is stored or about to be. -/
def Mon.full (m : Mon V) : Prop := m.pend = true ∨ m.cont.isSome = true

theorem Mon.next_full {m m' : Mon V} {e : Ev V E} (h : Mon.next m e = some m') (hf : Mon.full m) (hn : ¬ Mon.full m') :
    ∃ k op r, e = .lin k op r ∧ (op = .clear ∨ op = .take) ∧ m.cont.isSome = true := by
  obtain ⟨mr, mp, mc⟩ := m
  unfold Mon.full at hf hn
  cases e with
  | inv i op => simp [Mon.next] at h; subst h; exact absurd hf hn
  | res i r => simp [Mon.next] at h; subst h; exact absurd hf hn
  | cancel i => simp [Mon.next] at h; subst h; exact absurd hf hn
  | other x =>
    cases x with
    | bstart i => simp only [Mon.next] at h; split at h <;> simp_all
    | bend i o =>
      simp only [Mon.next] at h
      split at h <;> simp_all
    | abort i => simp only [Mon.next] at h; split at h <;> simp_all
    | drop g => simp [Mon.next] at h; subst h; exact absurd hf hn
  | lin i op r =>
    simp only [Mon.next] at h
    split at h
    · split at h <;> simp at h; subst h; simp at hn
    · split at h <;> simp at h; subst h; exact absurd hf hn
    · simp at h; subst h; exact absurd hf hn
    · simp at h
    · split at h
      · split at h <;> simp at h
        subst h
        refine ⟨_, _, _, rfl, ?_, ?_⟩
        · rename_i op _ _ _ _ _ _ _ _
          cases op <;> simp_all [writes, after]
        · simp_all
      · simp at h; subst h; exact absurd hf hn

theorem Mon.over_full {m m' : Mon V} {l : List (Ev V E)} (h : Mon.over m l = some m') (hf : Mon.full m)
    (hn : ¬ Mon.full m') :
    ∃ la lb k op r m₁, l = la ++ .lin k op r :: lb ∧ (op = .clear ∨ op = .take) ∧ Mon.over m la = some m₁ ∧
      m₁.cont.isSome = true := by
  induction l generalizing m with
  | nil => simp [Mon.over] at h; subst h; exact absurd hf hn
  | cons e l ih =>
    simp only [Mon.over, Option.bind_eq_some_iff] at h
    obtain ⟨m₁, h1, h2⟩ := h
    by_cases hf₁ : Mon.full m₁
    · obtain ⟨la, lb, k, op, r, m₂, h3, h4, h5, h6⟩ := ih h2 hf₁
      exact ⟨e :: la, lb, k, op, r, m₂, by simp [h3], h4, by simp [Mon.over, h1, h5], h6⟩
    · obtain ⟨k, op, r, h3, h4, h5⟩ := Mon.next_full h1 hf hf₁
      exact ⟨[], l, k, op, r, m, by simp [h3], h4, rfl, h5⟩

theorem Mon.next_run {m m' : Mon V} {e : Ev V E} {i : CallId} (h : Mon.next m e = some m') (hr : m.run = some i)
    (hn : m'.run ≠ some i) : (∃ o, e = .other (.bend i o)) ∨ e = .other (.abort i) := by
  obtain ⟨mr, mp, mc⟩ := m
  simp only at hr; subst hr
  cases e with
  | inv j op => simp [Mon.next] at h; subst h; simp at hn
  | res j r => simp [Mon.next] at h; subst h; simp at hn
  | cancel j => simp [Mon.next] at h; subst h; simp at hn
  | other x =>
    cases x with
    | bstart j => simp [Mon.next] at h
    | bend j o =>
      simp only [Mon.next] at h
      split at h <;> simp_all
    | abort j => simp only [Mon.next] at h; split at h <;> simp_all
    | drop g => simp [Mon.next] at h; subst h; simp at hn
  | lin j op r =>
    simp only [Mon.next] at h
    split at h
    · simp at h
    · split at h <;> simp at h; subst h; simp at hn
    · simp at h; subst h; simp at hn
    · simp at h
    · split at h
      · simp at h
      · simp at h; subst h; simp at hn

theorem Mon.over_run {m m' : Mon V} {l : List (Ev V E)} {i : CallId} (h : Mon.over m l = some m')
    (hr : m.run = some i) (hn : m'.run ≠ some i) : (∃ o, .other (.bend i o) ∈ l) ∨ .other (.abort i) ∈ l := by
  induction l generalizing m with
  | nil => simp [Mon.over] at h; subst h; exact absurd hr hn
  | cons e l ih =>
    simp only [Mon.over, Option.bind_eq_some_iff] at h
    obtain ⟨m₁, h1, h2⟩ := h
    by_cases hr₁ : m₁.run = some i
    · rcases ih h2 hr₁ with ⟨o, ho⟩ | ho
      · exact .inl ⟨o, by simp [ho]⟩
      · exact .inr (by simp [ho])
    · rcases Mon.next_run h1 hr hr₁ with ⟨o, ho⟩ | ho
      · exact .inl ⟨o, by simp [ho]⟩
      · exact .inr (by simp [ho])

/-- While the builder runs the content stays absent. -/
theorem Mon.over_cont_none {m m' : Mon V} {l : List (Ev V E)} {i : CallId} (h : Mon.over m l = some m')
    (hr : m.run = some i) (hcn : m.cont = none) (hn : ∀ o, .other (.bend i o) ∉ l) (hn' : .other (.abort i) ∉ l) :
    m'.run = some i ∧ m'.cont = none := by
  have h1 : m'.run = some i := by
    apply Classical.byContradiction
    intro hc
    rcases Mon.over_run h hr hc with ⟨o, ho⟩ | ho
    · exact hn o ho
    · exact hn' ho
  refine ⟨h1, ?_⟩
  induction l generalizing m with
  | nil => simp [Mon.over] at h; subst h; exact hcn
  | cons e l ih =>
    simp only [Mon.over, Option.bind_eq_some_iff] at h
    obtain ⟨m₁, h2, h3⟩ := h
    have h4 : m₁.run = some i := by
      apply Classical.byContradiction
      intro hc
      rcases Mon.next_run h2 hr hc with ⟨o, ho⟩ | ho
      · exact hn o (by simp [ho])
      · exact hn' (by simp [ho])
    refine ih h3 h4 ?_ (fun o ho => hn o (by simp [ho])) (fun ho => hn' (by simp [ho]))
    obtain ⟨mr, mp, mc⟩ := m
    simp only at hr hcn
    subst hr hcn
    cases e with
    | inv j op => simp [Mon.next] at h2; subst h2; rfl
    | res j r => simp [Mon.next] at h2; subst h2; rfl
    | cancel j => simp [Mon.next] at h2; subst h2; rfl
    | other x =>
      cases x with
      | bstart j => simp [Mon.next] at h2
      | bend j o =>
        simp only [Mon.next] at h2
        split at h2
        · split at h2 <;> simp at h2
          subst h2; rfl
        · split at h2 <;> simp at h2
          subst h2; rfl
        · simp at h2
      | abort j =>
        simp only [Mon.next] at h2
        split at h2
        · split at h2 <;> simp at h2
          subst h2; rfl
        · simp at h2
      | drop g => simp [Mon.next] at h2; subst h2; rfl
    | lin j op r =>
      simp only [Mon.next] at h2
      split at h2
      · simp at h2
      · split at h2 <;> simp at h2; subst h2; rfl
      · simp at h2; subst h2; rfl
      · simp at h2
      · split at h2
        · simp at h2
        · simp at h2; subst h2; rfl

/-- Legality splits. -/
theorem legal_append {S Op R : Type} {spec : S → Op → R → S → Prop} {s s'' : S} {l l' : List (Done Op R)}
    (h : Legal spec s (l ++ l') s'') : ∃ s', Legal spec s l s' ∧ Legal spec s' l' s'' := by
  induction l generalizing s with
  | nil => exact ⟨s, .nil, h⟩
  | cons d l ih =>
    cases h with
    | cons h1 h2 =>
      obtain ⟨s', h3, h4⟩ := ih h2
      exact ⟨s', .cons h1 h3, h4⟩

theorem lins_append (l l' : List (Ev V E)) : lins (l ++ l') = lins l ++ lins l' := by simp [lins]

/-- Content of the monitor at any point of a reachable log. -/
theorem Mon.prefixC {v₀ : Option V} {s : St V E} (h : ReachC v₀ s) {l₁ l₂ : List (Ev V E)} (hs : s.log = l₁ ++ l₂) :
    ∃ m m', Mon.over ⟨none, false, v₀⟩ l₁ = some m ∧ Mon.over m l₂ = some m' ∧ Legal CellStep v₀ (lins l₁) m.cont ∧
      ∃ c, Legal CellStep m.cont (lins l₂) c := by
  obtain ⟨m', h1, _⟩ := monInv_reachC h
  obtain ⟨_, c, h2, _⟩ := logInv_reachC h
  rw [hs, Mon.over_append, Option.bind_eq_some_iff] at h1
  obtain ⟨m, h3, h4⟩ := h1
  rw [hs, lins_append] at h2
  obtain ⟨c₁, h5, h6⟩ := legal_append h2
  have h7 : c₁ = m.cont := by rw [Mon.over_cont h3, legal_fold h5]
  subst h7
  exact ⟨m, m', h3, h4, h5, c, h6⟩

end Verif.Proof.Sync
