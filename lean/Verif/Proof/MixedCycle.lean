import Verif.Proof.Mixed
/-!
# Orders with a cycle let threads deadlock (helper lemmas)

Along a cycle `c 0, c 1, …, c n = c 0` all lazy containers are given values, thread `a` takes a reading guard on `c a`, then
every thread asks for `c (a + 1)` exclusively.
-/

namespace Verif.Proof.Mixed
open Verif.Spec Verif.Spec.Memory Verif.Model Verif.Model.Mixed
open Verif.Model.Multi (gone building)
open Verif.Proof.Multi (gone_iff others call_inside enabled_inside)
open Verif.Proof.Locks (upd_upd)

set_option linter.unusedSectionVars false
set_option linter.unusedSimpArgs false
variable {F L V W E : Type} [DecidableEq F] [DecidableEq L] {eqv : W → W → Bool} {dep : F ⊕ L → F ⊕ L → Prop}
  {v₀ : F → Option V} {w₀ : L → W} {s s' : St F L V W E}

/-- Thread `a` has nothing to do with anything. -/
def Out (s : St F L V W E) (a : Nat) : Prop := s.stack a = [] ∧ s.lk.held a = [] ∧ s.lk.pc a = .idle

/-- Thread `a` keeps one reading guard. -/
def Keeps (s : St F L V W E) (a : Nat) : F ⊕ L → Prop
  | .inl i => ∃ p, s.stack a = [(i, p)] ∧ atUser ((s.obj i).pc p) = true ∧ p ∈ (s.obj i).lk.shared ∧
      s.lk.held a = [] ∧ s.lk.pc a = .idle
  | .inr k => s.stack a = [] ∧ s.lk.held a = [(k, false)] ∧ s.lk.pc a = .idle ∧ a ∈ (s.lk.lock k).shared

/-- Thread `a` asks for exclusive access and is held up. -/
def Asks (s : St F L V W E) (a : Nat) : F ⊕ L → Prop
  | .inl i => ∃ p, (i, p) ∈ s.stack a ∧
      ((∃ x, (s.obj i).pc p = .xStart x ∧ (s.obj i).lk.wr.isSome = true) ∨
       (∃ x, (s.obj i).pc p = .xWait x ∧ (s.obj i).lk.shared ≠ []))
  | .inr k => (s.lk.pc a = .wWait k ∧ (s.lk.lock k).wr.isSome = true) ∨ (s.lk.pc a = .wDrain k ∧ (s.lk.lock k).shared ≠ [])

/-- Somebody reads. -/
def HasReader (s : St F L V W E) : F ⊕ L → Prop
  | .inl i => (s.obj i).lk.shared ≠ []
  | .inr k => (s.lk.lock k).shared ≠ []

/-- Nobody writes. -/
structure Calm (s : St F L V W E) : Prop where
  wr : ∀ i, (s.obj i).lk.wr = none
  upg : ∀ i, (s.obj i).lk.upg = none
  lock : ∀ k, (s.lk.lock k).wr = none

theorem keeps_reader {a : Nat} {r : F ⊕ L} (h : Keeps s a r) : HasReader s r := by
  cases r with
  | inl i => obtain ⟨p, _, _, h, _⟩ := h; exact List.ne_nil_of_mem h
  | inr k => exact List.ne_nil_of_mem h.2.2.2

theorem asks_stuck {a : Nat} {r : F ⊕ L} (h : Asks s a r) : Stuck eqv s a := by
  cases r with
  | inl i =>
    obtain ⟨p, hm, h⟩ := h
    left
    refine ⟨(i, p), hm, ?_⟩
    rcases h with ⟨x, hx, hw⟩ | ⟨x, hx, hsh⟩
    · refine ⟨by simp [hx, atUser], ?_⟩
      have : (s.obj i).lk.wr ≠ none := by rw [Option.isSome_iff_ne_none] at hw; exact hw
      simp [Sync.go, hx, Lock.claim, this]
    · refine ⟨by simp [hx, atUser], ?_⟩
      simp [Sync.go, hx, Lock.drained, hsh]
  | inr k =>
    right
    rcases h with ⟨hx, hw⟩ | ⟨hx, hsh⟩
    · refine ⟨by simp [hx], ?_⟩
      have : (s.lk.lock k).wr ≠ none := by rw [Option.isSome_iff_ne_none] at hw; exact hw
      simp [Locks.go, hx, Lock.claim, this]
    · refine ⟨by simp [hx], ?_⟩
      simp [Locks.go, hx, Lock.drained, hsh]

/-- What the other threads see of a step at a lazy container. -/
theorem persist_lazy (hi : Inv eqv v₀ w₀ s) {a : Nat} {j : F} {o : Sync.St V E} {l : List (F × Nat)} {n : Nat}
    (hpc : ∀ q, q ≠ s.next → o.pc q = (s.obj j).pc q) (hsh : ∀ q ∈ (s.obj j).lk.shared, q ∈ o.lk.shared)
    (hwr : (s.obj j).lk.wr.isSome = true → o.lk.wr.isSome = true) :
    let s' : St F L V W E := { s with obj := upd s.obj j o, stack := upd s.stack a l, next := n }
    (∀ b, b ≠ a → (Out s b → Out s' b) ∧ ∀ r, (Keeps s b r → Keeps s' b r) ∧ (Asks s b r → Asks s' b r)) ∧
    ∀ r, HasReader s r → HasReader s' r := by
  have hobj : ∀ b i p, (i, p) ∈ s.stack b → (upd s.obj j o i).pc p = (s.obj i).pc p := by
    intro b i p hm
    by_cases hij : i = j
    · subst hij
      have := (hi.inside _ _ _ hm).1
      simp only [upd_same]; exact hpc p (by omega)
    · rw [upd_other _ _ hij]
  have hlk : ∀ i p, p ∈ (s.obj i).lk.shared → p ∈ (upd s.obj j o i).lk.shared := by
    intro i p hm
    by_cases hij : i = j
    · subst hij; simp only [upd_same]; exact hsh p hm
    · rw [upd_other _ _ hij]; exact hm
  have hnn : ∀ i, (s.obj i).lk.shared ≠ [] → (upd s.obj j o i).lk.shared ≠ [] := by
    intro i h
    obtain ⟨p, hp⟩ := List.exists_mem_of_ne_nil _ h
    exact List.ne_nil_of_mem (hlk i p hp)
  have hw' : ∀ i, (s.obj i).lk.wr.isSome = true → (upd s.obj j o i).lk.wr.isSome = true := by
    intro i h
    by_cases hij : i = j
    · subst hij; simp only [upd_same]; exact hwr h
    · rw [upd_other _ _ hij]; exact h
  refine ⟨?_, ?_⟩
  · intro b hb
    refine ⟨?_, ?_⟩
    · rintro ⟨h1, h2, h3⟩
      exact ⟨by simpa [upd_other _ _ hb] using h1, h2, h3⟩
    · intro r
      cases r with
      | inl i =>
        refine ⟨?_, ?_⟩
        · rintro ⟨p, h1, h2, h3, h4⟩
          have hm : (i, p) ∈ s.stack b := by rw [h1]; exact .head _
          exact ⟨p, by simpa [upd_other _ _ hb] using h1, by simp only [hobj b i p hm]; exact h2, hlk i p h3, h4⟩
        · rintro ⟨p, hm, h⟩
          refine ⟨p, by simpa [upd_other _ _ hb] using hm, ?_⟩
          simp only [hobj b i p hm]
          rcases h with ⟨x, h1, h2⟩ | ⟨x, h1, h2⟩
          · exact .inl ⟨x, h1, hw' i h2⟩
          · exact .inr ⟨x, h1, hnn i h2⟩
      | inr k =>
        refine ⟨?_, fun h => h⟩
        rintro ⟨h1, h2⟩
        exact ⟨by simpa [upd_other _ _ hb] using h1, h2⟩
  · intro r h
    cases r with
    | inl i => exact hnn i h
    | inr k => exact h

/-- ... and of a step at a lock-protected container. -/
theorem persist_lock {a : Nat} {l : Locks.St L W} (hpc : ∀ b, b ≠ a → l.pc b = s.lk.pc b ∧ l.held b = s.lk.held b)
    (hsh : ∀ k, ∀ q ∈ (s.lk.lock k).shared, q ∈ (l.lock k).shared)
    (hwr : ∀ k, (s.lk.lock k).wr.isSome = true → (l.lock k).wr.isSome = true) :
    let s' : St F L V W E := { s with lk := l }
    (∀ b, b ≠ a → (Out s b → Out s' b) ∧ ∀ r, (Keeps s b r → Keeps s' b r) ∧ (Asks s b r → Asks s' b r)) ∧
    ∀ r, HasReader s r → HasReader s' r := by
  have hnn : ∀ k, (s.lk.lock k).shared ≠ [] → (l.lock k).shared ≠ [] := by
    intro i h
    obtain ⟨p, hp⟩ := List.exists_mem_of_ne_nil _ h
    exact List.ne_nil_of_mem (hsh i p hp)
  refine ⟨?_, ?_⟩
  · intro b hb
    obtain ⟨h1, h2⟩ := hpc b hb
    refine ⟨fun h => ⟨h.1, by rw [h2]; exact h.2.1, by rw [h1]; exact h.2.2⟩, ?_⟩
    intro r
    cases r with
    | inl i =>
      refine ⟨?_, fun h => h⟩
      rintro ⟨p, h3, h4, h5, h6, h7⟩
      exact ⟨p, h3, h4, h5, by rw [h2]; exact h6, by rw [h1]; exact h7⟩
    | inr k =>
      refine ⟨?_, ?_⟩
      · rintro ⟨h3, h4, h5, h6⟩
        exact ⟨h3, by rw [h2]; exact h4, by rw [h1]; exact h5, hsh k b h6⟩
      · rintro (⟨h3, h4⟩ | ⟨h3, h4⟩)
        · exact .inl ⟨by rw [h1]; exact h3, hwr k h4⟩
        · exact .inr ⟨by rw [h1]; exact h3, hnn k h4⟩
  · intro r h
    cases r with
    | inl i => exact h
    | inr k => exact hnn k h

/-- Reading a lazy container which has a value. -/
theorem sync_read {o : Sync.St V E} {p : Nat} (hp : o.pc p = .idle) (hw : o.lk.wr = none) (hu : o.lk.upg = none)
    (hv : o.value.isSome = true) : ∃ o₁ o₂ o₃ o₄ o₅ : Sync.St V E, Sync.invoke o p (.get .read) = some o₁ ∧
      Sync.go o₁ p = some o₂ ∧ Sync.go o₂ p = some o₃ ∧ Sync.go o₃ p = some o₄ ∧ Sync.go o₄ p = some o₅ ∧
      gone (o₂.pc p) = false ∧ gone (o₃.pc p) = false ∧ gone (o₄.pc p) = false ∧ atUser (o₅.pc p) = true ∧
      o₅.lk.shared = p :: o.lk.shared ∧ o₅.lk.wr = none ∧ o₅.lk.upg = none ∧ o₅.value = o.value ∧
      ∀ q, q ≠ p → o₅.pc q = o.pc q := by
  obtain ⟨v, hv⟩ := Option.isSome_iff_exists.1 hv
  let o₁ := o.begin p (.get .read) (.rStart .read)
  let o₂ := { o₁ with lk := { o.lk with upg := some p } }.to p (.rHaveU .read)
  let o₃ := (o₂.lin p (.get .read) ⟨none, getRet .read (.ok v)⟩).to p (.rReady .read none)
  let o₄ := { o₃ with lk := o₃.lk.downgradeToShared p }.to p (.rMap .read none)
  let o₅ := o₄.ret p (Sync.heldGuard GetKind.read.mutable (o₄.me p)) ⟨none, .value v⟩
  refine ⟨o₁, o₂, o₃, o₄, o₅, by simp [Sync.invoke, hp, o₁], ?_, ?_, ?_, ?_, ?_⟩
  · simp [o₂, o₁, Sync.go, Sync.St.begin, Lock.tryUpgradable, hw, hu]
  · simp [o₃, o₂, o₁, Sync.go, Sync.St.begin, Sync.St.to, hv]
  · simp [o₄, o₃, Sync.go, Sync.St.to]
  · have h1 : o₄.pc p = .rMap .read none := by simp [o₄, Sync.St.to]
    have h2 : o₄.value = some v := hv
    simp [o₅, Sync.go, h1, h2]
  · refine ⟨by simp [o₂, Sync.St.to, gone], by simp [o₃, Sync.St.to, gone], by simp [o₄, Sync.St.to, gone], ?_, rfl, hw,
      rfl, rfl, ?_⟩
    · simp [o₅, Sync.St.ret, Sync.heldGuard, GetKind.mutable, atUser]
    · intro q hq
      simp [o₅, o₄, o₃, o₂, o₁, Sync.St.to, Sync.St.ret, Sync.St.lin, Sync.St.ev, Sync.St.begin, upd, hq]

/-- Asking a lazy container for exclusive access while others read. -/
theorem sync_ask {o : Sync.St V E} {p : Nat} (hp : o.pc p = .idle) (hu : o.lk.upg = none) :
    ∃ o₁ : Sync.St V E, Sync.invoke o p .clear = some o₁ ∧ o₁.lk = o.lk ∧ o₁.pc p = .xStart (.put none) ∧
      (∀ q, q ≠ p → o₁.pc q = o.pc q) ∧
      (o.lk.wr = none → ∃ o₂ : Sync.St V E, Sync.go o₁ p = some o₂ ∧ o₂.lk = { o.lk with wr := some p } ∧
        o₂.pc p = .xWait (.put none) ∧ ∀ q, q ≠ p → o₂.pc q = o.pc q) := by
  refine ⟨o.begin p .clear (.xStart (.put none)), by simp [Sync.invoke, hp], rfl, by simp [Sync.St.begin], ?_, ?_⟩
  · intro q hq; simp [Sync.St.begin, upd, hq]
  · intro hw
    refine ⟨{ o.begin p .clear (.xStart (.put none)) with lk := { o.lk with wr := some p } }.to p (.xWait (.put none)),
      ?_, rfl, by simp [Sync.St.to], ?_⟩
    · simp [Sync.go, Sync.St.begin, Lock.claim, hw, hu]
    · intro q hq; simp [Sync.St.to, Sync.St.begin, upd, hq]

theorem reach_call {t : Nat} {j : F} {op : Spec.Op V} {o : Sync.St V E} (h : Reach eqv dep v₀ w₀ s) (hu : turn s t = true)
    (ha : Precedes dep s t (s.stack t) (.inl j)) (ho : Sync.invoke (s.obj j) s.next op = some o) :
    Reach eqv dep v₀ w₀
      { s with obj := upd s.obj j o, stack := upd s.stack t ((j, s.next) :: s.stack t), next := s.next + 1 } := by
  refine .step (t := t) (a := .call j op) h ?_ (by simp [step, hu, ho])
  cases op <;> first | trivial | exact ha

theorem reach_go {t : Nat} {f : F × Nat} {o : Sync.St V E} (h : Reach eqv dep v₀ w₀ s) (hf : f ∈ s.stack t)
    (hal : alone s t f = true) (ho : Sync.go (s.obj f.1) f.2 = some o) (hg : gone (o.pc f.2) = false) :
    Reach eqv dep v₀ w₀ { s with obj := upd s.obj f.1 o } := by
  have : settle s t f o = { s with obj := upd s.obj f.1 o } := by
    simp only [settle, hg, Bool.false_eq_true, if_false]
    congr 1
    funext u; simp only [upd]; split
    · rename_i hu; rw [hu]
    · rfl
  rw [← this]
  exact .step (t := t) (a := .go f) h trivial (by simp [step, hf, hal, ho])

theorem reach_lock_go {t : Nat} {l : Locks.St L W} (h : Reach eqv dep v₀ w₀ s) (ha : atRest s t = true)
    (hl : Locks.go eqv s.lk t = some l) : Reach eqv dep v₀ w₀ { s with lk := l } :=
  .step (t := t) (a := .lock .go) h trivial (by simp [step, ha, Locks.step, hl])

theorem fresh (hi : Inv eqv v₀ w₀ s) (i : F) : (s.obj i).pc s.next = .idle := by
  rw [← gone_iff]
  cases hg : gone ((s.obj i).pc s.next)
  · obtain ⟨t, h⟩ := hi.owner i _ hg
    have := (hi.inside _ _ _ h).1
    omega
  · rfl

/-- A lazy container has a value. -/
def HasValue (s : St F L V W E) : F ⊕ L → Prop
  | .inl i => (s.obj i).value.isSome = true
  | .inr _ => True

/-- A thread from outside takes a reading guard. -/
theorem take (h : Reach eqv dep v₀ w₀ s) (hc : Calm s) {a : Nat} (ha : Out s a) (r : F ⊕ L)
    (hval : HasValue s r) : ∃ s' : St F L V W E, Reach eqv dep v₀ w₀ s' ∧ Calm s' ∧ Keeps s' a r ∧
      (∀ r', HasValue s r' → HasValue s' r') ∧
      ∀ b, b ≠ a → (Out s b → Out s' b) ∧ ∀ r', Keeps s b r' → Keeps s' b r' := by
  have hi := inv_reach h
  obtain ⟨ha1, ha2, ha3⟩ := ha
  cases r with
  | inl i =>
    obtain ⟨o₁, o₂, o₃, o₄, o₅, h1, h2, h3, h4, h5, g2, g3, g4, g5, hsh, hwr, hup, hsame, hot⟩ :=
      sync_read (fresh hi i) (hc.wr i) (hc.upg i) hval
    have hturn : turn s a = true := by simp [turn, atRest, ha1, ha3, idle]
    have r1 := reach_call (op := .get .read) h hturn ⟨by simp [ha1], by simp [ha2]⟩ h1
    have hal : ∀ o : Sync.St V E, alone ({ s with
        obj := upd s.obj i o, stack := upd s.stack a ((i, s.next) :: s.stack a), next := s.next + 1 } : St F L V W E) a
        (i, s.next) = true := by
      intro o; simp [alone, ha1, ha3, idle]
    have hmem : ∀ o : Sync.St V E, (i, s.next) ∈ ({ s with
        obj := upd s.obj i o, stack := upd s.stack a ((i, s.next) :: s.stack a), next := s.next + 1 } : St F L V W E).stack a := by
      intro o; simp
    have r2 := reach_go r1 (hmem o₁) (hal o₁) (by simpa using h2) g2
    simp only [upd_upd] at r2
    have r3 := reach_go r2 (hmem o₂) (hal o₂) (by simpa using h3) g3
    simp only [upd_upd] at r3
    have r4 := reach_go r3 (hmem o₃) (hal o₃) (by simpa using h4) g4
    simp only [upd_upd] at r4
    have r5 := reach_go r4 (hmem o₄) (hal o₄) (by simpa using h5) (user_not_gone g5)
    simp only [upd_upd] at r5
    have hp := (persist_lazy (a := a) (l := (i, s.next) :: s.stack a) (n := s.next + 1) hi hot
      (by intro q hq; rw [hsh]; exact .tail _ hq) (by rw [hc.wr i]; simp)).1
    refine ⟨_, r5, ⟨?_, ?_, hc.lock⟩, ⟨s.next, by simp [ha1], by simpa using g5, by simp [hsh], ha2, ha3⟩, ?_, ?_⟩
    · intro j
      by_cases hj : j = i
      · subst hj; simpa using hwr
      · simpa [upd_other _ _ hj] using hc.wr j
    · intro j
      by_cases hj : j = i
      · subst hj; simpa using hup
      · simpa [upd_other _ _ hj] using hc.upg j
    · intro r' hr'
      cases r' with
      | inr k => trivial
      | inl j =>
        by_cases hj : j = i
        · subst hj; simpa [HasValue, hsame] using hr'
        · simpa [HasValue, upd_other _ _ hj] using hr'
    · exact fun b hb => ⟨(hp b hb).1, fun r' => ((hp b hb).2 r').1⟩
  | inr k =>
    have hrest : atRest s a = true := by simp [atRest, ha1]
    have r1 : Reach eqv dep v₀ w₀ { s with lk := s.lk.begin a (.read k) (.rWait k) } :=
      .step (t := a) (a := .lock (.call (.read k))) h ⟨by simp [ha1], by simp [ha2]⟩
        (by simp [step, hrest, Locks.step, Locks.invoke, ha3])
    let l₁ := s.lk.begin a (.read k) (.rWait k)
    let l₂ := (((l₁.setLock k { s.lk.lock k with shared := a :: (s.lk.lock k).shared }).keep a (k, false)).lin a
      (.read k) .unit).ret a .unit
    have hgo : Locks.go eqv l₁ a = some l₂ := by
      simp [l₁, l₂, Locks.go, Locks.St.begin, Lock.tryShared, hc.lock k]
    have r2 := reach_lock_go r1 (t := a) hrest hgo
    have hp := (persist_lock (s := s) (a := a) (l := l₂) (?_) (?_) (?_)).1
    refine ⟨_, r2, ⟨hc.wr, hc.upg, ?_⟩, ⟨ha1, ?_, ?_, ?_⟩, fun r' hr' => by cases r' <;> exact hr', fun b hb => ⟨(hp b hb).1, fun r' => ((hp b hb).2 r').1⟩⟩
    · intro k'
      by_cases hk : k' = k
      · subst hk; simp [l₂, l₁, Locks.St.ret, Locks.St.lin, Locks.St.keep, Locks.St.setLock, Locks.St.begin]; exact hc.lock k'
      · simp [l₂, l₁, Locks.St.ret, Locks.St.lin, Locks.St.keep, Locks.St.setLock, Locks.St.begin, upd_other _ _ hk]; exact hc.lock k'
    · simp [l₂, l₁, Locks.St.ret, Locks.St.lin, Locks.St.keep, Locks.St.setLock, Locks.St.begin, ha2]
    · simp [l₂, Locks.St.ret]
    · simp [l₂, l₁, Locks.St.ret, Locks.St.lin, Locks.St.keep, Locks.St.setLock, Locks.St.begin]
    · intro b hb
      simp [l₂, l₁, Locks.St.ret, Locks.St.lin, Locks.St.keep, Locks.St.setLock, Locks.St.begin, upd_other _ _ hb]
    · intro k' q hq
      by_cases hk : k' = k
      · subst hk; simp [l₂, l₁, Locks.St.ret, Locks.St.lin, Locks.St.keep, Locks.St.setLock, Locks.St.begin]; exact .inr hq
      · simp [l₂, l₁, Locks.St.ret, Locks.St.lin, Locks.St.keep, Locks.St.setLock, Locks.St.begin, upd_other _ _ hk]; exact hq
    · intro k' hk'; rw [hc.lock k'] at hk'; cases hk'

/-- A thread which keeps a reading guard asks for exclusive access to something that is read. -/
theorem ask (h : Reach eqv dep v₀ w₀ s) (hu : ∀ i, (s.obj i).lk.upg = none) {a : Nat} {r r' : F ⊕ L} (ha : Keeps s a r)
    (hd : dep r r') (hr : HasReader s r') :
    ∃ s' : St F L V W E, Reach eqv dep v₀ w₀ s' ∧ (∀ i, (s'.obj i).lk.upg = none) ∧ Asks s' a r' ∧
      (∀ b, b ≠ a → (Out s b → Out s' b) ∧ ∀ r, (Keeps s b r → Keeps s' b r) ∧ (Asks s b r → Asks s' b r)) ∧
      ∀ r, HasReader s r → HasReader s' r := by
  have hi := inv_reach h
  have hturn : turn s a = true := by
    cases r with
    | inl i =>
      obtain ⟨p, h1, h2, _, _, h3⟩ := ha
      simp [turn, atRest, h1, h2, h3, idle]
    | inr k =>
      obtain ⟨h1, _, h2, _⟩ := ha
      simp [turn, atRest, h1, h2, idle]
  have hpre : ∀ r', dep r r' → Precedes dep s a (s.stack a) r' := by
    intro r' hd
    cases r with
    | inl i =>
      obtain ⟨p, h1, _, _, h2, _⟩ := ha
      exact ⟨by simp [h1, hd], by simp [h2]⟩
    | inr k =>
      obtain ⟨h1, h2, _⟩ := ha
      exact ⟨by simp [h1], by simp [h2, hd]⟩
  have hrest : atRest s a = true := by simp only [turn, Bool.and_eq_true] at hturn; exact hturn.1
  have hidle : s.lk.pc a = .idle := by simp only [turn, Bool.and_eq_true] at hturn; exact (idle_iff _).1 hturn.2
  cases r' with
  | inl j =>
    obtain ⟨o₁, h1, hl1, hp1, hot1, h2⟩ := sync_ask (fresh hi j) (hu j)
    have r1 := reach_call (op := .clear) h hturn (hpre _ hd) h1
    cases hw : (s.obj j).lk.wr with
    | some q =>
      have hp := persist_lazy (a := a) (l := (j, s.next) :: s.stack a) (n := s.next + 1) (o := o₁) hi hot1
        (by intro q hq; rw [hl1]; exact hq) (by rw [hl1]; exact fun h => h)
      refine ⟨_, r1, ?_, ⟨s.next, by simp, .inl ⟨_, by simpa using hp1, by simp [hl1, hw]⟩⟩, hp⟩
      intro i
      by_cases hij : i = j
      · subst hij; simp [hl1, hu]
      · simp [upd_other _ _ hij, hu]
    | none =>
      obtain ⟨o₂, h3, hl2, hp2, hot2⟩ := h2 hw
      have hal : alone ({ s with
          obj := upd s.obj j o₁, stack := upd s.stack a ((j, s.next) :: s.stack a), next := s.next + 1 } : St F L V W E) a
          (j, s.next) = true := by
        simp only [alone, upd_same, hidle, idle, Bool.and_true, List.all_eq_true, Bool.or_eq_true, beq_iff_eq, List.mem_cons]
        rintro g (rfl | hg)
        · exact .inl rfl
        · right
          have h4 : (upd s.obj j o₁ g.1).pc g.2 = (s.obj g.1).pc g.2 :=
            call_pc hi (op := .clear) (by simpa [Sync.step] using h1) hg
          rw [h4]
          simp only [atRest, List.all_eq_true] at hrest
          exact hrest g hg
      have r2 := reach_go r1 (by simp) hal (by simpa using h3) (by simp [hp2, gone])
      simp only [upd_upd] at r2
      have hp := persist_lazy (a := a) (l := (j, s.next) :: s.stack a) (n := s.next + 1) (o := o₂) hi hot2
        (by intro q hq; rw [hl2]; exact hq) (by rw [hl2]; simp)
      refine ⟨_, r2, ?_, ⟨s.next, by simp, .inr ⟨_, by simpa using hp2, ?_⟩⟩, hp⟩
      · intro i
        by_cases hij : i = j
        · subst hij; simp [hl2, hu]
        · simp [upd_other _ _ hij, hu]
      · simp only [upd_same, hl2]; exact hr
  | inr k =>
    have r1 : Reach eqv dep v₀ w₀ { s with lk := s.lk.begin a (.write k) (.wWait k) } :=
      .step (t := a) (a := .lock (.call (.write k))) h (hpre _ hd)
        (by simp [step, hrest, Locks.step, Locks.invoke, hidle])
    have hlup := (Proof.Locks.core_reach hi.lk).upg k
    cases hw : (s.lk.lock k).wr with
    | some q =>
      have hp := persist_lock (s := s) (a := a) (l := s.lk.begin a (.write k) (.wWait k))
        (by intro b hb; simp [Locks.St.begin, upd_other _ _ hb]) (fun k q hq => hq) (fun k h => h)
      exact ⟨_, r1, hu, .inl ⟨by simp [Locks.St.begin], by simp [Locks.St.begin, hw]⟩, hp⟩
    | none =>
      have hgo : Locks.go eqv (s.lk.begin a (.write k) (.wWait k)) a = some (((s.lk.begin a (.write k) (.wWait k)).setLock k
          { s.lk.lock k with wr := some a }).to a (.wDrain k)) := by
        simp [Locks.go, Locks.St.begin, Lock.claim, hw, hlup]
      have r2 := reach_lock_go r1 (t := a) hrest hgo
      have hp := persist_lock (s := s) (a := a) (l := ((s.lk.begin a (.write k) (.wWait k)).setLock k
          { s.lk.lock k with wr := some a }).to a (.wDrain k))
        (by intro b hb; simp [Locks.St.begin, Locks.St.to, Locks.St.setLock, upd_other _ _ hb])
        (by
          intro k' q hq
          by_cases hk : k' = k
          · subst hk; simpa [Locks.St.begin, Locks.St.to, Locks.St.setLock] using hq
          · simpa [Locks.St.begin, Locks.St.to, Locks.St.setLock, upd_other _ _ hk] using hq)
        (by
          intro k' hq
          by_cases hk : k' = k
          · subst hk; simp [Locks.St.begin, Locks.St.to, Locks.St.setLock]
          · simpa [Locks.St.begin, Locks.St.to, Locks.St.setLock, upd_other _ _ hk] using hq)
      refine ⟨_, r2, hu, .inr ⟨by simp [Locks.St.to], ?_⟩, hp⟩
      simp only [Locks.St.begin, Locks.St.to, Locks.St.setLock, upd_same]; exact hr

/-- A cycle as a sequence. -/
theorem cycle_seq {A : Type} {r : A → A → Prop} {x y : A} (h : Relation.TransGen r x y) :
    ∃ (n : Nat) (c : Nat → A), 0 < n ∧ c 0 = x ∧ c n = y ∧ ∀ a, a < n → r (c a) (c (a + 1)) := by
  induction h with
  | single h =>
    rename_i y
    exact ⟨1, fun a => if a = 0 then x else y, by omega, rfl, rfl, fun a ha => by
      have : a = 0 := by omega
      subst this; simpa using h⟩
  | @tail y z _ h ih =>
    obtain ⟨n, c, hn, h0, hc, hr⟩ := ih
    refine ⟨n + 1, fun a => if a ≤ n then c a else z, by omega, by simpa using h0, by simp [show ¬ n + 1 ≤ n by omega], ?_⟩
    intro a ha
    by_cases han : a < n
    · have h1 : a ≤ n := by omega
      have h2 : a + 1 ≤ n := by omega
      simp only [h1, h2, if_true]; exact hr a han
    · have : a = n := by omega
      subst this
      simp only [Nat.le_refl, if_true, show ¬ a + 1 ≤ a by omega, if_false]
      rw [hc]; exact h

/-- Giving a lazy container a value, alone. -/
theorem sync_put {o : Sync.St V E} {p : Nat} (v : V) (hp : o.pc p = .idle) (hw : o.lk.wr = none) (hu : o.lk.upg = none)
    (hsh : o.lk.shared = []) : ∃ o₁ o₂ o₃ o₄ o₅ o₆ : Sync.St V E, Sync.invoke o p (.set v) = some o₁ ∧
      Sync.go o₁ p = some o₂ ∧ Sync.go o₂ p = some o₃ ∧ Sync.go o₃ p = some o₄ ∧ Sync.go o₄ p = some o₅ ∧
      Sync.go o₅ p = some o₆ ∧ gone (o₂.pc p) = false ∧ gone (o₃.pc p) = false ∧ gone (o₄.pc p) = false ∧
      gone (o₅.pc p) = false ∧ gone (o₆.pc p) = true ∧
      o₆.lk.shared = [] ∧ o₆.lk.wr = none ∧ o₆.lk.upg = none ∧ o₆.value = some v := by
  let o₁ := o.begin p (.set v) (.xStart (.put (some v)))
  let o₂ := { o₁ with lk := { o.lk with wr := some p } }.to p (.xWait (.put (some v)))
  let o₃ := o₂.to p (.xHave (.put (some v)))
  let o₄ := ({ o₃ with flag := (some v).isSome }.lin p (XKind.op (.put (some v))) ⟨none, .old o₃.value⟩).to p
    (.xVal (some v))
  let o₅ := { o₄ with value := some v }.to p (.xRel (some v) o₄.value)
  let o₆ := { o₅ with lk := o₅.lk.dropWrite }.ret p .idle ⟨none, .old o₄.value⟩
  refine ⟨o₁, o₂, o₃, o₄, o₅, o₆, by simp [Sync.invoke, hp, o₁], ?_, ?_, ?_, ?_, ?_, ?_⟩
  · simp [o₂, o₁, Sync.go, Sync.St.begin, Lock.claim, hw, hu]
  · simp [o₃, o₂, Sync.go, Sync.St.to, Lock.drained, hsh]
  · simp [o₄, o₃, Sync.go, Sync.St.to]
  · simp [o₅, o₄, Sync.go, Sync.St.to]
  · simp [o₆, o₅, Sync.go, Sync.St.to]
  · exact ⟨by simp [o₂, Sync.St.to, gone], by simp [o₃, Sync.St.to, gone], by simp [o₄, Sync.St.to, gone],
      by simp [o₅, Sync.St.to, gone], by simp [o₆, Sync.St.ret, gone], hsh, rfl, hu, rfl⟩

theorem reach_leave {t : Nat} {f : F × Nat} {o : Sync.St V E} (h : Reach eqv dep v₀ w₀ s) (hf : s.stack t = [f])
    (hal : alone s t f = true) (ho : Sync.go (s.obj f.1) f.2 = some o) (hg : gone (o.pc f.2) = true) :
    Reach eqv dep v₀ w₀ { s with obj := upd s.obj f.1 o, stack := upd s.stack t [] } := by
  have : settle s t f o = { s with obj := upd s.obj f.1 o, stack := upd s.stack t [] } := by
    simp [settle, hg, hf]
  rw [← this]
  exact .step (t := t) (a := .go f) h trivial (by simp [step, hf, hal, ho])

/-- Nobody is inside, nothing is locked. -/
structure Empty (s : St F L V W E) : Prop where
  calm : Calm s
  shared : ∀ i, (s.obj i).lk.shared = []
  out : ∀ a, Out s a

/-- A lone thread gives a lazy container a value. -/
theorem put [Nonempty V] (h : Reach eqv dep v₀ w₀ s) (he : Empty s) (r : F ⊕ L) :
    ∃ s' : St F L V W E, Reach eqv dep v₀ w₀ s' ∧ Empty s' ∧ HasValue s' r ∧ ∀ r', HasValue s r' → HasValue s' r' := by
  cases r with
  | inr k => exact ⟨s, h, he, trivial, fun _ h => h⟩
  | inl i =>
    have hi := inv_reach h
    obtain ⟨v⟩ := ‹Nonempty V›
    obtain ⟨ha1, ha2, ha3⟩ := he.out 0
    obtain ⟨o₁, o₂, o₃, o₄, o₅, o₆, h1, h2, h3, h4, h5, h6, g2, g3, g4, g5, g6, hsh, hwr, hup, hval⟩ :=
      sync_put v (fresh hi i) (he.calm.wr i) (he.calm.upg i) (he.shared i)
    have hturn : turn s 0 = true := by simp [turn, atRest, ha1, ha3, idle]
    have r1 := reach_call (op := .set v) h hturn ⟨by simp [ha1], by simp [ha2]⟩ h1
    have hal : ∀ o : Sync.St V E, alone ({ s with
        obj := upd s.obj i o, stack := upd s.stack 0 ((i, s.next) :: s.stack 0), next := s.next + 1 } : St F L V W E) 0
        (i, s.next) = true := by
      intro o; simp [alone, ha1, ha3, idle]
    have hmem : ∀ o : Sync.St V E, (i, s.next) ∈ ({ s with
        obj := upd s.obj i o, stack := upd s.stack 0 ((i, s.next) :: s.stack 0), next := s.next + 1 } : St F L V W E).stack 0 := by
      intro o; simp
    have r2 := reach_go r1 (hmem o₁) (hal o₁) (by simpa using h2) g2
    simp only [upd_upd] at r2
    have r3 := reach_go r2 (hmem o₂) (hal o₂) (by simpa using h3) g3
    simp only [upd_upd] at r3
    have r4 := reach_go r3 (hmem o₃) (hal o₃) (by simpa using h4) g4
    simp only [upd_upd] at r4
    have r5 := reach_go r4 (hmem o₄) (hal o₄) (by simpa using h5) g5
    simp only [upd_upd] at r5
    have r6 := reach_leave r5 (t := 0) (f := (i, s.next)) (by simp [ha1]) (hal o₅) (by simpa using h6) g6
    simp only [upd_upd] at r6
    refine ⟨_, r6, ⟨⟨?_, ?_, he.calm.lock⟩, ?_, ?_⟩, by simp [HasValue, hval], ?_⟩
    · intro j
      by_cases hj : j = i
      · subst hj; simpa using hwr
      · simpa [upd_other _ _ hj] using he.calm.wr j
    · intro j
      by_cases hj : j = i
      · subst hj; simpa using hup
      · simpa [upd_other _ _ hj] using he.calm.upg j
    · intro j
      by_cases hj : j = i
      · subst hj; simpa using hsh
      · simpa [upd_other _ _ hj] using he.shared j
    · intro a
      obtain ⟨h7, h8, h9⟩ := he.out a
      refine ⟨?_, h8, h9⟩
      by_cases h0 : a = 0
      · subst h0; simp
      · simpa [upd_other _ _ h0] using h7
    · intro r' hr'
      cases r' with
      | inr k => trivial
      | inl j =>
        by_cases hj : j = i
        · subst hj; simp [HasValue, hval]
        · simpa [HasValue, upd_other _ _ hj] using hr'

/-- First all lazy containers along the cycle are given values. -/
theorem phase0 [Nonempty V] (c : Nat → F ⊕ L) (m : Nat) :
    ∃ s : St F L V W E, Reach eqv dep v₀ w₀ s ∧ Empty s ∧ ∀ a, a < m → HasValue s (c a) := by
  induction m with
  | zero =>
    exact ⟨init v₀ w₀, .init, ⟨⟨fun _ => rfl, fun _ => rfl, fun _ => rfl⟩, fun _ => rfl, fun _ => ⟨rfl, rfl, rfl⟩⟩,
      fun a ha => by omega⟩
  | succ m ih =>
    obtain ⟨s, h1, h2, h3⟩ := ih
    obtain ⟨s', h4, h5, h6, h7⟩ := put h1 h2 (c m)
    refine ⟨s', h4, h5, fun a ha => ?_⟩
    by_cases ham : a = m
    · subst ham; exact h6
    · exact h7 _ (h3 a (by omega))

/-- Then everybody along the cycle takes a reading guard. -/
theorem phase1 [Nonempty V] (c : Nat → F ⊕ L) (n m : Nat) (hm : m ≤ n) :
    ∃ s : St F L V W E, Reach eqv dep v₀ w₀ s ∧ Calm s ∧ (∀ a, a < n → HasValue s (c a)) ∧
      (∀ a, a < m → Keeps s a (c a)) ∧ ∀ a, m ≤ a → Out s a := by
  induction m with
  | zero =>
    obtain ⟨s, h1, h2, h3⟩ := phase0 (eqv := eqv) (dep := dep) (v₀ := v₀) (w₀ := w₀) (E := E) c n
    exact ⟨s, h1, h2.calm, h3, fun a ha => by omega, fun a _ => h2.out a⟩
  | succ m ih =>
    obtain ⟨s, h1, h2, hv, h3, h4⟩ := ih (by omega)
    obtain ⟨s', h5, h6, h7, h9, h8⟩ := take h1 h2 (h4 m (Nat.le_refl _)) (c m) (hv m (by omega))
    refine ⟨s', h5, h6, fun a ha => h9 _ (hv a ha), ?_, ?_⟩
    · intro a ha
      by_cases ham : a = m
      · subst ham; exact h7
      · exact (h8 a ham).2 _ (h3 a (by omega))
    · intro a ha
      exact (h8 a (by omega)).1 (h4 a (by omega))

/-- Last everybody asks for the next one. -/
theorem phase2 [Nonempty V] (c : Nat → F ⊕ L) (n : Nat) (hcn : c n = c 0)
    (hd : ∀ a, a < n → dep (c a) (c (a + 1))) (m : Nat) (hm : m ≤ n) :
    ∃ s : St F L V W E, Reach eqv dep v₀ w₀ s ∧ (∀ i, (s.obj i).lk.upg = none) ∧ (∀ a, a < n → HasReader s (c a)) ∧
      (∀ a, a < m → Asks s a (c (a + 1))) ∧ (∀ a, m ≤ a → a < n → Keeps s a (c a)) ∧ ∀ a, n ≤ a → Out s a := by
  induction m with
  | zero =>
    obtain ⟨s, h1, h2, _, h3, h4⟩ := phase1 (eqv := eqv) (dep := dep) (v₀ := v₀) (w₀ := w₀) (E := E) c n n (Nat.le_refl _)
    exact ⟨s, h1, h2.upg, fun a ha => keeps_reader (h3 a ha), fun a ha => by omega, fun a _ ha => h3 a ha, h4⟩
  | succ m ih =>
    obtain ⟨s, h1, h2, h3, h4, h5, h6⟩ := ih (by omega)
    have hread : HasReader s (c (m + 1)) := by
      by_cases hmn : m + 1 = n
      · rw [hmn, hcn]; exact h3 0 (by omega)
      · exact h3 _ (by omega)
    obtain ⟨s', h7, h8, h9, h10, h11⟩ := ask h1 h2 (h5 m (Nat.le_refl _) (by omega)) (hd m (by omega)) hread
    refine ⟨s', h7, h8, fun a ha => h11 _ (h3 a ha), ?_, ?_, ?_⟩
    · intro a ha
      by_cases ham : a = m
      · subst ham; exact h9
      · exact ((h10 a ham).2 _).2 (h4 a (by omega))
    · intro a ha1 ha2
      exact ((h10 a (by omega)).2 _).1 (h5 a (by omega) ha2)
    · intro a ha
      exact (h10 a (by omega)).1 (h6 a ha)

/-- So a cycle lets threads deadlock. -/
theorem cycle_deadlock [Nonempty V] {r : F ⊕ L} (h : Relation.TransGen dep r r) :
    ∃ s : St F L V W E, Reach eqv dep v₀ w₀ s ∧ Deadlock eqv s := by
  obtain ⟨n, c, hn, h0, hc, hd⟩ := cycle_seq h
  obtain ⟨s, h1, _, _, h2, _, h3⟩ := phase2 (eqv := eqv) (dep := dep) (v₀ := v₀) (w₀ := w₀) (E := E) c n
    (by rw [hc, h0]) hd n (Nat.le_refl _)
  refine ⟨s, h1, ⟨0, ?_⟩, ?_⟩
  · obtain ⟨r, hr⟩ := stuck_wants (inv_reach h1) (asks_stuck (eqv := eqv) (h2 0 hn))
    exact wants_inside hr
  · intro t ht
    by_cases htn : t < n
    · exact asks_stuck (h2 t htn)
    · obtain ⟨h4, h5, h6⟩ := h3 t (by omega)
      rcases ht with ht | ht | ht
      · exact absurd h4 ht
      · exact absurd h6 ht
      · exact absurd h5 ht

end Verif.Proof.Mixed
