import Verif.Proof.CallsEff
/-!
# The helpers of a sync lazy field under concurrency (helper lemmas)
-/

namespace Verif.Proof.Calls
open Verif.Spec Verif.Spec.Calls Verif.Model Verif.Model.Args Verif.Model.Method Verif.Model.Calls Verif.Proof Verif.Proof.Sync
open Verif.Model.Sync (heldGuard)

variable {V E : Type} {fal cl : Bool}

/-- The end of the body of an accessor which copies or clones. -/
def tail (fal : Bool) (c : MOp) : List MOp :=
  (if fal then [.question] else []) ++ [.star, c] ++ (if fal then [.okWrap] else [])

/-- Copy, or clone if the accessor clones. -/
def CopyOp (cl : Bool) (c : MOp) : Prop := (c = .copyVal ∧ cl = false) ∨ (c = .clone ∧ cl = true)

/-- The bodies of the helpers of a lazy sync field. -/
inductive Shape (fal cl : Bool) : Kind → List MOp → Prop where
  | acc (rc) : cl = false → Shape fal cl .accessor [.lazyRead rc false fal]
  | reader (rc) : Shape fal cl .reader [.lazyRead rc false fal]
  | own (rc) {c} : CopyOp cl c → Shape fal cl .accessor (.lazyRead rc false fal :: tail fal c)
  | getMut (rc) : Shape fal cl .accessorMut [.lazyRead rc true fal]
  | writer : Shape fal cl .writer [.write]
  | clear : Shape fal cl .clearer [.clear]
  | isSet : Shape fal cl .predicate [.isSet]
  | setter : Shape fal cl .setter [.write, .storeV]

/-- The deciding operations: helper, operation, what follows, call on the container. -/
inductive Job (fal cl : Bool) (v : V) : Kind → MOp → List MOp → Op V → Prop where
  | acc (rc) : cl = false → Job fal cl v .accessor (.lazyRead rc false fal) [] (.get (getKind false fal))
  | reader (rc) : Job fal cl v .reader (.lazyRead rc false fal) [] (.get (getKind false fal))
  | own (rc) {c} : CopyOp cl c → Job fal cl v .accessor (.lazyRead rc false fal) (tail fal c) (.get (getKind false fal))
  | getMut (rc) : Job fal cl v .accessorMut (.lazyRead rc true fal) [] (.get (getKind true fal))
  | writer : Job fal cl v .writer .write [] .writer
  | clear : Job fal cl v .clearer .clear [] .clear
  | isSet : Job fal cl v .predicate .isSet [] .isSet
  | store : Job fal cl v .setter .storeV [] (.store v)

/-- The call is under way, or has taken effect. -/
def Under (v : Option V) (x : Sync.Pc V E) (op : Op V) (dec : Option (Res V E)) (f : Res V E → Res V E) : Prop :=
  (phaseAt v x = .invoked op ∧ dec = none) ∨ ∃ r, phaseAt v x = .linearized op r ∧ dec = some (f r)

/-- A guard is held and no call on the container runs. -/
def isGuard : Sync.Pc V E → Bool
  | .gRead _ | .gMut _ | .gWrite _ => true
  | _ => false

/-- The result of an accessor which copies or clones by `c`. -/
def owned (boom : Bool) (c : MOp) (ran : Option (Outcome V E)) (v : V) : Res V E :=
  if boom && c == .clone then ⟨ran, .panicked⟩ else ⟨ran, .value v⟩

/-- Nothing of the frame is used but by one-chain bodies. -/
def One (f : Frame V E) : Prop := f.next = none ∧ f.retPre = false

/-- Where a process is in its helper, where in the container, and the value in memory. -/
inductive Loc (fal cl : Bool) : Pc V E → Sync.Pc V E → Option V → Prop where
  | idle {v} : Loc fal cl .idle .idle v
  | keeps {x v} : isGuard x = true → Loc fal cl .keeps x v
  | start {f main v} : One f → Shape fal cl f.kind main → f.dec = none → f.ran = none →
      Loc fal cl (.run f main .self) .idle v
  | dwait {f m todo op x v} : One f → (f.kind = .setter → f.boom = false) → Job fal cl f.arg f.kind m todo op → f.ran = none →
      Under v x op f.dec (outcome f.boom todo) → Loc fal cl (.wait f m todo) x v
  | wwait {f x v} : One f → f.kind = .setter → f.dec = none → f.ran = none → phaseAt v x = .invoked .writer →
      Loc fal cl (.wait f .write [.storeV]) x v
  | whave {f g v} : One f → f.kind = .setter → f.dec = none → f.ran = none →
      Loc fal cl (.run f [.storeV] .wguard) (.gWrite g) v
  | ask {f c g v} : fal = true → One f → f.kind = .accessor → CopyOp cl c → f.dec = some (owned f.boom c f.ran v) →
      Loc fal cl (.run f (tail true c) (.ok (.guard g v))) (.gRead g) (some v)
  | askErr {f c e v} : fal = true → One f → f.kind = .accessor → f.dec = some ⟨f.ran, .error e⟩ →
      Loc fal cl (.run f (tail true c) (.err e)) .idle v
  | star {f c g v} {w : List MOp} : w = (if fal then [.okWrap] else []) → One f → f.kind = .accessor → CopyOp cl c →
      f.dec = some (owned f.boom c f.ran v) → Loc fal cl (.run f (.star :: c :: w) (.guard g v)) (.gRead g) (some v)
  | place {f c g v} {w : List MOp} : w = (if fal then [.okWrap] else []) → One f → f.kind = .accessor → CopyOp cl c →
      f.dec = some (owned f.boom c f.ran v) → Loc fal cl (.run f (c :: w) (.place g)) (.gRead g) (some v)
  | deref {f c g v x} {w : List MOp} : w = (if fal then [.okWrap] else []) → One f → f.kind = .accessor → CopyOp cl c →
      f.dec = some ⟨f.ran, .value v⟩ → (x = .gDeref g false ∨ x = .gDone g false (.deref g) v) →
      Loc fal cl (.wait f c w) x (some v)
  | wrap {f v g u} : One f → f.kind = .accessor → f.dec = some ⟨f.ran, .value v⟩ →
      Loc fal cl (.run f [.okWrap] (.own v)) (.gRead g) u
  | fin {f a x v} : One f → f.dec = some ⟨f.ran, a.seen⟩ → (a.keeps = true → isGuard x = true) →
      (x = .idle ∨ isGuard x = true) → Loc fal cl (.run f [] a) x v
  | stop {f r x v} : f.dec = some ⟨f.ran, r⟩ → (x = .idle ∨ isGuard x = true) → Loc fal cl (.stop f r) x v
  | use {u op dec x v} : Means fal u op → (∀ k w b, u ≠ .helper k w b) → Under v x op dec id →
      Loc fal cl (.use u dec) x v

theorem _root_.Verif.Spec.Ret.eq_value_or (r : Ret V E) : (∃ v, r = .value v) ∨ ∀ v, r ≠ .value v := by
  cases r <;> simp

theorem loc_frame {pc : Pc V E} {c c' : Sync.St V E} {q : Nat} (h : Loc fal cl pc (c.pc q) c.value)
    (hf : Frame' c c' q) : Loc fal cl pc (c'.pc q) c'.value := by
  have h1 := hf.phase
  have h2 := hf.value
  rw [hf.pc] at h1 ⊢
  revert h h1 h2
  generalize c.pc q = x
  generalize c.value = v
  generalize c'.value = v'
  intro h h1 h2
  cases h with
  | idle => exact .idle
  | keeps h => exact .keeps h
  | start a b c d => exact .start a b c d
  | dwait a a' b c d => refine .dwait a a' b c ?_; unfold Under at *; rw [h1]; exact d
  | wwait a b c d e => exact .wwait a b c d (h1.trans e)
  | whave a b c d => exact .whave a b c d
  | ask a b c d e => rw [h2 rfl]; exact .ask a b c d e
  | askErr a b c d => exact .askErr a b c d
  | star a b c d e => rw [h2 rfl]; exact .star a b c d e
  | place a b c d e => rw [h2 rfl]; exact .place a b c d e
  | deref a b c d e f =>
    rw [h2 (by rcases f with rfl | rfl <;> rfl)]; exact .deref a b c d e f
  | wrap a b c => exact .wrap a b c
  | fin a b c d => exact .fin a b c d
  | stop a b => exact .stop a b
  | use a b c => refine .use a b ?_; unfold Under at *; rw [h1]; exact c

/-! ### The log -/

/-- Progress of the call a process is in. -/
def hphase : Pc V E → Phase (Call V) (Res V E)
  | .idle | .keeps => .fresh
  | .run f _ _ | .wait f _ _ | .stop f _ =>
    match f.dec with
    | none => .invoked f.call
    | some r => .linearized f.call r
  | .use u dec =>
    match dec with
    | none => .invoked u
    | some r => .linearized u r

/-- Progress of every call. -/
def htbl (s : St V E) : CallId → Phase (Call V) (Res V E) := fun i =>
  if i.seq < s.seq i.proc then .done
  else if i.seq = s.seq i.proc then hphase (s.pc i.proc)
  else .fresh

@[simp] theorem htbl_me (s : St V E) (p : Nat) : htbl s (s.me p) = hphase (s.pc p) := by
  simp [htbl, St.me]

theorem htbl_within {s s' : St V E} {p : Nat} {c : Pc V E} (hseq : s'.seq = s.seq) (hpc : s'.pc = upd s.pc p c) :
    htbl s' = upd (htbl s) (s.me p) (hphase c) := by
  funext ⟨q, n⟩
  by_cases hq : q = p
  · subst hq
    by_cases hn : n = s.seq q
    · subst hn; simp [htbl, upd, St.me, hseq, hpc]
    · simp [htbl, upd, St.me, hseq, hn]
  · simp [htbl, upd, St.me, hseq, hpc, hq]

theorem htbl_same {s s' : St V E} {p : Nat} {c : Pc V E} (hseq : s'.seq = s.seq) (hpc : s'.pc = upd s.pc p c)
    (hp : hphase c = hphase (s.pc p)) : htbl s' = htbl s := by
  rw [htbl_within hseq hpc, hp]
  funext i
  by_cases hi : i = s.me p
  · subst hi; simp
  · rw [upd_other _ _ hi]

theorem htbl_end {s s' : St V E} {p : Nat} {c : Pc V E} (hseq : s'.seq = upd s.seq p (s.seq p + 1))
    (hpc : s'.pc = upd s.pc p c) (hc : hphase c = .fresh) : htbl s' = upd (htbl s) (s.me p) .done := by
  funext ⟨q, n⟩
  by_cases hq : q = p
  · subst hq
    simp only [htbl, upd, St.me, hseq, hpc, if_true, hc, CallId.mk.injEq, true_and]
    grind
  · simp [htbl, upd, St.me, hseq, hpc, hq]

/-- The invariant. -/
structure Inv (fal cl : Bool) (v₀ : Option V) (s : St V E) : Prop where
  reach : Sync.Reach v₀ s.c
  loc : ∀ p, Loc fal cl (s.pc p) (s.c.pc p) s.c.value
  disc : Disc s.log (htbl s)
  legal : ∃ c, Legal CellStep v₀ (lins s.c.log) c ∧ Legal (CallStep fal cl) v₀ (lins s.log) c

theorem inv_init (v₀ : Option V) : Inv fal cl v₀ (init v₀ : St V E) where
  reach := .init
  loc := fun _ => .idle
  disc := by
    have : htbl (init v₀ : St V E) = fun _ => .fresh := by
      funext i; simp only [htbl, init, hphase]; grind
    rw [this]; exact .nil
  legal := ⟨v₀, .nil, .nil⟩

/-- The other processes after a step of the container. -/
theorem loc_others {s : St V E} {v₀ : Option V} (h : Inv fal cl v₀ s) {p : Nat} {a : Sync.Act V E} {c' : Sync.St V E}
    (hs : Sync.step s.c p a = some c') {pc' : Pc V E} (hp : Loc fal cl pc' (c'.pc p) c'.value) :
    ∀ q, Loc fal cl (upd s.pc p pc' q) (c'.pc q) c'.value := by
  intro q
  by_cases hq : q = p
  · subst hq; rw [upd_same]; exact hp
  · rw [upd_other _ _ hq]
    exact loc_frame (h.loc q) (frame_step (core_reach h.reach) hs hq)

/-- The container is not touched. -/
theorem loc_same {s : St V E} {v₀ : Option V} (h : Inv fal cl v₀ s) {p : Nat} {pc' : Pc V E}
    (hp : Loc fal cl pc' (s.c.pc p) s.c.value) : ∀ q, Loc fal cl (upd s.pc p pc' q) (s.c.pc q) s.c.value := by
  intro q
  by_cases hq : q = p
  · subst hq; rw [upd_same]; exact hp
  · rw [upd_other _ _ hq]; exact h.loc q

/-- A step inside a helper which does not touch the container and decides nothing. -/
theorem inv_local {s : St V E} {v₀ : Option V} (h : Inv fal cl v₀ s) {p : Nat} {pc' : Pc V E}
    (hl : Loc fal cl pc' (s.c.pc p) s.c.value) (hp : hphase pc' = hphase (s.pc p)) : Inv fal cl v₀ (s.to p pc') where
  reach := h.reach
  loc := loc_same h hl
  disc := by
    have := htbl_same (p := p) (s := s) (s' := s.to p pc') rfl rfl hp
    rw [this]; exact h.disc
  legal := h.legal

/-- A step of the container which takes no call of it to its effect. -/
theorem inv_quiet {s : St V E} {v₀ : Option V} (h : Inv fal cl v₀ s) {p : Nat} {pc' : Pc V E} {a : Sync.Act V E}
    {c' : Sync.St V E} (hs : Sync.step s.c p a = some c') (hn : lins c'.log = lins s.c.log)
    (hl : Loc fal cl pc' (c'.pc p) c'.value) (hp : hphase pc' = hphase (s.pc p)) :
    Inv fal cl v₀ ({ s with c := c' }.to p pc') where
  reach := .step h.reach hs
  loc := loc_others h hs hl
  disc := by
    have := htbl_same (p := p) (s := s) (s' := { s with c := c' }.to p pc') rfl rfl hp
    rw [this]; exact h.disc
  legal := by obtain ⟨c, h1, h2⟩ := h.legal; exact ⟨c, hn ▸ h1, h2⟩

/-- A step of the container which takes a call of it to its effect, deciding nothing about the helper. -/
theorem inv_mute {s : St V E} {v₀ : Option V} (h : Inv fal cl v₀ s) {p : Nat} {pc' : Pc V E} {a : Sync.Act V E}
    {c' : Sync.St V E} {d} (hs : Sync.step s.c p a = some c') (hn : lins c'.log = lins s.c.log ++ [d])
    (hd : ∀ c c₁, CellStep c d.op d.ret c₁ → c₁ = c)
    (hl : Loc fal cl pc' (c'.pc p) c'.value) (hp : hphase pc' = hphase (s.pc p)) :
    Inv fal cl v₀ ({ s with c := c' }.to p pc') where
  reach := .step h.reach hs
  loc := loc_others h hs hl
  disc := by
    have := htbl_same (p := p) (s := s) (s' := { s with c := c' }.to p pc') rfl rfl hp
    rw [this]; exact h.disc
  legal := by
    obtain ⟨c, h1, h2⟩ := h.legal
    obtain ⟨_, c₁, h3, _⟩ := logInv_reach (Sync.Reach.step h.reach hs)
    have h4 := h3
    rw [hn] at h4
    cases hd _ _ (cell_of_snoc h1 h4)
    exact ⟨_, h3, h2⟩

/-- A step of the container which decides the helper. -/
theorem inv_lin {s : St V E} {v₀ : Option V} (h : Inv fal cl v₀ s) {p : Nat} {pc' : Pc V E} {a : Sync.Act V E}
    {c' : Sync.St V E} {d call r} (hs : Sync.step s.c p a = some c') (hn : lins c'.log = lins s.c.log ++ [d])
    (hd : ∀ c c₁, CellStep c d.op d.ret c₁ → CallStep fal cl c call r c₁)
    (hl : Loc fal cl pc' (c'.pc p) c'.value) (h0 : hphase (s.pc p) = .invoked call)
    (hp : hphase pc' = .linearized call r) :
    Inv fal cl v₀ ({ s.lin p call r with c := c' }.to p pc') where
  reach := .step h.reach hs
  loc := loc_others h hs hl
  disc := by
    have := @Disc.lin _ _ _ _ _ (s.me p) call r h.disc (by rw [htbl_me, h0])
    rw [← hp, ← htbl_within (s := s) (s' := { s.lin p call r with c := c' }.to p pc') rfl rfl] at this
    exact this
  legal := by
    obtain ⟨c, h1, h2⟩ := h.legal
    obtain ⟨_, c₁, h3, _⟩ := logInv_reach (Sync.Reach.step h.reach hs)
    have h4 := h3
    rw [hn] at h4
    have h5 := hd _ _ (cell_of_snoc h1 h4)
    refine ⟨_, h3, ?_⟩
    show Legal _ _ (lins (s.log ++ [_])) _
    rw [lins_snoc_lin]
    exact Legal.snoc h2 h5

/-- The helper returns. -/
theorem inv_ret {s : St V E} {v₀ : Option V} (h : Inv fal cl v₀ s) {p : Nat} {pc' : Pc V E} {call r}
    (hl : Loc fal cl pc' (s.c.pc p) s.c.value) (h0 : hphase (s.pc p) = .linearized call r) (hp : hphase pc' = .fresh) :
    Inv fal cl v₀ (s.ret p pc' r) where
  reach := h.reach
  loc := loc_same h hl
  disc := by
    have := @Disc.res _ _ _ _ _ (s.me p) call r h.disc (by rw [htbl_me, h0])
    rw [← htbl_end (s := s) (s' := s.ret p pc' r) rfl rfl hp] at this
    exact this
  legal := by
    obtain ⟨c, h1, h2⟩ := h.legal
    refine ⟨c, h1, ?_⟩
    show Legal _ _ (lins (s.log ++ [_])) _
    rw [lins_snoc_res]; exact h2

/-- The call on a guard returns, with a step of the container. -/
theorem inv_retC {s : St V E} {v₀ : Option V} (h : Inv fal cl v₀ s) {p : Nat} {pc' : Pc V E} {call r} {a : Sync.Act V E}
    {c' : Sync.St V E} (hs : Sync.step s.c p a = some c') (hn : lins c'.log = lins s.c.log)
    (hl : Loc fal cl pc' (c'.pc p) c'.value) (h0 : hphase (s.pc p) = .linearized call r) (hp : hphase pc' = .fresh) :
    Inv fal cl v₀ ({ s with c := c' }.ret p pc' r) where
  reach := .step h.reach hs
  loc := loc_others h hs hl
  disc := by
    have := @Disc.res _ _ _ _ _ (s.me p) call r h.disc (by rw [htbl_me, h0])
    rw [← htbl_end (s := s) (s' := { s with c := c' }.ret p pc' r) rfl rfl hp] at this
    exact this
  legal := by
    obtain ⟨c, h1, h2⟩ := h.legal
    refine ⟨c, hn ▸ h1, ?_⟩
    show Legal _ _ (lins (s.log ++ [_])) _
    rw [lins_snoc_res]; exact h2

/-- A call begins. -/
theorem inv_begin {s : St V E} {v₀ : Option V} (h : Inv fal cl v₀ s) {p : Nat} {pc' : Pc V E} {call}
    (hl : Loc fal cl pc' (s.c.pc p) s.c.value) (h0 : hphase (s.pc p) = .fresh) (hp : hphase pc' = .invoked call) :
    Inv fal cl v₀ (s.begin p call pc') where
  reach := h.reach
  loc := loc_same h hl
  disc := by
    have := @Disc.inv _ _ _ _ _ (s.me p) call h.disc (by rw [htbl_me, h0])
    rw [← hp, ← htbl_within (s := s) (s' := s.begin p call pc') rfl rfl] at this
    exact this
  legal := by
    obtain ⟨c, h1, h2⟩ := h.legal
    refine ⟨c, h1, ?_⟩
    show Legal _ _ (lins (s.log ++ [_])) _
    rw [lins_snoc_inv]; exact h2

/-- A call on a guard begins. -/
theorem inv_beginC {s : St V E} {v₀ : Option V} (h : Inv fal cl v₀ s) {p : Nat} {pc' : Pc V E} {call} {a : Sync.Act V E}
    {c' : Sync.St V E} (hs : Sync.step s.c p a = some c') (hn : lins c'.log = lins s.c.log)
    (hl : Loc fal cl pc' (c'.pc p) c'.value) (h0 : hphase (s.pc p) = .fresh) (hp : hphase pc' = .invoked call) :
    Inv fal cl v₀ ({ s with c := c' }.begin p call pc') where
  reach := .step h.reach hs
  loc := loc_others h hs hl
  disc := by
    have := @Disc.inv _ _ _ _ _ (s.me p) call h.disc (by rw [htbl_me, h0])
    rw [← hp, ← htbl_within (s := s) (s' := { s with c := c' }.begin p call pc') rfl rfl] at this
    exact this
  legal := by
    obtain ⟨c, h1, h2⟩ := h.legal
    refine ⟨c, hn ▸ h1, ?_⟩
    show Legal _ _ (lins (s.log ++ [_])) _
    rw [lins_snoc_inv]; exact h2

/-- User code panics before the helper took effect. -/
theorem inv_linLocal {s : St V E} {v₀ : Option V} (h : Inv fal cl v₀ s) {p : Nat} {pc' : Pc V E} {call r}
    (hd : ∀ c, CallStep fal cl c call r c) (hl : Loc fal cl pc' (s.c.pc p) s.c.value)
    (h0 : hphase (s.pc p) = .invoked call) (hp : hphase pc' = .linearized call r) :
    Inv fal cl v₀ ((s.lin p call r).to p pc') where
  reach := h.reach
  loc := loc_same h hl
  disc := by
    have := @Disc.lin _ _ _ _ _ (s.me p) call r h.disc (by rw [htbl_me, h0])
    rw [← hp, ← htbl_within (s := s) (s' := (s.lin p call r).to p pc') rfl rfl] at this
    exact this
  legal := by
    obtain ⟨c, h1, h2⟩ := h.legal
    refine ⟨c, h1, ?_⟩
    show Legal _ _ (lins (s.log ++ [_])) _
    rw [lins_snoc_lin]; exact Legal.snoc h2 (hd c)

/-! ### Steps -/

theorem job_decisive {v : V} {k m todo op} (h : Job fal cl v k m todo op) : decisive m todo = true := by
  cases h <;> rfl

theorem tail_clone (fal : Bool) (c : MOp) : (tail fal c).contains .clone = (c == .clone) := by
  cases fal <;> cases c <;> rfl

theorem outcome_nil (b : Bool) (r : Res V E) : outcome b [] r = r := by
  unfold outcome; split <;> simp

theorem calm_of {b : Bool} {v : V} {k : Kind} {r : Res V E} (h1 : k = .setter → b = false)
    (h2 : k = .accessor → cl = true → b = true → ∀ v, r.ret ≠ .value v) : Calm cl (.helper k v b) r := by
  unfold Calm
  split <;> rename_i h
  · cases h; intro hcl; exact h2 rfl hcl rfl
  · cases h; cases h1 rfl
  · trivial

theorem calm_use {u : Call V} (h : ∀ k w b, u ≠ .helper k w b) (r : Res V E) : Calm cl u r := by
  unfold Calm
  split
  · exact absurd rfl (h _ _ _)
  · exact absurd rfl (h _ _ _)
  · trivial

/-- What the deciding call does to the cell is what the helper is to do. -/
theorem job_step {v : V} {k m todo op} (h : Job fal cl v k m todo op) {boom : Bool} (hsb : k = .setter → boom = false)
    {c c' : Option V} {r : Res V E} (hs : CellStep c op r c') :
    CallStep fal cl c (.helper k v boom) (outcome boom todo r) c' := by
  cases h with
  | acc rc hcl =>
    rw [outcome_nil]
    exact .plain (.helper (by cases fal <;> rfl)) (calm_of hsb (by simp [hcl])) hs
  | reader rc =>
    rw [outcome_nil]
    exact .plain (.helper (by cases fal <;> rfl)) (calm_of hsb (by simp)) hs
  | @own rc c hc =>
    obtain ⟨ran, ret⟩ := r
    by_cases hb : ∃ w, ret = .value w ∧ boom = true ∧ c = .clone
    · obtain ⟨w, rfl, rfl, rfl⟩ := hb
      have hcl : cl = true := by rcases hc with ⟨h, _⟩ | ⟨_, h⟩; cases h; exact h
      have : outcome true (tail fal .clone) (⟨ran, .value w⟩ : Res V E) = ⟨ran, .panicked⟩ := by
        simp [outcome, tail]
      rw [this]
      exact .clonePanics hcl (by cases fal <;> rfl) hs
    · have : outcome boom (tail fal c) (⟨ran, ret⟩ : Res V E) = ⟨ran, ret⟩ := by
        unfold outcome
        split
        · rw [if_neg]
          rw [tail_clone]
          intro h
          simp only [Bool.and_eq_true, beq_iff_eq] at h
          rename_i w hw
          exact hb ⟨w, hw, h⟩
        · rfl
      rw [this]
      refine .plain (.helper (by cases fal <;> rfl)) (calm_of hsb ?_) hs
      rintro _ hcl rfl w hw
      refine hb ⟨w, hw, rfl, ?_⟩
      rcases hc with ⟨_, h⟩ | ⟨h, _⟩
      · rw [hcl] at h; cases h
      · exact h
  | getMut rc =>
    rw [outcome_nil]
    exact .plain (.helper (by cases fal <;> rfl)) (calm_of hsb (by simp)) hs
  | writer => rw [outcome_nil]; exact .plain (.helper rfl) (calm_of hsb (by simp)) hs
  | clear => rw [outcome_nil]; exact .plain (.helper rfl) (calm_of hsb (by simp)) hs
  | isSet => rw [outcome_nil]; exact .plain (.helper rfl) (calm_of hsb (by simp)) hs
  | store =>
    rw [outcome_nil]
    cases hs
    exact .plain (.helper rfl) (calm_of hsb (by simp)) (.set c v)

theorem settle_none {s : St V E} {p f m todo} {c' : Sync.St V E} (hd : decided s.c c' = none)
    (ha : answered s.c c' p = none) : settle s p f m todo c' = { s with c := c' }.to p (.wait f m todo) := by
  simp only [settle, note, hd, ha]

theorem settle_lin {s : St V E} {p f m todo} {c' : Sync.St V E} {r} (hd : decided s.c c' = some r)
    (ha : answered s.c c' p = none) (hm : decisive m todo = true) :
    settle s p f m todo c' = { s.lin p f.call (outcome f.boom todo r) with c := c' }.to p
      (.wait { f with dec := some (outcome f.boom todo r) } m todo) := by
  simp only [settle, note, hd, ha, hm, if_true]

theorem settle_ret {s : St V E} {p f m todo} {c' : Sync.St V E} {r} (hd : decided s.c c' = none)
    (ha : answered s.c c' p = some r) :
    settle s p f m todo c' = { s with c := c' }.to p
      (match got m (s.c.me p) r.ret with
       | some a => .run { f with ran := ranOf m r f.ran } todo a
       | none => .stop { f with ran := ranOf m r f.ran } .panicked) := by
  simp only [settle, note, hd, ha]
  cases got m (s.c.me p) r.ret <;> rfl

/-- Results of calls on the container. -/
def ResOk (r : Res V E) : Op V → Prop
  | .get k => (∃ o, r.ret = getRet k o) ∨ r.ret = .panicked
  | .set _ | .clear | .store _ | .take => ∃ o, r = ⟨none, .old o⟩
  | .isSet => ∃ b, r = ⟨none, .bool b⟩
  | .snapshot => ∃ o b, r = ⟨none, .snap o b⟩
  | .writer => False
  | .deref _ | .assign _ _ => ∃ v, r = ⟨none, .value v⟩

theorem resOk {c : Sync.St V E} (hc : Core c) {p : Nat} {op : Op V} {r : Res V E}
    (h : phaseAt c.value (c.pc p) = .linearized op r) : ResOk r op := by
  have hm := hc.mem p
  revert h hm
  generalize c.pc p = x
  generalize c.value = v
  intro h hm
  have hgot : ∀ k ran, ResOk (gotRes k ran v : Res V E) (.get k) := by
    intro k ran
    cases v with
    | none => exact .inr rfl
    | some v => exact .inl ⟨.ok v, rfl⟩
  cases x <;> simp only [phaseAt, reduceCtorEq, Phase.linearized.injEq] at h
  case rFail k o => obtain ⟨rfl, rfl⟩ := h; exact .inl ⟨o, rfl⟩
  case gDone g m op' w =>
    obtain ⟨rfl, rfl⟩ := h
    rcases hm with ⟨rfl, _⟩ | ⟨u, rfl, _⟩ <;> exact ⟨w, rfl⟩
  case xVal t => obtain ⟨rfl, rfl⟩ := h; cases t <;> exact ⟨_, rfl⟩
  case xRel t o => obtain ⟨rfl, rfl⟩ := h; cases t <;> exact ⟨_, rfl⟩
  case wVal g t => obtain ⟨rfl, rfl⟩ := h; cases t <;> exact ⟨_, rfl⟩
  case wRet g t o => obtain ⟨rfl, rfl⟩ := h; cases t <;> exact ⟨_, rfl⟩
  case sVal o => obtain ⟨rfl, rfl⟩ := h; exact ⟨_, _, rfl⟩
  case sBoth o b => obtain ⟨rfl, rfl⟩ := h; exact ⟨_, _, rfl⟩
  case iDone b => obtain ⟨rfl, rfl⟩ := h; exact ⟨_, rfl⟩
  all_goals (obtain ⟨rfl, rfl⟩ := h; exact hgot _ _)

theorem getRet_cases (mu fal : Bool) (o : Outcome V E) :
    (∃ v, getRet (getKind mu fal) o = .value v) ∨ (fal = true ∧ ∃ e, getRet (getKind mu fal) o = .error e) ∨
      getRet (getKind mu fal) o = .panicked := by
  cases mu <;> cases fal <;> cases o <;> simp [getKind, getRet]

theorem outcome_value (b fal : Bool) (c : MOp) (ran : Option (Outcome V E)) (v : V) :
    outcome b (tail fal c) ⟨ran, .value v⟩ = owned b c ran v := by
  unfold outcome owned
  rw [tail_clone]

theorem outcome_other (b : Bool) (todo : List MOp) (r : Res V E) (h : ∀ v, r.ret ≠ .value v) : outcome b todo r = r := by
  unfold outcome
  split
  · rename_i v hv; exact absurd hv (h v)
  · rfl

theorem isGuard_held (m : Bool) (g : CallId) : isGuard (heldGuard m g : Sync.Pc V E) = true := by
  cases m <;> rfl

theorem mutable_getKind (mu fal : Bool) : (getKind mu fal).mutable = mu := by cases mu <;> cases fal <;> rfl

/-- After the deciding call returned. -/
theorem loc_job {f : Frame V E} {m todo op a k} (h1 : One f) (hk : f.kind = k) (hj : Job fal cl a k m todo op)
    {r : Res V E} (hr : f.ran = none) (hdec : f.dec = some (outcome f.boom todo r)) (hok : ResOk r op) {me : CallId}
    {x x' : Sync.Pc V E} {v' : Option V} (ha : AfterOk me x v' x' r op) :
    Loc fal cl (match got m me r.ret with
      | some a => .run { f with ran := ranOf m r f.ran } todo a
      | none => .stop { f with ran := ranOf m r f.ran } .panicked) x' v' := by
  -- the accessors: everything but a value
  have hget : ∀ (rc mu : Bool), (∀ v, r.ret ≠ .value v) → ResOk r (.get (getKind mu fal)) →
      AfterOk me x v' x' r (.get (getKind mu fal)) → todo = [] ∨ (f.kind = .accessor ∧ ∃ c, todo = tail fal c) →
      Loc fal cl (match got (.lazyRead rc mu fal) me r.ret with
        | some a => .run { f with ran := ranOf (.lazyRead rc mu fal) r f.ran } todo a
        | none => .stop { f with ran := ranOf (.lazyRead rc mu fal) r f.ran } .panicked) x' v' := by
    intro rc mu hnv hok ha ht
    have hid : x' = .idle := by
      unfold AfterOk at ha
      simpa using ha
    subst hid
    rw [outcome_other _ _ _ hnv] at hdec
    have hp : r.ret = .panicked → Loc fal cl (.stop { f with ran := r.ran } .panicked : Pc V E) .idle v' := by
      intro hp
      refine .stop ?_ (.inl rfl)
      show f.dec = _
      rw [hdec, ← hp]
    obtain ⟨ran, ret⟩ := r
    simp only at hnv hdec hp
    rcases hok with ⟨o, ho⟩ | ho
    · simp only at ho
      rcases getRet_cases mu fal o with ⟨v, hv⟩ | ⟨hf, e, he⟩ | hv
      · exact absurd (ho.trans hv) (hnv v)
      · rw [he] at ho
        subst ho
        subst hf
        simp only [got, ranOf]
        rcases ht with rfl | ⟨hk, c, rfl⟩
        · exact .fin h1 (by simp [hdec, Cur.seen]) (by simp [Cur.keeps]) (.inl rfl)
        · exact .askErr rfl h1 hk (by simp [hdec])
      · rw [hv] at ho
        subst ho
        simpa only [got, ranOf] using hp rfl
    · simp only at ho
      subst ho
      simpa only [got, ranOf] using hp rfl
  have hval : ∀ (rc mu : Bool) (v : V), r.ret = .value v → AfterOk me x v' x' r (.get (getKind mu fal)) →
      todo = [] → Loc fal cl (match got (.lazyRead rc mu fal) me r.ret with
        | some a => .run { f with ran := ranOf (.lazyRead rc mu fal) r f.ran } todo a
        | none => .stop { f with ran := ranOf (.lazyRead rc mu fal) r f.ran } .panicked) x' v' := by
    intro rc mu v hv ha ht
    obtain ⟨ran, ret⟩ := r
    simp only at hv
    subst hv
    subst ht
    simp only [AfterOk, mutable_getKind] at ha
    obtain ⟨rfl, rfl⟩ := ha
    rw [outcome_nil] at hdec
    simp only [got, ranOf]
    refine .fin h1 ?_ (fun _ => isGuard_held _ _) (.inr (isGuard_held _ _))
    cases fal <;> simp [hdec, Cur.seen]
  cases hj with
  | acc rc =>
    rcases r.ret.eq_value_or with ⟨v, hv⟩ | hv
    · exact hval rc false v hv ha rfl
    · exact hget rc false hv hok ha (.inl rfl)
  | reader rc =>
    rcases r.ret.eq_value_or with ⟨v, hv⟩ | hv
    · exact hval rc false v hv ha rfl
    · exact hget rc false hv hok ha (.inl rfl)
  | getMut rc =>
    rcases r.ret.eq_value_or with ⟨v, hv⟩ | hv
    · exact hval rc true v hv ha rfl
    · exact hget rc true hv hok ha (.inl rfl)
  | @own rc c hc =>
    rcases r.ret.eq_value_or with ⟨v, hv⟩ | hv
    · obtain ⟨ran, ret⟩ := r
      simp only at hv
      subst hv
      simp only [AfterOk, mutable_getKind] at ha
      obtain ⟨rfl, rfl⟩ := ha
      rw [outcome_value] at hdec
      simp only [got, ranOf]
      cases fal with
      | true => exact .ask rfl h1 hk hc hdec
      | false => exact .star rfl h1 hk hc hdec
    · exact hget rc false hv hok ha (.inr ⟨hk, c, rfl⟩)
  | writer => exact hok.elim
  | clear =>
    obtain ⟨o, rfl⟩ := hok
    cases ha
    refine .fin h1 ?_ (by simp [Cur.keeps]) (.inl rfl)
    simp [hdec, outcome, ranOf, hr, Cur.seen]
  | isSet =>
    obtain ⟨o, rfl⟩ := hok
    cases ha
    refine .fin h1 ?_ (by simp [Cur.keeps]) (.inl rfl)
    simp [hdec, outcome, ranOf, hr, Cur.seen]
  | store =>
    obtain ⟨o, rfl⟩ := hok
    obtain ⟨g, rfl⟩ := ha
    refine .fin h1 ?_ (fun _ => rfl) (.inr rfl)
    simp [hdec, outcome, ranOf, hr, Cur.seen]

/-- The two steps of a dereference. -/
theorem go_deref {c c' : Sync.St V E} {p : Nat} {a : Sync.Act V E} {g w} (ha : a = .go ∨ ∃ o, a = .finish o)
    (hs : Sync.step c p a = some c')
    (hx : c.pc p = .gDeref g false ∧ c.value = some w ∨ c.pc p = .gDone g false (.deref g) w)
    (hd : decided c c' = none) (hn : answered c c' p = none) : False := by
  rcases ha with rfl | ⟨o, rfl⟩
  · simp only [Sync.step, Sync.go] at hs
    rcases hx with ⟨hx, hv⟩ | hx
    · simp only [hx, hv, Option.some.injEq] at hs
      subst hs
      rw [decided_of (es := [_]) (by simp only [Sync.St.lin, Sync.St.ev, Sync.St.to]; rfl)] at hd
      cases hd
    · simp only [hx, Option.some.injEq] at hs
      subst hs
      simp [answered, Sync.St.ret] at hn
  · simp only [Sync.step, Sync.builderReturns] at hs
    rcases hx with ⟨hx, hv⟩ | hx <;> simp [hx] at hs

theorem inv_settle {s : St V E} {v₀ : Option V} (h : Inv fal cl v₀ s) {p : Nat} {f : Frame V E} {m : MOp}
    {todo : List MOp} (hpc : s.pc p = .wait f m todo) {a : Sync.Act V E} {c' : Sync.St V E}
    (ha : a = .go ∨ ∃ o, a = .finish o) (hs : Sync.step s.c p a = some c') (he : Eff s.c c' p) :
    Inv fal cl v₀ (settle s p f m todo c') := by
  have hl := h.loc p
  rw [hpc] at hl
  generalize hx : s.c.pc p = x at hl
  generalize hv : s.c.value = v at hl
  cases hl with
  | @dwait _ _ _ op _ _ h1 hsb hj hr hu =>
    subst hx hv
    rcases hu with ⟨hu, hdec⟩ | ⟨r, hu, hdec⟩
    · have h0 : hphase (s.pc p) = .invoked f.call := by rw [hpc]; simp [hphase, hdec]
      cases he with
      | tau e1 e2 e3 e4 =>
        rw [settle_none e2 e3]
        refine inv_quiet h hs e1 (.dwait h1 hsb hj hr (.inl ⟨?_, hdec⟩)) (by rw [hpc])
        rw [e4]; exact hu
      | lin op' r e1 e2 e3 e4 e5 e6 =>
        rw [hu] at e1
        cases e1
        rw [settle_lin e3 e4 (job_decisive hj)]
        refine inv_lin h hs e2 (fun _ _ hc => job_step hj hsb hc) ?_ h0 rfl
        exact .dwait (f := { f with dec := _ }) h1 hsb hj hr (.inr ⟨r, e5, rfl⟩)
      | ret op' r e1 => rw [hu] at e1; cases e1
      | both e1 e2 e3 e4 e5 =>
        rw [hu] at e1
        cases e1
        obtain ⟨k, hk⟩ : ∃ k, f.kind = k := ⟨_, rfl⟩
        obtain ⟨a, hv0⟩ : ∃ a, f.arg = a := ⟨_, rfl⟩
        have hj' := hj
        rw [hk, hv0] at hj'
        cases hj' with
        | writer =>
          have : settle s p f .write [] c' = { s.lin p f.call ⟨none, .unit⟩ with c := c' }.to p
              (.run { f with dec := some ⟨none, .unit⟩ } [] .wguard) := by
            simp [settle, note, e3, e4, decisive, outcome, got, ranOf]
          rw [this]
          refine inv_lin h hs e2 (fun c c₁ hc => ?_) ?_ h0 rfl
          · have := job_step (E := E) (fal := fal) (cl := cl) (boom := f.boom) (v := f.arg) Job.writer (by simp) hc
            simpa only [outcome_nil, Frame.call, hk] using this
          · refine .fin (f := { f with dec := _ }) h1 ?_ (fun _ => ?_) (.inr ?_)
            · simp [hr, Cur.seen]
            · rw [e5]; rfl
            · rw [e5]; rfl
    · cases he with
      | tau e1 e2 e3 e4 =>
        rw [settle_none e2 e3]
        refine inv_quiet h hs e1 (.dwait h1 hsb hj hr (.inr ⟨r, ?_, hdec⟩)) (by rw [hpc])
        rw [e4]; exact hu
      | lin op' r e1 => rw [hu] at e1; cases e1
      | ret op' r' e1 e2 e3 e4 e5 e6 =>
        have e1' := e1
        rw [hu] at e1
        cases e1
        rw [settle_ret e3 e4]
        refine inv_quiet h hs e2 (loc_job h1 rfl hj hr hdec (resOk (core_reach h.reach) e1') e6) ?_
        rw [hpc]
        cases got m (s.c.me p) r.ret <;> rfl
      | both e1 => rw [hu] at e1; cases e1
  | wwait h1 hk hdec hr hu =>
    subst hx hv
    cases he with
    | tau e1 e2 e3 e4 =>
      rw [settle_none e2 e3]
      exact inv_quiet h hs e1 (.wwait h1 hk hdec hr (e4.trans hu)) (by rw [hpc])
    | lin op' r e1 e2 e3 e4 e5 e6 =>
      rw [hu] at e1
      cases e1
      exact (resOk (core_reach (Sync.Reach.step h.reach hs)) e5).elim
    | ret op' r e1 => rw [hu] at e1; cases e1
    | both e1 e2 e3 e4 e5 =>
      have : settle s p f .write [.storeV] c' = { s with c := c' }.to p (.run f [.storeV] .wguard) := by
        simp [settle, note, e3, e4, decisive, got, ranOf]
      rw [this]
      refine inv_mute h hs e2 (fun c c₁ hc => ?_) ?_ (by rw [hpc]; rfl)
      · cases hc; rfl
      · rw [e5]; exact .whave h1 hk hdec hr
  | @deref _ c g w _ wr hw h1 hk hc hdec hx' =>
    have hun : phaseAt s.c.value (s.c.pc p) = .invoked (.deref g) ∨
        phaseAt s.c.value (s.c.pc p) = .linearized (.deref g) ⟨none, .value w⟩ := by
      rw [hx]; rcases hx' with rfl | rfl
      · exact .inl rfl
      · exact .inr rfl
    have hnd : decisive m todo = false := by
      rcases hc with ⟨rfl, _⟩ | ⟨rfl, _⟩ <;> rfl
    cases he with
    | tau e1 e2 e3 e4 =>
      refine (go_deref (g := g) (w := w) ha hs ?_ e2 e3).elim
      rcases hx' with rfl | rfl
      · exact .inl ⟨hx, hv⟩
      · exact .inr hx
    | lin op' r e1 e2 e3 e4 e5 e6 =>
      rcases hun with h' | h' <;> rw [h'] at e1 <;> cases e1
      obtain ⟨e7, m', w', e8, e9, e10⟩ := e6 g rfl
      rw [e10] at hv
      cases hv
      have hm' : m' = false := by
        rw [hx] at e8
        rcases hx' with rfl | rfl <;> cases e8
        rfl
      subst hm'
      have : settle s p f m todo c' = { s with c := c' }.to p (.wait f m todo) := by
        simp [settle, note, e3, e4, hnd]
      rw [this]
      refine inv_mute h hs e2 (fun c c₁ hc => ?_) ?_ (by rw [hpc])
      · cases hc; rfl
      · rw [e9, e7, e10]
        exact .deref hw h1 hk hc hdec (.inr rfl)
    | ret op' r e1 e2 e3 e4 e5 e6 =>
      rcases hun with h' | h' <;> rw [h'] at e1 <;> cases e1
      obtain ⟨m', op₁, w', e7, e8, e9⟩ := e6
      have hm' : m' = false := by
        rw [hx] at e7
        rcases hx' with rfl | rfl <;> cases e7
        rfl
      subst hm'
      have e8' : c'.pc p = .gRead g := e8
      rw [settle_ret e3 e4]
      have hgot : got m (s.c.me p) (.value w : Ret V E) = some (.own w) := by
        rcases hc with ⟨rfl, _⟩ | ⟨rfl, _⟩ <;> rfl
      have hran : ranOf m (⟨none, .value w⟩ : Res V E) f.ran = f.ran := by
        rcases hc with ⟨rfl, _⟩ | ⟨rfl, _⟩ <;> rfl
      simp only [hgot, hran]
      refine inv_quiet h hs e2 ?_ (by rw [hpc]; rfl)
      rw [e8', hw]
      cases fal with
      | true => exact .wrap h1 hk hdec
      | false => exact .fin h1 hdec (by simp [Cur.keeps]) (.inr rfl)
    | both e1 => rcases hun with h | h <;> rw [h] at e1 <;> cases e1

theorem inv_settleUse {s : St V E} {v₀ : Option V} (h : Inv fal cl v₀ s) {p : Nat} {u : Call V} {dec : Option (Res V E)}
    (hpc : s.pc p = .use u dec) {a : Sync.Act V E} {c' : Sync.St V E} (hs : Sync.step s.c p a = some c')
    (he : Eff s.c c' p) : Inv fal cl v₀ (settleUse s p u dec c') := by
  have hl := h.loc p
  rw [hpc] at hl
  generalize hx : s.c.pc p = x at hl
  generalize hv : s.c.value = v at hl
  cases hl with
  | use hm hn hu =>
    subst hx hv
    rcases hu with ⟨hu, rfl⟩ | ⟨r, hu, rfl⟩
    · have h0 : hphase (s.pc p) = .invoked u := by rw [hpc]; rfl
      cases he with
      | tau e1 e2 e3 e4 =>
        have : settleUse s p u none c' = { s with c := c' }.to p (.use u none) := by simp [settleUse, e2, e3]
        rw [this]
        refine inv_quiet h hs e1 (.use hm hn (.inl ⟨e4.trans hu, rfl⟩)) (by rw [hpc])
      | lin op' r e1 e2 e3 e4 e5 e6 =>
        rw [hu] at e1
        cases e1
        have : settleUse s p u none c' = { s.lin p u r with c := c' }.to p (.use u (some r)) := by
          simp [settleUse, e3, e4]
        rw [this]
        exact inv_lin h hs e2 (fun _ _ hc => .plain hm (calm_use hn _) hc) (.use hm hn (.inr ⟨r, e5, rfl⟩)) h0 rfl
      | ret op' r e1 => rw [hu] at e1; cases e1
      | both e1 =>
        rw [hu] at e1
        cases e1
        cases hm
        exact absurd rfl (hn _ _ _)
    · have h0 : hphase (s.pc p) = .linearized u r := by rw [hpc]; rfl
      cases he with
      | tau e1 e2 e3 e4 =>
        have : settleUse s p u (some r) c' = { s with c := c' }.to p (.use u (some r)) := by simp [settleUse, e2, e3]
        rw [id_eq, this]
        refine inv_quiet h hs e1 (.use hm hn (.inr ⟨r, e4.trans hu, rfl⟩)) (by rw [hpc]; rfl)
      | lin op' r e1 => rw [hu] at e1; cases e1
      | ret op' r' e1 e2 e3 e4 e5 e6 =>
        rw [hu] at e1
        cases e1
        have : settleUse s p u (some r) c' = { s with c := c' }.ret p .keeps r := by simp [settleUse, e3, e4]
        rw [id_eq, this]
        refine inv_retC h hs e2 (.keeps ?_) h0 rfl
        cases hm with
        | helper => exact absurd rfl (hn _ _ _)
        | deref => obtain ⟨m, _, _, _, e8, _⟩ := e6; rw [e8]; exact isGuard_held _ _
        | assign => obtain ⟨m, _, _, _, e8, _⟩ := e6; rw [e8]; exact isGuard_held _ _
        | store => obtain ⟨g, e8⟩ := e6; rw [e8]; rfl
        | take => obtain ⟨g, e8⟩ := e6; rw [e8]; rfl
      | both e1 => rw [hu] at e1; cases e1

theorem invoke_eff {c c' : Sync.St V E} {p : Nat} {op : Op V} (hs : Sync.invoke c p op = some c') :
    lins c'.log = lins c.log ∧ phaseAt c'.value (c'.pc p) = .invoked op ∧ c'.value = c.value := by
  unfold Sync.invoke at hs
  split at hs
  all_goals try split at hs
  all_goals first
    | (simp at hs; done)
    | (simp only [Option.some.injEq] at hs
       subst hs
       refine ⟨by simp only [Sync.St.begin, lins_snoc_inv], ?_, rfl⟩
       simp [Sync.St.begin, phaseAt, XKind.op, guardOp, *])

theorem drop_eff {c c' : Sync.St V E} {p : Nat} (hs : Sync.dropGuard c p = some c') :
    lins c'.log = lins c.log ∧ c'.pc p = .idle ∧ c'.value = c.value := by
  unfold Sync.dropGuard at hs
  split at hs
  all_goals first
    | (simp at hs; done)
    | (simp only [Option.some.injEq] at hs
       subst hs
       refine ⟨by simp only [Sync.St.to, Sync.St.ev, lins_snoc_other], by simp [Sync.St.to], rfl⟩)

theorem drop_none {c : Sync.St V E} {p : Nat} (hs : Sync.dropGuard c p = none) : isGuard (c.pc p) = false := by
  unfold Sync.dropGuard at hs
  cases hp : c.pc p <;> simp [hp, isGuard] at hs ⊢

/-- The guard is dropped, the process stays where it is. -/
theorem inv_drop {s : St V E} {v₀ : Option V} (h : Inv fal cl v₀ s) {p : Nat} {c' : Sync.St V E}
    (hs : Sync.dropGuard s.c p = some c') (hl : Loc fal cl (s.pc p) .idle c'.value) :
    Inv fal cl v₀ { s with c := c' } := by
  obtain ⟨e1, e2, e3⟩ := drop_eff hs
  have := inv_quiet (pc' := s.pc p) h (a := .drop) hs e1 (by rw [e2]; exact hl) rfl
  have heq : ({ s with c := c' } : St V E).to p (s.pc p) = { s with c := c' } := by
    have : upd s.pc p (s.pc p) = s.pc := by
      funext q
      by_cases hq : q = p
      · subst hq; simp
      · rw [upd_other _ _ hq]
    simp [St.to, this]
  rwa [heq] at this

/-- A helper calls the container. -/
theorem inv_call {s : St V E} {v₀ : Option V} (h : Inv fal cl v₀ s) {p : Nat} {f : Frame V E} {m todo a op}
    (hpc : s.pc p = .run f (m :: todo) a) {s' : St V E} (hn : next f.arg m a = .call op)
    (hb : (f.boom && userCode m) = false) (hs : goRun s p f (m :: todo) a = some s')
    (hl : ∀ c', Sync.invoke s.c p op = some c' → phaseAt c'.value (c'.pc p) = .invoked op → c'.value = s.c.value →
      Loc fal cl (.wait f m todo) (c'.pc p) c'.value) : Inv fal cl v₀ s' := by
  simp only [goRun, hb, Bool.false_eq_true, if_false, hn, Option.map_eq_some_iff] at hs
  obtain ⟨c', hc, rfl⟩ := hs
  obtain ⟨e1, e2, e3⟩ := invoke_eff hc
  exact inv_quiet h (a := .call op) hc e1 (hl c' hc e2 e3) (by rw [hpc]; rfl)

theorem inv_goRun {s : St V E} {v₀ : Option V} (h : Inv fal cl v₀ s) {p : Nat} {f : Frame V E} {todo : List MOp}
    {a : Cur V E} (hpc : s.pc p = .run f todo a) {s' : St V E} (hs : goRun s p f todo a = some s') :
    Inv fal cl v₀ s' := by
  have hl := h.loc p
  rw [hpc] at hl
  generalize hx : s.c.pc p = x at hl
  generalize hv : s.c.value = v at hl
  cases hl with
  | start h1 hsh hdec hr =>
    have job : ∀ {m todo op}, f.kind ≠ .setter → Job fal cl f.arg f.kind m todo op → next f.arg m (.self : Cur V E) = .call op →
        userCode m = false → s.pc p = .run f (m :: todo) .self → goRun s p f (m :: todo) .self = some s' →
        Inv fal cl v₀ s' := by
      intro m todo op hns hj hn hu hpc hs
      exact inv_call h hpc hn (by simp [hu]) hs fun c' _ e _ => .dwait h1 (fun h => absurd h hns) hj hr (.inl ⟨e, hdec⟩)
    obtain ⟨k, hk⟩ : ∃ k, f.kind = k := ⟨_, rfl⟩
    rw [hk] at hsh
    cases hsh with
    | acc rc hcl => exact job (by simp [hk]) (hk ▸ .acc rc hcl) rfl rfl hpc hs
    | reader rc => exact job (by simp [hk]) (hk ▸ .reader rc) rfl rfl hpc hs
    | own rc hc => exact job (by simp [hk]) (hk ▸ .own rc hc) rfl rfl hpc hs
    | getMut rc => exact job (by simp [hk]) (hk ▸ .getMut rc) rfl rfl hpc hs
    | writer => exact job (by simp [hk]) (hk ▸ .writer) rfl rfl hpc hs
    | clear => exact job (by simp [hk]) (hk ▸ .clear) rfl rfl hpc hs
    | isSet => exact job (by simp [hk]) (hk ▸ .isSet) rfl rfl hpc hs
    | setter =>
      exact inv_call h hpc rfl (by simp [userCode]) hs fun c' _ e _ => .wwait h1 hk hdec hr e
  | whave h1 hk hdec hr =>
    cases hb : f.boom with
    | true =>
      have hgo : goRun s p f [.storeV] .wguard = some ((s.lin p f.call ⟨f.ran, .panicked⟩).to p
          (.stop { f with dec := some ⟨f.ran, .panicked⟩ } .panicked)) := by simp [goRun, hb, userCode, hdec]
      rw [hgo] at hs
      cases hs
      refine inv_linLocal h (fun c => ?_) ?_ (by rw [hpc]; simp [hphase, hdec]) rfl
      · rw [hr]
        simp only [Frame.call, hk, hb]
        exact .intoPanics
      · rw [hx]
        exact .stop rfl (.inr rfl)
    | false =>
      exact inv_call h hpc rfl (by simp [hb]) hs fun c' _ e _ => .dwait h1 (fun _ => hb) (hk ▸ .store) hr (.inl ⟨e, hdec⟩)
  | @ask _ c g w hf h1 hk hc hdec =>
    simp only [goRun, tail, if_true, List.cons_append, List.nil_append, userCode, Bool.and_false, Bool.false_eq_true,
      if_false, next, Option.some.injEq] at hs
    subst hs
    refine inv_local h ?_ (by rw [hpc]; rfl)
    rw [hx, hv]
    exact .star (by rw [hf]; rfl) h1 hk hc hdec
  | @askErr _ c e w hf h1 hk hdec =>
    simp only [goRun, tail, if_true, List.cons_append, List.nil_append, userCode, Bool.and_false, Bool.false_eq_true,
      if_false, next, Option.some.injEq] at hs
    subst hs
    refine inv_local h ?_ (by rw [hpc]; rfl)
    rw [hx]
    exact .stop hdec (.inl rfl)
  | @star _ c g w _ hf h1 hk hc hdec =>
    simp only [goRun, userCode, Bool.and_false, Bool.false_eq_true, if_false, next, Option.some.injEq] at hs
    subst hs
    refine inv_local h ?_ (by rw [hpc]; rfl)
    rw [hx, hv]
    exact .place hf h1 hk hc hdec
  | @place _ c g w _ hf h1 hk hc hdec =>
    cases hb : (f.boom && userCode c) with
    | true =>
      simp only [goRun, hb, if_true, hdec, Option.some.injEq] at hs
      subst hs
      refine inv_local h (.stop ?_ (.inr (by rw [hx]; rfl))) (by rw [hpc]; rfl)
      rw [hdec]
      rcases hc with ⟨rfl, _⟩ | ⟨rfl, _⟩
      · simp [userCode] at hb
      · simp only [userCode, Bool.and_true] at hb
        simp [owned, hb]
    | false =>
      have hn : next f.arg c (.place g : Cur V E) = .call (.deref g) := by
        rcases hc with ⟨rfl, _⟩ | ⟨rfl, _⟩ <;> rfl
      refine inv_call h hpc hn hb hs fun c' hi _ e => ?_
      rw [e, hv]
      refine .deref (g := g) hf h1 hk hc ?_ (.inl ?_)
      · rw [hdec]
        rcases hc with ⟨rfl, _⟩ | ⟨rfl, _⟩
        · simp [owned]
        · simp only [userCode, Bool.and_true] at hb
          simp [owned, hb]
      · simp only [Sync.invoke, hx, if_true, Option.some.injEq] at hi
        subst hi
        simp [Sync.St.begin]
  | @wrap _ w g u h1 hk hdec =>
    simp only [goRun, userCode, Bool.and_false, Bool.false_eq_true, if_false, next, Option.some.injEq] at hs
    subst hs
    refine inv_local h ?_ (by rw [hpc]; rfl)
    rw [hx]
    exact .fin h1 hdec (by simp [Cur.keeps]) (.inr rfl)
  | fin h1 hdec hk hi =>
    simp only [goRun] at hs
    split at hs
    · rename_i c' hd
      simp only [Option.some.injEq] at hs
      subst hs
      split at hd
      · cases hd
      · rename_i hka
        refine inv_drop h hd ?_
        rw [hpc]
        exact .fin h1 hdec (fun h => absurd h hka) (.inl rfl)
    · rename_i hd
      simp only [h1.1, Option.some.injEq, Frame.result, h1.2, Bool.false_eq_true, if_false] at hs
      subst hs
      refine inv_ret h ?_ (call := f.call) (by rw [hpc]; simp [hphase, hdec]) (by split <;> rfl)
      split
      · rename_i hka
        rw [hx]
        exact .keeps (hk hka)
      · rename_i hka
        rw [if_neg hka] at hd
        have := drop_none hd
        rw [hx] at this ⊢
        rcases hi with rfl | hi
        · exact .idle
        · rw [this] at hi; cases hi

theorem inv_go {s : St V E} {v₀ : Option V} (h : Inv fal cl v₀ s) {p : Nat} {s' : St V E} (hs : go s p = some s') :
    Inv fal cl v₀ s' := by
  unfold go at hs
  split at hs <;> rename_i hpc
  · cases hs
  · cases hs
  · exact inv_goRun h hpc hs
  · simp only [Option.map_eq_some_iff] at hs
    obtain ⟨c', hc, rfl⟩ := hs
    exact inv_settle h hpc (.inl rfl) hc (eff_go (core_reach h.reach) hc)
  · simp only [Option.map_eq_some_iff] at hs
    obtain ⟨c', hc, rfl⟩ := hs
    exact inv_settleUse h hpc (a := .go) hc (eff_go (core_reach h.reach) hc)
  · rename_i f r
    have hl := h.loc p
    rw [hpc] at hl
    generalize hx : s.c.pc p = x at hl
    generalize hv : s.c.value = v at hl
    cases hl with
    | stop hdec hi =>
      split at hs
      · rename_i c' hd
        simp only [Option.some.injEq] at hs
        subst hs
        refine inv_drop h hd ?_
        rw [hpc]
        exact .stop hdec (.inl rfl)
      · rename_i hd
        simp only [Option.some.injEq] at hs
        subst hs
        refine inv_ret h ?_ (call := f.call) (by rw [hpc]; simp [hphase, hdec]) rfl
        have := drop_none hd
        rw [hx] at this ⊢
        rcases hi with rfl | hi
        · exact .idle
        · rw [this] at hi; cases hi

theorem inv_finish {s : St V E} {v₀ : Option V} (h : Inv fal cl v₀ s) {p : Nat} {o : Outcome V E} {s' : St V E}
    (hs : Calls.finish s p o = some s') : Inv fal cl v₀ s' := by
  unfold Calls.finish at hs
  split at hs <;> rename_i hpc
  · simp only [Option.map_eq_some_iff] at hs
    obtain ⟨c', hc, rfl⟩ := hs
    exact inv_settle h hpc (.inr ⟨o, rfl⟩) hc (eff_finish hc)
  · cases hs

/-- The bodies the field has. -/
def Shapes (fal cl : Bool) (code : Kind → Option Body) : Prop :=
  ∀ k b, code k = some b → b.pre = none ∧ b.retPre = false ∧ Shape fal cl k b.main

theorem useOp_means {x : Sync.Pc V E} {u : Call V} {op : Op V} (h : useOp x u = some op) :
    Means fal u op ∧ ∀ k w b, u ≠ .helper k w b := by
  refine ⟨?_, by rintro k v b rfl; cases h⟩
  cases u with
  | helper k v b => cases h
  | deref => cases x <;> simp only [useOp] at h <;> first | (cases h; exact .deref _) | cases h
  | assign v => cases x <;> simp only [useOp] at h <;> first | (cases h; exact .assign _ _) | cases h
  | store v => cases h; exact .store v
  | take => cases h; exact .take

theorem inv_invoke {code : Kind → Option Body} (hcode : Shapes fal cl code) {s : St V E} {v₀ : Option V}
    (h : Inv fal cl v₀ s) {p : Nat} {call : Call V} {s' : St V E}
    (hs : invoke code s p call = some s') : Inv fal cl v₀ s' := by
  have hl := h.loc p
  unfold invoke at hs
  split at hs
  · rename_i k v boom hpc
    rw [hpc] at hl
    simp only [Option.map_eq_some_iff] at hs
    obtain ⟨b, hb, rfl⟩ := hs
    obtain ⟨b1, b2, b3⟩ := hcode k b hb
    refine inv_begin h ?_ (by rw [hpc]; rfl) (by simp [hphase, Frame.call])
    generalize hx : s.c.pc p = x at hl
    generalize hv : s.c.value = v at hl
    cases hl
    simp only [b1, Option.map_none, Option.getD_none]
    exact .start ⟨rfl, b2⟩ b3 rfl rfl
  · rename_i hpc
    simp only [Option.bind_eq_some_iff, Option.map_eq_some_iff] at hs
    obtain ⟨op, ho, c', hc, rfl⟩ := hs
    obtain ⟨e1, e2, e3⟩ := invoke_eff hc
    obtain ⟨m1, m2⟩ := useOp_means (fal := fal) ho
    exact inv_beginC h (a := .call op) hc e1 (.use (op := op) m1 m2 (.inl ⟨e2, rfl⟩)) (by rw [hpc]; rfl) rfl
  · cases hs

theorem inv_dropGuard {s : St V E} {v₀ : Option V} (h : Inv fal cl v₀ s) {p : Nat} {s' : St V E}
    (hs : dropGuard s p = some s') : Inv fal cl v₀ s' := by
  unfold dropGuard at hs
  split at hs <;> rename_i hpc
  · simp only [Option.map_eq_some_iff] at hs
    obtain ⟨c', hc, rfl⟩ := hs
    obtain ⟨e1, e2, e3⟩ := drop_eff hc
    exact inv_quiet h (a := .drop) hc e1 (by rw [e2]; exact .idle) (by rw [hpc]; rfl)
  · cases hs

theorem inv_step {code : Kind → Option Body} (hcode : Shapes fal cl code) {s : St V E} {v₀ : Option V}
    (h : Inv fal cl v₀ s) {p : Nat} {a : Act V E} {s' : St V E} (hs : step code s p a = some s') : Inv fal cl v₀ s' := by
  cases a with
  | call c => exact inv_invoke hcode h hs
  | go => exact inv_go h hs
  | finish o => exact inv_finish h hs
  | drop => exact inv_dropGuard h hs

theorem inv_reach {code : Kind → Option Body} (hcode : Shapes fal cl code) {s : St V E} {v₀ : Option V}
    (h : Reach code v₀ s) : Inv fal cl v₀ s := by
  induction h with
  | init => exact inv_init v₀
  | step _ hs ih => exact inv_step hcode ih hs

end Verif.Proof.Calls
