import Verif.Model.Weak
import Verif.Proof.SyncBuild
/-!
# Lazy containers without a global order of memory accesses: general part (helper lemmas)
-/

namespace Verif.Proof.Weak
open Verif.Spec Verif.Model Verif.Model.Weak Verif.Proof

set_option linter.unusedSectionVars false
variable {σ A V E : Type}

/-! ## Lists -/

theorem before_iff {α : Type} {l : List α} {a b : α} : Before l a b ↔ List.Sublist [a, b] l := by
  constructor
  · rintro ⟨l₁, l₂, l₃, rfl⟩
    rw [List.append_assoc]
    refine List.Sublist.trans ?_ (List.sublist_append_right _ _)
    refine List.Sublist.cons_cons _ ?_
    refine List.Sublist.trans ?_ (List.sublist_append_right _ _)
    exact List.Sublist.cons_cons _ (List.nil_sublist _)
  · intro h
    obtain ⟨r₁, r₂, rfl, h1, h2⟩ := List.cons_sublist_iff.1 h
    obtain ⟨l₁, l₂, rfl⟩ := List.append_of_mem h1
    obtain ⟨l₃, l₄, rfl⟩ := List.append_of_mem (List.singleton_sublist.1 h2)
    exact ⟨l₁, l₂ ++ l₃, l₄, by simp⟩

theorem before_insert {α : Type} {l l' : List α} {x a b : α} (h : Before (l ++ l') a b) : Before (l ++ x :: l') a b := by
  rw [before_iff] at h ⊢
  exact h.trans (List.Sublist.append (List.Sublist.refl _) (List.sublist_cons_self _ _))

theorem before_new {α : Type} {l l' : List α} {x a : α} (h : a ∈ l) : Before (l ++ x :: l') a x := by
  obtain ⟨l₁, l₂, rfl⟩ := List.append_of_mem h
  exact ⟨l₁, l₂, l', by simp⟩

theorem before_map {α β : Type} {f : α → β} {l : List α} {a b : α} (h : Before l a b) : Before (l.map f) (f a) (f b) := by
  obtain ⟨l₁, l₂, l₃, rfl⟩ := h
  exact ⟨l₁.map f, l₂.map f, l₃.map f, by simp⟩

theorem before_append {α : Type} {l l' : List α} {a b : α} (h : Before l a b) : Before (l ++ l') a b := by
  rw [before_iff] at h ⊢
  exact h.trans (List.sublist_append_left _ _)

/-- A list sorted by numbers, cut behind `k`. -/
theorem cut {α : Type} (k : Nat) : ∀ {l : List (Nat × α)}, l.Pairwise (·.1 ≤ ·.1) →
    l = l.filter (fun x => decide (x.1 ≤ k)) ++ l.filter (fun x => !decide (x.1 ≤ k))
  | [], _ => rfl
  | x :: l, h => by
    have ⟨h1, h2⟩ := List.pairwise_cons.1 h
    by_cases hx : x.1 ≤ k
    · simp only [List.filter_cons, hx, decide_true, if_true, List.cons_append, Bool.not_true]
      congr 1
      exact cut k h2
    · have h3 : ∀ y ∈ l, ¬ y.1 ≤ k := fun y hy => by have := h1 y hy; omega
      have h4 : l.filter (fun x => decide (x.1 ≤ k)) = [] := by
        rw [List.filter_eq_nil_iff]; intro y hy; simpa using h3 y hy
      have h5 : l.filter (fun x => !decide (x.1 ≤ k)) = l := by
        rw [List.filter_eq_self]; intro y hy; simpa using h3 y hy
      simp [hx, h4, h5]

theorem legal_glue {S Op R : Type} {spec : S → Op → R → S → Prop} {s s' s'' : S} {l l' : List (Done Op R)}
    (h : Legal spec s l s') (h' : Legal spec s' l' s'') : Legal spec s (l ++ l') s'' := by
  induction h with
  | nil => exact h'
  | cons h1 _ ih => exact .cons h1 (ih h')

theorem legal_insert {v₀ c : Option V} {l l' : List (Done (Op V) (Res V E))} {x : Done (Op V) (Res V E)}
    (h : Legal CellStep v₀ (l ++ l') c) (hx : ∀ d, Legal CellStep v₀ l d → CellStep d x.op x.ret d) :
    Legal CellStep v₀ (l ++ x :: l') c := by
  obtain ⟨d, h1, h2⟩ := Sync.legal_append h
  exact legal_glue h1 (.cons (hx d h1) h2)

/-! ## Knowledge -/

/-- Everything that is known anywhere. -/
def Mem (s : St σ V E) (K : Know) : Prop :=
  (∃ p, K = s.know p) ∨ K = s.wk ∨ K = s.rk ∨ K ∈ s.mail ∨ ∃ b, (b, K) ∈ s.flag

/-- What the general part needs to know about the base model. `me`: the running call of a process. -/
structure Shape (M : Machine σ A V E) (flag : σ → Bool) (me : σ → Nat → CallId) (s : σ) (p : Nat) (a : A) (s' : σ)
    (es : List (Ev V E)) : Prop where
  /-- what becomes visible -/
  shown : hist es = [] ∨ (∃ op, hist es = [.inv (me s p) op]) ∨
    ∃ r, hist es = [.res (me s p) r] ∧
      match M.got s p with
      | .none => ∀ b, r.ret ≠ .bool b
      | .isSet => True
      | .snap o => r = ⟨none, .snap o (flag s)⟩
  /-- what takes effect -/
  effect : (M.loads s p a = false ∧ lins es = [] ∧ M.got s' p = .none) ∨
    (M.loads s p a = false ∧ M.got s' p = .none ∧ M.mode s p ≠ .none ∧
      ∃ op r, op ≠ .isSet ∧ lins es = [⟨me s p, op, r⟩]) ∨
    (M.loads s p a = true ∧ M.got s' p = .isSet ∧ me s' p = me s p ∧ hist es = [] ∧
      ∃ r, lins es = [⟨me s p, .isSet, r⟩]) ∨
    (M.loads s p a = true ∧ M.mode s p ≠ .none ∧ hist es = [] ∧ lins es = [] ∧ ∃ o, M.got s' p = .snap o)

structure Sound (M : Machine σ A V E) (v₀ : Option V) (R : σ → Prop) (flag : σ → Bool) (me : σ → Nat → CallId) : Prop where
  keep : ∀ {s p a s'}, R s → M.step s p a = some s' → R s'
  alone : ∀ {s p q}, R s → M.mode s p = .excl → q ≠ p → M.mode s q = .none
  other : ∀ {s p a s' q}, R s → M.step s p a = some s' → q ≠ p →
    M.mode s' q = M.mode s q ∧ M.got s' q = M.got s q ∧ me s' q = me s q
  disc : ∀ {s}, R s → ∃ t, Disc (M.log s) t
  legal : ∀ {s}, R s → ∃ c, Legal CellStep v₀ (lins (M.log s)) c ∧ c.isSome = flag s
  flag_ : ∀ {s p a s'}, R s → M.step s p a = some s' → flag s' = (M.stores s p a).getD (flag s)
  store : ∀ {s p a s'}, R s → M.step s p a = some s' → (M.stores s p a).isSome = true →
    M.mode s p = .excl ∧ M.mode s' p = .excl ∧ M.loads s p a = false
  touch : ∀ {s p a s' w}, R s → M.step s p a = some s' → M.touches s p a = some w →
    M.mode s p ≠ .none ∧ M.mode s' p ≠ .none ∧ (w = true → M.mode s p = .excl ∧ M.mode s' p = .excl)
  snap : ∀ {s p o}, R s → M.got s p = .snap o → M.mode s p ≠ .none
  proc : ∀ s p, (me s p).proc = p
  ev : ∀ {s p a s'}, R s → M.step s p a = some s' → ∃ es, M.log s' = M.log s ++ es ∧ Shape M flag me s p a s' es

/-- A step of the base model, taken apart. -/
structure Ran (M : Machine σ A V E) (s : St σ V E) (p : Nat) (a : A) (k : Nat) (s' : St σ V E) (k₀ k₁ k₃ kw : Know) (v q : Bool) :
    Prop where
  base : M.step s.base p a = some s'.base
  at_ : s.flag[k]? = some (v, kw)
  eq₀ : k₀ = acquire s (s.know p) (M.mode s.base p) (M.mode s'.base p)
  le : M.loads s.base p a = true → k₀.seen ≤ k
  eq₁ : k₁ = if M.loads s.base p a then (if q then k₀.join kw else k₀).join ⟨[], k⟩ else k₀
  eq₃ : k₃ = ⟨s.now :: k₁.past, if (M.stores s.base p a).isSome then s.flag.length else k₁.seen⟩
  know : s'.know = upd s.know p k₃
  wk : s'.wk = if M.mode s.base p = .excl ∧ M.mode s'.base p ≠ .excl then s.wk.join k₁ else s.wk
  rk : s'.rk = if M.mode s.base p ≠ .excl ∧ M.mode s.base p ≠ .none ∧ M.mode s'.base p = .none then s.rk.join k₁ else s.rk
  flag : s'.flag = s.flag ++ ((M.stores s.base p a).map fun b => (b, k₃)).toList
  mail : s'.mail = s.mail
  read : s'.read = if M.loads s.base p a then upd s.read p v else s.read
  log : s'.log = s.log ++ ((hist (M.log s'.base)).drop (hist (M.log s.base)).length).map
    fun e => ⟨s.now, k₁.past, shown (M.got s.base p) (s.read p) e⟩
  acc : s'.acc = s.acc ++ ((M.touches s.base p a).map fun w => ⟨s.now, k₁.past, w⟩).toList
  now : s'.now = s.now + 1

theorem ran_of {M : Machine σ A V E} {s s' : St σ V E} {p : Nat} {a : A} {k : Nat} {q : Bool}
    (h : step M s p (.run a k q) = some s') : ∃ k₀ k₁ k₃ kw v, Ran M s p a k s' k₀ k₁ k₃ kw v q := by
  simp only [step, Option.bind_eq_some_iff] at h
  obtain ⟨b, hb, h⟩ := h
  split at h
  · rename_i v kw hv
    split at h
    · rename_i hle
      injection h with h
      subst h
      refine ⟨_, _, _, kw, v, ⟨hb, hv, rfl, hle, rfl, ?_, rfl, rfl, rfl, rfl, rfl, rfl, rfl, rfl, rfl⟩⟩
      split <;> simp_all
    · cases h
  · cases h

/-- A property of knowledge which survives whatever a step does. -/
theorem mem_run {M : Machine σ A V E} {s s' : St σ V E} {p : Nat} {a : A} {k : Nat} {k₀ k₁ k₃ kw : Know} {v q : Bool}
    (h : Ran M s p a k s' k₀ k₁ k₃ kw v q) {P Q : Know → Prop} (hold : ∀ K, Mem s K → P K)
    (hj : ∀ a b, P a → P b → P (a.join b)) (h0 : P ⟨[], k⟩) (hPQ : ∀ K, P K → Q K)
    (hn : ∀ K, P K → Q ⟨s.now :: K.past, if (M.stores s.base p a).isSome then s.flag.length else K.seen⟩) :
    P k₀ ∧ P k₁ ∧ Q k₃ ∧ ∀ K, Mem s' K → Q K := by
  have hp : P k₀ := by
    rw [h.eq₀]; unfold acquire
    have h1 := hold (s.know p) (.inl ⟨p, rfl⟩)
    have h2 := hold s.wk (.inr (.inl rfl))
    have h3 := hold s.rk (.inr (.inr (.inl rfl)))
    dsimp only
    split <;> split
    · exact hj _ _ (hj _ _ h1 h2) h3
    · exact hj _ _ h1 h3
    · exact hj _ _ h1 h2
    · exact h1
  have hkw : P kw := hold kw (.inr (.inr (.inr (.inr ⟨v, List.mem_of_getElem? h.at_⟩))))
  have hp1 : P k₁ := by
    rw [h.eq₁]; split
    · refine hj _ _ ?_ h0
      split
      · exact hj _ _ hp hkw
      · exact hp
    · exact hp
  have hq3 : Q k₃ := by rw [h.eq₃]; exact hn _ hp1
  refine ⟨hp, hp1, hq3, ?_⟩
  rintro K (⟨q, rfl⟩ | rfl | rfl | hK | ⟨b, hK⟩)
  · rw [h.know]; unfold upd; split
    · exact hq3
    · exact hPQ _ (hold _ (.inl ⟨q, rfl⟩))
  · rw [h.wk]; split
    · exact hPQ _ (hj _ _ (hold _ (.inr (.inl rfl))) hp1)
    · exact hPQ _ (hold _ (.inr (.inl rfl)))
  · rw [h.rk]; split
    · exact hPQ _ (hj _ _ (hold _ (.inr (.inr (.inl rfl)))) hp1)
    · exact hPQ _ (hold _ (.inr (.inr (.inl rfl))))
  · rw [h.mail] at hK; exact hPQ _ (hold _ (.inr (.inr (.inr (.inl hK)))))
  · rw [h.flag, List.mem_append] at hK
    rcases hK with hK | hK
    · exact hPQ _ (hold _ (.inr (.inr (.inr (.inr ⟨b, hK⟩)))))
    · simp only [Option.mem_toList, Option.map_eq_some_iff] at hK
      obtain ⟨_, _, hK⟩ := hK
      cases hK; exact hq3

/-- The same for synchronisation elsewhere. -/
theorem mem_post {M : Machine σ A V E} {s s' : St σ V E} {p : Nat} {P : Know → Prop} (h : step M s p .post = some s')
    (hold : ∀ K, Mem s K → P K) : ∀ K, Mem s' K → P K := by
  simp only [step, Option.some.injEq] at h
  subst h
  rintro K (⟨q, rfl⟩ | rfl | rfl | hK | ⟨b, hK⟩)
  · exact hold _ (.inl ⟨q, rfl⟩)
  · exact hold _ (.inr (.inl rfl))
  · exact hold _ (.inr (.inr (.inl rfl)))
  · rcases List.mem_append.1 hK with hK | hK
    · exact hold _ (.inr (.inr (.inr (.inl hK))))
    · rw [List.mem_singleton.1 hK]; exact hold _ (.inl ⟨p, rfl⟩)
  · exact hold _ (.inr (.inr (.inr (.inr ⟨b, hK⟩))))

theorem mem_take {M : Machine σ A V E} {s s' : St σ V E} {p i : Nat} {P : Know → Prop} (h : step M s p (.take i) = some s')
    (hold : ∀ K, Mem s K → P K) (hj : ∀ a b, P a → P b → P (a.join b)) : ∀ K, Mem s' K → P K := by
  simp only [step, Option.map_eq_some_iff] at h
  obtain ⟨k, hk, rfl⟩ := h
  have hk' := hold k (.inr (.inr (.inr (.inl (List.mem_of_getElem? hk)))))
  rintro K (⟨q, rfl⟩ | rfl | rfl | hK | ⟨b, hK⟩)
  · dsimp only; unfold upd; split
    · exact hj _ _ (hold _ (.inl ⟨p, rfl⟩)) hk'
    · exact hold _ (.inl ⟨q, rfl⟩)
  · exact hold _ (.inr (.inl rfl))
  · exact hold _ (.inr (.inr (.inl rfl)))
  · exact hold _ (.inr (.inr (.inr (.inl hK))))
  · exact hold _ (.inr (.inr (.inr (.inr ⟨b, hK⟩))))

/-! ## Who knows the newest store -/

structure Kn (M : Machine σ A V E) (flag : σ → Bool) (s : St σ V E) : Prop where
  last : ∃ l K, s.flag = l ++ [(flag s.base, K)]
  cur : ∀ p, M.mode s.base p ≠ .none → (s.know p).seen + 1 = s.flag.length
  wcur : (∀ p, M.mode s.base p ≠ .excl) → s.wk.seen + 1 = s.flag.length
  bound : ∀ K, Mem s K → K.seen < s.flag.length ∧ ∀ n ∈ K.past, n < s.now
  idx : ∀ (k : Nat) (b : Bool) (K : Know), s.flag[k]? = some (b, K) → K.seen ≤ k

theorem kn_init {M : Machine σ A V E} {flag : σ → Bool} {b : σ} (hm : ∀ p, M.mode b p = .none) :
    Kn M flag (init b (flag b) : St σ V E) := by
  refine ⟨⟨[], _, rfl⟩, fun p hp => absurd (hm p) hp, fun _ => rfl, ?_, ?_⟩
  rotate_left
  · intro k b K hk
    cases k with
    | zero => simp [init] at hk; rw [← hk.2]; exact Nat.le_refl _
    | succ k => simp [init] at hk
  rintro K (⟨q, rfl⟩ | rfl | rfl | hK | ⟨b, hK⟩)
  · simp [init]
  · simp [init]
  · simp [init]
  · simp [init] at hK
  · simp [init] at hK; simp [init, hK.2]

theorem join_past {a b : Know} {n : Nat} : n ∈ (a.join b).past ↔ n ∈ a.past ∨ n ∈ b.past := by simp [Know.join]

theorem join_seen (a b : Know) : (a.join b).seen = max a.seen b.seen := rfl

section
variable {M : Machine σ A V E} {v₀ : Option V} {R : σ → Prop} {flag : σ → Bool} {me : σ → Nat → CallId}

/-- Facts about the knowledge of the process that moves. -/
theorem ran_know (S : Sound M v₀ R flag me) {s s' : St σ V E} {p : Nat} {a : A} {k : Nat} {k₀ k₁ k₃ kw : Know} {v q : Bool}
    (hr : R s.base) (h : Kn M flag s) (hs : Ran M s p a k s' k₀ k₁ k₃ kw v q) :
    k₁.seen < s.flag.length ∧ (s.know p).seen ≤ k₀.seen ∧ k₀.seen ≤ k₁.seen ∧
      (M.mode s.base p ≠ .none ∨ M.mode s'.base p ≠ .none → k₀.seen + 1 = s.flag.length) ∧
      (∀ n ∈ (s.know p).past, n ∈ k₀.past) ∧ (∀ n ∈ k₀.past, n ∈ k₁.past) := by
  have hb := mem_run hs (P := fun K => K.seen < s.flag.length) (Q := fun _ => True) (fun K hK => (h.bound K hK).1)
    (fun a b ha hb => by rw [join_seen]; omega) (by
      have := hs.at_; rw [List.getElem?_eq_some_iff] at this; obtain ⟨h1, _⟩ := this; exact h1) (fun _ _ => trivial)
    (fun _ _ => trivial)
  have h1 : (s.know p).seen ≤ k₀.seen ∧ (∀ n ∈ (s.know p).past, n ∈ k₀.past) := by
    rw [hs.eq₀]; unfold acquire; dsimp only
    constructor
    · split <;> split <;> (try simp only [join_seen]) <;> omega
    · intro n hn; split <;> split <;> simp [join_past, hn]
  have h2 : k₀.seen ≤ k₁.seen ∧ (∀ n ∈ k₀.past, n ∈ k₁.past) := by
    rw [hs.eq₁]
    constructor
    · split <;> (try split) <;> (try simp only [join_seen]) <;> omega
    · intro n hn; split <;> (try split) <;> simp [join_past, hn]
  refine ⟨hb.2.1, h1.1, h2.1, ?_, h1.2, h2.2⟩
  intro hm
  have hlt := hb.1
  by_cases hp : M.mode s.base p = .none
  · have hp' : M.mode s'.base p ≠ .none := hm.resolve_left fun hm => hm hp
    have hw : s.wk.seen + 1 = s.flag.length := by
      apply h.wcur
      intro q hq
      by_cases hqp : q = p
      · subst hqp; rw [hp] at hq; cases hq
      · have h3 := (S.other hr hs.base hqp).1
        exact hp' (S.alone (S.keep hr hs.base) (by rw [h3]; exact hq) (Ne.symm hqp))
    have : s.wk.seen ≤ k₀.seen := by
      rw [hs.eq₀]; unfold acquire; dsimp only
      rw [if_pos (c := M.mode s.base p = .none ∧ M.mode s'.base p ≠ .none) ⟨hp, hp'⟩]
      split <;> (try simp only [join_seen]) <;> omega
    omega
  · have := h.cur p hp
    omega

theorem kn_run (S : Sound M v₀ R flag me) {s s' : St σ V E} {p : Nat} {a : A} {k : Nat} {k₀ k₁ k₃ kw : Know} {v q : Bool}
    (hr : R s.base) (h : Kn M flag s) (hs : Ran M s p a k s' k₀ k₁ k₃ kw v q) : Kn M flag s' := by
  obtain ⟨hlt, h1, h2, hcur, hp1, hp2⟩ := ran_know S hr h hs
  have hlen : s'.flag.length = if (M.stores s.base p a).isSome then s.flag.length + 1 else s.flag.length := by
    rw [hs.flag]; cases M.stores s.base p a <;> simp
  have hk3 : k₃.seen = if (M.stores s.base p a).isSome then s.flag.length else k₁.seen := by rw [hs.eq₃]
  refine ⟨?_, ?_, ?_, ?_, ?_⟩
  · have := S.flag_ hr hs.base
    rw [hs.flag, this]
    cases hst : M.stores s.base p a with
    | none => obtain ⟨l, K, hl⟩ := h.last; exact ⟨l, K, by simp [hl]⟩
    | some b => exact ⟨s.flag, k₃, by simp⟩
  · intro q hq
    by_cases hqp : q = p
    · subst hqp
      rw [hs.know, upd_same, hlen, hk3]
      have := hcur (.inr hq)
      split <;> omega
    · have h3 := (S.other hr hs.base hqp).1
      rw [hs.know, upd_other _ _ hqp, hlen]
      rw [h3] at hq
      split
      · rename_i hst
        exact absurd (S.alone hr (S.store hr hs.base hst).1 hqp) hq
      · exact h.cur q hq
  · intro hx
    have hst : ¬ (M.stores s.base p a).isSome = true := fun hst => hx p (S.store hr hs.base hst).2.1
    rw [hlen, if_neg hst, hs.wk]
    by_cases hpx : M.mode s.base p = .excl
    · rw [if_pos ⟨hpx, hx p⟩, join_seen]
      have := hcur (.inl (by rw [hpx]; simp))
      have := (h.bound s.wk (.inr (.inl rfl))).1
      omega
    · rw [if_neg (fun hh => hpx hh.1)]
      apply h.wcur
      intro q
      by_cases hqp : q = p
      · subst hqp; exact hpx
      · rw [← (S.other hr hs.base hqp).1]; exact hx q
  · refine (mem_run hs (P := fun K => K.seen < s.flag.length ∧ ∀ n ∈ K.past, n < s.now) h.bound ?_ ?_ ?_ ?_).2.2.2
    · intro a b ha hb
      refine ⟨by rw [join_seen]; omega, fun n hn => ?_⟩
      rcases join_past.1 hn with hn | hn
      · exact ha.2 n hn
      · exact hb.2 n hn
    · have := hs.at_; rw [List.getElem?_eq_some_iff] at this; obtain ⟨h1, _⟩ := this
      exact ⟨h1, by simp⟩
    · intro K hK
      rw [hlen, hs.now]
      exact ⟨by split <;> omega, fun n hn => Nat.lt_succ_of_lt (hK.2 n hn)⟩
    · intro K hK
      rw [hlen, hs.now]
      refine ⟨by dsimp only; split <;> omega, fun n hn => ?_⟩
      rcases List.mem_cons.1 hn with rfl | hn
      · omega
      · exact Nat.lt_succ_of_lt (hK.2 n hn)
  · intro j b K hj
    rw [hs.flag] at hj
    cases hst : M.stores s.base p a with
    | none => rw [hst] at hj; simp at hj; exact h.idx j b K hj
    | some b' =>
      rw [hst] at hj
      simp only [Option.map_some, Option.toList_some] at hj
      by_cases hjl : j < s.flag.length
      · rw [List.getElem?_append_left hjl] at hj; exact h.idx j b K hj
      · have := hk3
        rw [hst] at this
        simp only [Option.isSome_some, if_true] at this
        rw [List.getElem?_append_right (Nat.le_of_not_lt hjl)] at hj
        have hK : K = k₃ := by
          cases hd : j - s.flag.length with
          | zero => rw [hd] at hj; simp at hj; exact hj.2.symm
          | succ n => rw [hd] at hj; simp at hj
        rw [hK]; omega

theorem kn_post {s s' : St σ V E} {p : Nat} (h : Kn M flag s) (hs : step M s p .post = some s') : Kn M flag s' := by
  have hm := mem_post hs h.bound
  simp only [step, Option.some.injEq] at hs
  subst hs
  exact ⟨h.last, h.cur, h.wcur, hm, h.idx⟩

theorem kn_take {s s' : St σ V E} {p i : Nat} (h : Kn M flag s) (hs : step M s p (.take i) = some s') : Kn M flag s' := by
  have hm := mem_take hs h.bound (by
    intro a b ha hb
    refine ⟨by rw [join_seen]; omega, fun n hn => ?_⟩
    rcases join_past.1 hn with hn | hn
    · exact ha.2 n hn
    · exact hb.2 n hn)
  simp only [step, Option.map_eq_some_iff] at hs
  obtain ⟨K, hK, rfl⟩ := hs
  refine ⟨h.last, ?_, h.wcur, hm, h.idx⟩
  intro q hq
  dsimp only at hq ⊢
  by_cases hqp : q = p
  · subst hqp
    rw [upd_same, join_seen]
    have h1 := h.cur q hq
    have h2 := (h.bound K (.inr (.inr (.inr (.inl (List.mem_of_getElem? hK)))))).1
    omega
  · rw [upd_other _ _ hqp]; exact h.cur q hq

/-! ## Accesses to the content -/

structure Rc (M : Machine σ A V E) (s : St σ V E) : Prop where
  free : RaceFree s.acc
  writes : ∀ a ∈ s.acc, a.write = true → ∀ p, M.mode s.base p ≠ .none → a.num ∈ (s.know p).past
  wwrites : ∀ a ∈ s.acc, a.write = true → (∀ p, M.mode s.base p ≠ .excl) → a.num ∈ s.wk.past
  hold : ∀ p, M.mode s.base p ≠ .none → ∀ n ∈ s.wk.past, n ∈ (s.know p).past
  all : ∀ a ∈ s.acc, ∀ p, M.mode s.base p = .excl → a.num ∈ (s.know p).past
  left : ∀ a ∈ s.acc, a.num ∈ s.wk.past ∨ a.num ∈ s.rk.past ∨ ∃ p, a.num ∈ (s.know p).past ∧ M.mode s.base p ≠ .none

theorem rc_init {b : σ} {f : Bool} : Rc M (init b f : St σ V E) := by
  refine ⟨?_, ?_, ?_, ?_, ?_, ?_⟩
  · rintro a b ⟨l₁, l₂, l₃, h⟩; simp [init] at h
  all_goals simp [init]

theorem rc_run (S : Sound M v₀ R flag me) {s s' : St σ V E} {p : Nat} {a : A} {k : Nat} {k₀ k₁ k₃ kw : Know} {v q : Bool}
    (hr : R s.base) (hn : Kn M flag s) (h : Rc M s) (hs : Ran M s p a k s' k₀ k₁ k₃ kw v q) : Rc M s' := by
  obtain ⟨_, _, _, _, hp1, hp2⟩ := ran_know S hr hn hs
  have hr' := S.keep hr hs.base
  have hp3 : ∀ n ∈ k₁.past, n ∈ k₃.past := fun n hn => by rw [hs.eq₃]; exact .tail _ hn
  have hnow : s.now ∈ k₃.past := by rw [hs.eq₃]; exact .head _
  have hmono : ∀ q, ∀ n ∈ (s.know q).past, n ∈ (s'.know q).past := by
    intro q n hn
    rw [hs.know]; unfold upd; split
    · rename_i hq; subst hq; exact hp3 _ (hp2 _ (hp1 _ hn))
    · exact hn
  have hwk : ∀ n ∈ s.wk.past, n ∈ s'.wk.past := by
    intro n hn; rw [hs.wk]; split
    · exact join_past.2 (.inl hn)
    · exact hn
  have hrk : ∀ n ∈ s.rk.past, n ∈ s'.rk.past := by
    intro n hn; rw [hs.rk]; split
    · exact join_past.2 (.inl hn)
    · exact hn
  -- taking the lock
  have hacq : M.mode s.base p = .none → M.mode s'.base p ≠ .none → (∀ q, M.mode s.base q ≠ .excl) ∧
      ∀ n ∈ s.wk.past, n ∈ k₀.past := by
    intro h1 h2
    refine ⟨fun q hq => ?_, fun n hn => ?_⟩
    · by_cases hqp : q = p
      · subst hqp; rw [h1] at hq; cases hq
      · have h3 := (S.other hr hs.base hqp).1
        exact h2 (S.alone hr' (by rw [h3]; exact hq) (Ne.symm hqp))
    · rw [hs.eq₀]; unfold acquire; dsimp only
      rw [if_pos (c := M.mode s.base p = .none ∧ M.mode s'.base p ≠ .none) ⟨h1, h2⟩]
      split <;> simp [join_past, hn]
  -- old accesses
  have hw : ∀ b ∈ s.acc, b.write = true → M.mode s.base p ≠ .none ∨ M.mode s'.base p ≠ .none → b.num ∈ k₀.past := by
    intro b hb hbw hm
    by_cases h1 : M.mode s.base p = .none
    · have h2 : M.mode s'.base p ≠ .none := hm.resolve_left fun hm => hm h1
      obtain ⟨h3, h4⟩ := hacq h1 h2
      exact h4 _ (h.wwrites b hb hbw h3)
    · exact hp1 _ (h.writes b hb hbw p h1)
  have ha : ∀ b ∈ s.acc, M.mode s.base p = .excl ∨ M.mode s'.base p = .excl → b.num ∈ k₀.past := by
    intro b hb hm
    by_cases h1 : M.mode s.base p = .excl
    · exact hp1 _ (h.all b hb p h1)
    · have h2 : M.mode s'.base p = .excl := hm.resolve_left h1
      have hjr : ∀ n ∈ s.rk.past, n ∈ k₀.past := by
        intro n hn
        rw [hs.eq₀]; unfold acquire; dsimp only
        rw [if_pos (c := M.mode s.base p ≠ .excl ∧ M.mode s'.base p = .excl) ⟨h1, h2⟩]
        exact join_past.2 (.inr hn)
      rcases h.left b hb with hb | hb | ⟨q, hb, hq⟩
      · by_cases h3 : M.mode s.base p = .none
        · exact (hacq h3 (by rw [h2]; simp)).2 _ hb
        · exact hp1 _ (h.hold p h3 _ hb)
      · exact hjr _ hb
      · by_cases hqp : q = p
        · subst hqp; exact hp1 _ hb
        · exact absurd (S.alone hr' h2 hqp) (by rw [(S.other hr hs.base hqp).1]; exact hq)
  -- the new access
  have hnew : ∀ b ∈ s'.acc, b ∈ s.acc ∨ b.num = s.now ∧ b.past = k₁.past ∧ M.touches s.base p a = some b.write := by
    intro b hb
    rw [hs.acc, List.mem_append] at hb
    rcases hb with hb | hb
    · exact .inl hb
    · simp only [Option.mem_toList, Option.map_eq_some_iff] at hb
      obtain ⟨w, h1, rfl⟩ := hb
      exact .inr ⟨rfl, rfl, h1⟩
  have hkp : s'.know p = k₃ := by rw [hs.know, upd_same]
  have hkq : ∀ q, q ≠ p → s'.know q = s.know q := fun q hq => by rw [hs.know, upd_other _ _ hq]
  refine ⟨?_, ?_, ?_, ?_, ?_, ?_⟩
  · intro b c hbc hw'
    rw [hs.acc] at hbc
    cases ht : M.touches s.base p a with
    | none => rw [ht] at hbc; simp only [Option.map_none, Option.toList_none, List.append_nil] at hbc; exact h.free b c hbc hw'
    | some w =>
      rw [ht] at hbc
      simp only [Option.map_some, Option.toList_some] at hbc
      obtain ⟨t1, t2, t3⟩ := S.touch hr hs.base ht
      rcases (before_snoc _ _ _ _).1 hbc with hbc | ⟨hb, rfl⟩
      · exact h.free b c hbc hw'
      · apply hp2
        rcases hw' with hw' | hw'
        · exact hw b hb hw' (.inl t1)
        · exact ha b hb (.inl (t3 hw').1)
  · intro b hb hbw q hq
    rcases hnew b hb with hb | ⟨h1, _, h3⟩
    · by_cases hqp : q = p
      · subst hqp; rw [hkp]; exact hp3 _ (hp2 _ (hw b hb hbw (.inr hq)))
      · rw [hkq q hqp]; rw [(S.other hr hs.base hqp).1] at hq; exact h.writes b hb hbw q hq
    · have := ((S.touch hr hs.base h3).2.2 hbw).2
      by_cases hqp : q = p
      · subst hqp; rw [hkp, h1]; exact hnow
      · exact absurd (S.alone hr' this hqp) hq
  · intro b hb hbw hx
    rcases hnew b hb with hb | ⟨h1, _, h3⟩
    · by_cases hpx : M.mode s.base p = .excl
      · rw [hs.wk, if_pos ⟨hpx, hx p⟩]
        exact join_past.2 (.inr (hp2 _ (hw b hb hbw (.inl (by rw [hpx]; simp)))))
      · apply hwk
        apply h.wwrites b hb hbw
        intro q
        by_cases hqp : q = p
        · subst hqp; exact hpx
        · rw [← (S.other hr hs.base hqp).1]; exact hx q
    · exact absurd ((S.touch hr hs.base h3).2.2 hbw).2 (hx p)
  · intro q hq n hn
    by_cases hqp : q = p
    · subst hqp
      rw [hkp]
      rw [hs.wk] at hn
      have hold : ∀ n ∈ s.wk.past, n ∈ k₃.past := by
        intro n hn
        by_cases h3 : M.mode s.base q = .none
        · exact hp3 _ (hp2 _ ((hacq h3 hq).2 n hn))
        · exact hp3 _ (hp2 _ (hp1 _ (h.hold q h3 n hn)))
      split at hn
      · rcases join_past.1 hn with hn | hn
        · exact hold n hn
        · exact hp3 _ hn
      · exact hold n hn
    · rw [hkq q hqp]
      have hq' := hq
      rw [(S.other hr hs.base hqp).1] at hq'
      rw [hs.wk] at hn
      split at hn
      · rename_i hpx
        exact absurd (S.alone hr hpx.1 hqp) hq'
      · exact h.hold q hq' n hn
  · intro b hb q hq
    rcases hnew b hb with hb | ⟨h1, _, h3⟩
    · by_cases hqp : q = p
      · subst hqp; rw [hkp]; exact hp3 _ (hp2 _ (ha b hb (.inr hq)))
      · rw [hkq q hqp]; rw [(S.other hr hs.base hqp).1] at hq; exact h.all b hb q hq
    · by_cases hqp : q = p
      · subst hqp; rw [hkp, h1]; exact hnow
      · exact absurd (S.alone hr' hq (Ne.symm hqp)) (S.touch hr hs.base h3).2.1
  · intro b hb
    rcases hnew b hb with hb | ⟨h1, _, h3⟩
    · rcases h.left b hb with h1 | h1 | ⟨q, h1, hq⟩
      · exact .inl (hwk _ h1)
      · exact .inr (.inl (hrk _ h1))
      · by_cases hqp : q = p
        · subst hqp
          have hk : b.num ∈ k₁.past := hp2 _ (hp1 _ h1)
          by_cases h2 : M.mode s'.base q = .none
          · by_cases h4 : M.mode s.base q = .excl
            · left; rw [hs.wk, if_pos ⟨h4, by rw [h2]; simp⟩]; exact join_past.2 (.inr hk)
            · right; left; rw [hs.rk, if_pos ⟨h4, hq, h2⟩]; exact join_past.2 (.inr hk)
          · exact .inr (.inr ⟨q, hmono _ _ h1, h2⟩)
        · exact .inr (.inr ⟨q, hmono _ _ h1, by rw [(S.other hr hs.base hqp).1]; exact hq⟩)
    · exact .inr (.inr ⟨p, by rw [hkp, h1]; exact hnow, (S.touch hr hs.base h3).2.1⟩)

theorem rc_post {s s' : St σ V E} {p : Nat} (h : Rc M s) (hs : step M s p .post = some s') : Rc M s' := by
  simp only [step, Option.some.injEq] at hs
  subst hs
  exact ⟨h.free, h.writes, h.wwrites, h.hold, h.all, h.left⟩

theorem rc_take {s s' : St σ V E} {p i : Nat} (h : Rc M s) (hs : step M s p (.take i) = some s') : Rc M s' := by
  simp only [step, Option.map_eq_some_iff] at hs
  obtain ⟨K, hK, rfl⟩ := hs
  have hm : ∀ q n, n ∈ (s.know q).past → n ∈ (upd s.know p ((s.know p).join K) q).past := by
    intro q n hn
    unfold upd; split
    · rename_i hq; subst hq; exact join_past.2 (.inl hn)
    · exact hn
  refine ⟨h.free, fun b hb hw q hq => hm _ _ (h.writes b hb hw q hq), h.wwrites, fun q hq n hn => hm _ _ (h.hold q hq n hn),
    fun b hb q hq => hm _ _ (h.all b hb q hq), fun b hb => ?_⟩
  rcases h.left b hb with h1 | h1 | ⟨q, h1, hq⟩
  · exact .inl h1
  · exact .inr (.inl h1)
  · exact .inr (.inr ⟨q, hm _ _ h1, hq⟩)

/-! ## The order of the calls -/

/-- Insert behind everything up to `k`. -/
def ins {α : Type} (k : Nat) (x : α) (W : List (Nat × α)) : List (Nat × α) :=
  W.filter (fun y => decide (y.1 ≤ k)) ++ (k, x) :: W.filter (fun y => !decide (y.1 ≤ k))

theorem mem_ins {α : Type} {k : Nat} {x : α} {W : List (Nat × α)} {y : Nat × α} :
    y ∈ ins k x W ↔ y = (k, x) ∨ y ∈ W := by
  simp only [ins, List.mem_append, List.mem_filter, List.mem_cons]
  by_cases h : y.1 ≤ k <;> simp [h] <;> constructor <;> (intro h; rcases h with h | h <;> simp_all)

theorem ins_sorted {α : Type} {k : Nat} {x : α} {W : List (Nat × α)} (h : W.Pairwise (·.1 ≤ ·.1)) :
    (ins k x W).Pairwise (·.1 ≤ ·.1) := by
  unfold ins
  rw [List.pairwise_append]
  refine ⟨h.filter _, ?_, ?_⟩
  · rw [List.pairwise_cons]
    refine ⟨fun y hy => ?_, h.filter _⟩
    have := (List.mem_filter.1 hy).2
    simp at this
    dsimp only; omega
  · intro y hy z hz
    have h1 := (List.mem_filter.1 hy).2
    simp at h1
    rcases List.mem_cons.1 hz with rfl | hz
    · exact h1
    · have h2 := (List.mem_filter.1 hz).2
      simp at h2; omega

theorem ins_before {α : Type} {k : Nat} {x : α} {W : List (Nat × α)} (h : W.Pairwise (·.1 ≤ ·.1)) {a b : Nat × α}
    (hb : Before W a b) : Before (ins k x W) a b := by
  rw [cut k h] at hb
  exact before_insert hb

theorem ins_new {α : Type} {k : Nat} {x : α} {W : List (Nat × α)} {a : Nat × α} (ha : a ∈ W) (hk : a.1 ≤ k) :
    Before (ins k x W) a (k, x) := before_new (List.mem_filter.2 ⟨ha, by simpa using hk⟩)

theorem ins_ids {α β : Type} {f : α → β} {k : Nat} {x : α} {W : List (Nat × α)} (h : W.Pairwise (·.1 ≤ ·.1))
    (hn : (W.map (fun y => f y.2)).Nodup) (hx : ∀ y ∈ W, f y.2 ≠ f x) : ((ins k x W).map (fun y => f y.2)).Nodup := by
  have hp : (ins k x W).Perm ((k, x) :: W) := by
    unfold ins
    refine List.perm_middle.trans (List.Perm.cons _ ?_)
    rw [← cut k h]
  rw [(hp.map _).nodup_iff]
  simp only [List.map_cons, List.nodup_cons]
  refine ⟨?_, hn⟩
  intro hc
  obtain ⟨y, hy, h1⟩ := List.mem_map.1 hc
  exact hx y hy h1

theorem ins_end {α : Type} {k : Nat} {x : α} {W : List (Nat × α)} (h : ∀ y ∈ W, y.1 ≤ k) : ins k x W = W ++ [(k, x)] := by
  unfold ins
  rw [List.filter_eq_self.2 (fun y hy => by simpa using h y hy), List.filter_eq_nil_iff.2 (fun y hy => by simpa using h y hy)]

/-- The part up to `j`, before the insertion point. -/
theorem ins_low {α : Type} {k j : Nat} {x : α} {W : List (Nat × α)} (hj : j < k) (h : W.Pairwise (·.1 ≤ ·.1)) :
    (ins k x W).filter (fun y => decide (y.1 ≤ j)) = W.filter (fun y => decide (y.1 ≤ j)) := by
  conv => rhs; rw [cut k h]
  unfold ins
  rw [List.filter_append, List.filter_append, List.filter_cons]
  rw [if_neg (by simp; omega)]

/-- The part up to `j`, with the insertion point. -/
theorem ins_high {α : Type} {k j : Nat} {x : α} {W : List (Nat × α)} (hj : k ≤ j) (h : W.Pairwise (·.1 ≤ ·.1)) :
    ∃ r, (ins k x W).filter (fun y => decide (y.1 ≤ j)) = W.filter (fun y => decide (y.1 ≤ k)) ++ (k, x) :: r ∧
      W.filter (fun y => decide (y.1 ≤ j)) = W.filter (fun y => decide (y.1 ≤ k)) ++ r := by
  have h1 : (W.filter (fun y => decide (y.1 ≤ k))).filter (fun y => decide (y.1 ≤ j)) = W.filter (fun y => decide (y.1 ≤ k)) := by
    rw [List.filter_eq_self]
    intro y hy
    have := (List.mem_filter.1 hy).2
    simp at this ⊢; omega
  refine ⟨(W.filter (fun y => !decide (y.1 ≤ k))).filter (fun y => decide (y.1 ≤ j)), ?_, ?_⟩
  · unfold ins
    rw [List.filter_append, List.filter_cons, if_pos (by simpa using hj), h1]
  · conv => lhs; rw [cut k h]
    rw [List.filter_append, h1]

/-- `W`: the calls in order, each with the index of the store of the flag after which it comes. -/
structure Ln (M : Machine σ A V E) (v₀ : Option V) (flag : σ → Bool) (me : σ → Nat → CallId) (s : St σ V E)
    (W : List (Nat × Done (Op V) (Res V E))) : Prop where
  sorted : W.Pairwise (·.1 ≤ ·.1)
  le : ∀ x ∈ W, x.1 < s.flag.length
  ids : (W.map (fun y => y.2.id)).Nodup
  legal : ∃ c, Legal CellStep v₀ (W.map (·.2)) c ∧ Legal CellStep v₀ (lins (M.log s.base)) c
  epoch : ∀ (k : Nat) (b : Bool) (K : Know), s.flag[k]? = some (b, K) →
    ∃ c, Legal CellStep v₀ ((W.filter (fun y => decide (y.1 ≤ k))).map (·.2)) c ∧ c.isSome = b
  fwd : ∀ d ∈ lins (M.log s.base), ∃ k r, (k, (⟨d.id, d.op, r⟩ : Done (Op V) (Res V E))) ∈ W ∧ (d.op ≠ .isSet → r = d.ret)
  bwd : ∀ x ∈ W, ∃ d ∈ lins (M.log s.base), d.id = x.2.id ∧ d.op = x.2.op
  own : ∀ x ∈ W, x.1 ≤ (s.know x.2.id.proc).seen
  pend : ∀ p, M.got s.base p = .isSet → ∃ k, (k, (⟨me s.base p, .isSet, ⟨none, .bool (s.read p)⟩⟩ : Done (Op V) (Res V E))) ∈ W
  snap : ∀ p o, M.got s.base p = .snap o → s.read p = flag s.base
  inv : ∀ i op, HEv.inv i op ∈ hist (M.log s.base) ↔ ∃ y ∈ s.log, y.ev = .inv i op
  past : ∀ y ∈ s.log, ∀ i op, y.ev = .inv i op → ∀ n ∈ y.past, n ∈ (s.know i.proc).past
  lt : ∀ y ∈ s.log, y.num < s.now ∧ ∀ n ∈ y.past, n < s.now
  res : ∀ x ∈ s.log, ∀ i r, x.ev = .res i r → ∃ op k, (k, (⟨i, op, r⟩ : Done (Op V) (Res V E))) ∈ W
  close : ∀ x ∈ s.log, ∀ i r, x.ev = .res i r → ∀ w ∈ W, w.2.id = i → ∀ K, Mem s K → x.num ∈ K.past → w.1 ≤ K.seen
  order : ∀ w ∈ W, ∀ w' ∈ W, ∀ x ∈ s.log, ∀ y ∈ s.log, ∀ r op, x.ev = .res w.2.id r → y.ev = .inv w'.2.id op →
    x.num ∈ y.past → Before W w w'

theorem ln_hb {s : St σ V E} {W : List (Nat × Done (Op V) (Res V E))} (S : Sound M v₀ R flag me) (hr : R s.base)
    (h : Ln M v₀ flag me s W) : HbLinearizable CellStep v₀ s.log := by
  obtain ⟨c, hc, _⟩ := h.legal
  obtain ⟨t, hd⟩ := S.disc hr
  have hinv : ∀ w ∈ W, ∃ x ∈ s.log, x.ev = .inv w.2.id w.2.op := by
    intro w hw
    obtain ⟨d, hd1, h1, h2⟩ := h.bwd w hw
    have := hd.facts.lin_inv d hd1
    rw [h1, h2] at this
    exact (h.inv _ _).1 this
  refine ⟨W.map (·.2), c, hc, by simpa [List.map_map, Function.comp_def] using h.ids, ?_, ?_, ?_⟩
  · intro d hd
    obtain ⟨w, hw, rfl⟩ := List.mem_map.1 hd
    exact hinv w hw
  · intro x hx i r hxr
    obtain ⟨op, k, hw⟩ := h.res x hx i r hxr
    exact ⟨op, hinv _ hw, List.mem_map.2 ⟨_, hw, rfl⟩⟩
  · intro d hd e he x hx y hy h1 h2 h3
    obtain ⟨w, hw, rfl⟩ := List.mem_map.1 hd
    obtain ⟨w', hw', rfl⟩ := List.mem_map.1 he
    exact before_map (h.order w hw w' hw' x hx y hy _ _ h1 h2 h3)

theorem ln_init {b : σ} (hl : M.log b = []) (hg : ∀ p, M.got b p = .none) (hf : flag b = v₀.isSome) :
    Ln M v₀ flag me (init b (flag b) : St σ V E) [] := by
  refine ⟨.nil, by simp, by simp, ⟨v₀, .nil, ?_⟩, ?_, ?_, by simp, by simp, ?_, ?_, ?_, by simp [init], by simp [init],
    by simp [init], by simp [init], by simp⟩
  · simp only [init, hl]; exact .nil
  · intro k b K hk
    refine ⟨v₀, .nil, ?_⟩
    cases k with
    | zero => simp [init] at hk; rw [← hk.1, hf]
    | succ k => simp [init] at hk
  · simp [init, hl, lins]
  · intro p hp; simp [init, hg] at hp
  · intro p o hp; simp [init, hg] at hp
  · simp [init, hl, hist]

theorem ln_post {s s' : St σ V E} {W : List (Nat × Done (Op V) (Res V E))} {p : Nat} (h : Ln M v₀ flag me s W)
    (hs : step M s p .post = some s') : Ln M v₀ flag me s' W := by
  have hm : ∀ x ∈ s.log, ∀ i r, x.ev = .res i r → ∀ w ∈ W, w.2.id = i → ∀ K, Mem s' K → x.num ∈ K.past → w.1 ≤ K.seen :=
    fun x hx i r hxr w hw hi => mem_post (P := fun K => x.num ∈ K.past → w.1 ≤ K.seen) hs (h.close x hx i r hxr w hw hi)
  simp only [step, Option.some.injEq] at hs
  subst hs
  exact { h with close := hm }

theorem close_join {n k : Nat} (a b : Know) (ha : n ∈ a.past → k ≤ a.seen) (hb : n ∈ b.past → k ≤ b.seen) :
    n ∈ (a.join b).past → k ≤ (a.join b).seen := by
  intro hn
  rw [join_seen]
  rcases join_past.1 hn with hn | hn
  · have := ha hn; omega
  · have := hb hn; omega

theorem ln_take {s s' : St σ V E} {W : List (Nat × Done (Op V) (Res V E))} {p i : Nat} (h : Ln M v₀ flag me s W)
    (hs : step M s p (.take i) = some s') : Ln M v₀ flag me s' W := by
  have hm : ∀ x ∈ s.log, ∀ i r, x.ev = .res i r → ∀ w ∈ W, w.2.id = i → ∀ K, Mem s' K → x.num ∈ K.past → w.1 ≤ K.seen :=
    fun x hx i r hxr w hw hi => mem_take (P := fun K => x.num ∈ K.past → w.1 ≤ K.seen) hs (h.close x hx i r hxr w hw hi)
      close_join
  simp only [step, Option.map_eq_some_iff] at hs
  obtain ⟨K, hK, rfl⟩ := hs
  refine { h with close := hm, own := ?_, past := ?_ }
  · intro x hx
    have := h.own x hx
    dsimp only; unfold upd; split
    · rename_i hq; rw [hq] at this; rw [join_seen]; omega
    · exact this
  · intro y hy j op hj n hn
    have := h.past y hy j op hj n hn
    dsimp only; unfold upd; split
    · rename_i hq; rw [hq] at this; exact join_past.2 (.inl this)
    · exact this

/-- Only the process that moves knows about the step. -/
theorem mem_now {s s' : St σ V E} {p : Nat} {a : A} {k : Nat} {k₀ k₁ k₃ kw : Know} {v q : Bool}
    (h : Ran M s p a k s' k₀ k₁ k₃ kw v q) (hb : ∀ K, Mem s K → ∀ n ∈ K.past, n < s.now) :
    s.now ∉ k₁.past ∧ ∀ K, Mem s' K → s.now ∈ K.past → K = s'.know p := by
  have hP := mem_run h (P := fun K => s.now ∉ K.past) (Q := fun _ => True)
    (fun K hK hn => absurd (hb K hK _ hn) (Nat.lt_irrefl _))
    (fun a b ha hb hn => (join_past.1 hn).elim ha hb) (by simp) (fun _ _ => trivial) (fun _ _ => trivial)
  have hold : ∀ K, Mem s K → s.now ∉ K.past := fun K hK hn => absurd (hb K hK _ hn) (Nat.lt_irrefl _)
  have h1 := hP.2.1
  refine ⟨h1, ?_⟩
  rintro K (⟨q, rfl⟩ | rfl | rfl | hK | ⟨b, hK⟩) hn
  · rw [h.know] at hn ⊢
    by_cases hq : q = p
    · rw [hq]
    · rw [upd_other _ _ hq] at hn; exact absurd hn (hold _ (.inl ⟨q, rfl⟩))
  · rw [h.wk] at hn
    split at hn
    · exact absurd hn (fun hn => (join_past.1 hn).elim (hold _ (.inr (.inl rfl))) h1)
    · exact absurd hn (hold _ (.inr (.inl rfl)))
  · rw [h.rk] at hn
    split at hn
    · exact absurd hn (fun hn => (join_past.1 hn).elim (hold _ (.inr (.inr (.inl rfl)))) h1)
    · exact absurd hn (hold _ (.inr (.inr (.inl rfl))))
  · rw [h.mail] at hK; exact absurd hn (hold _ (.inr (.inr (.inr (.inl hK)))))
  · rw [h.flag, List.mem_append] at hK
    rcases hK with hK | hK
    · exact absurd hn (hold _ (.inr (.inr (.inr (.inr ⟨b, hK⟩)))))
    · simp only [Option.mem_toList, Option.map_eq_some_iff] at hK
      obtain ⟨_, _, hK⟩ := hK
      cases hK; rw [h.know, upd_same]

theorem legal_mem {S Op R : Type} {spec : S → Op → R → S → Prop} {s s' : S} {l : List (Done Op R)} (h : Legal spec s l s')
    {d : Done Op R} (hd : d ∈ l) : ∃ c c', spec c d.op d.ret c' := by
  induction h with
  | nil => cases hd
  | cons h1 _ ih =>
    rcases List.mem_cons.1 hd with rfl | hd
    · exact ⟨_, _, h1⟩
    · exact ih hd

theorem hist_append (l l' : List (Ev V E)) : hist (l ++ l') = hist l ++ hist l' := by simp [hist]

theorem ln_go (S : Sound M v₀ R flag me) {s s' : St σ V E} {p : Nat} {a : A} {k : Nat} {k₀ k₁ k₃ kw : Know} {v q : Bool}
    (hr : R s.base) (hk : Kn M flag s) {W W' : List (Nat × Done (Op V) (Res V E))} (h : Ln M v₀ flag me s W)
    (hs : Ran M s p a k s' k₀ k₁ k₃ kw v q) {es : List (Ev V E)} (hL : M.log s'.base = M.log s.base ++ es)
    (hsh : hist es = [] ∨ (∃ op, hist es = [.inv (me s.base p) op]) ∨
      ∃ r, hist es = [.res (me s.base p) r] ∧
        match M.got s.base p with
        | .none => ∀ b, r.ret ≠ .bool b
        | .isSet => True
        | .snap o => r = ⟨none, .snap o (flag s.base)⟩)
    (hW : W' = W ∧ lins es = [] ∨ ∃ e d d', W' = ins e d' W ∧ lins es = [d] ∧ d.id = me s.base p ∧ d'.id = me s.base p ∧
      d'.op = d.op ∧ (d.op ≠ .isSet → d' = d) ∧ k₁.seen ≤ e ∧ e ≤ k₃.seen ∧ e < s'.flag.length)
    (hlegal : ∃ c, Legal CellStep v₀ (W'.map (·.2)) c ∧ Legal CellStep v₀ (lins (M.log s'.base)) c)
    (hepoch : ∀ (k : Nat) (b : Bool) (K : Know), s'.flag[k]? = some (b, K) →
      ∃ c, Legal CellStep v₀ ((W'.filter (fun y => decide (y.1 ≤ k))).map (·.2)) c ∧ c.isSome = b)
    (hpend : M.got s'.base p = .isSet →
      ∃ k, (k, (⟨me s'.base p, .isSet, ⟨none, .bool (s'.read p)⟩⟩ : Done (Op V) (Res V E))) ∈ W')
    (hsnap : ∀ o, M.got s'.base p = .snap o → s'.read p = flag s'.base) : Ln M v₀ flag me s' W' := by
  obtain ⟨_, hk01, hk11, _, hp1, hp2⟩ := ran_know S hr hk hs
  have hr' := S.keep hr hs.base
  obtain ⟨t', hd'⟩ := S.disc hr'
  have hlen : s.flag.length ≤ s'.flag.length := by rw [hs.flag]; simp
  have hk13 : k₁.seen ≤ k₃.seen := by
    have := (ran_know S hr hk hs).1
    rw [hs.eq₃]; dsimp only; split <;> omega
  have hp3 : ∀ n ∈ k₁.past, n ∈ k₃.past := fun n hn => by rw [hs.eq₃]; exact .tail _ hn
  have hseen : ∀ q, (s.know q).seen ≤ (s'.know q).seen := by
    intro q; rw [hs.know]; unfold upd; split
    · rename_i hq; subst hq; omega
    · exact Nat.le_refl _
  have hpast : ∀ q, ∀ n ∈ (s.know q).past, n ∈ (s'.know q).past := by
    intro q n hn; rw [hs.know]; unfold upd; split
    · rename_i hq; subst hq; exact hp3 _ (hp2 _ (hp1 _ hn))
    · exact hn
  have hkp : s'.know p = k₃ := by rw [hs.know, upd_same]
  obtain ⟨hnow, hmem⟩ := mem_now hs fun K hK => (hk.bound K hK).2
  have hH : s'.log = s.log ++ (hist es).map fun e => ⟨s.now, k₁.past, shown (M.got s.base p) (s.read p) e⟩ := by
    rw [hs.log, hL, hist_append, List.drop_left]
  have hlins : lins (M.log s'.base) = lins (M.log s.base) ++ lins es := by rw [hL, Sync.lins_append]
  have hhist : hist (M.log s'.base) = hist (M.log s.base) ++ hist es := by rw [hL, hist_append]
  -- old and new entries
  have hsub : ∀ w ∈ W, w ∈ W' := by
    intro w hw
    rcases hW with ⟨h1, _⟩ | ⟨e, d, d', h1, _⟩
    · rw [h1]; exact hw
    · rw [h1]; exact mem_ins.2 (.inr hw)
  have hfresh : ∀ d, lins es = [d] → ∀ w ∈ W, w.2.id ≠ d.id := by
    intro d hd w hw hc
    obtain ⟨d0, h0, h1, _⟩ := h.bwd w hw
    have hn := hd'.facts.nodup
    rw [hlins, hd, List.map_append, List.nodup_append] at hn
    exact hn.2.2 _ (List.mem_map.2 ⟨d0, h0, rfl⟩) _ (List.mem_map.2 ⟨d, .head _, rfl⟩) (by rw [h1, hc])
  have hclose1 : ∀ x ∈ s.log, ∀ i r, x.ev = .res i r → ∀ w ∈ W, w.2.id = i →
      (x.num ∈ k₁.past → w.1 ≤ k₁.seen) ∧ ∀ K, Mem s' K → x.num ∈ K.past → w.1 ≤ K.seen := by
    intro x hx i r hxr w hw hi
    have hxn := (h.lt x hx).1
    have := mem_run hs (P := fun K => x.num ∈ K.past → w.1 ≤ K.seen) (Q := fun K => x.num ∈ K.past → w.1 ≤ K.seen)
      (h.close x hx i r hxr w hw hi) close_join (by simp) (fun _ h => h) (by
        intro K hK hn
        have hn' : x.num ∈ K.past := by
          rcases List.mem_cons.1 hn with hc | hn
          · omega
          · exact hn
        have h1 := hK hn'
        have h2 := h.le w hw
        dsimp only; split
        · omega
        · exact h1)
    exact ⟨this.2.1, this.2.2.2⟩
  have hlog : ∀ y ∈ s'.log, y ∈ s.log ∨ y.num = s.now ∧ y.past = k₁.past ∧
      ∃ e ∈ hist es, y.ev = shown (M.got s.base p) (s.read p) e := by
    intro y hy
    rw [hH, List.mem_append] at hy
    rcases hy with hy | hy
    · exact .inl hy
    · obtain ⟨e, he, rfl⟩ := List.mem_map.1 hy
      exact .inr ⟨rfl, rfl, e, he, rfl⟩
  have hnewinv : ∀ e ∈ hist es, ∀ i op, shown (M.got s.base p) (s.read p) e = .inv i op → e = .inv i op := by
    intro e _ i op he
    cases e <;> simp [shown] at he ⊢ <;> exact he
  have hnewid : ∀ e ∈ hist es, (∀ i op, e = .inv i op → i = me s.base p) ∧ (∀ i r, e = .res i r → i = me s.base p) := by
    intro e he
    rcases hsh with h1 | ⟨op, h1⟩ | ⟨r, h1, _⟩ <;> rw [h1] at he
    · cases he
    · rw [List.mem_singleton.1 he]; constructor <;> (intro i _ hi; cases hi <;> rfl)
    · rw [List.mem_singleton.1 he]; constructor <;> (intro i _ hi; cases hi <;> rfl)
  -- nothing has been called with the identity of a new call
  have hnew : ∀ i op, HEv.inv i op ∈ hist es → ∀ op', HEv.inv i op' ∉ hist (M.log s.base) := by
    intro i op he op' hi
    have hw := hd'.wellFormed.once
    rw [hhist, List.map_append, List.nodup_append] at hw
    exact hw.2.2 _ (List.mem_map.2 ⟨_, hi, rfl⟩) _ (List.mem_map.2 ⟨_, he, rfl⟩) rfl
  have hold : ∀ w ∈ W, ∃ op, HEv.inv w.2.id op ∈ hist (M.log s.base) := by
    intro w hw
    obtain ⟨d, hd1, h1, _⟩ := h.bwd w hw
    obtain ⟨t, hd⟩ := S.disc hr
    exact ⟨d.op, by rw [← h1]; exact hd.facts.lin_inv d hd1⟩
  have hfwd : ∀ d ∈ lins (M.log s'.base), ∃ k r, (k, (⟨d.id, d.op, r⟩ : Done (Op V) (Res V E))) ∈ W' ∧
      (d.op ≠ .isSet → r = d.ret) := by
    intro d hd
    rw [hlins, List.mem_append] at hd
    rcases hd with hd | hd
    · obtain ⟨k, r, h1, h2⟩ := h.fwd d hd
      exact ⟨k, r, hsub _ h1, h2⟩
    · rcases hW with ⟨_, h1⟩ | ⟨e, d1, d', h1, h2, h3, h4, h5, h6, _⟩
      · rw [h1] at hd; cases hd
      · rw [h2] at hd
        rw [List.mem_singleton.1 hd]
        refine ⟨e, d'.ret, ?_, fun h7 => by rw [h6 h7]⟩
        rw [h1, mem_ins]; left
        rw [h3, ← h4, ← h5]
  have hown : ∀ x ∈ W', x.1 ≤ (s'.know x.2.id.proc).seen := by
    intro x hx
    rcases hW with ⟨h1, _⟩ | ⟨e, d1, d', h1, h2, h3, h4, h5, h6, h7, h8, h9⟩
    · rw [h1] at hx; exact Nat.le_trans (h.own x hx) (hseen _)
    · rw [h1] at hx
      rcases mem_ins.1 hx with rfl | hx
      · dsimp only; rw [h4, S.proc, hkp]; exact h8
      · exact Nat.le_trans (h.own x hx) (hseen _)
  have hres : ∀ x ∈ s'.log, ∀ i r, x.ev = .res i r → ∃ op k, (k, (⟨i, op, r⟩ : Done (Op V) (Res V E))) ∈ W' := by
    intro x hx i r hxr
    rcases hlog x hx with hx | ⟨_, _, e, he, hxe⟩
    · obtain ⟨op, k, h1⟩ := h.res x hx i r hxr
      exact ⟨op, k, hsub _ h1⟩
    · rw [hxe] at hxr
      rcases hsh with h1 | ⟨op, h1⟩ | ⟨r0, h1, h2⟩ <;> rw [h1] at he
      · cases he
      · rw [List.mem_singleton.1 he] at hxr; cases hxr
      · rw [List.mem_singleton.1 he] at hxr
        simp only [shown, HEv.res.injEq] at hxr
        obtain ⟨rfl, rfl⟩ := hxr
        -- the same answer as in the base model
        have hsame : (∀ b, r0.ret ≠ .bool b) → ∃ op k, (k, (⟨me s.base p, op, r0⟩ : Done (Op V) (Res V E))) ∈ W' := by
          intro hb
          obtain ⟨op, _, h4⟩ := hd'.facts.res_lin (me s.base p) r0 (by rw [hhist, h1]; simp)
          obtain ⟨k, r, h5, h6⟩ := hfwd _ h4
          have hop : op ≠ .isSet := by
            rintro rfl
            obtain ⟨c, _, hc⟩ := hlegal
            obtain ⟨c1, c2, hc⟩ := legal_mem hc h4
            dsimp only at hc
            cases hc
            exact hb _ rfl
          rw [h6 hop] at h5
          exact ⟨op, k, h5⟩
        cases hg : M.got s.base p with
        | none => rw [hg] at h2; exact hsame h2
        | isSet =>
          obtain ⟨k, h5⟩ := h.pend p hg
          exact ⟨_, k, hsub _ h5⟩
        | snap o =>
          rw [hg] at h2
          dsimp only at h2
          simp only [answer]
          rw [h.snap p o hg, ← h2]
          exact hsame (by rw [h2]; simp)
  refine ⟨?_, ?_, ?_, hlegal, hepoch, hfwd, ?_, hown, ?_, ?_, ?_, ?_, ?_, hres, ?_, ?_⟩
  · rcases hW with ⟨h1, _⟩ | ⟨e, d, d', h1, _⟩
    · rw [h1]; exact h.sorted
    · rw [h1]; exact ins_sorted h.sorted
  · intro x hx
    rcases hW with ⟨h1, _⟩ | ⟨e, d1, d', h1, h2, h3, h4, h5, h6, h7, h8, h9⟩
    · rw [h1] at hx; exact Nat.lt_of_lt_of_le (h.le x hx) hlen
    · rw [h1] at hx
      rcases mem_ins.1 hx with rfl | hx
      · exact h9
      · exact Nat.lt_of_lt_of_le (h.le x hx) hlen
  · rcases hW with ⟨h1, _⟩ | ⟨e, d1, d', h1, h2, h3, h4, _⟩
    · rw [h1]; exact h.ids
    · rw [h1]
      exact ins_ids (f := Done.id) h.sorted h.ids fun y hy => by rw [h4, ← h3]; exact hfresh d1 h2 y hy
  · intro x hx
    have hbo : x ∈ W → ∃ d ∈ lins (M.log s'.base), d.id = x.2.id ∧ d.op = x.2.op := by
      intro hx
      obtain ⟨d, hd1, h1⟩ := h.bwd x hx
      exact ⟨d, by rw [hlins]; exact List.mem_append.2 (.inl hd1), h1⟩
    rcases hW with ⟨h1, _⟩ | ⟨e, d1, d', h1, h2, h3, h4, h5, _⟩
    · rw [h1] at hx; exact hbo hx
    · rw [h1] at hx
      rcases mem_ins.1 hx with rfl | hx
      · exact ⟨d1, by rw [hlins, h2]; simp, by rw [h3, ← h4], h5.symm⟩
      · exact hbo hx
  · intro q hq
    by_cases hqp : q = p
    · subst hqp; exact hpend hq
    · obtain ⟨_, h1, h2⟩ := S.other hr hs.base hqp
      rw [h1] at hq
      obtain ⟨k, h3⟩ := h.pend q hq
      refine ⟨k, hsub _ ?_⟩
      rw [h2, hs.read]
      split
      · rw [upd_other _ _ hqp]; exact h3
      · exact h3
  · intro q o hq
    by_cases hqp : q = p
    · subst hqp; exact hsnap o hq
    · obtain ⟨_, h1, h2⟩ := S.other hr hs.base hqp
      rw [h1] at hq
      have hst : M.stores s.base p a = none := by
        cases hst : M.stores s.base p a with
        | none => rfl
        | some b => exact absurd (S.alone hr (S.store hr hs.base (by rw [hst]; rfl)).1 hqp) (S.snap hr hq)
      have hf := S.flag_ hr hs.base
      rw [hst] at hf
      have h3 := h.snap q o hq
      rw [hf, hs.read]
      split
      · rw [upd_other _ _ hqp]; exact h3
      · exact h3
  · intro i op
    rw [hhist, List.mem_append]
    constructor
    · rintro (h1 | h1)
      · obtain ⟨y, hy, h2⟩ := (h.inv i op).1 h1
        exact ⟨y, by rw [hH]; exact List.mem_append.2 (.inl hy), h2⟩
      · refine ⟨_, by rw [hH]; exact List.mem_append.2 (.inr (List.mem_map.2 ⟨_, h1, rfl⟩)), rfl⟩
    · rintro ⟨y, hy, h1⟩
      rcases hlog y hy with hy | ⟨_, _, e, he, hye⟩
      · exact .inl ((h.inv i op).2 ⟨y, hy, h1⟩)
      · right
        rw [← hnewinv e he i op (by rw [← hye, h1])]
        exact he
  · intro y hy i op h1 n hn
    rcases hlog y hy with hy | ⟨_, h2, e, he, hye⟩
    · exact hpast _ _ (h.past y hy i op h1 n hn)
    · have := hnewinv e he i op (by rw [← hye, h1])
      rw [(hnewid e he).1 i op this, S.proc, hkp]
      rw [h2] at hn
      exact hp3 _ hn
  · intro y hy
    rw [hs.now]
    rcases hlog y hy with hy | ⟨h1, h2, _⟩
    · have := h.lt y hy
      exact ⟨by omega, fun n hn => Nat.lt_succ_of_lt (this.2 n hn)⟩
    · refine ⟨by omega, fun n hn => ?_⟩
      rw [h2] at hn
      have := ((kn_run S hr hk hs).bound k₃ (.inl ⟨p, hkp.symm⟩)).2 n (hp3 _ hn)
      rw [hs.now] at this; exact this
  · intro x hx i r hxr w hw hi K hK hn
    rcases hlog x hx with hx | ⟨h1, h2, e, he, hxe⟩
    · have hwW : w ∈ W := by
        rcases hW with ⟨h1, _⟩ | ⟨e, d1, d', h1, h2, h3, h4, _⟩
        · rw [h1] at hw; exact hw
        · rw [h1] at hw
          rcases mem_ins.1 hw with rfl | hw
          · obtain ⟨op, k', h5⟩ := h.res x hx i r hxr
            exact absurd (by dsimp only at hi ⊢; rw [← hi, h4, h3]) (hfresh d1 h2 _ h5)
          · exact hw
      exact (hclose1 x hx i r hxr w hwW hi).2 K hK hn
    · rw [h1] at hn
      rw [hmem K hK hn]
      have hp : w.2.id.proc = p := by
        rw [hxe] at hxr
        cases e with
        | inv j op => cases hxr
        | res j r' =>
          simp only [shown, HEv.res.injEq] at hxr
          rw [hi, ← hxr.1, (hnewid _ he).2 j r' rfl, S.proc]
      have := hown w hw
      rw [hp] at this
      exact this
  · intro w hw w' hw' x hx y hy r op hxr hyi hxy
    -- the answer is an old event
    have hxo : x ∈ s.log := by
      rcases hlog x hx with hx | ⟨h1, _⟩
      · exact hx
      · rw [h1] at hxy
        rcases hlog y hy with hy | ⟨_, h2, _⟩
        · exact absurd ((h.lt y hy).2 _ hxy) (Nat.lt_irrefl _)
        · rw [h2] at hxy; exact absurd hxy hnow
    have hwW : w ∈ W := by
      rcases hW with ⟨h1, _⟩ | ⟨e, d1, d', h1, h2, h3, h4, _⟩
      · rw [h1] at hw; exact hw
      · rw [h1] at hw
        rcases mem_ins.1 hw with rfl | hw
        · obtain ⟨op, k', h5⟩ := h.res x hxo _ r hxr
          exact absurd (by dsimp only; rw [h4, h3]) (hfresh d1 h2 _ h5)
        · exact hw
    by_cases hwW' : w' ∈ W
    · -- both old
      have hyo : y ∈ s.log := by
        rcases hlog y hy with hy | ⟨_, _, e, he, hye⟩
        · exact hy
        · have := hnewinv e he _ op (by rw [← hye, hyi])
          obtain ⟨op', h1⟩ := hold w' hwW'
          exact absurd h1 (hnew _ _ (by rw [← this]; exact he) op')
      have hb := h.order w hwW w' hwW' x hxo y hyo r op hxr hyi hxy
      rcases hW with ⟨h1, _⟩ | ⟨e, d1, d', h1, _⟩
      · rw [h1]; exact hb
      · rw [h1]; exact ins_before h.sorted hb
    · rcases hW with ⟨h1, _⟩ | ⟨e, d1, d', h1, h2, h3, h4, h5, h6, h7, h8, h9⟩
      · rw [h1] at hw'; exact absurd hw' hwW'
      · rw [h1] at hw'
        rcases mem_ins.1 hw' with rfl | hw'
        · rw [h1]
          apply ins_new hwW
          have hxk : x.num ∈ k₁.past := by
            rcases hlog y hy with hy | ⟨_, h10, _⟩
            · have := h.past y hy _ op hyi _ hxy
              dsimp only at this
              rw [h4, S.proc] at this
              exact hp2 _ (hp1 _ this)
            · rw [← h10]; exact hxy
          exact Nat.le_trans ((hclose1 x hxo _ r hxr w hwW rfl).1 hxk) h7
        · exact absurd hw' hwW'

theorem ln_run (S : Sound M v₀ R flag me) {s s' : St σ V E} {p : Nat} {a : A} {k : Nat} {k₀ k₁ k₃ kw : Know} {v q : Bool}
    (hr : R s.base) (hk : Kn M flag s) {W : List (Nat × Done (Op V) (Res V E))} (h : Ln M v₀ flag me s W)
    (hs : Ran M s p a k s' k₀ k₁ k₃ kw v q) : ∃ W', Ln M v₀ flag me s' W' := by
  obtain ⟨es, hL, hsh, hef⟩ := S.ev hr hs.base
  have hr' := S.keep hr hs.base
  have hk' := kn_run S hr hk hs
  obtain ⟨c, hc1, hc2⟩ := h.legal
  obtain ⟨c', hc1', hc2'⟩ := S.legal hr'
  have hlins : lins (M.log s'.base) = lins (M.log s.base) ++ lins es := by rw [hL, Sync.lins_append]
  obtain ⟨l, Kl, hlast⟩ := hk'.last
  have hlen : s.flag.length ≤ s'.flag.length := by rw [hs.flag]; simp
  have hle : ∀ y ∈ W, y.1 ≤ s'.flag.length - 1 := fun y hy => by have := h.le y hy; omega
  have hpos : 0 < s'.flag.length := by rw [hlast]; simp
  have htop : ∀ b K, s'.flag[s'.flag.length - 1]? = some (b, K) → b = flag s'.base := by
    intro b K hb
    rw [hlast] at hb
    simp at hb
    exact hb.1.symm
  have hlow : ∀ j b K, j < s'.flag.length - 1 → s'.flag[j]? = some (b, K) → s.flag[j]? = some (b, K) := by
    intro j b K hj hb
    rw [hs.flag] at hb hj
    cases hst : M.stores s.base p a with
    | none => rw [hst] at hb; simpa using hb
    | some b' =>
      rw [hst] at hb hj
      simp at hj
      rw [List.getElem?_append_left hj] at hb
      exact hb
  have hinj : ∀ j x, s'.flag[j]? = some x → j < s'.flag.length := by
    intro j x hj
    exact (List.getElem?_eq_some_iff.1 hj).1
  -- no call takes effect
  have hquiet : lins es = [] → (M.got s'.base p ≠ .isSet) → (∀ o, M.got s'.base p = .snap o → s'.read p = flag s'.base) →
      Ln M v₀ flag me s' W := by
    intro h1 h2 h3
    rw [h1, List.append_nil] at hlins
    have hcc : c' = c := legal_det (hlins ▸ hc1') hc2
    subst hcc
    refine ln_go S hr hk h hs hL hsh (.inl ⟨rfl, h1⟩) ⟨c', hc1, hc1'⟩ ?_ (fun hg => absurd hg h2) h3
    intro j b K hj
    by_cases hjl : j < s'.flag.length - 1
    · exact h.epoch j b K (hlow j b K hjl hj)
    · have hj' : j = s'.flag.length - 1 := by have := hinj j _ hj; omega
      rw [hj'] at hj ⊢
      refine ⟨c', ?_, by rw [hc2', htop b K hj]⟩
      rw [List.filter_eq_self.2 (fun y hy => by simpa using hle y hy)]
      exact hc1
  rcases hef with ⟨h1, h2, h3⟩ | ⟨h1, h2, h3, op, r, h4, h5⟩ | ⟨h1, h2, h3, h4, r, h5⟩ | ⟨h1, h2, h3, h4, o, h5⟩
  · exact ⟨W, hquiet h2 (by rw [h3]; simp) (fun o ho => by rw [h3] at ho; cases ho)⟩
  · -- at the end
    have hd : ∃ c1, Legal CellStep v₀ (lins (M.log s.base)) c1 ∧ CellStep c1 op r c' := by
      rw [hlins, h5] at hc1'
      obtain ⟨c1, h6, h7⟩ := Sync.legal_append hc1'
      refine ⟨c1, h6, ?_⟩
      cases h7 with
      | cons h8 h9 => cases h9; exact h8
    obtain ⟨c1, h6, h7⟩ := hd
    have hcc : c1 = c := legal_det h6 hc2
    subst hcc
    have hnew : Legal CellStep v₀ ((W ++ [(s'.flag.length - 1, (⟨me s.base p, op, r⟩ : Done (Op V) (Res V E)))]).map (·.2)) c' := by
      rw [List.map_append]
      exact legal_glue hc1 (.cons h7 .nil)
    have hi := ins_end (k := s'.flag.length - 1) (x := (⟨me s.base p, op, r⟩ : Done (Op V) (Res V E))) hle
    have hseen : k₃.seen + 1 = s'.flag.length ∧ k₁.seen ≤ k₃.seen := by
      obtain ⟨h8, h9, h10, h11, _⟩ := ran_know S hr hk hs
      have h12 := h11 (.inl h3)
      have h13 : k₃.seen < s'.flag.length := (hk'.bound k₃ (.inl ⟨p, by rw [hs.know, upd_same]⟩)).1
      rw [hs.eq₃, hs.flag] at *
      cases hst : M.stores s.base p a with
      | none => rw [hst] at h13; simp at h13 ⊢; omega
      | some b => rw [hst] at h13; simp at h13 ⊢; omega
    refine ⟨ins (s'.flag.length - 1) ⟨me s.base p, op, r⟩ W, ln_go S hr hk h hs hL hsh
      (.inr ⟨_, _, _, rfl, h5, rfl, rfl, rfl, fun _ => rfl, by omega, by omega, by omega⟩) ⟨c', by rw [hi]; exact hnew, hc1'⟩ ?_
      (fun hg => by rw [h2] at hg; cases hg) (fun o ho => by rw [h2] at ho; cases ho)⟩
    intro j b K hj
    by_cases hjl : j < s'.flag.length - 1
    · rw [ins_low hjl h.sorted]; exact h.epoch j b K (hlow j b K hjl hj)
    · have hj' : j = s'.flag.length - 1 := by have := hinj j _ hj; omega
      rw [hj'] at hj ⊢
      refine ⟨c', ?_, by rw [hc2', htop b K hj]⟩
      rw [List.filter_eq_self.2 (fun y hy => ?_), hi]
      · exact hnew
      · rcases mem_ins.1 hy with rfl | hy
        · simp
        · simpa using hle y hy
  · -- at the place of the store
    have hst : M.stores s.base p a = none := by
      cases hst : M.stores s.base p a with
      | none => rfl
      | some b => have := (S.store hr hs.base (by rw [hst]; rfl)).2.2; rw [h1] at this; cases this
    have hfl : s'.flag = s.flag := by rw [hs.flag, hst]; simp
    have hk1 : k₁.seen = k := by
      obtain ⟨h8, h9, h10, h11, _⟩ := ran_know S hr hk hs
      have hle := hs.le h1
      have hb := hk.idx k v kw hs.at_
      rw [hs.eq₁, h1, if_pos rfl]
      split <;> simp only [join_seen] <;> omega
    have hrd : s'.read p = v := by rw [hs.read, h1]; simp
    have hk3 : k₃.seen = k := by rw [hs.eq₃, hst]; simpa using hk1
    have hx : ∀ d, Legal CellStep v₀ ((W.filter (fun y => decide (y.1 ≤ k))).map (·.2)) d →
        CellStep d (.isSet : Op V) (⟨none, .bool v⟩ : Res V E) d := by
      intro d hd
      obtain ⟨c1, h6, h7⟩ := h.epoch k v kw hs.at_
      rw [legal_det hd h6, ← h7]
      exact .isSet _
    have hstep : c' = c := by
      rw [hlins, h5] at hc1'
      obtain ⟨c1, h6, h7⟩ := Sync.legal_append hc1'
      cases h7 with
      | cons h8 h9 =>
        cases h9
        cases h8
        exact legal_det h6 hc2
    subst hstep
    have hkl : k < s'.flag.length := by rw [hfl]; exact (List.getElem?_eq_some_iff.1 hs.at_).1
    refine ⟨ins k ⟨me s.base p, .isSet, ⟨none, .bool v⟩⟩ W, ln_go S hr hk h hs hL hsh
      (.inr ⟨_, _, _, rfl, h5, rfl, rfl, rfl, fun hc => absurd rfl hc, by omega, by omega, hkl⟩) ⟨c', ?_, hc1'⟩ ?_ ?_
      (fun o ho => by rw [h2] at ho; cases ho)⟩
    · unfold ins
      rw [List.map_append, List.map_cons]
      refine legal_insert ?_ hx
      rw [← List.map_append, ← cut k h.sorted]
      exact hc1
    · intro j b K hj
      rw [hfl] at hj
      obtain ⟨c1, h6, h7⟩ := h.epoch j b K hj
      by_cases hjk : j < k
      · rw [ins_low hjk h.sorted]; exact ⟨c1, h6, h7⟩
      · obtain ⟨r', h8, h9⟩ := ins_high (x := (⟨me s.base p, .isSet, ⟨none, .bool v⟩⟩ : Done (Op V) (Res V E)))
          (Nat.le_of_not_lt hjk) h.sorted
        rw [h8]
        refine ⟨c1, ?_, h7⟩
        rw [List.map_append, List.map_cons]
        refine legal_insert ?_ hx
        rw [← List.map_append, ← h9]
        exact h6
    · intro _
      rw [h3, hrd]
      exact ⟨k, mem_ins.2 (.inl rfl)⟩
  · -- a load by the holder of the lock
    refine ⟨W, hquiet h4 (by rw [h5]; simp) (fun o' ho => ?_)⟩
    have hst : M.stores s.base p a = none := by
      cases hst : M.stores s.base p a with
      | none => rfl
      | some b => have := (S.store hr hs.base (by rw [hst]; rfl)).2.2; rw [h1] at this; cases this
    have hfl : s'.flag = s.flag := by rw [hs.flag, hst]; simp
    have hkk : k = s'.flag.length - 1 := by
      have h8 := (ran_know S hr hk hs).2.2.2.1 (.inl h2)
      have h9 := hs.le h1
      have h10 := (List.getElem?_eq_some_iff.1 hs.at_).1
      rw [hfl]; omega
    have hat := hs.at_
    rw [← hfl, hkk] at hat
    rw [hs.read, h1]
    simp only [if_true, upd_same]
    exact htop _ _ hat

structure All (M : Machine σ A V E) (v₀ : Option V) (R : σ → Prop) (flag : σ → Bool) (me : σ → Nat → CallId) (s : St σ V E) :
    Prop where
  base : R s.base
  kn : Kn M flag s
  rc : Rc M s
  ln : ∃ W, Ln M v₀ flag me s W

theorem all_reach (S : Sound M v₀ R flag me) {b : σ} (hb : R b) (hl : M.log b = []) (hm : ∀ p, M.mode b p = .none)
    (hg : ∀ p, M.got b p = .none) (hf : flag b = v₀.isSome) {s : St σ V E} (h : Reach M b v₀.isSome s) :
    All M v₀ R flag me s := by
  rw [← hf] at h
  induction h with
  | init => exact ⟨hb, kn_init hm, rc_init, [], ln_init hl hg hf⟩
  | @step s s' p a _ hs ih =>
    obtain ⟨W, hW⟩ := ih.ln
    cases a with
    | run a k q =>
      obtain ⟨k₀, k₁, k₃, kw, v, hs⟩ := ran_of hs
      exact ⟨S.keep ih.base hs.base, kn_run S ih.base ih.kn hs, rc_run S ih.base ih.kn ih.rc hs, ln_run S ih.base ih.kn hW hs⟩
    | post =>
      refine ⟨?_, kn_post ih.kn hs, rc_post ih.rc hs, W, ln_post hW hs⟩
      simp only [step, Option.some.injEq] at hs
      rw [← hs]; exact ih.base
    | take i =>
      refine ⟨?_, kn_take ih.kn hs, rc_take ih.rc hs, W, ln_take hW hs⟩
      simp only [step, Option.map_eq_some_iff] at hs
      obtain ⟨_, _, hs⟩ := hs
      rw [← hs]; exact ih.base

/-! ## Interleavings -/

/-- What is needed to follow the base model step by step. `g`: what the process has loaded. -/
structure Plain (M : Machine σ A V E) (flag : σ → Bool) (g : σ → Nat → Option Bool) : Prop where
  load : ∀ {s p a s'}, M.step s p a = some s' → M.loads s p a = true → g s' p = some (flag s)
  quiet : ∀ {s p a s'}, M.step s p a = some s' → M.loads s p a = false → g s' p = none
  other : ∀ {s p a s' q}, M.step s p a = some s' → q ≠ p → g s' q = g s q
  none : ∀ {s p}, g s p = none → M.got s p = .none
  ans : ∀ {s p a s' c}, M.step s p a = some s' → g s p = some c →
    ∀ e ∈ (hist (M.log s')).drop (hist (M.log s)).length, shown (M.got s p) c e = e

theorem follow (S : Sound M v₀ R flag me) {g : σ → Nat → Option Bool} (P : Plain M flag g) {s : St σ V E} {p : Nat} {a : A} {b : σ}
    (hr : R s.base) (hk : Kn M flag s) (hq : ∀ q c, g s.base q = some c → s.read q = c)
    (hh : s.log.map OEv.ev = hist (M.log s.base)) (hb : M.step s.base p a = some b) :
    ∃ k s', step M s p (.run a k true) = some s' ∧ s'.base = b ∧ (∀ q c, g s'.base q = some c → s'.read q = c) ∧
      s'.log.map OEv.ev = hist (M.log s'.base) := by
  obtain ⟨l, K, hl⟩ := hk.last
  have hat : s.flag[s.flag.length - 1]? = some (flag s.base, K) := by rw [hl]; simp
  have hle : (acquire s (s.know p) (M.mode s.base p) (M.mode b p)).seen ≤ s.flag.length - 1 := by
    have h1 := (hk.bound _ (.inl ⟨p, rfl⟩)).1
    have h2 := (hk.bound _ (.inr (.inl rfl))).1
    have h3 := (hk.bound _ (.inr (.inr (.inl rfl)))).1
    unfold acquire; dsimp only
    split <;> split <;> (try simp only [join_seen]) <;> omega
  have hst : ∃ s', step M s p (.run a (s.flag.length - 1) true) = some s' := by
    simp only [step, hb, Option.bind_some, hat]
    rw [if_pos fun _ => hle]
    exact ⟨_, rfl⟩
  obtain ⟨s', hst⟩ := hst
  refine ⟨_, s', hst, ?_⟩
  obtain ⟨k₀, k₁, k₃, kw, v, hs⟩ := ran_of hst
  have hsb : s'.base = b := by have := hs.base; rw [hb] at this; injection this with this; exact this.symm
  have hv : v = flag s.base := by have := hs.at_; rw [hat] at this; simp at this; exact this.1.symm
  refine ⟨hsb, ?_, ?_⟩
  · intro q c hc
    rw [hs.read]
    by_cases hqp : q = p
    · subst hqp
      cases hld : M.loads s.base q a with
      | true =>
        rw [P.load hs.base hld] at hc
        simp only [if_true, upd_same]
        rw [hv]; simpa using hc
      | false => rw [P.quiet hs.base hld] at hc; cases hc
    · rw [P.other hs.base hqp] at hc
      split
      · rw [upd_other _ _ hqp]; exact hq q c hc
      · exact hq q c hc
  · obtain ⟨es, hL, _⟩ := S.ev hr hs.base
    rw [hs.log, List.map_append, List.map_map, hh]
    have : ∀ e ∈ (hist (M.log s'.base)).drop (hist (M.log s.base)).length,
        shown (M.got s.base p) (s.read p) e = e := by
      intro e he
      cases hg : g s.base p with
      | none => rw [P.none hg]; cases e <;> rfl
      | some c => rw [hq p c hg]; exact P.ans hs.base hg e he
    rw [show (hist (M.log s'.base)).drop (hist (M.log s.base)).length = hist es by rw [hL, hist_append, List.drop_left]] at this ⊢
    rw [hL, hist_append]
    congr 1
    exact (List.map_congr_left this).trans (List.map_id _)

/-- Every interleaving of the base model is a run here. -/
theorem plain_reach (S : Sound M v₀ R flag me) {g : σ → Nat → Option Bool} (P : Plain M flag g) {b : σ} (hb : R b)
    (hl : M.log b = []) (hm : ∀ p, M.mode b p = .none) (hg : ∀ p, M.got b p = .none) (hg' : ∀ p, g b p = none)
    (hf : flag b = v₀.isSome) {B : σ → Prop} (hB : ∀ Q : σ → Prop, Q b → (∀ s p a s', Q s → M.step s p a = some s' → Q s') →
      ∀ s, B s → Q s) {t : σ} (ht : B t) :
    ∃ s, Reach M b v₀.isSome s ∧ s.base = t ∧ s.log.map OEv.ev = hist (M.log t) := by
  have := hB (fun t => ∃ s : St σ V E, Reach M b v₀.isSome s ∧ s.base = t ∧ (∀ q c, g s.base q = some c → s.read q = c) ∧
    s.log.map OEv.ev = hist (M.log t)) ⟨_, .init, rfl, fun q c hc => by simp [init, hg'] at hc, by simp [init, hl, hist]⟩ (by
      rintro t p a t' ⟨s, h1, rfl, h2, h3⟩ hs
      have hall := all_reach S hb hl hm hg hf h1
      obtain ⟨k, s', h4, h5, h6, h7⟩ := follow S P hall.base hall.kn h2 h3 hs
      exact ⟨s', .step h1 h4, h5, h6, by rw [← h5]; exact h7⟩) t ht
  obtain ⟨s, h1, h2, _, h3⟩ := this
  exact ⟨s, h1, h2, h3⟩

end

end Verif.Proof.Weak
