import Verif.Proof.CellLaws
/-!
# What reachable logs satisfy (helper lemmas)

Statements about logs of the machine with abandoned calls; used for the sync container and, through the simulation in
`AsyncSim.lean`, for the async one.
-/

namespace Verif.Proof.Sync
open Verif.Spec Verif.Model Verif.Model.Sync

variable {V E : Type} {v₀ : Option V} {s : St V E}

theorem build_only_when_empty (h : ReachC v₀ s) {l₁ l₂ l₃ : List (Ev V E)} {i : CallId}
    (hl : s.log = l₁ ++ .other (.bstart i) :: (l₂ ++ l₃)) (hn : ∀ o, .other (.bend i o) ∉ l₂)
    (hn' : .other (.abort i) ∉ l₂) :
    ∀ c, Legal CellStep v₀ (lins (l₁ ++ .other (.bstart i) :: l₂)) c → c = none := by
  intro c hc
  rw [show l₁ ++ .other (.bstart i) :: (l₂ ++ l₃) = (l₁ ++ .other (.bstart i) :: l₂) ++ l₃ by simp] at hl
  obtain ⟨m, _, h1, _, h3, _⟩ := Mon.prefixC h hl
  rw [legal_det hc h3]
  rw [Mon.over_append, Option.bind_eq_some_iff] at h1
  obtain ⟨m₁, _, h4⟩ := h1
  simp only [Mon.over, Option.bind_eq_some_iff] at h4
  obtain ⟨m₂, h5, h6⟩ := h4
  have h7 : m₂.run = some i ∧ m₂.cont = none := by
    simp only [Mon.next] at h5
    split at h5 <;> simp at h5
    subst h5; exact ⟨rfl, rfl⟩
  exact (Mon.over_cont_none h6 h7.1 h7.2 hn hn').2

theorem no_overlap (h : ReachC v₀ s) {l₁ l₂ l₃ : List (Ev V E)} {i j : CallId}
    (hl : s.log = l₁ ++ .other (.bstart i) :: (l₂ ++ .other (.bstart j) :: l₃)) :
    (∃ o, .other (.bend i o) ∈ l₂) ∨ .other (.abort i) ∈ l₂ := by
  rw [show l₁ ++ .other (.bstart i) :: (l₂ ++ .other (.bstart j) :: l₃) =
    (l₁ ++ [.other (.bstart i)]) ++ (l₂ ++ .other (.bstart j) :: l₃) by simp] at hl
  obtain ⟨m, m', h1, h2, _⟩ := Mon.prefixC h hl
  rw [Mon.over_append, Option.bind_eq_some_iff] at h1 h2
  obtain ⟨m₁, _, h4⟩ := h1
  obtain ⟨m₂, h5, h6⟩ := h2
  have h7 : m.run = some i := by
    simp only [Mon.over, Option.bind_eq_some_iff, Mon.next] at h4
    obtain ⟨m₃, h8, h9⟩ := h4
    split at h8 <;> simp at h8 h9
    subst h8 h9; rfl
  refine Mon.over_run h5 h7 ?_
  simp only [Mon.over, Option.bind_eq_some_iff, Mon.next] at h6
  obtain ⟨m₃, h8, _⟩ := h6
  split at h8 <;> simp at h8
  simp

theorem clear_between (h : ReachC v₀ s) {l₁ l₂ l₃ : List (Ev V E)} {i j : CallId} {v w : V}
    (hl : s.log = l₁ ++ .other (.bend i (.ok v)) :: (l₂ ++ .other (.bend j (.ok w)) :: l₃)) :
    ∃ c op u, (op = .clear ∨ op = .take) ∧ .lin c op ⟨none, .old (some u)⟩ ∈ l₂ := by
  rw [show l₁ ++ .other (.bend i (.ok v)) :: (l₂ ++ .other (.bend j (.ok w)) :: l₃) =
    (l₁ ++ [.other (.bend i (.ok v))]) ++ (l₂ ++ .other (.bend j (.ok w)) :: l₃) by simp] at hl
  obtain ⟨m, m', h1, h2, h3, _⟩ := Mon.prefixC h hl
  have h4 : Mon.full m := by
    rw [Mon.over_append, Option.bind_eq_some_iff] at h1
    obtain ⟨m₁, _, h4⟩ := h1
    simp only [Mon.over, Option.bind_eq_some_iff, Mon.next] at h4
    obtain ⟨m₃, h8, h9⟩ := h4
    split at h8
    · split at h8 <;> simp at h8 h9
      subst h8 h9; exact .inl rfl
    · rename_i hx; exact absurd rfl (hx v)
    · simp at h8
  rw [Mon.over_append, Option.bind_eq_some_iff] at h2
  obtain ⟨m₂, h5, h6⟩ := h2
  have h7 : ¬ Mon.full m₂ := by
    simp only [Mon.over, Option.bind_eq_some_iff, Mon.next] at h6
    obtain ⟨m₃, h8, _⟩ := h6
    split at h8
    · simp [Mon.full]
    · simp [Mon.full]
    · simp at h8
  obtain ⟨la, lb, c, op, r, m₃, h8, h9, h10, h11⟩ := Mon.over_full h5 h4 h7
  -- the call found a value
  rw [h8, show (l₁ ++ [.other (.bend i (.ok v))]) ++ ((la ++ .lin c op r :: lb) ++ .other (.bend j (.ok w)) :: l₃) =
    ((l₁ ++ [.other (.bend i (.ok v))]) ++ la) ++ (.lin c op r :: (lb ++ .other (.bend j (.ok w)) :: l₃)) by simp] at hl
  obtain ⟨m₄, _, h12, _, _, c', h13⟩ := Mon.prefixC h hl
  rw [Mon.over_append, h1] at h12
  simp only [Option.bind_some] at h12
  rw [h10] at h12
  simp only [Option.some.injEq] at h12
  subst h12
  cases hcont : m₃.cont with
  | none => rw [hcont] at h11; simp at h11
  | some u =>
    rw [hcont] at h13
    have h14 : ∃ c'', CellStep (some u) op r c'' := by
      have : lins (.lin c op r :: (lb ++ .other (.bend j (.ok w)) :: l₃)) =
        ⟨c, op, r⟩ :: lins (lb ++ .other (.bend j (.ok w)) :: l₃) := rfl
      rw [this] at h13
      cases h13 with
      | cons h _ => exact ⟨_, h⟩
    obtain ⟨c'', h14⟩ := h14
    refine ⟨c, op, u, h9, ?_⟩
    rw [h8]
    rcases h9 with rfl | rfl <;> cases h14 <;> simp

theorem guard_no_change (h : ReachC v₀ s) {l₁ l₂ : List (Ev V E)} {g : CallId} {ran v} {k : GetKind}
    (hl : s.log = l₁ ++ .res g ⟨ran, .value v⟩ :: l₂) (hg : .inv g (.get k) ∈ l₁) (hk : k.mutable = false)
    (hd : .other (.drop g) ∉ l₂) :
    Legal CellStep v₀ (lins l₁) (some v) ∧ ∀ c, Legal CellStep v₀ (lins s.log) c → c = some v := by
  obtain ⟨_, h2, h3⟩ := guardInv_reachC h l₁ l₂ g ran v k hl hg hk hd
  refine ⟨h3, ?_⟩
  intro c hc
  rw [hl, lins_append] at hc
  obtain ⟨c₁, h4, h5⟩ := legal_append hc
  rw [legal_det h4 h3] at h5
  refine legal_readonly h5 ?_
  intro d hd
  obtain ⟨i, op, r⟩ := d
  have := mem_lins.1 hd
  simp only [List.mem_cons, reduceCtorEq, false_or] at this
  exact h2 i op r this

theorem deref_same (h : ReachC v₀ s) {l₁ l₂ : List (Ev V E)} {g i : CallId} {ran v r} {k : GetKind}
    (hl : s.log = l₁ ++ .res g ⟨ran, .value v⟩ :: l₂) (hg : .inv g (.get k) ∈ l₁) (hk : k.mutable = false)
    (hd : .other (.drop g) ∉ l₂) (hi : .inv i (.deref g) ∈ l₂) (hr : .res i r ∈ s.log) : r = ⟨none, .value v⟩ := by
  obtain ⟨_, h2, h3⟩ := guardInv_reachC h l₁ l₂ g ran v k hl hg hk hd
  obtain ⟨hD, c, hL, _⟩ := logInv_reachC h
  obtain ⟨op, h4, h5⟩ := hD.facts.res_lin i r (mem_hist_res.2 hr)
  have h6 : op = .deref g := hD.inv_unique (mem_hist_inv.1 h4) (by rw [hl]; simp [hi])
  subst h6
  have h7 := mem_lins.1 h5
  rw [hl] at h7
  simp only [List.mem_append, List.mem_cons, reduceCtorEq, false_or] at h7
  rcases h7 with h7 | h7
  · exfalso
    obtain ⟨la, lb, h8⟩ := List.append_of_mem h7
    have h9 : s.log = la ++ .lin i (.deref g) r :: (lb ++ .res g ⟨ran, .value v⟩ :: l₂) := by rw [hl, h8]; simp
    have h10 := hD.lin_after h9
    exact hD.inv_once hl (by rw [h8]; exact List.mem_append_left _ h10) (List.mem_cons_of_mem _ hi)
  · obtain ⟨la, lb, h8⟩ := List.append_of_mem h7
    rw [hl, h8] at hL
    rw [lins_append] at hL
    obtain ⟨c₁, h9, h10⟩ := legal_append hL
    rw [legal_det h9 h3] at h10
    rw [show lins (.res g ⟨ran, .value v⟩ :: (la ++ .lin i (.deref g) r :: lb)) =
      lins la ++ ⟨i, .deref g, r⟩ :: lins lb by simp [lins]] at h10
    obtain ⟨c₂, h11, h12⟩ := legal_append h10
    have h13 : c₂ = some v := by
      refine legal_readonly h11 ?_
      intro d hd
      obtain ⟨i', op', r'⟩ := d
      exact h2 i' op' r' (by rw [h8]; simp [mem_lins.1 hd])
    subst h13
    cases h12 with
    | cons h14 _ => cases h14; rfl

theorem builds_again (h : ReachC v₀ s) {l₁ l₂ l₃ : List (Ev V E)} {i j : CallId} {k k' : GetKind}
    {o : Outcome V E} {x r} (ho : o.value? = none)
    (hl : s.log = l₁ ++ .lin i (.get k) ⟨some o, x⟩ :: (l₂ ++ .lin j (.get k') r :: l₃))
    (hn : ∀ c op r', .lin c op r' ∈ l₂ → (∀ v, op ≠ .set v ∧ op ≠ .store v) ∧ ∀ v, r'.ran ≠ some (.ok v)) :
    ∃ o', r.ran = some o' := by
  obtain ⟨_, c, hL, _⟩ := logInv_reachC h
  rw [hl, lins_append, show lins (LEv.lin i (.get k) ⟨some o, x⟩ :: (l₂ ++ .lin j (.get k') r :: l₃)) =
    ⟨i, .get k, ⟨some o, x⟩⟩ :: (lins l₂ ++ ⟨j, .get k', r⟩ :: lins l₃) by simp [lins]] at hL
  obtain ⟨c₁, _, h2⟩ := legal_append hL
  cases h2 with
  | cons h3 h4 =>
    rw [after_of_step h3] at h4
    have h5 : after c₁ (.get k) (⟨some o, x⟩ : Res V E) = none := ho
    simp only [h5] at h4
    obtain ⟨c₂, h6, h7⟩ := legal_append h4
    have h8 : ∀ (ds : List (Done (Op V) (Res V E))) (c c' : Option V), Legal CellStep c ds c' → c = none →
        (∀ d ∈ ds, (∀ v, d.op ≠ .set v ∧ d.op ≠ .store v) ∧ ∀ v, d.ret.ran ≠ some (.ok v)) → c' = none := by
      intro ds c c' hds
      induction hds with
      | nil => intro hc _; exact hc
      | @cons a b e d ds hst _ ih =>
        intro hc hd
        apply ih
        · have h9 := hd d (by simp)
          obtain ⟨di, dop, dr⟩ := d
          subst hc
          cases hst with
          | build k o => cases o <;> simp_all [Outcome.value?]
          | set c v => exact absurd rfl (h9.1 v).1
          | store c v => exact absurd rfl (h9.1 v).2
          | _ => rfl
        · exact fun d' hd' => hd d' (by simp [hd'])
    have h9 : c₂ = none := h8 _ _ _ h6 rfl (by
      intro d hd
      exact hn d.id d.op d.ret (mem_lins.1 hd))
    subst h9
    cases h7 with
    | cons h10 _ => cases h10; exact ⟨_, rfl⟩

theorem one_run (h : ReachC v₀ s) (i : CallId) :
    builderEvents i s.log = [] ∨ builderEvents i s.log = [.bstart i] ∨
      (∃ o, builderEvents i s.log = [.bstart i, .bend i o]) ∨
      (builderEvents i s.log = [.bstart i, .abort i] ∧ .cancel i ∈ s.log) := by
  have hr := runInv_reachC h
  obtain ⟨p, n⟩ := i
  by_cases h1 : n = s.seq p
  · subst h1
    have := hr.cur p
    rw [show (⟨p, s.seq p⟩ : CallId) = s.me p from rfl, this]
    cases s.pc p with
    | rDown k ran => cases ran <;> simp [evAt, ofRan]
    | rReady k ran => cases ran <;> simp [evAt, ofRan]
    | rUpg2 k ran => cases ran <;> simp [evAt, ofRan]
    | rMap k ran => cases ran <;> simp [evAt, ofRan]
    | _ => simp [evAt]
  · by_cases h2 : n < s.seq p
    · rcases hr.ans p n h2 with ⟨r, h3⟩ | h3
      · rw [(hr.past _ _ h3).1]
        cases r.ran <;> simp [ofRan]
      · rcases (hr.gone _ h3).1 with h4 | h4 <;> simp [h4, h3]
    · left; exact hr.fut p n (by omega)

theorem error_own (h : ReachC v₀ s) {i : CallId} {ran : Option (Outcome V E)} {e : E}
    (hi : .res i ⟨ran, .error e⟩ ∈ s.log) :
    ran = some (.err e) ∧ builderEvents i s.log = [.bstart i, .bend i (.err e)] := by
  have hr := runInv_reachC h
  obtain ⟨hD, c, hL, _⟩ := logInv_reachC h
  obtain ⟨op, _, h2⟩ := hD.facts.res_lin i _ (mem_hist_res.2 hi)
  obtain ⟨a, b, h3⟩ := legal_mem hL h2
  have h4 : ran = some (.err e) := by
    generalize hR : (⟨ran, .error e⟩ : Res V E) = R at h3
    cases h3 with
    | hit k v => cases k <;> simp [getRet] at hR
    | build k o =>
      cases k <;> cases o <;> simp [getRet] at hR
      all_goals (obtain ⟨rfl, rfl⟩ := hR; rfl)
    | _ => simp at hR
  refine ⟨h4, ?_⟩
  rw [(hr.past _ _ hi).1, h4]; rfl

theorem found_or_built (h : ReachC v₀ s) {i : CallId} {k : GetKind} {ran : Option (Outcome V E)} {v : V}
    (hk : .inv i (.get k) ∈ s.log) (hi : .res i ⟨ran, .value v⟩ ∈ s.log) :
    (ran = none ∧ builderEvents i s.log = []) ∨
    (ran = some (.ok v) ∧ builderEvents i s.log = [.bstart i, .bend i (.ok v)]) := by
  have hr := runInv_reachC h
  obtain ⟨hD, c, hL, _⟩ := logInv_reachC h
  obtain ⟨op, h1, h2⟩ := hD.facts.res_lin i _ (mem_hist_res.2 hi)
  have h5 := hD.inv_unique (mem_hist_inv.1 h1) hk
  subst h5
  obtain ⟨a, b, h3⟩ := legal_mem hL h2
  have h4 : ran = none ∨ ran = some (.ok v) := by
    generalize hR : (⟨ran, .value v⟩ : Res V E) = R at h3
    generalize hO : Op.get k = O at h3
    cases h3 with
    | hit k v => left; cases k <;> simp [getRet] at hR <;> exact hR.1
    | build k o =>
      right
      cases k <;> cases o <;> simp [getRet] at hR
      all_goals (obtain ⟨rfl, rfl⟩ := hR; rfl)
    | _ => simp at hO
  rcases h4 with h4 | h4
  · left; exact ⟨h4, by rw [(hr.past _ _ hi).1, h4]; rfl⟩
  · right; exact ⟨h4, by rw [(hr.past _ _ hi).1, h4]; rfl⟩

theorem others_no_build (h : ReachC v₀ s) {i : CallId} {op : Op V} (hi : .inv i op ∈ s.log)
    (hop : ∀ k, op ≠ .get k) : builderEvents i s.log = [] := by
  obtain ⟨hD, _⟩ := logInv_reachC h
  have hno : ∀ l, builderEvents i s.log ≠ .bstart i :: l := by
    intro l hl
    have h1 : BEv.bstart i ∈ builderEvents i s.log := by rw [hl]; simp
    simp only [builderEvents, List.mem_filterMap] at h1
    obtain ⟨e, h2, h3⟩ := h1
    have h4 : e = .other (.bstart i) := by
      split at h3 <;> (try split at h3) <;> simp_all
    rw [h4] at h2
    obtain ⟨k, hk⟩ := bstart_get h i h2
    exact hop k (hD.inv_unique hi hk)
  rcases one_run h i with h1 | h1 | ⟨o, h1⟩ | ⟨h1, _⟩
  · exact h1
  · exact absurd h1 (hno _)
  · exact absurd h1 (hno _)
  · exact absurd h1 (hno _)

theorem conservation (h : ReachC v₀ s) (hq : ∀ p, (s.pc p).resting = true) :
    (v₀.toList ++ (completed (hist s.log)).flatMap entered).Perm
      ((completed (hist s.log)).flatMap handedOut ++ s.value.toList) := by
  obtain ⟨hD, c, hL, _, hcq⟩ := logInv_reachC h
  have h1 : ∀ i, tbl s i = .fresh ∨ tbl s i = .done := by
    intro i
    simp only [tbl]
    split
    · right; rfl
    · split
      · left
        have := hq i.proc
        revert this
        cases s.pc i.proc <;> simp [Pc.resting, phaseAt]
      · left; rfl
  have h2 : c = s.value := by
    apply hcq
    intro p
    have := hq p
    revert this
    cases s.pc p <;> simp [Pc.resting, mid]
  have h3 := lins_perm_completed hD h1
  have h4 := legal_conserves hL
  rw [h2] at h4
  exact ((h3.flatMap_right _).symm.append_left _).trans (h4.trans ((h3.flatMap_right _).append_right _))

theorem clone_consistent (h : ReachC v₀ s) {l₁ l₂ : List (Ev V E)} {i : CallId} {ran : Option (Outcome V E)}
    {o : Option V} {b : Bool} (hl : s.log = l₁ ++ .res i ⟨ran, .snap o b⟩ :: l₂) :
    b = o.isSome ∧ (cloneOf o b : St V E) = init o ∧
    ∃ la lb, l₁ = la ++ lb ∧ .inv i .snapshot ∈ la ∧ Legal CellStep v₀ (lins la) o := by
  obtain ⟨hD, c, hL, _⟩ := logInv_reachC h
  obtain ⟨op, h1⟩ := hD.res_after hl
  obtain ⟨la, lb, h2⟩ := List.append_of_mem h1
  have h3 : s.log = la ++ .lin i op ⟨ran, .snap o b⟩ :: (lb ++ .res i ⟨ran, .snap o b⟩ :: l₂) := by rw [hl, h2]; simp
  have h4 := hD.lin_after h3
  rw [h3, lins_append] at hL
  obtain ⟨c₁, h5, h6⟩ := legal_append hL
  rw [show lins (.lin i op ⟨ran, .snap o b⟩ :: (lb ++ .res i ⟨ran, .snap o b⟩ :: l₂)) =
    ⟨i, op, ⟨ran, .snap o b⟩⟩ :: lins (lb ++ .res i ⟨ran, .snap o b⟩ :: l₂) from rfl] at h6
  cases h6 with
  | @cons a b' c' d ds h7 _ =>
    simp only at h7
    have h8 : op = .snapshot ∧ c₁ = o ∧ b = o.isSome := by
      generalize hR : (⟨ran, .snap o b⟩ : Res V E) = R at h7
      cases h7 with
      | hit k v => cases k <;> simp [getRet] at hR
      | build k o' => cases k <;> cases o' <;> simp [getRet] at hR
      | snapshot c => simp at hR; obtain ⟨_, rfl, rfl⟩ := hR; exact ⟨rfl, rfl, rfl⟩
      | _ => simp at hR
    obtain ⟨rfl, rfl, rfl⟩ := h8
    exact ⟨rfl, rfl, la, .lin i .snapshot ⟨ran, .snap c₁ c₁.isSome⟩ :: lb, h2, h4, h5⟩

theorem linearizable (h : ReachC v₀ s) : WellFormed (hist s.log) ∧ Linearizable CellStep v₀ (hist s.log) := by
  obtain ⟨hd, c, hL, _⟩ := logInv_reachC h
  exact ⟨hd.wellFormed, hd.linearizable hL⟩

end Verif.Proof.Sync
