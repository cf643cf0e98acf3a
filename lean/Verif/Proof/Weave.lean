import Verif.Model.Whole
import Verif.Proof.LogLin
/-!
# From the logs of the containers to the log of all of them (helper lemmas)
-/

namespace Verif.Proof.Whole
open Verif.Spec Verif.Model Verif.Model.Whole

section
variable {Op R X Op' R' : Type}

/-- Induction from the end. -/
@[elab_as_elim] theorem snocInd {A : Type} {motive : List A → Prop} (l : List A) (nil : motive [])
    (append_singleton : ∀ l a, motive l → motive (l ++ [a])) : motive l := by
  have key : ∀ n, ∀ l : List A, l.length = n → motive l := by
    intro n
    induction n with
    | zero => intro l hl; rw [List.length_eq_zero_iff.1 hl]; exact nil
    | succ n ih =>
      intro l hl
      have hne : l ≠ [] := by intro h; rw [h] at hl; cases hl
      rw [← List.dropLast_concat_getLast hne]
      exact append_singleton _ _ (ih _ (by rw [List.length_dropLast, hl]; rfl))
  exact key _ l rfl

/-- The call an event belongs to. -/
def who : LEv Op R X → Option CallId
  | .inv i _ | .lin i _ _ | .res i _ | .cancel i => some i
  | .other _ => none

/-- What an event does to the progress of its call. -/
inductive Moves : LEv Op R X → Phase Op R → Phase Op R → Prop where
  | inv {i op} : Moves (.inv i op) .fresh (.invoked op)
  | lin {i op r} : Moves (.lin i op r) (.invoked op) (.linearized op r)
  | res {i op r} : Moves (.res i r) (.linearized op r) .done
  | cancel {i op} : Moves (.cancel i) (.invoked op) .done

theorem disc_snoc {l : List (LEv Op R X)} {e : LEv Op R X} {t' : CallId → Phase Op R} (h : Disc (l ++ [e]) t') :
    ∃ t, Disc l t ∧ ((who e = none ∧ t' = t) ∨ ∃ i ph, who e = some i ∧ Moves e (t i) ph ∧ t' = upd t i ph) := by
  generalize hm : l ++ [e] = m at h
  cases h with
  | nil => simp at hm
  | inv hd hf =>
    obtain ⟨rfl, he⟩ := List.append_inj' hm rfl
    simp only [List.cons.injEq, and_true] at he; subst he
    exact ⟨_, hd, .inr ⟨_, _, rfl, by rw [hf]; exact .inv, rfl⟩⟩
  | lin hd hf =>
    obtain ⟨rfl, he⟩ := List.append_inj' hm rfl
    simp only [List.cons.injEq, and_true] at he; subst he
    exact ⟨_, hd, .inr ⟨_, _, rfl, by rw [hf]; exact .lin, rfl⟩⟩
  | res hd hf =>
    obtain ⟨rfl, he⟩ := List.append_inj' hm rfl
    simp only [List.cons.injEq, and_true] at he; subst he
    exact ⟨_, hd, .inr ⟨_, _, rfl, by rw [hf]; exact .res, rfl⟩⟩
  | cancel hd hf =>
    obtain ⟨rfl, he⟩ := List.append_inj' hm rfl
    simp only [List.cons.injEq, and_true] at he; subst he
    exact ⟨_, hd, .inr ⟨_, _, rfl, by rw [hf]; exact .cancel, rfl⟩⟩
  | other hd =>
    obtain ⟨rfl, he⟩ := List.append_inj' hm rfl
    simp only [List.cons.injEq, and_true] at he; subst he
    exact ⟨_, hd, .inl ⟨rfl, rfl⟩⟩

theorem disc_add {l : List (LEv Op R X)} {e : LEv Op R X} {t : CallId → Phase Op R} (h : Disc l t) {i : CallId}
    {ph : Phase Op R} (hw : who e = some i) (hm : Moves e (t i) ph) : Disc (l ++ [e]) (upd t i ph) := by
  generalize hx : t i = x at hm
  cases hm <;> simp only [who, Option.some.injEq] at hw <;> subst hw
  · exact .inv h hx
  · exact .lin h hx
  · exact .res h hx
  · exact .cancel h hx

theorem disc_unique {l : List (LEv Op R X)} : ∀ {t t' : CallId → Phase Op R}, Disc l t → Disc l t' → t = t' := by
  induction l using snocInd with
  | nil =>
    intro t t' h h'
    have key : ∀ {m : List (LEv Op R X)} {t}, Disc m t → m = [] → t = fun _ => .fresh := by
      intro m t h hm
      cases h <;> first | rfl | simp at hm
    rw [key h rfl, key h' rfl]
  | append_singleton l e ih =>
    intro t t' h h'
    obtain ⟨t₁, h1, h2⟩ := disc_snoc h
    obtain ⟨t₂, h3, h4⟩ := disc_snoc h'
    have e1 := ih h1 h3
    subst e1
    rcases h2 with ⟨hw, rfl⟩ | ⟨i, ph, hw, hm, rfl⟩
    · rcases h4 with ⟨_, rfl⟩ | ⟨j, _, hw', _⟩
      · rfl
      · rw [hw] at hw'; cases hw'
    · rcases h4 with ⟨hw', _⟩ | ⟨j, ph', hw', hm', rfl⟩
      · rw [hw] at hw'; cases hw'
      · rw [hw] at hw'; cases hw'
        have : ph = ph' := by
          generalize t₁ i = x at hm hm'
          cases hm <;> cases hm' <;> rfl
        rw [this]

theorem disc_fresh {l : List (LEv Op R X)} {i : CallId} : ∀ {t : CallId → Phase Op R}, Disc l t →
    (∀ e ∈ l, who e ≠ some i) → t i = .fresh := by
  induction l using snocInd with
  | nil =>
    intro t h _
    have key : ∀ {m : List (LEv Op R X)} {t}, Disc m t → m = [] → t = fun _ => .fresh := by
      intro m t h hm
      cases h <;> first | rfl | simp at hm
    rw [key h rfl]
  | append_singleton l e ih =>
    intro t h hn
    obtain ⟨t₁, h1, h2⟩ := disc_snoc h
    have := ih h1 fun e' he' => hn e' (List.mem_append_left _ he')
    rcases h2 with ⟨_, rfl⟩ | ⟨j, ph, hw, _, rfl⟩
    · exact this
    · have hj : i ≠ j := by rintro rfl; exact hn e (by simp) hw
      rw [upd_other _ _ hj]; exact this

/-- The progress in terms of other calls and results. -/
def phase (f : Op → Op') (r : R → R') : Phase Op R → Phase Op' R'
  | .fresh => .fresh
  | .invoked op => .invoked (f op)
  | .linearized op x => .linearized (f op) (r x)
  | .done => .done

theorem legal_snoc_inv {S : Type} {spec : S → Op → R → S → Prop} {ds : List (Done Op R)} {d : Done Op R} :
    ∀ {s s'' : S}, Legal spec s (ds ++ [d]) s'' → ∃ s', Legal spec s ds s' ∧ spec s' d.op d.ret s'' := by
  induction ds with
  | nil =>
    intro s s'' h
    cases h with
    | cons h1 h2 => cases h2; exact ⟨_, .nil, h1⟩
  | cons x ds ih =>
    intro s s'' h
    cases h with
    | cons h1 h2 =>
      obtain ⟨s', h3, h4⟩ := ih h2
      exact ⟨s', .cons h1 h3, h4⟩

end

variable {F A R X B Q Y : Type}

theorem lazyId_inj {a b : CallId} (h : lazyId a = lazyId b) : a = b := by
  cases a; cases b; simp only [lazyId, CallId.mk.injEq] at h ⊢; omega

theorem lockId_inj {a b : CallId} (h : lockId a = lockId b) : a = b := by
  cases a; cases b; simp only [lockId, CallId.mk.injEq] at h ⊢; omega

theorem lazyId_ne_lockId {a b : CallId} : lazyId a ≠ lockId b := by
  intro h; cases a; cases b; simp only [lazyId, lockId, CallId.mk.injEq] at h; omega

theorem moves_lazy {i : F} {e : LEv A R X} {x y} (h : Moves e x y) :
    Moves (Tag.ev (.lazy i e : Tag F A R X B Q Y)) (phase (.lazy i) .lazy x) (phase (.lazy i) .lazy y) := by
  cases h <;> constructor

theorem moves_lock {e : LEv B Q Y} {x y} (h : Moves e x y) :
    Moves (Tag.ev (.lock e : Tag F A R X B Q Y)) (phase .lock .lock x) (phase .lock .lock y) := by
  cases h <;> constructor

theorem who_lazy (i : F) (e : LEv A R X) : who (Tag.ev (.lazy i e : Tag F A R X B Q Y)) = (who e).map lazyId := by
  cases e <;> rfl

theorem who_lock (e : LEv B Q Y) : who (Tag.ev (.lock e : Tag F A R X B Q Y)) = (who e).map lockId := by
  cases e <;> rfl

set_option linter.unusedSectionVars false
variable [DecidableEq F]

theorem lazyPart_snoc_lazy (g : List (Tag F A R X B Q Y)) (i j : F) (e : LEv A R X) :
    lazyPart i (g ++ [.lazy j e]) = if j = i then lazyPart i g ++ [e] else lazyPart i g := by
  simp only [lazyPart, List.filterMap_append, List.filterMap_cons, List.filterMap_nil]
  split <;> simp_all

theorem lazyPart_snoc_lock (g : List (Tag F A R X B Q Y)) (i : F) (e : LEv B Q Y) :
    lazyPart i (g ++ [.lock e]) = lazyPart i g := by
  simp [lazyPart]

theorem lockPart_snoc_lazy (g : List (Tag F A R X B Q Y)) (j : F) (e : LEv A R X) :
    lockPart (g ++ [.lazy j e]) = lockPart g := by
  simp [lockPart]

theorem lockPart_snoc_lock (g : List (Tag F A R X B Q Y)) (e : LEv B Q Y) :
    lockPart (g ++ [.lock e]) = lockPart g ++ [e] := by
  simp [lockPart]

theorem mem_lazyPart {g : List (Tag F A R X B Q Y)} {i : F} {e : LEv A R X} : e ∈ lazyPart i g ↔ .lazy i e ∈ g := by
  simp only [lazyPart, List.mem_filterMap]
  constructor
  · rintro ⟨x, h1, h2⟩
    cases x with
    | lazy j e' =>
      simp only at h2
      split at h2
      · cases h2; rename_i hj; rw [← hj]; exact h1
      · cases h2
    | lock _ => cases h2
  · intro h; exact ⟨_, h, by simp⟩

/-- Every call belongs to one lazy container. -/
def Own (g : List (Tag F A R X B Q Y)) : Prop :=
  ∀ i j e e' c, .lazy i e ∈ g → .lazy j e' ∈ g → who e = some c → who e' = some c → i = j

/-- If the calls on every container follow the order invocation, effect, answer then so do all of them. -/
theorem weave {g : List (Tag F A R X B Q Y)} : Own g → (∀ i, ∃ t, Disc (lazyPart i g) t) → (∃ t, Disc (lockPart g) t) →
    ∃ T, Disc (whole g) T ∧
      (∀ i t, Disc (lazyPart i g) t → ∀ c, (∀ j e, .lazy j e ∈ g → who e = some c → j = i) →
        T (lazyId c) = phase (.lazy i) .lazy (t c)) ∧
      (∀ t, Disc (lockPart g) t → ∀ c, T (lockId c) = phase .lock .lock (t c)) := by
  induction g using snocInd with
  | nil =>
    intro _ _ _
    refine ⟨_, .nil, ?_, ?_⟩
    · intro i t h c _
      rw [disc_unique h .nil]; rfl
    · intro t h c
      rw [disc_unique h .nil]; rfl
  | append_singleton g x ih =>
    intro hown hlazy hlock
    have hown' : Own g := fun i j e e' c h1 h2 => hown i j e e' c (List.mem_append_left _ h1) (List.mem_append_left _ h2)
    cases x with
    | lazy i e =>
      obtain ⟨t', ht'⟩ := hlazy i
      rw [lazyPart_snoc_lazy, if_pos rfl] at ht'
      obtain ⟨ti, hti, hmove⟩ := disc_snoc ht'
      have hl : ∀ j, ∃ t, Disc (lazyPart j g) t := by
        intro j
        by_cases hj : i = j
        · subst hj; exact ⟨ti, hti⟩
        · obtain ⟨t, ht⟩ := hlazy j
          rw [lazyPart_snoc_lazy, if_neg hj] at ht
          exact ⟨t, ht⟩
      rw [lockPart_snoc_lazy] at hlock
      obtain ⟨T, hT, h1, h2⟩ := ih hown' hl hlock
      have hwhole : whole (g ++ [.lazy i e]) = whole g ++ [Tag.ev (.lazy i e : Tag F A R X B Q Y)] := by simp [whole]
      rcases hmove with ⟨hw, rfl⟩ | ⟨c, ph, hw, hm, rfl⟩
      · refine ⟨T, ?_, ?_, ?_⟩
        · rw [hwhole]
          cases e <;> simp [who] at hw
          exact .other hT
        · intro j t ht c hc
          refine h1 j t ?_ c fun k e' he' => hc k e' (List.mem_append_left _ he')
          rw [lazyPart_snoc_lazy] at ht
          split at ht
          · rename_i hij; subst hij
            rw [disc_unique ht ht']; exact hti
          · exact ht
        · intro t ht
          rw [lockPart_snoc_lazy] at ht
          exact h2 t ht
      · have hi : ∀ j e', .lazy j e' ∈ g → who e' = some c → j = i := fun j e' he' hw' =>
          hown j i e' e c (List.mem_append_left _ he') (by simp) hw' hw
        have hTc := h1 i ti hti c hi
        refine ⟨upd T (lazyId c) (phase (.lazy i) .lazy ph), ?_, ?_, ?_⟩
        · rw [hwhole]
          refine disc_add hT (by rw [who_lazy, hw]; rfl) ?_
          rw [hTc]; exact moves_lazy hm
        · intro j t ht d hd
          by_cases hcd : d = c
          · subst hcd
            have hji : i = j := hd i e (by simp) hw
            subst hji
            rw [lazyPart_snoc_lazy, if_pos rfl] at ht
            rw [disc_unique ht ht', upd_same, upd_same]
          · rw [upd_other _ _ fun h => hcd (lazyId_inj h)]
            rw [lazyPart_snoc_lazy] at ht
            have hd' : ∀ k e', .lazy k e' ∈ g → who e' = some d → k = j :=
              fun k e' he' => hd k e' (List.mem_append_left _ he')
            split at ht
            · rename_i hij; subst hij
              rw [disc_unique ht ht', upd_other _ _ hcd]
              exact h1 i ti hti d hd'
            · exact h1 j t ht d hd'
        · intro t ht d
          rw [lockPart_snoc_lazy] at ht
          rw [upd_other _ _ fun h => lazyId_ne_lockId h.symm]
          exact h2 t ht d
    | lock e =>
      obtain ⟨t', ht'⟩ := hlock
      rw [lockPart_snoc_lock] at ht'
      obtain ⟨tk, htk, hmove⟩ := disc_snoc ht'
      simp only [lazyPart_snoc_lock] at hlazy
      obtain ⟨T, hT, h1, h2⟩ := ih hown' hlazy ⟨tk, htk⟩
      have hwhole : whole (g ++ [.lock e]) = whole g ++ [Tag.ev (.lock e : Tag F A R X B Q Y)] := by simp [whole]
      have hd' : ∀ {j : F} {d}, (∀ k e', .lazy k e' ∈ g ++ [.lock e] → who e' = some d → k = j) →
          ∀ k e', .lazy k e' ∈ g → who e' = some d → k = j := fun hd k e' he' => hd k e' (List.mem_append_left _ he')
      rcases hmove with ⟨hw, rfl⟩ | ⟨c, ph, hw, hm, rfl⟩
      · refine ⟨T, ?_, ?_, ?_⟩
        · rw [hwhole]
          cases e <;> simp [who] at hw
          exact .other hT
        · intro j t ht c hc
          rw [lazyPart_snoc_lock] at ht
          exact h1 j t ht c (hd' hc)
        · intro t ht
          rw [lockPart_snoc_lock] at ht
          rw [disc_unique ht ht']
          exact h2 t' htk
      · have hTc := h2 tk htk c
        refine ⟨upd T (lockId c) (phase .lock .lock ph), ?_, ?_, ?_⟩
        · rw [hwhole]
          refine disc_add hT (by rw [who_lock, hw]; rfl) ?_
          rw [hTc]; exact moves_lock hm
        · intro j t ht d hd
          rw [lazyPart_snoc_lock] at ht
          rw [upd_other _ _ lazyId_ne_lockId]
          exact h1 j t ht d (hd' hd)
        · intro t ht d
          rw [lockPart_snoc_lock] at ht
          rw [disc_unique ht ht']
          by_cases hcd : d = c
          · subst hcd; rw [upd_same, upd_same]
          · rw [upd_other _ _ fun h => hcd (lockId_inj h), upd_other _ _ hcd]
            exact h2 tk htk d

variable {S M : Type} {cell : F → S → A → R → S → Prop} {mem : M → B → Q → M → Prop}

/-- If the effects on every container are legal then so are all of them. -/
theorem weave_legal {v₀ : F → S} {w₀ : M} {g : List (Tag F A R X B Q Y)} : ∀ {v : F → S} {w : M},
    (∀ i, Legal (cell i) (v₀ i) (lins (lazyPart i g)) (v i)) → Legal mem w₀ (lins (lockPart g)) w →
    Legal (Whole.Step cell mem) ⟨v₀, w₀⟩ (lins (whole g)) ⟨v, w⟩ := by
  induction g using snocInd with
  | nil =>
    intro v w h1 h2
    have e1 : v = v₀ := by
      funext i
      have := h1 i
      generalize hv : v i = x at this
      cases this; rfl
    have e2 : w = w₀ := by cases h2; rfl
    subst e1 e2
    exact .nil
  | append_singleton g x ih =>
    intro v w h1 h2
    cases x with
    | lazy i e =>
      have hwhole : whole (g ++ [.lazy i e]) = whole g ++ [Tag.ev (.lazy i e : Tag F A R X B Q Y)] := by simp [whole]
      rw [lockPart_snoc_lazy] at h2
      have hoth : ∀ j, j ≠ i → Legal (cell j) (v₀ j) (lins (lazyPart j g)) (v j) := by
        intro j hj
        have := h1 j
        rwa [lazyPart_snoc_lazy, if_neg fun h => hj h.symm] at this
      have hi := h1 i
      rw [lazyPart_snoc_lazy, if_pos rfl] at hi
      rw [hwhole]
      cases e with
      | lin c op r =>
        rw [lins_snoc_lin] at hi
        obtain ⟨x, h3, h4⟩ := legal_snoc_inv hi
        show Legal _ _ (lins (whole g ++ [.lin _ _ _])) _
        rw [lins_snoc_lin]
        refine Legal.snoc (ih (v := upd v i x) (w := w) ?_ h2) (.lazy ?_ ?_ rfl)
        · intro j
          by_cases hj : j = i
          · subst hj; rw [upd_same]; exact h3
          · rw [upd_other _ _ hj]; exact hoth j hj
        · show cell i (upd v i x i) op r (v i)
          rw [upd_same]; exact h4
        · intro j hj
          exact (upd_other _ _ hj).symm
      | inv c op =>
        rw [lins_snoc_inv] at hi
        show Legal _ _ (lins (whole g ++ [.inv _ _])) _
        rw [lins_snoc_inv]
        exact ih (fun j => by by_cases hj : j = i; · subst hj; exact hi
                              · exact hoth j hj) h2
      | res c r =>
        rw [lins_snoc_res] at hi
        show Legal _ _ (lins (whole g ++ [.res _ _])) _
        rw [lins_snoc_res]
        exact ih (fun j => by by_cases hj : j = i; · subst hj; exact hi
                              · exact hoth j hj) h2
      | cancel c =>
        rw [lins_snoc_cancel] at hi
        show Legal _ _ (lins (whole g ++ [.cancel _])) _
        rw [lins_snoc_cancel]
        exact ih (fun j => by by_cases hj : j = i; · subst hj; exact hi
                              · exact hoth j hj) h2
      | other x =>
        rw [lins_snoc_other] at hi
        show Legal _ _ (lins (whole g ++ [.other _])) _
        rw [lins_snoc_other]
        exact ih (fun j => by by_cases hj : j = i; · subst hj; exact hi
                              · exact hoth j hj) h2
    | lock e =>
      have hwhole : whole (g ++ [.lock e]) = whole g ++ [Tag.ev (.lock e : Tag F A R X B Q Y)] := by simp [whole]
      simp only [lazyPart_snoc_lock] at h1
      rw [lockPart_snoc_lock] at h2
      rw [hwhole]
      cases e with
      | lin c op r =>
        rw [lins_snoc_lin] at h2
        obtain ⟨x, h3, h4⟩ := legal_snoc_inv h2
        show Legal _ _ (lins (whole g ++ [.lin _ _ _])) _
        rw [lins_snoc_lin]
        exact Legal.snoc (ih (v := v) (w := x) h1 h3) (.lock h4 rfl)
      | inv c op =>
        rw [lins_snoc_inv] at h2
        show Legal _ _ (lins (whole g ++ [.inv _ _])) _
        rw [lins_snoc_inv]
        exact ih h1 h2
      | res c r =>
        rw [lins_snoc_res] at h2
        show Legal _ _ (lins (whole g ++ [.res _ _])) _
        rw [lins_snoc_res]
        exact ih h1 h2
      | cancel c =>
        rw [lins_snoc_cancel] at h2
        show Legal _ _ (lins (whole g ++ [.cancel _])) _
        rw [lins_snoc_cancel]
        exact ih h1 h2
      | other x =>
        rw [lins_snoc_other] at h2
        show Legal _ _ (lins (whole g ++ [.other _])) _
        rw [lins_snoc_other]
        exact ih h1 h2

end Verif.Proof.Whole
