import Verif.Proof.Weave
import Verif.Proof.Mixed
import Verif.Proof.AsyncMixed
import Verif.Proof.Cancel
/-!
# One history of all containers (helper lemmas)
-/

namespace Verif.Proof.Whole
open Verif.Spec Verif.Model Verif.Model.Whole

set_option linter.unusedSectionVars false

/-! ## Logs grow -/

section
variable {F L V W E : Type}

/-- The log grew by events of process `p`. -/
def Grows {A R X : Type} (l l' : List (LEv A R X)) (p : Nat) : Prop :=
  ∃ n, l' = l ++ n ∧ ∀ e ∈ n, ∀ c, who e = some c → c.proc = p

theorem Grows.nil {A R X : Type} {l : List (LEv A R X)} {p : Nat} : Grows l l p := ⟨[], by simp, by simp⟩

theorem Grows.one {A R X : Type} {l : List (LEv A R X)} {p : Nat} {e : LEv A R X} (h : ∀ c, who e = some c → c.proc = p) : Grows l (l ++ [e]) p :=
  ⟨[e], rfl, by simpa using h⟩

theorem Grows.two {A R X : Type} {l : List (LEv A R X)} {p : Nat} {e e' : LEv A R X} (h : ∀ c, who e = some c → c.proc = p)
    (h' : ∀ c, who e' = some c → c.proc = p) : Grows l (l ++ [e] ++ [e']) p :=
  ⟨[e, e'], by simp, by simpa using ⟨h, h'⟩⟩

theorem sync_grows {o o' : Sync.St V E} {p : Nat} {a : Sync.Act V E} (h : Sync.step o p a = some o') :
    Grows o.log o'.log p := by
  cases a with
  | call op =>
    simp only [Sync.step, Sync.invoke] at h
    split at h
    all_goals try split at h
    all_goals first
      | (cases h; done)
      | (simp only [Option.some.injEq] at h; subst h
         exact .one fun c hc => by simp only [who, Option.some.injEq] at hc; subst hc; rfl)
  | go =>
    simp only [Sync.step, Sync.go] at h
    split at h
    all_goals try (repeat' split at h)
    all_goals first
      | (cases h; done)
      | (simp only [Option.map_eq_some_iff] at h
         obtain ⟨l, hl, rfl⟩ := h)
      | (simp only [Option.some.injEq] at h
         subst h)
    all_goals first
      | exact .nil
      | (refine .one fun c hc => ?_
         first
           | (simp only [who, Option.some.injEq] at hc; subst hc; rfl)
           | (simp only [who] at hc; cases hc))
      | (refine .two (fun c hc => ?_) fun c hc => ?_ <;>
         (simp only [who, Option.some.injEq] at hc; subst hc; rfl))
  | finish out =>
    simp only [Sync.step, Sync.builderReturns] at h
    split at h
    · split at h <;> simp only [Option.some.injEq] at h <;> subst h
      · exact .one fun c hc => by simp only [who] at hc; cases hc
      · refine .two (fun c hc => ?_) fun c hc => ?_
        · simp only [who] at hc; cases hc
        · simp only [who, Option.some.injEq] at hc; subst hc; rfl
    · cases h
  | drop =>
    simp only [Sync.step, Sync.dropGuard] at h
    split at h
    all_goals first
      | (cases h; done)
      | (simp only [Option.some.injEq] at h; subst h
         exact .one fun c hc => by simp only [who] at hc; cases hc)

theorem async_grows {o o' : Async.St V E} {p : Nat} {a : Async.Act V E} (h : Async.step o p a = some o') :
    Grows o.log o'.log p := by
  cases a with
  | call op =>
    simp only [Async.step, Async.invoke] at h
    split at h
    all_goals try split at h
    all_goals first
      | (cases h; done)
      | (simp only [Option.some.injEq] at h; subst h
         exact .one fun c hc => by simp only [who, Option.some.injEq] at hc; subst hc; rfl)
  | go =>
    simp only [Async.step, Async.go] at h
    split at h
    all_goals try (repeat' split at h)
    all_goals first
      | (cases h; done)
      | (simp only [Option.map_eq_some_iff] at h
         obtain ⟨l, hl, rfl⟩ := h)
      | (simp only [Option.some.injEq] at h
         subst h)
    all_goals first
      | exact .nil
      | (refine .one fun c hc => ?_
         first
           | (simp only [who, Option.some.injEq] at hc; subst hc; rfl)
           | (simp only [who] at hc; cases hc))
      | (refine .two (fun c hc => ?_) fun c hc => ?_ <;>
         (simp only [who, Option.some.injEq] at hc; subst hc; rfl))
  | finish out =>
    simp only [Async.step, Async.builderReturns] at h
    split at h
    · split at h <;> simp only [Option.some.injEq] at h <;> subst h
      · exact .one fun c hc => by simp only [who] at hc; cases hc
      · refine .two (fun c hc => ?_) fun c hc => ?_
        · simp only [who] at hc; cases hc
        · simp only [who, Option.some.injEq] at hc; subst hc; rfl
    · cases h
  | drop =>
    simp only [Async.step, Async.dropGuard] at h
    split at h
    all_goals first
      | (cases h; done)
      | (simp only [Option.some.injEq] at h; subst h
         exact .one fun c hc => by simp only [who] at hc; cases hc)
  | cancel =>
    simp only [Async.step, Async.cancel] at h
    split at h
    all_goals first
      | (cases h; done)
      | (simp only [Option.some.injEq] at h; subst h
         first
           | exact .one fun c hc => by simp only [who, Option.some.injEq] at hc; subst hc; rfl
           | (refine .two (fun c hc => ?_) fun c hc => ?_
              · simp only [who] at hc; cases hc
              · simp only [who, Option.some.injEq] at hc; subst hc; rfl))

variable [DecidableEq L] {eqv : W → W → Bool}

theorem locks_grows {l l' : Locks.St L W} {t : Nat} {a : Locks.Act L W} (h : Locks.step eqv l t a = some l') :
    ∃ n, l'.log = l.log ++ n := by
  cases a with
  | call op =>
    simp only [Locks.step, Locks.invoke] at h
    split at h
    · cases op <;> simp at h
      case deref | assign => obtain ⟨_, rfl⟩ := h; exact ⟨_, rfl⟩
      all_goals subst h; exact ⟨_, rfl⟩
    · cases h
  | go =>
    simp only [Locks.step, Locks.go] at h
    split at h
    case h_1 => cases h
    all_goals try (split at h)
    all_goals first
      | (cases h; done)
      | (simp only [Option.map_eq_some_iff] at h
         obtain ⟨l, _, rfl⟩ := h)
      | (simp only [Option.some.injEq] at h; subst h)
    all_goals first
      | exact ⟨[], (List.append_nil _).symm⟩
      | exact ⟨_, rfl⟩
      | exact ⟨_, List.append_assoc _ _ _⟩
  | panic =>
    simp only [Locks.step, Locks.panics] at h
    split at h
    all_goals first
      | (cases h; done)
      | (simp only [Option.some.injEq] at h; subst h; exact ⟨_, rfl⟩)
  | drop g =>
    simp only [Locks.step, Locks.dropGuard] at h
    split at h
    · split at h <;> simp at h
      subst h; exact ⟨[], (List.append_nil _).symm⟩
    · cases h

theorem asyncLocks_grows {l l' : AsyncLocks.St L W} {t : Nat} {a : AsyncLocks.Act L W}
    (h : AsyncLocks.step eqv l t a = some l') : ∃ n, l'.log = l.log ++ n := by
  cases a with
  | call op =>
    simp only [AsyncLocks.step, AsyncLocks.invoke] at h
    split at h
    · cases op <;> simp at h
      case deref | assign => obtain ⟨_, rfl⟩ := h; exact ⟨_, rfl⟩
      all_goals subst h; exact ⟨_, rfl⟩
    · cases h
  | go =>
    simp only [AsyncLocks.step, AsyncLocks.go, AsyncLocks.St.shared, AsyncLocks.St.exclusive] at h
    split at h
    case h_1 => cases h
    all_goals try (split at h)
    all_goals first
      | (cases h; done)
      | (simp only [Option.map_eq_some_iff] at h
         obtain ⟨_, ⟨l, _, rfl⟩, rfl⟩ := h)
      | (simp only [Option.some.injEq] at h; subst h)
    all_goals first
      | exact ⟨[], (List.append_nil _).symm⟩
      | exact ⟨_, rfl⟩
      | exact ⟨_, List.append_assoc _ _ _⟩
  | panic =>
    simp only [AsyncLocks.step, AsyncLocks.panics] at h
    split at h
    all_goals first
      | (cases h; done)
      | (simp only [Option.some.injEq] at h; subst h; exact ⟨_, rfl⟩)
  | cancel =>
    simp only [AsyncLocks.step, AsyncLocks.cancel] at h
    split at h
    all_goals first
      | (cases h; done)
      | (simp only [Option.some.injEq] at h; subst h; exact ⟨_, rfl⟩)
  | drop g =>
    simp only [AsyncLocks.step, AsyncLocks.dropGuard] at h
    split at h
    · split at h <;> simp at h
      subst h; exact ⟨[], (List.append_nil _).symm⟩
    · cases h

end

/-! ## Where the order leads -/

theorem _root_.Verif.Proof.Disc.linearizesTo_without {S Op R X : Type} {spec : S → Op → R → S → Prop} {s₀ s : S}
    {l : List (LEv Op R X)} {t : CallId → Phase Op R} (h : Disc l t) (hl : Legal spec s₀ (lins l) s) :
    Whole.LinearizesTo spec s₀ (without (abandoned l) (hist l)) s := by
  have f := h.facts
  refine ⟨lins l, hl, f.nodup, ?_, ?_, ?_⟩
  · intro d hd
    refine mem_without.2 ⟨f.lin_inv d hd, fun hc => ?_⟩
    exact (h.cancelled (mem_abandoned.1 hc)).2.1 d.op d.ret (mem_lins.1 hd)
  · intro i r hr
    obtain ⟨h1, h2⟩ := mem_without.1 hr
    obtain ⟨op, h3, h4⟩ := f.res_lin i r h1
    exact ⟨op, mem_without.2 ⟨h3, h2⟩, h4⟩
  · intro d hd e he hb
    exact f.order d hd e he (before_without hb)

/-! ## The record -/

variable {F A R X B Q Y : Type} [DecidableEq F]

theorem lazyPart_append (i : F) (g g' : List (Tag F A R X B Q Y)) : lazyPart i (g ++ g') = lazyPart i g ++ lazyPart i g' := by
  simp [lazyPart]

theorem lockPart_append (g g' : List (Tag F A R X B Q Y)) : lockPart (g ++ g') = lockPart g ++ lockPart g' := by
  simp [lockPart]

theorem lazyPart_lazy (i j : F) (n : List (LEv A R X)) :
    lazyPart i (n.map (.lazy j) : List (Tag F A R X B Q Y)) = if j = i then n else [] := by
  induction n with
  | nil => simp [lazyPart]
  | cons e n ih =>
    simp only [lazyPart, List.map_cons, List.filterMap_cons] at ih ⊢
    by_cases h : j = i
    · simp only [h, if_true] at ih ⊢; rw [ih]
    · simp only [h, if_false] at ih ⊢; rw [ih]

theorem lazyPart_lock (i : F) (n : List (LEv B Q Y)) : lazyPart i (n.map .lock : List (Tag F A R X B Q Y)) = [] := by
  induction n with
  | nil => rfl
  | cons e n ih => simp [lazyPart]

theorem lockPart_lazy (j : F) (n : List (LEv A R X)) : lockPart (n.map (.lazy j) : List (Tag F A R X B Q Y)) = [] := by
  induction n with
  | nil => rfl
  | cons e n ih => simp [lockPart]

theorem lockPart_lock (n : List (LEv B Q Y)) : lockPart (n.map .lock : List (Tag F A R X B Q Y)) = n := by
  induction n with
  | nil => rfl
  | cons e n ih => simpa [lockPart] using ih

/-- The record belongs to the logs. `mine i p`: process `p` is now at container `i`. -/
structure Rec (lg : F → List (LEv A R X)) (kl : List (LEv B Q Y)) (next : Nat) (mine : F → Nat → Prop)
    (g : List (Tag F A R X B Q Y)) : Prop where
  lazy : ∀ i, lazyPart i g = lg i
  lock : lockPart g = kl
  low : ∀ i e c, .lazy i e ∈ g → who e = some c → c.proc < next
  mineLow : ∀ i p, mine i p → p < next
  home : ∀ i p, mine i p → ∀ j e c, .lazy j e ∈ g → who e = some c → c.proc = p → j = i
  uniq : ∀ i j p, mine i p → mine j p → i = j
  own : Own g

variable {lg lg' : F → List (LEv A R X)} {kl kl' : List (LEv B Q Y)} {n n' : Nat} {mine mine' : F → Nat → Prop}
  {g : List (Tag F A R X B Q Y)}

theorem Rec.onLazy (h : Rec lg kl n mine g) {i : F} {p : Nat} {l : List (LEv A R X)} (hg : Grows (lg i) l p)
    (hc : (p = n ∧ n' = n + 1) ∨ (mine i p ∧ n' = n)) (hlg : lg' = upd lg i l)
    (hm : ∀ j q, mine' j q → mine j q ∨ (j = i ∧ q = p)) :
    Rec lg' kl n' mine' (g ++ (added (lg i) l).map (.lazy i)) := by
  obtain ⟨new, hl, hnew⟩ := hg
  have had : added (lg i) l = new := by rw [hl]; simp [added]
  rw [had]
  have hold : ∀ j e c, .lazy j e ∈ g → who e = some c → c.proc = p → j = i := by
    intro j e c he hw hp
    rcases hc with ⟨h1, _⟩ | ⟨h1, _⟩
    · have := h.low j e c he hw; omega
    · exact h.home i p h1 j e c he hw hp
  have hmine : ∀ j, mine j p → j = i := by
    intro j hj
    rcases hc with ⟨h1, _⟩ | ⟨h1, _⟩
    · have := h.mineLow j p hj; omega
    · exact h.uniq j i p hj h1
  have hn : n ≤ n' ∧ p < n' := by
    rcases hc with ⟨h1, h2⟩ | ⟨h1, h2⟩
    · omega
    · have := h.mineLow i p h1; omega
  have hmem : ∀ {j e}, Tag.lazy j e ∈ g ++ new.map (.lazy i : LEv A R X → Tag F A R X B Q Y) →
      .lazy j e ∈ g ∨ (j = i ∧ e ∈ new) := by
    intro j e he
    rcases List.mem_append.1 he with he | he
    · exact .inl he
    · rw [List.mem_map] at he
      obtain ⟨e', h1, h2⟩ := he
      cases h2; exact .inr ⟨rfl, h1⟩
  constructor
  · intro j
    rw [lazyPart_append, lazyPart_lazy, h.lazy, hlg]
    by_cases hj : i = j
    · subst hj; rw [if_pos rfl, upd_same, hl]
    · rw [if_neg hj, upd_other _ _ fun h => hj h.symm, List.append_nil]
  · rw [lockPart_append, lockPart_lazy, h.lock, List.append_nil]
  · intro j e c he hw
    rcases hmem he with he | ⟨_, he⟩
    · have := h.low j e c he hw; omega
    · rw [hnew e he c hw]; exact hn.2
  · intro j q hq
    rcases hm j q hq with hq | ⟨_, rfl⟩
    · have := h.mineLow j q hq; omega
    · exact hn.2
  · intro j q hq k e c he hw hp
    rcases hm j q hq with hq | ⟨rfl, rfl⟩
    · rcases hmem he with he | ⟨hk, hx⟩
      · exact h.home j q hq k e c he hw hp
      · have := hnew e hx c hw
        rw [hp] at this; subst this
        rw [hk]; exact (hmine j hq).symm
    · rcases hmem he with he | ⟨rfl, _⟩
      · exact hold k e c he hw hp
      · rfl
  · intro j k q hj hk
    rcases hm j q hj with hj | ⟨rfl, rfl⟩ <;> rcases hm k q hk with hk | ⟨rfl, hq⟩
    · exact h.uniq j k q hj hk
    · subst hq; exact hmine j hj
    · exact (hmine k hk).symm
    · rfl
  · intro j k e e' c he he' hw hw'
    rcases hmem he with hx | ⟨hj, hx⟩ <;> rcases hmem he' with hx' | ⟨hk, hx'⟩
    · exact h.own j k e e' c hx hx' hw hw'
    · rw [hk]; exact hold j e c hx hw (hnew e' hx' c hw')
    · rw [hj]; exact (hold k e' c hx' hw' (hnew e hx c hw)).symm
    · rw [hj, hk]

theorem Rec.onLock (h : Rec lg kl n mine g) (hg : ∃ x, kl' = kl ++ x) (hn : n ≤ n')
    (hm : ∀ j q, mine' j q → mine j q) : Rec lg kl' n' mine' (g ++ (added kl kl').map .lock) := by
  obtain ⟨new, hl⟩ := hg
  have had : added kl kl' = new := by rw [hl]; simp [added]
  rw [had]
  have hmem : ∀ {j e}, Tag.lazy j e ∈ g ++ new.map (.lock : LEv B Q Y → Tag F A R X B Q Y) → .lazy j e ∈ g := by
    intro j e he
    rcases List.mem_append.1 he with he | he
    · exact he
    · rw [List.mem_map] at he
      obtain ⟨e', _, h2⟩ := he
      cases h2
  constructor
  · intro j; rw [lazyPart_append, lazyPart_lock, h.lazy, List.append_nil]
  · rw [lockPart_append, lockPart_lock, h.lock, hl]
  · intro j e c he hw; have := h.low j e c (hmem he) hw; omega
  · intro j q hq; have := h.mineLow j q (hm j q hq); omega
  · exact fun j q hq k e c he => h.home j q (hm j q hq) k e c (hmem he)
  · exact fun j k q hj hk => h.uniq j k q (hm j q hj) (hm k q hk)
  · exact fun j k e e' c he he' => h.own j k e e' c (hmem he) (hmem he')

theorem Rec.keep (h : Rec lg kl n mine g) (hm : ∀ j q, mine' j q → mine j q) : Rec lg kl n mine' g :=
  ⟨h.lazy, h.lock, h.low, fun j q hq => h.mineLow j q (hm j q hq), fun j q hq => h.home j q (hm j q hq),
    fun j k q hj hk => h.uniq j k q (hm j q hj) (hm k q hk), h.own⟩

/-- Every container in order: all of them are. -/
theorem Rec.all {S M : Type} {cell : F → S → A → R → S → Prop} {mem : M → B → Q → M → Prop} {v₀ v : F → S}
    {w₀ w : M} {P : Prop} (h : Rec lg kl n mine g)
    (hl : ∀ i, ∃ t c, Disc (lg i) t ∧ Legal (cell i) (v₀ i) (lins (lg i)) c ∧ (P → c = v i))
    (hk : ∃ t, Disc kl t ∧ Legal mem w₀ (lins kl) w) :
    ∃ T τ, Disc (whole g) T ∧ Legal (Whole.Step cell mem) ⟨v₀, w₀⟩ (lins (whole g)) τ ∧ (P → τ = ⟨v, w⟩) := by
  obtain ⟨u, hu, hw⟩ := hk
  obtain ⟨T, hT, _⟩ := weave h.own (fun i => (hl i).imp fun t ht => by rw [h.lazy]; exact ht.choose_spec.1)
    ⟨u, by rw [h.lock]; exact hu⟩
  refine ⟨T, _, hT, weave_legal (v := fun i => (hl i).choose_spec.choose)
    (fun i => by rw [h.lazy]; exact (hl i).choose_spec.choose_spec.2.1) (by rw [h.lock]; exact hw), fun hP => ?_⟩
  rw [show (fun i => (hl i).choose_spec.choose) = v from funext fun i => (hl i).choose_spec.choose_spec.2.2 hP]

/-! ## Sync structs -/

section
variable {L V W E : Type} [DecidableEq L] {eqv : W → W → Bool} {g : List (Tagged F L V W E)} {dep : F ⊕ L → F ⊕ L → Prop} {v₀ : F → Option V} {w₀ : L → W} {s s' : Mixed.St F L V W E}

theorem trace_reach (h : Trace eqv dep v₀ w₀ s g) : Mixed.Reach eqv dep v₀ w₀ s := by
  induction h with
  | init => exact .init
  | step _ ha hs ih => exact .step ih ha hs

/-- The record of the sync containers. -/
def SRec (s : Mixed.St F L V W E) (g : List (Tagged F L V W E)) : Prop :=
  Rec (fun i => (s.obj i).log) s.lk.log s.next (fun i p => ∃ t, (i, p) ∈ s.stack t) g

theorem settle_rec {t : Nat} {f : F × Nat} {o : Sync.St V E} {a : Sync.Act V E} (h : SRec s g) (hf : f ∈ s.stack t)
    (hs : Sync.step (s.obj f.1) f.2 a = some o) :
    SRec (Mixed.settle s t f o) (g ++ (added (s.obj f.1).log ((Mixed.settle s t f o).obj f.1).log).map (.lazy f.1)) := by
  have e : (Mixed.settle s t f o).obj f.1 = o := by simp [Mixed.settle]
  rw [e]
  refine h.onLazy (sync_grows hs) (.inr ⟨⟨t, hf⟩, rfl⟩) ?_ ?_
  · funext j
    by_cases hj : j = f.1
    · subst hj; simp [Mixed.settle, upd]
    · simp [Mixed.settle, upd, hj]
  · rintro j q ⟨u, hu⟩
    refine .inl ⟨u, ?_⟩
    simp only [Mixed.settle, upd] at hu
    split at hu
    · rename_i hut; subst hut
      split at hu
      · exact List.mem_of_mem_erase hu
      · exact hu
    · exact hu

theorem srec (h : Trace eqv dep v₀ w₀ s g) : SRec s g := by
  induction h with
  | init =>
    constructor
    · intro i; rfl
    · rfl
    · intro _ _ _ h; cases h
    · rintro _ _ ⟨t, ht⟩; cases ht
    · rintro _ _ ⟨t, ht⟩; cases ht
    · rintro _ _ _ ⟨t, ht⟩; cases ht
    · intro _ _ _ _ _ h; cases h
  | @step s s' g t a ht ha hs ih =>
    cases a with
    | call j op =>
      simp only [Mixed.step] at hs
      split at hs
      · simp only [Option.map_eq_some_iff] at hs
        obtain ⟨o, ho, rfl⟩ := hs
        simp only [news, upd_same]
        refine ih.onLazy (p := s.next) (sync_grows (a := .call op) ho) (.inl ⟨rfl, rfl⟩) ?_ ?_
        · funext k
          by_cases hk : k = j
          · subst hk; simp [upd]
          · simp [upd, hk]
        · rintro k q ⟨u, hu⟩
          simp only [upd] at hu
          split at hu
          · rename_i hut; subst hut
            rcases List.mem_cons.1 hu with h1 | h1
            · cases h1; exact .inr ⟨rfl, rfl⟩
            · exact .inl ⟨_, h1⟩
          · exact .inl ⟨u, hu⟩
      · cases hs
    | use f op =>
      simp only [Mixed.step] at hs
      split at hs
      · rename_i hc
        simp only [Option.map_eq_some_iff] at hs
        obtain ⟨o, ho, rfl⟩ := hs
        exact settle_rec (a := .call op) ih hc.1 ho
      · cases hs
    | go f =>
      simp only [Mixed.step] at hs
      split at hs
      · rename_i hc
        simp only [Option.map_eq_some_iff] at hs
        obtain ⟨o, ho, rfl⟩ := hs
        exact settle_rec (a := .go) ih hc.1 ho
      · cases hs
    | finish out =>
      simp only [Mixed.step] at hs
      split at hs
      · rename_i f hf
        split at hs
        · simp only [Option.map_eq_some_iff] at hs
          obtain ⟨o, ho, rfl⟩ := hs
          simp only [news, hf]
          exact settle_rec (a := .finish out) ih (List.mem_of_find?_eq_some hf) ho
        · cases hs
      · cases hs
    | drop f =>
      simp only [Mixed.step] at hs
      split at hs
      · rename_i hc
        simp only [Option.map_eq_some_iff] at hs
        obtain ⟨o, ho, rfl⟩ := hs
        exact settle_rec (a := .drop) ih hc.1 ho
      · cases hs
    | lock b =>
      simp only [Mixed.step] at hs
      split at hs
      · simp only [Option.map_eq_some_iff] at hs
        obtain ⟨l, hl, rfl⟩ := hs
        exact ih.onLock (locks_grows hl) (Nat.le_refl _) fun _ _ h => h
      · cases hs

theorem sync_all (h : Trace eqv dep v₀ w₀ s g) :
    ∃ T τ, Disc (whole g) T ∧ Legal (Whole.Containers eqv) ⟨v₀, w₀⟩ (lins (whole g)) τ ∧
      ((∀ t, s.stack t = []) → τ = ⟨fun i => (s.obj i).value, s.lk.val⟩) := by
  have hi := Mixed.inv_reach (trace_reach h)
  refine (srec h).all (fun i => ?_) ⟨_, (Locks.log_reach hi.lk).1, (Locks.log_reach hi.lk).2⟩
  obtain ⟨h1, c, h2, _, h3⟩ := Sync.logInv_reach (hi.obj i)
  refine ⟨_, c, h1, h2, fun hq => h3 fun p => ?_⟩
  cases hg : Multi.gone ((s.obj i).pc p) with
  | true => revert hg; cases (s.obj i).pc p <;> simp [Multi.gone, Sync.mid]
  | false =>
    obtain ⟨t, ht⟩ := hi.owner i p hg
    rw [hq t] at ht; cases ht

end

/-! ## Async structs -/

section
variable {L V W E : Type} [DecidableEq L] {eqv : W → W → Bool} {g : List (Tagged F L V W E)} {dep : F ⊕ L → F ⊕ L → Prop} {v₀ : F → Option V} {w₀ : L → W} {s s' : AsyncMixed.St F L V W E}

theorem asyncTrace_reach (h : AsyncTrace eqv dep v₀ w₀ s g) : AsyncMixed.Reach eqv dep v₀ w₀ s := by
  induction h with
  | init => exact .init
  | step _ ha hs ih => exact .step ih ha hs

/-- The record of the async containers. -/
def ARec (s : AsyncMixed.St F L V W E) (g : List (Tagged F L V W E)) : Prop :=
  Rec (fun i => (s.obj i).log) s.lk.log s.next (fun i p => ∃ t, .lazy i p ∈ s.stack t) g

theorem arec (h : AsyncTrace eqv dep v₀ w₀ s g) : ARec s g := by
  induction h with
  | init =>
    constructor
    · intro i; rfl
    · rfl
    · intro _ _ _ h; cases h
    · rintro _ _ ⟨t, ht⟩; cases ht
    · rintro _ _ ⟨t, ht⟩; cases ht
    · rintro _ _ _ ⟨t, ht⟩; cases ht
    · intro _ _ _ _ _ h; cases h
  | @step s s' g t a ht ha hs ih =>
    cases a with
    | call j op =>
      simp only [AsyncMixed.step] at hs
      split at hs
      · simp only [Option.map_eq_some_iff] at hs
        obtain ⟨o, ho, rfl⟩ := hs
        simp only [asyncNews, upd_same]
        refine ih.onLazy (p := s.next) (async_grows (a := .call op) ho) (.inl ⟨rfl, rfl⟩) ?_ ?_
        · funext k
          by_cases hk : k = j
          · subst hk; simp [upd]
          · simp [upd, hk]
        · rintro k q ⟨u, hu⟩
          simp only [upd] at hu
          split at hu
          · rename_i hut; subst hut
            rcases List.mem_cons.1 hu with h1 | h1
            · cases h1; exact .inr ⟨rfl, rfl⟩
            · exact .inl ⟨_, h1⟩
          · exact .inl ⟨u, hu⟩
      · cases hs
    | lock op =>
      simp only [AsyncMixed.step] at hs
      split at hs
      · simp only [Option.map_eq_some_iff] at hs
        obtain ⟨l, hl, rfl⟩ := hs
        refine ih.onLock (asyncLocks_grows (eqv := eqv) (a := .call op) hl) (Nat.le_succ _) ?_
        rintro k q ⟨u, hu⟩
        simp only [upd] at hu
        split at hu
        · rename_i hut; subst hut
          rcases List.mem_cons.1 hu with h1 | h1
          · cases h1
          · exact ⟨_, h1⟩
        · exact ⟨u, hu⟩
      · cases hs
    | act f b =>
      have hact := AsyncMixed.acted hs
      obtain ⟨s₁, h1, h2, h3, _⟩ := hact.on
      have hst : ∀ k q, (∃ u, .lazy k q ∈ s'.stack u) → ∃ u, .lazy k q ∈ s.stack u := by
        rintro k q ⟨u, hu⟩
        rw [hact.stack] at hu
        simp only [upd] at hu
        split at hu
        · rename_i hut; subst hut
          split at hu
          · exact ⟨_, List.mem_of_mem_erase hu⟩
          · exact ⟨_, hu⟩
        · exact ⟨u, hu⟩
      rcases AsyncMixed.fstep_cases h1 with ⟨i, p, o, b', rfl, ho, rfl, _⟩ | ⟨p, l, b', rfl, hl, rfl, _, _⟩
      · have e : s'.obj i = o := by rw [h2]; simp [AsyncMixed.put]
        have e2 : s'.lk = s.lk := h3
        simp only [asyncNews, e]
        have := ih.onLazy (n' := s.next) (mine' := fun i p => ∃ t, .lazy i p ∈ s'.stack t)
          (lg' := fun i => (s'.obj i).log) (async_grows ho) (.inr ⟨⟨t, hact.mem⟩, rfl⟩) ?_ fun k q hk => .inl (hst k q hk)
        · unfold ARec; rw [e2, hact.next]; exact this
        · funext k
          by_cases hk : k = i
          · subst hk; simp [h2, AsyncMixed.put, upd]
          · simp [h2, AsyncMixed.put, upd, hk]
      · have e : s'.lk = l := h3
        have e2 : s'.obj = s.obj := h2
        simp only [asyncNews, e]
        unfold ARec
        rw [e, e2, hact.next]
        exact ih.onLock (asyncLocks_grows hl) (Nat.le_refl _) hst
    | fork c =>
      simp only [AsyncMixed.step] at hs
      split at hs
      · cases hs
        simp only [asyncNews, List.append_nil]
        exact ih
      · cases hs
    | ret =>
      simp only [AsyncMixed.step] at hs
      split at hs
      · rename_i u hu
        split at hs
        · cases hs
          simp only [asyncNews, List.append_nil]
          refine ih.keep ?_
          rintro k q ⟨x, hx⟩
          simp only [upd] at hx
          split at hx
          · rcases List.mem_append.1 hx with hx | hx <;> exact ⟨_, hx⟩
          · split at hx
            · cases hx
            · exact ⟨x, hx⟩
        · cases hs
      · cases hs

theorem async_all (h : AsyncTrace eqv dep v₀ w₀ s g) :
    ∃ T τ, Disc (whole g) T ∧ Legal (Whole.Containers eqv) ⟨v₀, w₀⟩ (lins (whole g)) τ ∧
      ((∀ t i p, .lazy i p ∉ s.stack t) → τ = ⟨fun i => (s.obj i).value, s.lk.val⟩) := by
  have hi := AsyncMixed.inv_reach (asyncTrace_reach h)
  refine (arec h).all (fun i => ?_) ⟨_, (AsyncLocks.log_reach hi.pool.lk).1, (AsyncLocks.log_reach hi.pool.lk).2⟩
  obtain ⟨L', hr, _⟩ := Async.sim (hi.pool.obj i)
  obtain ⟨h1, c, h2, _, h3⟩ := Sync.logInv_reachC hr
  refine ⟨_, c, h1, h2, fun hq => h3 fun p => ?_⟩
  cases hg : AsyncMixed.gone (AsyncMixed.look s (.lazy i p)) with
  | true =>
    revert hg
    simp only [AsyncMixed.look, Async.mk, AsyncMixed.gone]
    cases (s.obj i).pc p <;> simp [AsyncMulti.gone, Sync.mid, Async.emb]
  | false =>
    obtain ⟨t, ht⟩ := hi.owner _ hg
    exact absurd ht (hq t i p)

end

end Verif.Proof.Whole
