import Verif.Model.AsyncMulti
import Verif.Proof.AsyncThms
/-!
# Several async lazy fields: invariant and progress (helper lemmas)
-/

namespace Verif.Proof.AsyncMulti
open Verif.Spec Verif.Model Verif.Model.AsyncMulti

set_option linter.unusedSectionVars false
variable {F V E : Type} [DecidableEq F]

/-- Along a stack, each builder depends on the field called from it. -/
def Nested (dep : F → F → Prop) : List (F × Nat) → Prop
  | a :: b :: l => dep b.1 a.1 ∧ Nested dep (b :: l)
  | _ => True

/-- How stacks and containers fit together. -/
structure Inv (v₀ : F → Option V) (s : St F V E) : Prop where
  obj : ∀ i, Async.Reach (v₀ i) (s.obj i)
  inside : ∀ t i p, (i, p) ∈ s.stack t → p < s.next ∧ gone ((s.obj i).pc p) = false
  owner : ∀ i p, gone ((s.obj i).pc p) = false → ∃ t, (i, p) ∈ s.stack t
  uniq : ∀ t t' i i' p, (i, p) ∈ s.stack t → (i', p) ∈ s.stack t' → t = t'
  nodup : ∀ t, ((s.stack t).map (·.2)).Nodup
  waits : ∀ i p, p ∈ s.queue i ↔ queued ((s.obj i).pc p) = true
  once : ∀ i, (s.queue i).Nodup

/-- Everything below the innermost call is in its builder, and calls follow `dep`. -/
structure Deep (dep : F → F → Prop) (s : St F V E) : Prop where
  below : ∀ t f rest, s.stack t = f :: rest → ∀ i p, (i, p) ∈ rest → building ((s.obj i).pc p) = true
  nested : ∀ t, Nested dep (s.stack t)

/-- An action of the thread, seen from the container it works on. -/
def lower : Act F V E → Option (Async.Act V E)
  | .call _ _ => none
  | .use op => some (.call op)
  | .go => some .go
  | .finish o => some (.finish o)
  | .drop => some .drop
  | .cancel => some .cancel

theorem step_cases {keep : Bool} {s s' : St F V E} {t : Nat} {a : Act F V E} (h : step keep s t a = some s') :
    (∃ j op o, a = .call j op ∧ userTurn keep s t = true ∧ Async.step (s.obj j) s.next (.call op) = some o ∧
      s' = { obj := upd s.obj j o
             queue := upd s.queue j (if queued (o.pc s.next) then s.queue j ++ [s.next] else s.queue j)
             stack := upd s.stack t ((j, s.next) :: s.stack t), next := s.next + 1 }) ∨
    (∃ i p rest b o, s.stack t = (i, p) :: rest ∧ lower a = some b ∧ Async.step (s.obj i) p b = some o ∧
      (b = .go → turn s i p = true) ∧ s' = settle s t i p rest o) := by
  cases a with
  | call j op =>
    left
    simp only [step] at h
    split at h
    · rename_i hu
      simp only [Option.map_eq_some_iff] at h
      obtain ⟨o, h1, rfl⟩ := h
      exact ⟨j, op, o, rfl, hu, h1, rfl⟩
    · cases h
  | go =>
    right
    simp only [step] at h
    split at h
    · rename_i i p rest hst
      split at h
      · rename_i htu
        simp only [Option.map_eq_some_iff] at h
        obtain ⟨o, h1, rfl⟩ := h
        exact ⟨i, p, rest, _, o, hst, rfl, h1, fun _ => htu, rfl⟩
      · cases h
    · cases h
  | _ =>
    right
    simp only [step] at h
    split at h
    · rename_i i p rest hst
      simp only [Option.map_eq_some_iff] at h
      obtain ⟨o, h1, rfl⟩ := h
      exact ⟨i, p, rest, _, o, hst, rfl, h1, by simp, rfl⟩
    · cases h

theorem gone_iff (c : Async.Pc V E) : gone c = true ↔ c = .idle := by cases c <;> simp [gone]

/-- Steps of a container only move the process which makes them. -/
theorem others {s s' : Async.St V E} {p q : Nat} {a : Async.Act V E} (h : Async.step s p a = some s') (hq : q ≠ p) :
    s'.pc q = s.pc q := Proof.Async.step_other h (Ne.symm hq)

/-- A call on the container begins where nobody was, and is inside then. -/
theorem call_inside {s s' : Async.St V E} {p : Nat} {op : Op V} (h : Async.step s p (.call op) = some s') :
    gone (s'.pc p) = false := by
  simp only [Async.step, Async.invoke] at h
  split at h
  all_goals try split at h
  all_goals first
    | (simp at h; done)
    | (simp only [Option.some.injEq] at h; subst h; simp [Async.St.begin, upd, gone])

theorem queued_held (m : Bool) (g : CallId) : queued (Async.heldGuard m g : Async.Pc V E) = false := by cases m <;> rfl

/-- Nobody inside begins to wait. -/
theorem queued_before {s s' : Async.St V E} {p : Nat} {a : Async.Act V E} (h : Async.step s p a = some s')
    (hq : queued (s'.pc p) = true) (hi : s.pc p ≠ .idle) : queued (s.pc p) = true := by
  cases a with
  | call op =>
    simp only [Async.step, Async.invoke] at h
    split at h <;> rename_i hpc
    all_goals try split at h
    all_goals first
      | (simp at h; done)
      | (exact absurd hpc hi)
      | (simp only [Option.some.injEq] at h; subst h; simp [Async.St.begin, upd, queued] at hq)
  | go =>
    simp only [Async.step, Async.go] at h
    split at h <;> rename_i hpc
    all_goals try (repeat' split at h)
    all_goals first
      | (simp at h; done)
      | (simp only [Option.map_eq_some_iff] at h
         obtain ⟨l, hl, rfl⟩ := h
         simp [Async.St.to, upd, queued] at hq)
      | (simp only [Option.some.injEq] at h
         subst h
         simp [Async.St.to, Async.St.ret, Async.St.lin, Async.St.ev, upd, queued_held] at hq
         try simp [queued] at hq)
  | finish o =>
    simp only [Async.step, Async.builderReturns] at h
    split at h <;> rename_i hpc
    all_goals try split at h
    all_goals first
      | (simp at h; done)
      | (simp only [Option.some.injEq] at h
         subst h
         simp [Async.St.to, Async.St.lin, Async.St.ev, upd, queued] at hq)
  | drop =>
    simp only [Async.step, Async.dropGuard] at h
    split at h <;> rename_i hpc
    all_goals first
      | (simp at h; done)
      | (simp only [Option.some.injEq] at h
         subst h
         simp [Async.St.to, Async.St.ev, upd, queued] at hq)
  | cancel =>
    simp only [Async.step, Async.cancel] at h
    split at h <;> rename_i hpc
    all_goals first
      | (simp at h; done)
      | (simp only [Option.some.injEq] at h
         subst h
         simp [Async.St.quit, Async.St.ev, upd, queued] at hq)

theorem inv_init (v₀ : F → Option V) : Inv v₀ (init v₀ : St F V E) := by
  refine ⟨fun i => .init, ?_, ?_, ?_, ?_, ?_, ?_⟩ <;> simp [init, Async.init, gone, queued]

theorem inv_step {v₀ : F → Option V} {keep : Bool} {s s' : St F V E} {t : Nat} {a : Act F V E} (h : Inv v₀ s)
    (hs : step keep s t a = some s') : Inv v₀ s' := by
  obtain ⟨hobj, hin, how, hun, hnd, hwt, hon⟩ := h
  rcases step_cases hs with ⟨j, op, o, _, _, ho, rfl⟩ | ⟨i, p, rest, b, o, hst, _, ho, _, rfl⟩
  · have hin' : ∀ t' i p, (i, p) ∈ upd s.stack t ((j, s.next) :: s.stack t) t' →
        (t' = t ∧ i = j ∧ p = s.next) ∨ ((i, p) ∈ s.stack t' ∧ p < s.next) := by
      intro t' i p hm
      by_cases ht : t' = t
      · subst ht
        simp only [upd, if_true, List.mem_cons, Prod.mk.injEq] at hm
        rcases hm with hm | hm
        · exact .inl ⟨rfl, hm⟩
        · exact .inr ⟨hm, (hin _ _ _ hm).1⟩
      · simp only [upd, ht, if_false] at hm
        exact .inr ⟨hm, (hin _ _ _ hm).1⟩
    have hnew : s.next ∉ s.queue j := by
      intro hq
      have hg : gone ((s.obj j).pc s.next) = false := by
        have := (hwt _ _).1 hq
        revert this
        cases (s.obj j).pc s.next <;> simp [queued, gone]
      obtain ⟨t', ht'⟩ := how _ _ hg
      have := (hin _ _ _ ht').1
      omega
    refine ⟨?_, ?_, ?_, ?_, ?_, ?_, ?_⟩
    · intro i
      by_cases hi : i = j
      · subst hi; simp only [upd, if_true]; exact .step (hobj i) ho
      · simp only [upd, hi, if_false]; exact hobj i
    · intro t' i p hm
      rcases hin' t' i p hm with ⟨rfl, rfl, rfl⟩ | ⟨hm', hp⟩
      · exact ⟨by simp, by simp only [upd, if_true]; exact call_inside ho⟩
      · refine ⟨by simp only []; omega, ?_⟩
        by_cases hi : i = j
        · subst hi; simp only [upd, if_true]; rw [others ho (by omega)]; exact (hin _ _ _ hm').2
        · simp only [upd, hi, if_false]; exact (hin _ _ _ hm').2
    · intro i p hg
      by_cases hi : i = j ∧ p = s.next
      · obtain ⟨rfl, rfl⟩ := hi
        exact ⟨t, by simp [upd]⟩
      · have : gone ((s.obj i).pc p) = false := by
          by_cases hij : i = j
          · subst hij
            simp only [upd, if_true] at hg
            rw [others ho (by simpa using hi)] at hg; exact hg
          · simpa only [upd, hij, if_false] using hg
        obtain ⟨t', ht'⟩ := how i p this
        refine ⟨t', ?_⟩
        by_cases ht : t' = t
        · subst ht; simp [upd, ht']
        · simpa [upd, ht] using ht'
    · intro t₁ t₂ i₁ i₂ p h1 h2
      rcases hin' _ _ _ h1 with ⟨rfl, _, hp⟩ | ⟨h1, hp1⟩ <;> rcases hin' _ _ _ h2 with ⟨rfl, _, hp'⟩ | ⟨h2, hp2⟩
      · rfl
      · omega
      · omega
      · exact hun _ _ _ _ _ h1 h2
    · intro t'
      by_cases ht : t' = t
      · subst ht
        simp only [upd, if_true, List.map_cons, List.nodup_cons]
        refine ⟨?_, hnd t'⟩
        intro hm
        obtain ⟨⟨i, p⟩, hm, hp⟩ := List.mem_map.1 hm
        have := (hin _ _ _ hm).1
        simp only at hp; omega
      · simpa only [upd, ht, if_false] using hnd t'
    · intro i p
      by_cases hi : i = j
      · subst hi
        simp only [upd, if_true]
        by_cases hp : p = s.next
        · subst hp
          cases hq : queued (o.pc s.next) <;> simp [hnew]
        · rw [others ho hp]
          cases hq : queued (o.pc s.next) <;> simp [hp, hwt]
      · simp only [upd, hi, if_false]; exact hwt i p
    · intro i
      by_cases hi : i = j
      · subst hi
        simp only [upd, if_true]
        split
        · exact List.nodup_append.2 ⟨hon i, by simp, by
            intro a ha b hb
            rw [List.mem_singleton] at hb
            subst hb
            rintro rfl
            exact hnew ha⟩
        · exact hon i
      · simp only [upd, hi, if_false]; exact hon i
  · have hnd' := hnd t
    rw [hst] at hnd'
    simp only [List.map_cons, List.nodup_cons] at hnd'
    have hsub : ∀ t' f, f ∈ upd s.stack t (if gone (o.pc p) then rest else (i, p) :: rest) t' → f ∈ s.stack t' ∧
        (f = (i, p) → gone (o.pc p) = false) := by
      intro t' f hm
      by_cases ht : t' = t
      · subst ht
        simp only [upd, if_true] at hm
        cases hg : gone (o.pc p)
        · simp only [hg, Bool.false_eq_true, if_false] at hm
          exact ⟨by rw [hst]; exact hm, fun _ => rfl⟩
        · simp only [hg, if_true] at hm
          refine ⟨by rw [hst]; exact .tail _ hm, ?_⟩
          rintro rfl
          exact absurd (List.mem_map.2 ⟨_, hm, rfl⟩) hnd'.1
      · simp only [upd, ht, if_false] at hm
        refine ⟨hm, ?_⟩
        rintro rfl
        exact absurd (hun _ _ _ _ _ hm (by rw [hst]; exact .head _)) ht
    refine ⟨?_, ?_, ?_, ?_, ?_, ?_, ?_⟩
    · intro j
      by_cases hj : j = i
      · subst hj; simp only [settle, upd, if_true]; exact .step (hobj j) ho
      · simp only [settle, upd, hj, if_false]; exact hobj j
    · intro t' j q hm
      have hm := hsub t' (j, q) hm
      refine ⟨(hin _ _ _ hm.1).1, ?_⟩
      by_cases hj : j = i
      · subst hj
        simp only [settle, upd, if_true]
        by_cases hq : q = p
        · subst hq; exact hm.2 rfl
        · rw [others ho hq]; exact (hin _ _ _ hm.1).2
      · simp only [settle, upd, hj, if_false]; exact (hin _ _ _ hm.1).2
    · intro j q hg
      by_cases hjq : j = i ∧ q = p
      · obtain ⟨rfl, rfl⟩ := hjq
        simp only [settle, upd, if_true] at hg
        exact ⟨t, by simp [settle, upd, hg]⟩
      · have : gone ((s.obj j).pc q) = false := by
          by_cases hj : j = i
          · subst hj
            simp only [settle, upd, if_true] at hg
            rw [others ho (by simpa using hjq)] at hg; exact hg
          · simpa only [settle, upd, hj, if_false] using hg
        obtain ⟨t', ht'⟩ := how j q this
        refine ⟨t', ?_⟩
        by_cases ht : t' = t
        · subst ht
          rw [hst] at ht'
          have hr : (j, q) ∈ rest := by
            rcases List.mem_cons.1 ht' with h | h
            · exact absurd (by simpa using h) hjq
            · exact h
          cases hg : gone (o.pc p) <;> simp [settle, upd, hg, hr]
        · simpa [settle, upd, ht] using ht'
    · intro t₁ t₂ i₁ i₂ q h1 h2
      exact hun _ _ _ _ _ (hsub _ _ h1).1 (hsub _ _ h2).1
    · intro t'
      by_cases ht : t' = t
      · subst ht
        cases hg : gone (o.pc p)
        · simpa [settle, upd, hg] using hnd'
        · simpa [settle, upd, hg] using hnd'.2
      · simpa only [settle, upd, ht, if_false] using hnd t'
    · intro j q
      by_cases hj : j = i
      · subst hj
        simp only [settle, upd, if_true]
        by_cases hq : q = p
        · subst hq
          cases hw : queued (o.pc q)
          · simp [(hon j).mem_erase_iff]
          · have : queued ((s.obj j).pc q) = true := queued_before ho hw (by
              have := (hin t j q (by rw [hst]; exact .head _)).2
              intro hc
              rw [hc] at this
              cases this)
            simpa using (hwt j q).2 this
        · rw [others ho hq]
          split
          · exact hwt j q
          · rw [(hon j).mem_erase_iff]
            simp [hq, hwt]
      · simp only [settle, upd, hj, if_false]; exact hwt j q
    · intro j
      by_cases hj : j = i
      · subst hj
        simp only [settle, upd, if_true]
        split
        · exact hon j
        · exact (hon j).erase p
      · simp only [settle, upd, hj, if_false]; exact hon j

theorem inv_reach {dep : F → F → Prop} {keep : Bool} {v₀ : F → Option V} {s : St F V E} (h : Reach dep keep v₀ s) :
    Inv v₀ s := by
  induction h with
  | init => exact inv_init v₀
  | step _ _ hs ih => exact inv_step ih hs

theorem deep_init (dep : F → F → Prop) (v₀ : F → Option V) : Deep dep (init v₀ : St F V E) := by
  constructor <;> simp [init, Nested]

/-- Without kept guards a thread calls from the builder of the innermost call. -/
theorem inBuilder_top {s : St F V E} {t : Nat} {i : F} {p : Nat} {rest : List (F × Nat)} (hst : s.stack t = (i, p) :: rest)
    (hb : building ((s.obj i).pc p) = true) : inBuilder s t = some i := by
  simp [inBuilder, hst, hb]

theorem deep_step {v₀ : F → Option V} {dep : F → F → Prop} {s s' : St F V E} {t : Nat} {a : Act F V E} (hi : Inv v₀ s)
    (h : Deep dep s) (ha : Allowed dep s t a) (hs : step false s t a = some s') : Deep dep s' := by
  obtain ⟨hbel, hnest⟩ := h
  have hi' := inv_step hi hs
  rcases step_cases hs with ⟨j, op, o, rfl, hu, ho, rfl⟩ | ⟨i, p, rest, b, o, hst, _, ho, _, rfl⟩
  · have hpc : ∀ i p t', (i, p) ∈ s.stack t' → (upd s.obj j o i).pc p = (s.obj i).pc p := by
      intro i p t' hm
      by_cases hi' : i = j
      · subst hi'
        have := (hi.inside _ _ _ hm).1
        simp only [upd, if_true]; exact others ho (by omega)
      · simp only [upd, hi', if_false]
    have htop : ∀ i p rest, s.stack t = (i, p) :: rest → building ((s.obj i).pc p) = true := by
      intro i p rest h1
      simpa [userTurn, h1] using hu
    refine ⟨?_, ?_⟩
    · intro t' f rest h1 i p hm
      by_cases ht : t' = t
      · subst ht
        simp only [upd, if_true, List.cons.injEq] at h1
        obtain ⟨-, rfl⟩ := h1
        simp only [hpc i p t' hm]
        cases hs : s.stack t' with
        | nil => rw [hs] at hm; cases hm
        | cons g rest' =>
          rw [hs] at hm
          rcases List.mem_cons.1 hm with rfl | hm
          · exact htop _ _ _ hs
          · exact hbel _ _ _ hs _ _ hm
      · simp only [upd, ht, if_false] at h1
        simp only [hpc i p t' (by rw [h1]; exact .tail _ hm)]
        exact hbel _ _ _ h1 _ _ hm
    · intro t'
      by_cases ht : t' = t
      · subst ht
        simp only [upd, if_true]
        have hn := hnest t'
        cases hs : s.stack t' with
        | nil => simp [Nested]
        | cons g rest' =>
          obtain ⟨i, p⟩ := g
          rw [hs] at hn
          exact ⟨ha i (inBuilder_top hs (htop _ _ _ hs)), hn⟩
      · simpa only [upd, ht, if_false] using hnest t'
  · have hne : ∀ j q t', (j, q) ∈ s.stack t' → (j, q) ≠ (i, p) → (upd s.obj i o j).pc q = (s.obj j).pc q := by
      intro j q t' hm hne
      by_cases hj : j = i
      · subst hj
        simp only [upd, if_true]; exact others ho (by simpa using hne)
      · simp only [upd, hj, if_false]
    have hnd' := hi.nodup t
    rw [hst] at hnd'
    simp only [List.map_cons, List.nodup_cons] at hnd'
    have hrest : ∀ j q, (j, q) ∈ rest → building ((upd s.obj i o j).pc q) = true := by
      intro j q hm
      rw [hne j q t (by rw [hst]; exact .tail _ hm)]
      · exact hbel t _ _ hst j q hm
      · rintro ⟨⟩
        exact hnd'.1 (List.mem_map.2 ⟨_, hm, rfl⟩)
    refine ⟨?_, ?_⟩
    · intro t' f rest' h1 j q hm
      by_cases ht : t' = t
      · subst ht
        simp only [settle, upd, if_true] at h1
        have : (j, q) ∈ rest := by
          split at h1
          · rw [h1]; exact .tail _ hm
          · simp only [List.cons.injEq] at h1; rw [h1.2]; exact hm
        exact hrest j q this
      · simp only [settle, upd, ht, if_false] at h1
        have hm' : (j, q) ∈ s.stack t' := by rw [h1]; exact .tail _ hm
        have : (j, q) ≠ (i, p) := by
          rintro ⟨⟩
          exact ht (hi.uniq _ _ _ _ _ hm' (by rw [hst]; exact .head _))
        simp only [settle, hne j q t' hm' this]
        exact hbel _ _ _ h1 _ _ hm
    · intro t'
      by_cases ht : t' = t
      · subst ht
        have hn := hnest t'
        rw [hst] at hn
        simp only [settle, upd, if_true]
        split
        · cases rest with
          | nil => simp [Nested]
          | cons g l => exact hn.2
        · exact hn
      · simpa only [settle, upd, ht, if_false] using hnest t'

theorem deep_reach {dep : F → F → Prop} {v₀ : F → Option V} {s : St F V E} (h : Reach dep false v₀ s) : Deep dep s := by
  induction h with
  | init => exact deep_init dep v₀
  | step hr ha hs ih => exact deep_step (inv_reach hr) ih ha hs

/-- Everything further down a stack leads to the top by dependencies. -/
theorem nested_trans {dep : F → F → Prop} {l : List (F × Nat)} {f g : F × Nat} (h : Nested dep (f :: l)) (hg : g ∈ l) :
    Relation.TransGen (fun j i => dep i j) f.1 g.1 := by
  induction l generalizing f with
  | nil => cases hg
  | cons a l ih =>
    rcases List.mem_cons.1 hg with rfl | hg
    · exact .single h.1
    · exact .trans (.single h.1) (ih h.2 hg)

/-- An enabled action which begins no call is possible only inside. -/
theorem enabled_inside {s s' : Async.St V E} {p : Nat} {a : Async.Act V E} (ha : ∀ op, a ≠ .call op)
    (h : Async.step s p a = some s') : gone (s.pc p) = false := by
  cases hg : gone (s.pc p)
  · rfl
  · have h1 := (Proof.Async.rank_step ha h).1
    rw [(gone_iff _).1 hg] at h1
    simp [Proof.Async.rank] at h1

/-- If anybody is inside the container, somebody who is inside can go on: the user with a guard or in a builder, or code of
the library; of those who wait for the lock, the first one. -/
theorem someone {s : Async.St V E} {l : List Nat} (h : Proof.Async.Inv s) (hl : ∀ p, p ∈ l ↔ queued (s.pc p) = true) {p : Nat}
    (hp : s.pc p ≠ .idle) :
    ∃ q, s.pc q ≠ .idle ∧ (building (s.pc q) = true ∨ holding (s.pc q) = true ∨
      ((!queued (s.pc q) || l.head? == some q) = true ∧ ∃ s', Async.go s q = some s')) := by
  by_cases hw : ∃ q, s.pc q ≠ .idle ∧ queued (s.pc q) = false
  · obtain ⟨q, h1, h2⟩ := hw
    refine ⟨q, h1, ?_⟩
    by_cases hb : building (s.pc q) = true
    · exact .inl hb
    · by_cases hh : holding (s.pc q) = true
      · exact .inr (.inl hh)
      · refine .inr (.inr ⟨by simp [h2], ?_⟩)
        apply Proof.Async.go_enabled
        · revert h2; cases s.pc q <;> simp [queued, Proof.Async.waiting]
        · revert hh h1; cases s.pc q <;> simp [holding, Async.Pc.resting]
        · revert hb; cases s.pc q <;> simp [building]
        · intro hq; have := h.mem q; rw [hq] at this; exact this
  · have hall : ∀ q, s.pc q ≠ .idle → queued (s.pc q) = true := by
      intro q hq
      cases hx : queued (s.pc q)
      · exact absurd ⟨q, hq, hx⟩ hw
      · rfl
    have hwr : s.lk.wr = none := by
      cases hwr : s.lk.wr with
      | none => rfl
      | some q =>
        have h1 := (h.wr q).1 hwr
        have h2 := hall q (by intro hc; rw [hc] at h1; cases h1)
        revert h1 h2
        cases s.pc q <;> simp [Proof.Async.holdsW, queued]
    have hsh : s.lk.shared = [] := by
      cases hsh : s.lk.shared with
      | nil => rfl
      | cons q rs =>
        have h1 := (h.sh q).1 (by simp [hsh])
        have h2 := hall q (by intro hc; rw [hc] at h1; cases h1)
        revert h1 h2
        cases s.pc q <;> simp [Proof.Async.emb, Proof.Sync.holdsS, queued]
    cases hq : l with
    | nil =>
      have := (hl p).2 (hall p hp)
      rw [hq] at this
      cases this
    | cons q l' =>
      have h1 := (hl q).1 (by rw [hq]; exact .head _)
      refine ⟨q, (by intro hc; rw [hc] at h1; cases h1), .inr (.inr ⟨by simp, ?_⟩)⟩
      unfold Async.go
      revert h1
      cases s.pc q <;> simp [queued, Async.ALock.tryWrite, Async.ALock.tryShared, hwr, hsh]

/-- The task at the bottom of every waiting chain is not stuck. -/
theorem unblocked {dep : F → F → Prop} {v₀ : F → Option V} {s : St F V E} (hi : Inv v₀ s) (hd : Deep dep s)
    (hwf : WellFounded fun j i => dep i j) (i : F) :
    ∀ t p rest, s.stack t = (i, p) :: rest → ∃ t', s.stack t' ≠ [] ∧ ¬ Blocked s t' := by
  have hwf' : WellFounded (Relation.TransGen fun j i => dep i j) := hwf.transGen
  induction i using hwf'.induction with
  | _ i ih =>
    intro t p rest hst
    have hpc : (s.obj i).pc p ≠ .idle := by
      intro hc
      have := (hi.inside t i p (by rw [hst]; exact .head _)).2
      rw [hc] at this; cases this
    obtain ⟨q, hq, hcan⟩ := someone (Proof.Async.inv_reach (hi.obj i)) (hi.waits i) hpc
    obtain ⟨t', ht'⟩ := hi.owner i q (by rw [← Bool.not_eq_true, gone_iff]; exact hq)
    cases hs' : s.stack t' with
    | nil => rw [hs'] at ht'; cases ht'
    | cons f l =>
      obtain ⟨j, r⟩ := f
      rw [hs'] at ht'
      rcases List.mem_cons.1 ht' with h1 | h1
      · simp only [Prod.mk.injEq] at h1
        obtain ⟨rfl, rfl⟩ := h1
        refine ⟨t', by simp [hs'], ?_⟩
        rintro ⟨i', p', l', h2, hb, hh, hg⟩
        rw [hs'] at h2
        simp only [List.cons.injEq, Prod.mk.injEq] at h2
        obtain ⟨⟨rfl, rfl⟩, rfl⟩ := h2
        rcases hcan with h3 | h3 | ⟨h3, s', h4⟩
        · rw [h3] at hb; cases hb
        · rw [h3] at hh; cases hh
        · rcases hg with hg | hg
          · rw [turn, h3] at hg; cases hg
          · rw [h4] at hg; cases hg
      · have hn := hd.nested t'
        rw [hs'] at hn
        exact ih j (nested_trans hn h1) t' r l hs'

/-! ## Steps left -/

/-- Steps the calls of thread `t` can still make. -/
def weight (s : St F V E) (t : Nat) : Nat := ((s.stack t).map fun f => Proof.Async.rank ((s.obj f.1).pc f.2)).sum

theorem weight_le (s : St F V E) (t : Nat) : weight s t ≤ 9 * (s.stack t).length := by
  simp only [weight]
  induction s.stack t with
  | nil => simp
  | cons f l ih =>
    have := Proof.Async.rank_le ((s.obj f.1).pc f.2)
    simp only [List.map_cons, List.sum_cons, List.length_cons]
    omega

theorem weight_step {v₀ : F → Option V} {keep : Bool} {s s' : St F V E} {t : Nat} {a : Act F V E} (hi : Inv v₀ s)
    (ha : quiet a = true) (hs : step keep s t a = some s') :
    weight s' t < weight s t ∧ ∀ t', t' ≠ t → weight s' t' = weight s t' := by
  rcases step_cases hs with ⟨j, op, o, rfl, _⟩ | ⟨i, p, rest, b, o, hst, hb, ho, _, rfl⟩
  · simp [quiet] at ha
  · have hb' : ∀ op, b ≠ .call op := by
      rintro op rfl
      revert ha hb
      cases a <;> simp [quiet, lower]
    have hr := (Proof.Async.rank_step hb' ho).1
    have hne : ∀ j q, (j, q) ≠ (i, p) → (upd s.obj i o j).pc q = (s.obj j).pc q := by
      intro j q hne
      by_cases hj : j = i
      · subst hj
        simp only [upd, if_true]; exact others ho (by simpa using hne)
      · simp only [upd, hj, if_false]
    have hnd' := hi.nodup t
    rw [hst] at hnd'
    simp only [List.map_cons, List.nodup_cons] at hnd'
    have hrest : rest.map (fun f => Proof.Async.rank ((upd s.obj i o f.1).pc f.2)) =
        rest.map fun f => Proof.Async.rank ((s.obj f.1).pc f.2) := by
      apply List.map_congr_left
      rintro ⟨j, q⟩ hm
      rw [hne]
      rintro ⟨⟩
      exact hnd'.1 (List.mem_map.2 ⟨_, hm, rfl⟩)
    refine ⟨?_, ?_⟩
    · simp only [weight, settle, hst]
      simp only [upd, if_true, List.map_cons, List.sum_cons]
      simp only [upd] at hrest
      split
      · rename_i hg
        rw [hrest]; omega
      · simp only [List.map_cons, List.sum_cons, if_true]
        rw [hrest]; omega
    · intro t' ht
      simp only [weight, settle]
      rw [show upd s.stack t (if gone (o.pc p) then rest else (i, p) :: rest) t' = s.stack t' by simp [upd, ht]]
      congr 1
      apply List.map_congr_left
      rintro ⟨j, q⟩ hm
      rw [hne]
      rintro ⟨⟩
      exact ht (hi.uniq _ _ _ _ _ hm (by rw [hst]; exact .head _))

/-- Steps left over all threads of a list. -/
def total (s : St F V E) (ts : List Nat) : Nat := (ts.map (weight s)).sum

theorem total_step {v₀ : F → Option V} {keep : Bool} {s s' : St F V E} {t : Nat} {a : Act F V E} (hi : Inv v₀ s)
    (ha : quiet a = true) (hs : step keep s t a = some s') {ts : List Nat} (hn : ts.Nodup) (ht : t ∈ ts) :
    total s' ts < total s ts := by
  obtain ⟨h1, h2⟩ := weight_step hi ha hs
  induction ts with
  | nil => simp at ht
  | cons q ts ih =>
    simp only [List.nodup_cons] at hn
    simp only [total, List.map_cons, List.sum_cons] at ih ⊢
    by_cases hq : q = t
    · subst hq
      have : ts.map (weight s') = ts.map (weight s) := by
        apply List.map_congr_left
        intro r hr
        rw [h2 r (by rintro rfl; exact hn.1 hr)]
      rw [this]; omega
    · have := ih hn.2 (by simpa [Ne.symm hq] using ht)
      rw [h2 q hq]; omega

/-- Actions which begin nothing are only possible for a thread that is inside, and bring nobody inside. -/
theorem quiet_stack {keep : Bool} {s s' : St F V E} {t : Nat} {a : Act F V E} (ha : quiet a = true)
    (hs : step keep s t a = some s') : s.stack t ≠ [] ∧ ∀ t', t' ≠ t → s'.stack t' = s.stack t' := by
  rcases step_cases hs with ⟨j, op, o, rfl, _⟩ | ⟨i, p, rest, b, o, hst, hb, ho, _, rfl⟩
  · simp [quiet] at ha
  · exact ⟨by simp [hst], fun t' ht => by simp [settle, upd, ht]⟩

/-- Some thread can do something without beginning a call, unless nobody is inside. -/
theorem quiet_enabled {dep : F → F → Prop} {v₀ : F → Option V} {s : St F V E} (hi : Inv v₀ s) (hd : Deep dep s)
    (hwf : WellFounded fun j i => dep i j) {t : Nat} (ht : s.stack t ≠ []) :
    ∃ (t' : Nat) (a : Act F V E) (s' : St F V E), quiet a = true ∧ a ≠ .cancel ∧ step false s t' a = some s' := by
  cases hst : s.stack t with
  | nil => exact absurd hst ht
  | cons f rest =>
    obtain ⟨i, p⟩ := f
    obtain ⟨t', h1, h2⟩ := unblocked hi hd hwf i t p rest hst
    cases hst' : s.stack t' with
    | nil => exact absurd hst' h1
    | cons f rest =>
      obtain ⟨i, p⟩ := f
      refine ⟨t', ?_⟩
      by_cases hb : building ((s.obj i).pc p) = true
      · refine ⟨.finish .panic, ?_⟩
        simp only [quiet, step, hst', Async.builderReturns]
        revert hb
        cases (s.obj i).pc p <;> simp [building]
      · by_cases hh : holding ((s.obj i).pc p) = true
        · refine ⟨.drop, ?_⟩
          simp only [quiet, step, hst', Async.dropGuard]
          revert hh
          cases (s.obj i).pc p <;> simp [holding]
        · cases hg : Async.go (s.obj i) p with
          | none => exact absurd ⟨i, p, rest, hst', by simpa using hb, by simpa using hh, .inr (by simp [hg])⟩ h2
          | some o =>
            cases htu : turn s i p with
            | false => exact absurd ⟨i, p, rest, hst', by simpa using hb, by simpa using hh, .inl htu⟩ h2
            | true => exact ⟨.go, by simp [quiet, step, hst', hg, htu]⟩

/-! ## A builder which comes back to its own field -/

/-- The innermost call of `t` waits at a field which a call further out of the same thread is building. -/
structure Stuck (s : St F V E) (t : Nat) (i : F) (p p' : Nat) (rest : List (F × Nat)) : Prop where
  top : s.stack t = (i, p') :: rest
  low : (i, p) ∈ rest
  wait : queued ((s.obj i).pc p') = true
  build : building ((s.obj i).pc p) = true

theorem stuck_blocked {v₀ : F → Option V} {s : St F V E} {t : Nat} {i : F} {p p' : Nat} {rest : List (F × Nat)}
    (hi : Inv v₀ s) (h : Stuck s t i p p' rest) : Blocked s t := by
  refine ⟨i, p', rest, h.top, ?_, ?_, ?_⟩
  · have := h.wait; revert this; cases (s.obj i).pc p' <;> simp [queued, building]
  · have := h.wait; revert this; cases (s.obj i).pc p' <;> simp [queued, holding]
  · right
    have hc := Proof.Async.inv_reach (hi.obj i)
    have hw : (s.obj i).lk.wr = some p := by
      rw [hc.wr p]
      have := h.build
      revert this; cases (s.obj i).pc p <;> simp [building, Proof.Async.holdsW]
    have := h.wait
    revert this
    unfold Async.go
    cases (s.obj i).pc p' <;> simp [queued, Async.ALock.tryWrite, Async.ALock.tryShared, hw]

theorem stuck_step {v₀ : F → Option V} {keep : Bool} {s s' : St F V E} {t t' : Nat} {a : Act F V E} {i : F} {p p' : Nat}
    {rest : List (F × Nat)} (hi : Inv v₀ s) (h : Stuck s t i p p' rest) (hnc : t' = t → a ≠ .cancel)
    (hs : step keep s t' a = some s') : Stuck s' t i p p' rest := by
  have hm' : (i, p') ∈ s.stack t := by rw [h.top]; exact .head _
  have hm : (i, p) ∈ s.stack t := by rw [h.top]; exact .tail _ h.low
  by_cases ht : t' = t
  · subst ht
    obtain ⟨i₁, p₁, r₁, h1, h2, h3, h4⟩ := stuck_blocked hi h
    rcases step_cases hs with ⟨j, op, o, rfl, hu, ho, rfl⟩ | ⟨j, q, rest', b, o, hst, hb, ho, htu, rfl⟩
    · simp [userTurn, h1, h2, h3] at hu
    · rw [hst] at h1
      simp only [List.cons.injEq, Prod.mk.injEq] at h1
      obtain ⟨⟨rfl, rfl⟩, rfl⟩ := h1
      have htop := h.top
      rw [hst] at htop
      simp only [List.cons.injEq, Prod.mk.injEq] at htop
      obtain ⟨⟨rfl, rfl⟩, rfl⟩ := htop
      have hw := h.wait
      cases b with
      | go =>
        simp only [Async.step] at ho
        rcases h4 with h4 | h4
        · rw [htu rfl] at h4; cases h4
        · rw [ho] at h4; cases h4
      | cancel =>
        refine absurd ?_ (hnc rfl)
        revert hb
        cases a <;> simp [lower]
      | call op =>
        simp only [Async.step, Async.invoke] at ho
        revert hw ho; cases (s.obj j).pc q <;> simp [queued]
      | finish o' =>
        simp only [Async.step, Async.builderReturns] at ho
        revert hw ho; cases (s.obj j).pc q <;> simp [queued]
      | drop =>
        simp only [Async.step, Async.dropGuard] at ho
        revert hw ho; cases (s.obj j).pc q <;> simp [queued]
  · rcases step_cases hs with ⟨j, op, o, rfl, hu, ho, rfl⟩ | ⟨j, q, rest', b, o, hst, hb, ho, htu, rfl⟩
    · have hpc : ∀ r, (i, r) ∈ s.stack t → (upd s.obj j o i).pc r = (s.obj i).pc r := by
        intro r hr
        by_cases hj : i = j
        · subst hj
          have := (hi.inside _ _ _ hr).1
          simp only [upd, if_true]; exact others ho (by omega)
        · simp only [upd, hj, if_false]
      refine ⟨by simp [upd, Ne.symm ht, h.top], h.low, ?_, ?_⟩
      · simp only [hpc p' hm']; exact h.wait
      · simp only [hpc p hm]; exact h.build
    · have hpc : ∀ r, (i, r) ∈ s.stack t → (upd s.obj j o i).pc r = (s.obj i).pc r := by
        intro r hr
        by_cases hj : i = j
        · subst hj
          simp only [upd, if_true]
          apply others ho
          rintro rfl
          exact ht (hi.uniq _ _ _ _ _ (by rw [hst]; exact .head _) hr)
        · simp only [upd, hj, if_false]
      refine ⟨by simp [settle, upd, Ne.symm ht, h.top], h.low, ?_, ?_⟩
      · simp only [settle, hpc p' hm']; exact h.wait
      · simp only [settle, hpc p hm]; exact h.build

/-! ## Dropping a task -/

/-- Everything below the innermost call is at the user. -/
def UserBelow (s : St F V E) : Prop :=
  ∀ t f rest, s.stack t = f :: rest → ∀ i p, (i, p) ∈ rest →
    building ((s.obj i).pc p) = true ∨ holding ((s.obj i).pc p) = true

theorem user_step {v₀ : F → Option V} {keep : Bool} {s s' : St F V E} {t : Nat} {a : Act F V E} (hi : Inv v₀ s)
    (hbel : UserBelow s) (hs : step keep s t a = some s') : UserBelow s' := by
  rcases step_cases hs with ⟨j, op, o, rfl, hu, ho, rfl⟩ | ⟨i, p, rest, b, o, hst, _, ho, _, rfl⟩
  · have hpc : ∀ i p t', (i, p) ∈ s.stack t' → (upd s.obj j o i).pc p = (s.obj i).pc p := by
      intro i p t' hm
      by_cases hi' : i = j
      · subst hi'
        have := (hi.inside _ _ _ hm).1
        simp only [upd, if_true]; exact others ho (by omega)
      · simp only [upd, hi', if_false]
    intro t' f rest h1 i p hm
    by_cases ht : t' = t
    · subst ht
      simp only [upd, if_true, List.cons.injEq] at h1
      obtain ⟨-, rfl⟩ := h1
      simp only [hpc i p t' hm]
      cases hs : s.stack t' with
      | nil => rw [hs] at hm; cases hm
      | cons g rest' =>
        rw [hs] at hm
        rcases List.mem_cons.1 hm with rfl | hm
        · simp only [userTurn, hs, Bool.or_eq_true, Bool.and_eq_true] at hu
          rcases hu with hu | hu
          · exact .inl hu
          · exact .inr hu.2
        · exact hbel _ _ _ hs _ _ hm
    · simp only [upd, ht, if_false] at h1
      simp only [hpc i p t' (by rw [h1]; exact .tail _ hm)]
      exact hbel _ _ _ h1 _ _ hm
  · have hne : ∀ j q t', (j, q) ∈ s.stack t' → (j, q) ≠ (i, p) → (upd s.obj i o j).pc q = (s.obj j).pc q := by
      intro j q t' hm hne
      by_cases hj : j = i
      · subst hj
        simp only [upd, if_true]; exact others ho (by simpa using hne)
      · simp only [upd, hj, if_false]
    have hnd' := hi.nodup t
    rw [hst] at hnd'
    simp only [List.map_cons, List.nodup_cons] at hnd'
    intro t' f rest' h1 j q hm
    by_cases ht : t' = t
    · subst ht
      simp only [settle, upd, if_true] at h1
      have : (j, q) ∈ rest := by
        split at h1
        · rw [h1]; exact .tail _ hm
        · simp only [List.cons.injEq] at h1; rw [h1.2]; exact hm
      simp only [settle]
      rw [hne j q t' (by rw [hst]; exact .tail _ this)]
      · exact hbel t' _ _ hst j q this
      · rintro ⟨⟩
        exact hnd'.1 (List.mem_map.2 ⟨_, this, rfl⟩)
    · simp only [settle, upd, ht, if_false] at h1
      have hm' : (j, q) ∈ s.stack t' := by rw [h1]; exact .tail _ hm
      have : (j, q) ≠ (i, p) := by
        rintro ⟨⟩
        exact ht (hi.uniq _ _ _ _ _ hm' (by rw [hst]; exact .head _))
      simp only [settle, hne j q t' hm' this]
      exact hbel _ _ _ h1 _ _ hm

theorem user_reach {dep : F → F → Prop} {keep : Bool} {v₀ : F → Option V} {s : St F V E} (h : Reach dep keep v₀ s) :
    UserBelow s := by
  induction h with
  | init => intro t f rest h; simp [init] at h
  | step hr _ hs ih => exact user_step (inv_reach hr) ih hs

/-- Where a future can be dropped, or a guard. -/
def droppable : Async.Pc V E → Bool
  | .rStart _ | .xStart _ | .rCb _ | .rBuild _ | .gRead _ | .gMut _ | .gWrite _ => true
  | _ => false

theorem drop_one {keep : Bool} {s : St F V E} {t : Nat} {i : F} {p : Nat} {rest : List (F × Nat)}
    (hst : s.stack t = (i, p) :: rest) (hd : droppable ((s.obj i).pc p) = true) :
    ∃ a s', (a = .cancel ∨ a = .drop) ∧ step keep s t a = some s' ∧ s'.stack t = rest ∧
      (∀ t', t' ≠ t → s'.stack t' = s.stack t') ∧
      ∀ j, (s'.obj j).value = (s.obj j).value ∧ (s'.obj j).flag = (s.obj j).flag := by
  have key : ∀ (a : Act F V E) o, (a = .cancel ∧ Async.cancel (s.obj i) p = some o ∨ a = .drop ∧ Async.dropGuard (s.obj i) p = some o) →
      o.pc p = .idle → o.value = (s.obj i).value → o.flag = (s.obj i).flag →
      ∃ a s', (a = .cancel ∨ a = .drop) ∧ step keep s t a = some s' ∧ s'.stack t = rest ∧
      (∀ t', t' ≠ t → s'.stack t' = s.stack t') ∧
      ∀ j, (s'.obj j).value = (s.obj j).value ∧ (s'.obj j).flag = (s.obj j).flag := by
    intro a o ho hpc hv hf
    refine ⟨a, settle s t i p rest o, ?_, ?_, ?_, ?_, ?_⟩
    · rcases ho with ⟨rfl, _⟩ | ⟨rfl, _⟩ <;> simp
    · rcases ho with ⟨rfl, ho⟩ | ⟨rfl, ho⟩ <;> simp [step, hst, ho]
    · simp [settle, upd, hpc, gone]
    · intro t' ht
      simp [settle, upd, ht]
    · intro j
      by_cases hj : j = i
      · subst hj; simp [settle, upd, hv, hf]
      · simp [settle, upd, hj]
  cases hc : (s.obj i).pc p <;> simp [hc, droppable] at hd
  case rStart k =>
    obtain ⟨o, h1, h2, h3, h4⟩ : ∃ o, Async.cancel (s.obj i) p = some o ∧ o.pc p = .idle ∧ o.value = (s.obj i).value ∧
        o.flag = (s.obj i).flag := by simp [Async.cancel, hc, Async.St.quit, Async.St.ev, upd]
    exact key .cancel o (.inl ⟨rfl, h1⟩) h2 h3 h4
  case xStart k =>
    obtain ⟨o, h1, h2, h3, h4⟩ : ∃ o, Async.cancel (s.obj i) p = some o ∧ o.pc p = .idle ∧ o.value = (s.obj i).value ∧
        o.flag = (s.obj i).flag := by simp [Async.cancel, hc, Async.St.quit, Async.St.ev, upd]
    exact key .cancel o (.inl ⟨rfl, h1⟩) h2 h3 h4
  case rCb k =>
    obtain ⟨o, h1, h2, h3, h4⟩ : ∃ o, Async.cancel (s.obj i) p = some o ∧ o.pc p = .idle ∧ o.value = (s.obj i).value ∧
        o.flag = (s.obj i).flag := by simp [Async.cancel, hc, Async.St.quit, Async.St.ev, upd]
    exact key .cancel o (.inl ⟨rfl, h1⟩) h2 h3 h4
  case rBuild k =>
    obtain ⟨o, h1, h2, h3, h4⟩ : ∃ o, Async.cancel (s.obj i) p = some o ∧ o.pc p = .idle ∧ o.value = (s.obj i).value ∧
        o.flag = (s.obj i).flag := by simp [Async.cancel, hc, Async.St.quit, Async.St.ev, upd]
    exact key .cancel o (.inl ⟨rfl, h1⟩) h2 h3 h4
  case gRead g =>
    obtain ⟨o, h1, h2, h3, h4⟩ : ∃ o, Async.dropGuard (s.obj i) p = some o ∧ o.pc p = .idle ∧ o.value = (s.obj i).value ∧
        o.flag = (s.obj i).flag := by simp [Async.dropGuard, hc, Async.St.to, Async.St.ev, upd]
    exact key .drop o (.inr ⟨rfl, h1⟩) h2 h3 h4
  case gMut g =>
    obtain ⟨o, h1, h2, h3, h4⟩ : ∃ o, Async.dropGuard (s.obj i) p = some o ∧ o.pc p = .idle ∧ o.value = (s.obj i).value ∧
        o.flag = (s.obj i).flag := by simp [Async.dropGuard, hc, Async.St.to, Async.St.ev, upd]
    exact key .drop o (.inr ⟨rfl, h1⟩) h2 h3 h4
  case gWrite g =>
    obtain ⟨o, h1, h2, h3, h4⟩ : ∃ o, Async.dropGuard (s.obj i) p = some o ∧ o.pc p = .idle ∧ o.value = (s.obj i).value ∧
        o.flag = (s.obj i).flag := by simp [Async.dropGuard, hc, Async.St.to, Async.St.ev, upd]
    exact key .drop o (.inr ⟨rfl, h1⟩) h2 h3 h4

theorem user_droppable {c : Async.Pc V E} (h : building c = true ∨ holding c = true) : droppable c = true := by
  revert h
  cases c <;> simp [building, holding, droppable]

theorem drop_task {v₀ : F → Option V} {keep : Bool} (t : Nat) : ∀ (l : List (F × Nat)) (s : St F V E), Inv v₀ s → UserBelow s →
    s.stack t = l → (∀ i p rest, l = (i, p) :: rest → droppable ((s.obj i).pc p) = true) →
    ∃ sch s', (∀ x ∈ sch, x.1 = t ∧ (x.2 = .cancel ∨ x.2 = .drop)) ∧ sch.length = l.length ∧ run keep s sch = some s' ∧
      s'.stack t = [] ∧ (∀ t', t' ≠ t → s'.stack t' = s.stack t') ∧
      ∀ j, (s'.obj j).value = (s.obj j).value ∧ (s'.obj j).flag = (s.obj j).flag := by
  intro l
  induction l with
  | nil =>
    intro s _ _ hst _
    exact ⟨[], s, by simp, rfl, rfl, hst, fun _ _ => rfl, fun _ => ⟨rfl, rfl⟩⟩
  | cons f rest ih =>
    intro s hi hu hst hd
    obtain ⟨i, p⟩ := f
    obtain ⟨a, s₁, ha, h1, h2, h3, h4⟩ := drop_one (keep := keep) hst (hd i p rest rfl)
    have hu₁ := user_step hi hu h1
    have hi₁ := inv_step hi h1
    have hd₁ : ∀ j q r, rest = (j, q) :: r → droppable ((s₁.obj j).pc q) = true := by
      rintro j q r rfl
      have hq := hu t _ _ hst j q (.head _)
      have hpc : (s₁.obj j).pc q = (s.obj j).pc q := by
        rcases step_cases h1 with ⟨j', op, o, rfl, _⟩ | ⟨i', p', rest', b, o, hst', _, ho, _, rfl⟩
        · rcases ha with ha | ha <;> cases ha
        · rw [hst] at hst'
          simp only [List.cons.injEq, Prod.mk.injEq] at hst'
          obtain ⟨⟨rfl, rfl⟩, rfl⟩ := hst'
          have hnd := hi.nodup t
          rw [hst] at hnd
          by_cases hj : j = i
          · subst hj
            simp only [settle, upd, if_true]
            apply others ho
            rintro rfl
            simp at hnd
          · simp [settle, upd, hj]
      rw [hpc]
      exact user_droppable hq
    obtain ⟨sch, s', h5, h6, h7, h8, h9, h10⟩ := ih s₁ hi₁ hu₁ h2 hd₁
    refine ⟨(t, a) :: sch, s', ?_, by simp [h6], by simp [run, h1, h7], h8, fun t' ht => (h9 t' ht).trans (h3 t' ht),
      fun j => ⟨(h10 j).1.trans (h4 j).1, (h10 j).2.trans (h4 j).2⟩⟩
    intro x hx
    rcases List.mem_cons.1 hx with rfl | hx
    · exact ⟨rfl, ha⟩
    · exact h5 x hx

end Verif.Proof.AsyncMulti
