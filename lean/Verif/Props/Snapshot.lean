import Verif.Spec.Snapshot
import Verif.Props.Locks
import Verif.Props.AsyncLocks
/-
C109: what a copy of a whole object is which others change meanwhile.
-/
namespace Verif.Props.Snapshot
open Verif.Spec Verif.Spec.Memory Verif.Spec.Snapshot Verif.Model Verif.Proof

variable {L V : Type} [DecidableEq L] {eqv : V → V → Bool} {v₀ : L → V}

theorem legal_append {S O R : Type} {spec : S → O → R → S → Prop} {a c : S} {xs ys : List (Done O R)} :
    Legal spec a (xs ++ ys) c ↔ ∃ b, Legal spec a xs b ∧ Legal spec b ys c := by
  induction xs generalizing a with
  | nil =>
    constructor
    · intro h; exact ⟨a, .nil, h⟩
    · rintro ⟨b, h1, h2⟩; cases h1; exact h2
  | cons x xs ih =>
    constructor
    · intro h
      cases h with
      | cons h1 h2 =>
        obtain ⟨b, h3, h4⟩ := ih.1 h2
        exact ⟨b, .cons h1 h3, h4⟩
    · rintro ⟨b, h1, h2⟩
      cases h1 with
      | cons h3 h4 => exact .cons h3 (ih.2 ⟨b, h4, h2⟩)

/-- Calls which do not change a field leave it as it is. -/
theorem legal_unchanged {σ τ : L → V} {ds : List (Done (Op L V) (Ret V))} (h : Legal (Step eqv) σ ds τ) (i : L)
    (hn : ∀ d ∈ ds, ¬ Changes i d.op) : τ i = σ i := by
  induction h with
  | nil => rfl
  | @cons s₁ s₂ s₃ d ds h1 _ ih =>
    rw [ih fun d hd => hn d (.tail _ hd)]
    have hd := hn d (.head _)
    revert h1 hd
    cases d with
    | mk c op r =>
      intro h1 hd
      cases h1 <;> try rfl
      all_goals
        simp only [Changes] at hd
        simp [Memory.write, Ne.symm hd]

theorem split_unique {α : Type} {p q p' q' : List α} {b : α} (hn : (p ++ b :: q).Nodup) (h : p ++ b :: q = p' ++ b :: q') : p = p' := by
  induction p generalizing p' with
  | nil =>
    cases p' with
    | nil => rfl
    | cons c p' =>
      simp only [List.nil_append, List.cons_append, List.cons.injEq] at h
      obtain ⟨rfl, h⟩ := h
      rw [h] at hn
      simp at hn
  | cons c p ih =>
    cases p' with
    | nil =>
      simp only [List.nil_append, List.cons_append, List.cons.injEq] at h
      obtain ⟨rfl, _⟩ := h
      simp at hn
    | cons d p' =>
      simp only [List.cons_append, List.cons.injEq] at h
      obtain ⟨rfl, h⟩ := h
      rw [ih (List.nodup_cons.1 hn).2 h]

theorem before_of_split {α : Type} {l p q : List α} {a b : α} (hn : l.Nodup) (hl : l = p ++ b :: q) (hb : Before l a b) : a ∈ p := by
  obtain ⟨l₁, l₂, l₃, h⟩ := hb
  subst hl
  rw [split_unique hn h]
  simp

theorem not_mem_of_split {α : Type} {l p q : List α} {a b : α} (hn : l.Nodup) (hl : l = p ++ a :: q) (hb : Before l a b) : b ∉ p := by
  obtain ⟨l₁, l₂, l₃, h⟩ := hb
  subst hl
  intro hm
  have e : p = l₁ := split_unique (q' := l₂ ++ b :: l₃) hn (by rw [h]; simp)
  subst e
  rw [h] at hn
  simp only [List.append_assoc, List.nodup_append] at hn
  exact hn.2.2 b hm b (by simp) rfl

/-- The call that copied a part, as it took effect. -/
def done (x : Part L V) : Done (Op L V) (Ret V) := ⟨x.call, .get x.field, .value x.value⟩

variable {h : List (HEv (Op L V) (Ret V))} {cs : List (Part L V)}

theorem done_mem {lin : List (Done (Op L V) (Ret V))} {s : L → V} (hw : WellFormed h) (ho : Order eqv v₀ h lin s)
    (hc : Copied h cs) {x : Part L V} (hx : x ∈ cs) : done x ∈ lin := by
  obtain ⟨op, h1, h2⟩ := ho.all _ _ (hc.1 x hx).2
  have := Verif.Props.Locks.eq_of_key hw.once h1 (hc.1 x hx).1 rfl
  simp only [Part.begins, HEv.inv.injEq, true_and] at this
  subst this
  exact h2

/-- The moment at which a part is copied: the calls before it, and the contents then. -/
theorem moment {lin : List (Done (Op L V) (Ret V))} {s : L → V} (ho : Order eqv v₀ h lin s) {x : Part L V} (hm : done x ∈ lin) :
    ∃ (p q : List (Done (Op L V) (Ret V))) (σ : L → V), lin = p ++ done x :: q ∧ Legal (Step eqv) v₀ p σ ∧ σ x.field = x.value := by
  obtain ⟨p, q, hs⟩ := List.append_of_mem hm
  have hl := ho.legal
  rw [hs] at hl
  obtain ⟨σ, h1, h2⟩ := legal_append.1 hl
  refine ⟨p, q, σ, hs, h1, ?_⟩
  cases h2 with
  | cons h3 _ =>
    have key : ∀ {op : Op L V} {r : Ret V} {m : L → V}, Step eqv σ op r m → op = .get x.field → r = .value x.value → σ x.field = x.value := by
      intro op r m hs ho hr
      cases hs <;> simp_all
    exact key h3 rfl rfl

/-- **C109.** A copy of an object consists of contents its fields had one after another, in the order in which they were copied:
the moments are between the beginning and the end of the copy of each field, in one order of all calls. -/
theorem C109_field_by_field_partial (hw : WellFormed h) (hl : Linearizable (Step eqv) v₀ h) (hc : Copied h cs) :
    ∃ (lin : List (Done (Op L V) (Ret V))) (s : L → V), Order eqv v₀ h lin s ∧
      ∃ at_ : Part L V → List (Done (Op L V) (Ret V)) × (L → V),
        (∀ x ∈ cs, (at_ x).1 <+: lin ∧ Legal (Step eqv) v₀ (at_ x).1 (at_ x).2 ∧ (at_ x).2 x.field = x.value ∧
          (∀ d ∈ lin, Before h (.res d.id d.ret) x.begins → d ∈ (at_ x).1) ∧
          ∀ d ∈ lin, Before h x.ends (.inv d.id d.op) → d ∉ (at_ x).1) ∧
        cs.Pairwise fun x y => (at_ x).1 <+: (at_ y).1 := by
  obtain ⟨lin, s, h1, h2, h3, h4, h5⟩ := hl
  have ho : Order eqv v₀ h lin s := ⟨h1, h2, h3, h4, h5⟩
  have hn : lin.Nodup := nodup_of_map h2
  have ex : ∀ x : Part L V, ∃ a : List (Done (Op L V) (Ret V)) × (L → V), x ∈ cs →
      (∃ q, lin = a.1 ++ done x :: q) ∧ Legal (Step eqv) v₀ a.1 a.2 ∧ a.2 x.field = x.value := by
    intro x
    by_cases hx : x ∈ cs
    · obtain ⟨p, q, σ, e1, e2, e3⟩ := moment ho (done_mem hw ho hc hx)
      exact ⟨(p, σ), fun _ => ⟨⟨q, e1⟩, e2, e3⟩⟩
    · exact ⟨([], v₀), fun hx' => absurd hx' hx⟩
  refine ⟨lin, s, ho, fun x => Classical.choose (ex x), fun x hx => ?_, ?_⟩
  · obtain ⟨⟨q, e1⟩, e2, e3⟩ := Classical.choose_spec (ex x) hx
    have hm := done_mem hw ho hc hx
    exact ⟨⟨_, e1.symm⟩, e2, e3, fun d hd hb => before_of_split hn e1 (ho.real d hd _ hm hb),
      fun d hd hb => not_mem_of_split hn e1 (ho.real _ hm d hd hb)⟩
  · refine (List.pairwise_iff_forall_sublist.2 ?_)
    intro x y hxy
    have hx : x ∈ cs := hxy.subset (by simp)
    have hy : y ∈ cs := hxy.subset (by simp)
    have hb := List.pairwise_iff_forall_sublist.1 hc.2 hxy
    obtain ⟨⟨q, e1⟩, _, _⟩ := Classical.choose_spec (ex x) hx
    obtain ⟨⟨q', e2⟩, _, _⟩ := Classical.choose_spec (ex y) hy
    have hm := before_of_split hn e2 (ho.real _ (done_mem hw ho hc hx) _ (done_mem hw ho hc hy) hb)
    obtain ⟨a, b, hab⟩ := List.append_of_mem hm
    have : (Classical.choose (ex x)).1 = a := by
      refine split_unique (b := done x) (q := q) (q' := b ++ done y :: q') (by rw [← e1]; exact hn) ?_
      rw [← e1]
      conv => lhs; rw [e2, hab]
      simp
    show (Classical.choose (ex x)).1 <+: (Classical.choose (ex y)).1
    rw [this, hab]
    exact List.prefix_append _ _

/-- **C109.** If nobody is in a call that changes one of the fields while the copy is made then it is the object at one moment. -/
theorem C109_undisturbed_partial (hw : WellFormed h) (hl : Linearizable (Step eqv) v₀ h) (hc : Copied h cs) (hu : Undisturbed h cs) :
    Once eqv v₀ h cs := by
  obtain ⟨lin, s, h1, h2, h3, h4, h5⟩ := hl
  have ho : Order eqv v₀ h lin s := ⟨h1, h2, h3, h4, h5⟩
  have hn : lin.Nodup := nodup_of_map h2
  cases cs with
  | nil => exact ⟨lin, [], s, v₀, ho, List.nil_prefix, .nil, by simp⟩
  | cons x₀ cs =>
    obtain ⟨p, q, σ, e1, e2, e3⟩ := moment ho (done_mem hw ho hc (.head _))
    refine ⟨lin, p, s, σ, ho, ⟨_, e1.symm⟩, e2, fun x hx => ?_⟩
    rcases List.mem_cons.1 hx with rfl | hx'
    · exact e3
    obtain ⟨p', q', σ', f1, f2, f3⟩ := moment ho (done_mem hw ho hc hx)
    have hb := (List.pairwise_cons.1 hc.2).1 x hx'
    have hm := before_of_split hn f1 (ho.real _ (done_mem hw ho hc (.head _)) _ (done_mem hw ho hc hx) hb)
    obtain ⟨a, b, hab⟩ := List.append_of_mem hm
    have hpa : p = a := by
      refine split_unique (b := done x₀) (q := q) (q' := b ++ done x :: q') (by rw [← e1]; exact hn) ?_
      rw [← e1]
      conv => lhs; rw [f1, hab]
      simp
    subst hpa
    rw [hab] at f2
    obtain ⟨τ, g1, g2⟩ := legal_append.1 f2
    have det : ∀ {a : L → V} {ds} {b c : L → V}, Legal (Step eqv) a ds b → Legal (Step eqv) a ds c → b = c := by
      intro a ds
      induction ds generalizing a with
      | nil => intro b c h1 h2; cases h1; cases h2; rfl
      | cons d ds ih =>
        intro b c h1 h2
        cases h1 with
        | cons h3 h4 =>
          cases h2 with
          | cons h5 h6 =>
            have : ∀ {d : Done (Op L V) (Ret V)} {m n : L → V}, Step eqv a d.op d.ret m → Step eqv a d.op d.ret n → m = n := by
              rintro ⟨_, op, r⟩ m n hm hn
              simp only at hm hn
              cases hm <;> cases hn <;> rfl
            rw [this h3 h5] at h4
            exact ih h4 h6
    rw [det e2 g1, ← f3]
    refine (legal_unchanged g2 x.field fun d hd hch => ?_).symm
    have hdp : d ∈ p' := by rw [hab]; exact List.mem_append_right _ hd
    have hdl : d ∈ lin := by rw [f1]; exact List.mem_append_left _ hdp
    rcases hu d.id d.op (ho.made d hdl) ⟨x, hx, hch⟩ with ⟨r, hr⟩ | hr
    · have hb0 := hr x₀ (.head _)
      have hin : HEv.res d.id r ∈ h := by
        obtain ⟨l₁, l₂, l₃, e⟩ := hb0
        rw [e]; simp
      obtain ⟨op, _, hop⟩ := ho.all _ _ hin
      have hde : (⟨d.id, op, r⟩ : Done (Op L V) (Ret V)) = d := Verif.Props.Locks.eq_of_key h2 hop hdl rfl
      have hret : d.ret = r := by rw [← hde]
      rw [← hret] at hb0
      have hdp0 := before_of_split hn e1 (ho.real d hdl _ (done_mem hw ho hc (.head _)) hb0)
      have hn' := hn
      rw [f1, hab] at hn'
      simp only [List.append_assoc, List.nodup_append] at hn'
      exact hn'.2.2 d hdp0 d (by simp only [List.cons_append, List.mem_cons, List.mem_append]; rcases List.mem_cons.1 hd with e | e <;> simp [e]) rfl
    · exact not_mem_of_split hn f1 (ho.real _ (done_mem hw ho hc hx) d hdl (hr x hx)) hdp

/-- **C109** for structs with blocking locks, however threads run. -/
theorem C109_sync_partial {dep : L → L → Prop} {s : Locks.St L V} (hr : Locks.Reach eqv dep v₀ s)
    (hc : Copied (hist s.log) cs) (hu : Undisturbed (hist s.log) cs) : Once eqv v₀ (hist s.log) cs :=
  C109_undisturbed_partial (Verif.Props.Locks.C59_wellFormed hr) (Verif.Props.Locks.C59_linearizable hr) hc hu

/-- **C109** for async structs, however tasks run; calls whose future was dropped do not disturb. -/
theorem C109_async_partial {dep : L → L → Prop} {s : AsyncLocks.St L V} (hr : AsyncLocks.Reach eqv dep v₀ s)
    (hc : Copied (without (abandoned s.log) (hist s.log)) cs)
    (hu : Undisturbed (without (abandoned s.log) (hist s.log)) cs) :
    Once eqv v₀ (without (abandoned s.log) (hist s.log)) cs :=
  C109_undisturbed_partial (Verif.Props.AsyncLocks.C90_cancelled_never_made hr).1
    (Verif.Props.AsyncLocks.C90_cancelled_never_made hr).2 hc hu

/-! ## The copy may be torn -/

/-- Thread 0 copies fields `false` and `true`; between the two thread 1 sets `false`, then `true`, to 1. -/
def tornRun : List (Nat × Locks.Act Bool Nat) :=
  [(0, .call (.get false)), (0, .go), (0, .go), (0, .go),
   (1, .call (.swap false 1)), (1, .go), (1, .go), (1, .go), (1, .go),
   (1, .call (.swap true 1)), (1, .go), (1, .go), (1, .go), (1, .go),
   (0, .call (.get true)), (0, .go), (0, .go), (0, .go)]

/-- What is seen of it. -/
def tornHist : List (HEv (Op Bool Nat) (Ret Nat)) :=
  [.inv ⟨0, 0⟩ (.get false), .res ⟨0, 0⟩ (.value 0), .inv ⟨1, 0⟩ (.swap false 1), .res ⟨1, 0⟩ (.value 0),
   .inv ⟨1, 1⟩ (.swap true 1), .res ⟨1, 1⟩ (.value 0), .inv ⟨0, 1⟩ (.get true), .res ⟨0, 1⟩ (.value 1)]

/-- The copy: 0 and 1. -/
def tornCopy : List (Part Bool Nat) := [⟨⟨0, 0⟩, false, 0⟩, ⟨⟨0, 1⟩, true, 1⟩]

/-- In an order of the calls of this history the call with the given beginning and end is there as it was. -/
theorem torn_mem {lin : List (Done (Op Bool Nat) (Ret Nat))} {s : Bool → Nat} {v : Bool → Nat}
    (ho : Order (fun a b => a == b) v tornHist lin s) {c : CallId} {op : Op Bool Nat} {r : Ret Nat}
    (h1 : HEv.inv c op ∈ tornHist) (h2 : HEv.res c r ∈ tornHist) : (⟨c, op, r⟩ : Done (Op Bool Nat) (Ret Nat)) ∈ lin := by
  obtain ⟨op', h3, h4⟩ := ho.all c r h2
  have : op' = op := by
    simp only [tornHist, List.mem_cons, HEv.inv.injEq, reduceCtorEq, List.not_mem_nil, or_false, false_or] at h1 h3
    rcases h1 with ⟨rfl, rfl⟩ | ⟨rfl, rfl⟩ | ⟨rfl, rfl⟩ | ⟨rfl, rfl⟩ <;> simpa using h3
  exact this ▸ h4

/-- A call of this history that changes a field. -/
theorem torn_changes {c : CallId} {op : Op Bool Nat} {i : Bool} (h : HEv.inv c op ∈ tornHist) (hc : Changes i op) :
    c = ⟨1, if i then 1 else 0⟩ := by
  simp only [tornHist, List.mem_cons, HEv.inv.injEq, reduceCtorEq, List.not_mem_nil, or_false, false_or] at h
  rcases h with ⟨rfl, rfl⟩ | ⟨rfl, rfl⟩ | ⟨rfl, rfl⟩ | ⟨rfl, rfl⟩
  · cases hc
  · cases hc; rfl
  · cases hc; rfl
  · cases hc

/-- **C109, negation.** There is a run of two threads in which one copies an object whose contents are first 0, 0, then 1, 0,
then 1, 1, and the copy is 0, 1: the object was not like that at any moment of any order of the calls. -/
theorem C109_torn_copy_false : ∃ s, Locks.run (fun a b => a == b) (Locks.init fun _ => 0) tornRun = some s ∧
    hist s.log = tornHist ∧ Copied tornHist tornCopy ∧ ¬ Once (fun a b => a == b) (fun _ => 0) tornHist tornCopy := by
  refine ⟨_, rfl, rfl, ⟨?_, ?_⟩, ?_⟩
  · intro x hx
    simp only [tornCopy, List.mem_cons, List.not_mem_nil, or_false] at hx
    rcases hx with rfl | rfl <;> simp [Part.begins, Part.ends, tornHist]
  · simp only [tornCopy, List.pairwise_cons, List.mem_singleton, List.not_mem_nil, false_implies, implies_true, List.Pairwise.nil,
      and_true, forall_eq]
    exact ⟨[.inv ⟨0, 0⟩ (.get false)], [.inv ⟨1, 0⟩ (.swap false 1), .res ⟨1, 0⟩ (.value 0),
      .inv ⟨1, 1⟩ (.swap true 1), .res ⟨1, 1⟩ (.value 0)], [.res ⟨0, 1⟩ (.value 1)], rfl⟩
  · rintro ⟨lin, p, s, σ, ho, ⟨q, hq⟩, hl, hx⟩
    have h0 : σ false = 0 := hx ⟨⟨0, 0⟩, false, 0⟩ (by simp [tornCopy])
    have h1 : σ true = 1 := hx ⟨⟨0, 1⟩, true, 1⟩ (by simp [tornCopy])
    have hn : lin.Nodup := nodup_of_map ho.ids
    have m0 := torn_mem ho (c := ⟨1, 0⟩) (op := .swap false 1) (r := .value 0) (by decide) (by decide)
    have m1 := torn_mem ho (c := ⟨1, 1⟩) (op := .swap true 1) (r := .value 0) (by decide) (by decide)
    have hsub : ∀ d ∈ p, d ∈ lin := fun d hd => by rw [← hq]; exact List.mem_append_left _ hd
    have in1 : (⟨⟨1, 1⟩, .swap true 1, .value 0⟩ : Done (Op Bool Nat) (Ret Nat)) ∈ p := by
      refine Classical.byContradiction fun hno => ?_
      have := legal_unchanged hl true fun d hd hc => by
        have hid := torn_changes (ho.made d (hsub d hd)) hc
        have := Verif.Props.Locks.eq_of_key ho.ids (hsub d hd) m1 hid
        exact hno (this ▸ hd)
      rw [h1] at this
      cases this
    have in0 : (⟨⟨1, 0⟩, .swap false 1, .value 0⟩ : Done (Op Bool Nat) (Ret Nat)) ∈ p := by
      have hb := ho.real _ m0 _ m1 ⟨[.inv ⟨0, 0⟩ (.get false), .res ⟨0, 0⟩ (.value 0), .inv ⟨1, 0⟩ (.swap false 1)], [],
        [.res ⟨1, 1⟩ (.value 0), .inv ⟨0, 1⟩ (.get true), .res ⟨0, 1⟩ (.value 1)], rfl⟩
      obtain ⟨a, b, hab⟩ := List.append_of_mem in1
      have := before_of_split (p := a) (q := b ++ q) hn (by rw [← hq, hab]; simp) hb
      rw [hab]
      exact List.mem_append_left _ this
    obtain ⟨a, b, hab⟩ := List.append_of_mem in0
    rw [hab] at hl
    obtain ⟨τ, _, hl2⟩ := legal_append.1 hl
    cases hl2 with
    | @cons _ σ₂ _ _ _ h3 h4 =>
      have e1 : σ₂ false = 1 := by
        have key : ∀ {op : Op Bool Nat} {r : Ret Nat} {m : Bool → Nat}, Step (fun a b => a == b) τ op r m → op = .swap false 1 →
            r = .value 0 → m false = 1 := by
          intro op r m hs h1 h2
          cases hs <;> simp_all [Memory.write]
        exact key h3 rfl rfl
      have := legal_unchanged h4 false fun d hd hc => by
        have hdp : d ∈ p := by rw [hab]; exact List.mem_append_right _ (.tail _ hd)
        have hid := torn_changes (ho.made d (hsub d hdp)) hc
        have hde := Verif.Props.Locks.eq_of_key ho.ids (hsub d hdp) m0 hid
        subst hde
        have hn' := hn
        rw [← hq, hab] at hn'
        simp only [List.append_assoc, List.cons_append] at hn'
        have := (List.nodup_cons.1 (List.nodup_append.1 hn').2.1).1
        exact this (List.mem_append_left _ hd)
      rw [h0, e1] at this
      cases this

/-- Two objects with two fields each. Thread 0 compares them field by field; between the two comparisons thread 1 sets the first
field of the first object to 1 and then the second field of the second object to 0. -/
def compareRun : List (Nat × Locks.Act (Bool × Bool) Nat) :=
  [(0, .call (.eq (false, false) (true, false)))] ++ List.replicate 6 (0, .go) ++
  [(1, .call (.swap (false, false) 1)), (1, .go), (1, .go), (1, .go), (1, .go),
   (1, .call (.swap (true, true) 0)), (1, .go), (1, .go), (1, .go), (1, .go),
   (0, .call (.eq (false, true) (true, true)))] ++ List.replicate 6 (0, .go)

/-- Contents at first: 0, 0 and 0, 1. -/
def compareInit : Bool × Bool → Nat
  | (true, true) => 1
  | _ => 0

/-- **C109, negation.** A comparison made field by field finds two objects equal although they differ all the time. -/
theorem C109_torn_compare_false : (∃ s, Locks.run (fun a b => a == b) (Locks.init compareInit) compareRun = some s ∧
      hist s.log = [.inv ⟨0, 0⟩ (.eq (false, false) (true, false)), .res ⟨0, 0⟩ (.bool true),
        .inv ⟨1, 0⟩ (.swap (false, false) 1), .res ⟨1, 0⟩ (.value 0),
        .inv ⟨1, 1⟩ (.swap (true, true) 0), .res ⟨1, 1⟩ (.value 1),
        .inv ⟨0, 1⟩ (.eq (false, true) (true, true)), .res ⟨0, 1⟩ (.bool true)]) ∧
    ∀ pre s, pre <+: compareRun → Locks.run (fun a b => a == b) (Locks.init compareInit) pre = some s →
      ¬ ∀ i, s.val (false, i) = s.val (true, i) := by
  refine ⟨⟨_, rfl, rfl⟩, ?_⟩
  intro pre s hp hr he
  have hk : ∀ n, n < compareRun.length + 1 → ((Locks.run (fun a b => a == b) (Locks.init compareInit) (compareRun.take n)).any
      fun m => m.val (false, false) == m.val (true, false) && m.val (false, true) == m.val (true, true)) = false := by
    decide +kernel
  have := hk pre.length (Nat.lt_succ_of_le hp.length_le)
  rw [← List.prefix_iff_eq_take.1 hp, hr] at this
  simp [he false, he true] at this

/-! ## Cases -/

-- the copy after both were set is not disturbed
example : ∃ h cs, WellFormed h ∧ Linearizable (Step fun (a b : Nat) => a == b) (fun _ : Bool => 0) h ∧ Copied h cs ∧ Undisturbed h cs ∧
    cs.map Part.value = [1, 0] ∧ ∃ c op, HEv.inv c op ∈ h ∧ Changes false op := by
  obtain ⟨s, hs⟩ : ∃ s, Locks.run (fun a b : Nat => a == b) (Locks.init fun _ : Bool => 0)
    [(1, .call (.swap false 1)), (1, .go), (1, .go), (1, .go), (1, .go),
     (0, .call (.get false)), (0, .go), (0, .go), (0, .go),
     (0, .call (.get true)), (0, .go), (0, .go), (0, .go)] = some s := ⟨_, rfl⟩
  have hr := Verif.Props.Locks.reach_run .init hs
  have hh : hist s.log = [.inv ⟨1, 0⟩ (.swap false 1), .res ⟨1, 0⟩ (.value 0), .inv ⟨0, 0⟩ (.get false), .res ⟨0, 0⟩ (.value 1),
      .inv ⟨0, 1⟩ (.get true), .res ⟨0, 1⟩ (.value 0)] := by
    have : s = _ := (Option.some.inj hs).symm
    rw [this]; rfl
  refine ⟨hist s.log, [⟨⟨0, 0⟩, false, 1⟩, ⟨⟨0, 1⟩, true, 0⟩], Verif.Props.Locks.C59_wellFormed hr,
    Verif.Props.Locks.C59_linearizable hr, ?_⟩
  rw [hh]
  refine ⟨⟨?_, ?_⟩, ?_, rfl, _, _, .head _, rfl⟩
  · intro x hx
    simp only [List.mem_cons, List.not_mem_nil, or_false] at hx
    rcases hx with rfl | rfl <;> simp [Part.begins, Part.ends]
  · simp only [List.pairwise_cons, List.mem_singleton, List.not_mem_nil, false_implies, implies_true, List.Pairwise.nil,
      and_true, forall_eq]
    exact ⟨[_, _, _], [], [_], rfl⟩
  · intro c op hc _
    refine .inl ⟨.value 0, fun x hx => ?_⟩
    simp only [List.mem_cons, HEv.inv.injEq, reduceCtorEq, List.not_mem_nil, or_false, false_or] at hc hx
    rcases hc with ⟨rfl, rfl⟩ | ⟨rfl, rfl⟩ | ⟨rfl, rfl⟩
    · rcases hx with rfl | rfl
      · exact ⟨[_], [], [_, _, _], rfl⟩
      · exact ⟨[_], [_, _], [_], rfl⟩
    all_goals rename_i hch; obtain ⟨_, _, hch⟩ := hch; cases hch

-- a setter whose future is dropped while a copy is made does not disturb it
example : ∃ s : AsyncLocks.St Bool Nat, AsyncLocks.Reach (fun a b => a == b) Verif.Props.AsyncLocks.anyOrder (fun _ => 0) s ∧
    hist s.log = [.inv ⟨0, 0⟩ (.get false), .inv ⟨1, 0⟩ (.swap true 1), .res ⟨0, 0⟩ (.value 0), .inv ⟨0, 1⟩ (.get true),
      .res ⟨0, 1⟩ (.value 0)] ∧
    Copied (without (abandoned s.log) (hist s.log)) [⟨⟨0, 0⟩, false, 0⟩, ⟨⟨0, 1⟩, true, 0⟩] ∧
    Undisturbed (without (abandoned s.log) (hist s.log)) [⟨⟨0, 0⟩, false, 0⟩, ⟨⟨0, 1⟩, true, 0⟩] := by
  obtain ⟨s, hs⟩ : ∃ s, AsyncLocks.run (fun a b : Nat => a == b) (AsyncLocks.init fun _ : Bool => 0)
    [(0, .call (.get false)), (0, .go), (1, .call (.swap true 1)), (0, .go), (1, .cancel), (0, .go),
     (0, .call (.get true)), (0, .go), (0, .go), (0, .go)] = some s := ⟨_, rfl⟩
  have hr := Verif.Props.AsyncLocks.reach_run .init hs
  have he : s = _ := (Option.some.inj hs).symm
  have hh : hist s.log = [.inv ⟨0, 0⟩ (.get false), .inv ⟨1, 0⟩ (.swap true 1), .res ⟨0, 0⟩ (.value 0), .inv ⟨0, 1⟩ (.get true),
      .res ⟨0, 1⟩ (.value 0)] := by rw [he]; rfl
  have hw : without (abandoned s.log) (hist s.log) = [.inv ⟨0, 0⟩ (.get false), .res ⟨0, 0⟩ (.value 0), .inv ⟨0, 1⟩ (.get true),
      .res ⟨0, 1⟩ (.value 0)] := by rw [he]; rfl
  refine ⟨s, hr, hh, ?_⟩
  rw [hw]
  refine ⟨⟨?_, ?_⟩, ?_⟩
  · intro x hx
    simp only [List.mem_cons, List.not_mem_nil, or_false] at hx
    rcases hx with rfl | rfl <;> simp [Part.begins, Part.ends]
  · simp only [List.pairwise_cons, List.mem_singleton, List.not_mem_nil, false_implies, implies_true, List.Pairwise.nil,
      and_true, forall_eq]
    exact ⟨[_], [], [_], rfl⟩
  · rintro c op hc ⟨x, _, hch⟩
    simp only [List.mem_cons, HEv.inv.injEq, reduceCtorEq, List.not_mem_nil, or_false, false_or] at hc
    rcases hc with ⟨rfl, rfl⟩ | ⟨rfl, rfl⟩ <;> cases hch

end Verif.Props.Snapshot
