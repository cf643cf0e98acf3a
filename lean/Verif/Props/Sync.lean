import Verif.Proof.LogThms
import Verif.Proof.SyncLive
/-!
# Properties of the sync lazy container: C01 – C10, C14

Model: `Verif.Model.Sync` (/repo/fieldx/src/sync/fxproxy.rs). `Reach v₀ s`: some schedule of any number of processes leads
from a container created with content `v₀` to `s`. `s.log` records calls (`inv`), the moment they take effect (`lin`),
returns (`res`), builder runs (`bstart`, `bend`), and the end of guards (`drop`).
The sequential object is `Spec.CellStep`.
-/

namespace Verif.Props.Sync
open Verif.Spec Verif.Model Verif.Model.Sync Verif.Proof Verif.Proof.Sync

variable {V E : Type} {v₀ : Option V} {s : St V E}

/-! ## A concrete execution used in the examples -/

theorem reach_run {s₀ s : St V E} (h₀ : Reach v₀ s₀) {sch : List (Nat × Act V E)} (h : run s₀ sch = some s) :
    Reach v₀ s := by
  induction sch generalizing s₀ with
  | nil => simp [run] at h; exact h ▸ h₀
  | cons x sch ih =>
    obtain ⟨p, a⟩ := x
    simp only [run, Option.bind_eq_some_iff] at h
    obtain ⟨s₁, h1, h2⟩ := h
    exact ih (.step h₀ h1) h2

/-- `n` steps of the code of process `p`. -/
def gos (p n : Nat) : List (Nat × Act Nat Nat) := List.replicate n (p, .go)

/-- Process 0 fails to build; process 1 builds 5 while process 2 asks the predicate, then looks at its guard;
process 3 clones; after the guard is gone process 2 clears; process 0 builds 7 by `get_mut` and overwrites it with 8. -/
def demo : List (Nat × Act Nat Nat) :=
  [(0, .call (.get .tryRead))] ++ gos 0 4 ++ [(0, .finish (.err 9))] ++ gos 0 1 ++
  [(1, .call (.get .read)), (2, .call .isSet)] ++ gos 1 4 ++ gos 2 2 ++ [(1, .finish (.ok 5))] ++ gos 1 5 ++
  [(1, .call (.deref ⟨1, 0⟩)), (3, .call .snapshot)] ++ gos 3 4 ++ gos 1 2 ++ [(1, .drop)] ++
  [(2, .call .clear)] ++ gos 2 5 ++
  [(0, .call (.get .readMut))] ++ gos 0 4 ++ [(0, .finish (.ok 7))] ++ gos 0 6 ++
  [(0, .call (.assign ⟨0, 1⟩ 8))] ++ gos 0 2

/-- The log of `demo`. -/
def demoLog : List (Ev Nat Nat) :=
    [ .inv ⟨0, 0⟩ (.get .tryRead), .other (.bstart ⟨0, 0⟩), .other (.bend ⟨0, 0⟩ (.err 9)),
      .lin ⟨0, 0⟩ (.get .tryRead) ⟨some (.err 9), .error 9⟩, .res ⟨0, 0⟩ ⟨some (.err 9), .error 9⟩,
      .inv ⟨1, 0⟩ (.get .read), .inv ⟨2, 0⟩ .isSet, .other (.bstart ⟨1, 0⟩),
      .lin ⟨2, 0⟩ .isSet ⟨none, .bool false⟩, .res ⟨2, 0⟩ ⟨none, .bool false⟩,
      .other (.bend ⟨1, 0⟩ (.ok 5)), .lin ⟨1, 0⟩ (.get .read) ⟨some (.ok 5), .value 5⟩,
      .res ⟨1, 0⟩ ⟨some (.ok 5), .value 5⟩,
      .inv ⟨1, 1⟩ (.deref ⟨1, 0⟩), .inv ⟨3, 0⟩ .snapshot,
      .lin ⟨3, 0⟩ .snapshot ⟨none, .snap (some 5) true⟩, .res ⟨3, 0⟩ ⟨none, .snap (some 5) true⟩,
      .lin ⟨1, 1⟩ (.deref ⟨1, 0⟩) ⟨none, .value 5⟩, .res ⟨1, 1⟩ ⟨none, .value 5⟩,
      .other (.drop ⟨1, 0⟩),
      .inv ⟨2, 1⟩ .clear, .lin ⟨2, 1⟩ .clear ⟨none, .old (some 5)⟩, .res ⟨2, 1⟩ ⟨none, .old (some 5)⟩,
      .inv ⟨0, 1⟩ (.get .readMut), .other (.bstart ⟨0, 1⟩), .other (.bend ⟨0, 1⟩ (.ok 7)),
      .lin ⟨0, 1⟩ (.get .readMut) ⟨some (.ok 7), .value 7⟩, .res ⟨0, 1⟩ ⟨some (.ok 7), .value 7⟩,
      .inv ⟨0, 2⟩ (.assign ⟨0, 1⟩ 8), .lin ⟨0, 2⟩ (.assign ⟨0, 1⟩ 8) ⟨none, .value 7⟩,
      .res ⟨0, 2⟩ ⟨none, .value 7⟩ ]

theorem demo_reach : ∃ s : St Nat Nat, Reach none s ∧ s.log = demoLog ∧ s.value = some 8 ∧ s.flag = true ∧
    s.pc 0 = .gMut ⟨0, 1⟩ := by
  have h : (run (init none) demo).map (fun s => (s.log, s.value, s.flag, s.pc 0)) =
    some (demoLog, some 8, true, .gMut ⟨0, 1⟩) := by decide
  rw [Option.map_eq_some_iff] at h
  obtain ⟨s, h1, h2⟩ := h
  simp only [Prod.mk.injEq] at h2
  exact ⟨s, reach_run .init h1, h2⟩

/-! ## C01 one successful build per empty period -/

/-- While the builder runs, memory is empty and the predicate is false. -/
theorem C01_memory_empty_while_building (h : Reach v₀ s) {p : Nat} {k : GetKind} (hp : s.pc p = .rBuild k) :
    s.value = none ∧ s.flag = false ∧ ∀ q k', s.pc q = .rBuild k' → q = p := by
  have hc := core_reach h
  have h1 := hc.mem p
  rw [hp] at h1
  have h1 : s.value = none := h1
  refine ⟨h1, ?_, ?_⟩
  · rw [hc.quiet (hc.no_mid (p := p) (by rw [hp]; rfl) (by rw [hp]; rfl)), h1]; rfl
  · intro q k' hq
    apply Classical.byContradiction
    intro hne
    have := (hc.alone (p := p) (q := q) (by rw [hp]; rfl) hne).2.2.1
    rw [hq] at this; cases this

/-- The builder is started only when the calls that took effect so far left the field empty, and until that run ends the
field stays empty. -/
theorem C01_builder_runs_only_when_empty (h : Reach v₀ s) {l₁ l₂ l₃ : List (Ev V E)} {i : CallId}
    (hl : s.log = l₁ ++ .other (.bstart i) :: (l₂ ++ l₃)) (hn : ∀ o, .other (.bend i o) ∉ l₂) :
    ∀ c, Legal CellStep v₀ (lins (l₁ ++ .other (.bstart i) :: l₂)) c → c = none := by
  exact build_only_when_empty (reach_c h) hl hn (fun hx => (no_abort h i).1 (by rw [hl]; simp [hx]))

/-- A run ends before another begins. -/
theorem C01_no_two_runs_overlap (h : Reach v₀ s) {l₁ l₂ l₃ : List (Ev V E)} {i j : CallId}
    (hl : s.log = l₁ ++ .other (.bstart i) :: (l₂ ++ .other (.bstart j) :: l₃)) : ∃ o, .other (.bend i o) ∈ l₂ := by
  rcases no_overlap (reach_c h) hl with h1 | h1
  · exact h1
  · exact absurd (by rw [hl]; simp [h1]) (no_abort h i).1

/-- Between two runs which gave a value some call emptied the field: a clear which handed out what was stored. -/
theorem C01_clear_between_builds (h : Reach v₀ s) {l₁ l₂ l₃ : List (Ev V E)} {i j : CallId} {v w : V}
    (hl : s.log = l₁ ++ .other (.bend i (.ok v)) :: (l₂ ++ .other (.bend j (.ok w)) :: l₃)) :
    ∃ c op u, (op = .clear ∨ op = .take) ∧ .lin c op ⟨none, .old (some u)⟩ ∈ l₂ := by
  exact clear_between (reach_c h) hl

-- `demo` has two builds that gave a value, 5 and 7; the clear of process 2 lies between them.
example : ∃ s : St Nat Nat, Reach none s ∧ ∃ l₁ l₂ l₃, s.log =
    l₁ ++ .other (.bend ⟨1, 0⟩ (.ok 5)) :: (l₂ ++ .other (.bend ⟨0, 1⟩ (.ok 7)) :: l₃) ∧
    .lin ⟨2, 1⟩ .clear ⟨none, .old (some 5)⟩ ∈ l₂ := by
  obtain ⟨s, h, hl, _⟩ := demo_reach
  exact ⟨s, h, demoLog.take 10, (demoLog.drop 11).take 14, demoLog.drop 26, by rw [hl]; decide, by decide⟩

/-! ## C02 linearizability -/

/-- Every history of calls on a sync lazy field is well formed and linearizable with respect to the optional cell with
build-on-read; the lock-free predicate (`isSet`) is one of the calls. -/
theorem C02_sync_linearizable (h : Reach v₀ s) :
    WellFormed (hist s.log) ∧ Linearizable CellStep v₀ (hist s.log) := by
  exact linearizable (reach_c h)

-- The predicate call of process 2 overlaps the build of process 1 and answers `false`.
example : ∃ s : St Nat Nat, Reach none s ∧ Before (hist s.log) (.inv ⟨1, 0⟩ (.get .read)) (.res ⟨2, 0⟩ ⟨none, .bool false⟩) ∧
    Before (hist s.log) (.res ⟨2, 0⟩ ⟨none, .bool false⟩) (.res ⟨1, 0⟩ ⟨some (.ok 5), .value 5⟩) := by
  obtain ⟨s, h, hl, _⟩ := demo_reach
  refine ⟨s, h, ?_, ?_⟩ <;> rw [hl]
  · exact ⟨(hist demoLog).take 2, ((hist demoLog).drop 3).take 1, (hist demoLog).drop 5, by decide⟩
  · exact ⟨(hist demoLog).take 4, [], (hist demoLog).drop 6, by decide⟩

/-! ## C03 the predicate agrees with the value -/

/-- Whenever nobody owns the exclusive bit the predicate tells whether there is a value. -/
theorem C03_flag_agrees (h : Reach v₀ s) (hw : s.lk.wr = none) : s.flag = s.value.isSome := by
  have hc := core_reach h
  apply hc.quiet
  intro p
  cases hm : mid (s.pc p) with
  | false => rfl
  | true =>
    have := (hc.wr p).2 (by simp [mid_excl hm])
    rw [hw] at this; cases this

/-- While anyone holds a guard on the value the predicate is true. -/
theorem C03_flag_true_under_guard (h : Reach v₀ s) {p : Nat} {g : CallId} (hp : s.pc p = .gRead g ∨ s.pc p = .gMut g) :
    s.flag = true ∧ s.value.isSome = true := by
  have hc := core_reach h
  have h1 := hc.mem p
  have h2 := hc.quiet (hc.no_mid (p := p) (by rcases hp with hp | hp <;> rw [hp] <;> rfl)
    (by rcases hp with hp | hp <;> rw [hp] <;> rfl))
  have h3 : s.value.isSome = true := by rcases hp with hp | hp <;> rw [hp] at h1 <;> exact h1
  exact ⟨by rw [h2, h3], h3⟩

example : ∃ s : St Nat Nat, Reach none s ∧ s.pc 0 = .gMut ⟨0, 1⟩ := by
  obtain ⟨s, h, _, _, _, hp⟩ := demo_reach
  exact ⟨s, h, hp⟩

-- after the clear of process 2 in `demo` nobody is inside, and the predicate is false
example : ∃ s : St Nat Nat, Reach none s ∧ s.lk.wr = none ∧ s.flag = false ∧ s.seq 2 = 2 := by
  have h : (run (init none : St Nat Nat) (demo.take 36)).map (fun s => (s.lk.wr, s.flag, s.seq 2)) =
    some (none, false, 2) := by decide
  rw [Option.map_eq_some_iff] at h
  obtain ⟨s, h1, h2⟩ := h
  simp only [Prod.mk.injEq] at h2
  exact ⟨s, reach_run .init h1, h2⟩

/-! ## C04 a read guard shows one value -/

/-- Between the return of an accessor with a read guard and the drop of that guard: no call that took effect changed the
field, and the field held the returned value when the guard was obtained. -/
theorem C04_no_change_under_guard (h : Reach v₀ s) {l₁ l₂ : List (Ev V E)} {g : CallId} {ran v} {k : GetKind}
    (hl : s.log = l₁ ++ .res g ⟨ran, .value v⟩ :: l₂) (hg : .inv g (.get k) ∈ l₁) (hk : k.mutable = false)
    (hd : .other (.drop g) ∉ l₂) :
    Legal CellStep v₀ (lins l₁) (some v) ∧ ∀ c, Legal CellStep v₀ (lins s.log) c → c = some v := by
  exact guard_no_change (reach_c h) hl hg hk hd

/-- Every dereference of the guard gives the value which the accessor returned. -/
theorem C04_deref_same_value (h : Reach v₀ s) {l₁ l₂ : List (Ev V E)} {g i : CallId} {ran v r} {k : GetKind}
    (hl : s.log = l₁ ++ .res g ⟨ran, .value v⟩ :: l₂) (hg : .inv g (.get k) ∈ l₁) (hk : k.mutable = false)
    (hd : .other (.drop g) ∉ l₂) (hi : .inv i (.deref g) ∈ l₂) (hr : .res i r ∈ s.log) : r = ⟨none, .value v⟩ := by
  exact deref_same (reach_c h) hl hg hk hd hi hr

/-- No exclusive guard coexists with a read guard. -/
theorem C04_no_exclusive_beside_guard (h : Reach v₀ s) {p q : Nat} {g g' : CallId} (hp : s.pc p = .gRead g) :
    s.pc q ≠ .gMut g' ∧ s.pc q ≠ .gWrite g' := by
  have hc := core_reach h
  have h1 := (hc.sh p).2 (by rw [hp]; rfl)
  constructor <;> intro hq <;> have h2 := hc.ex q (by rw [hq]; rfl) <;> rw [h2] at h1 <;> simp at h1

-- in `demo` process 1 got its guard with 5 and dereferences it
example : ∃ s : St Nat Nat, Reach none s ∧ ∃ l₁ l₂, s.log = l₁ ++ .res ⟨1, 0⟩ ⟨some (.ok 5), .value 5⟩ :: l₂ ∧
    .inv ⟨1, 0⟩ (.get .read) ∈ l₁ ∧ .other (.drop ⟨1, 0⟩) ∉ l₂ ∧ .inv ⟨1, 1⟩ (.deref ⟨1, 0⟩) ∈ l₂ ∧
    .res ⟨1, 1⟩ ⟨none, .value 5⟩ ∈ s.log := by
  have h : (run (init none) (demo.take 29)).map (fun s => s.log) = some (demoLog.take 19) := by decide
  rw [Option.map_eq_some_iff] at h
  obtain ⟨s, h1, h2⟩ := h
  exact ⟨s, reach_run .init h1, demoLog.take 12, (demoLog.take 19).drop 13, by rw [h2]; decide, by decide, by decide,
    by decide, by rw [h2]; decide⟩

/-! ## C05 a failed builder leaves no trace -/

/-- When the builder ends with `Err` or a panic the field is empty and the predicate false; the call then drops its write
guard without waiting for anybody, after which the process holds nothing and the field is still empty. -/
theorem C05_failure_leaves_no_trace (h : Reach v₀ s) {p : Nat} {o : Outcome V E} {s₁ : St V E} (ho : o.value? = none)
    (hs : step s p (.finish o) = some s₁) :
    s₁.value = none ∧ s₁.flag = false ∧
    ∃ s₂, step s₁ p .go = some s₂ ∧ s₂.pc p = .idle ∧ s₂.value = none ∧ s₂.flag = false ∧
      s₂.lk.wr = none ∧ s₂.lk.upg ≠ some p ∧ p ∉ s₂.lk.shared := by
  have hr₁ : Reach v₀ s₁ := .step h hs
  have hk : ∃ k, s₁.pc p = .rFail k o := by
    simp only [step, builderReturns] at hs
    split at hs
    · rename_i k _
      cases o with
      | ok v => simp [Outcome.value?] at ho
      | err e => simp at hs; subst hs; exact ⟨k, by simp [St.to]⟩
      | panic => simp at hs; subst hs; exact ⟨k, by simp [St.to]⟩
    · simp at hs
  obtain ⟨k, hk⟩ := hk
  have hc₁ := core_reach hr₁
  have h1 := hc₁.mem p
  rw [hk] at h1
  have h2 : s₁.value = none := h1.1
  have h3 : s₁.flag = false := by
    rw [hc₁.quiet (hc₁.no_mid (p := p) (by rw [hk]; rfl) (by rw [hk]; rfl)), h2]; rfl
  refine ⟨h2, h3, ?_⟩
  have hgo : step s₁ p .go = some ({ s₁ with lk := s₁.lk.dropWrite }.ret p .idle ⟨some o, getRet k o⟩) := by
    simp [step, go, hk]
  refine ⟨_, hgo, by simp [St.ret], h2, h3, rfl, ?_, ?_⟩
  · intro hu
    have := (hc₁.upg p).1 hu
    rw [hk] at this; cases this
  · intro hu
    have := (hc₁.sh p).1 hu
    rw [hk] at this; cases this

/-- After a failed run the next access runs the builder again, unless a value was stored in between. -/
theorem C05_builder_runs_again (h : Reach v₀ s) {l₁ l₂ l₃ : List (Ev V E)} {i j : CallId} {k k' : GetKind}
    {o : Outcome V E} {x r} (ho : o.value? = none)
    (hl : s.log = l₁ ++ .lin i (.get k) ⟨some o, x⟩ :: (l₂ ++ .lin j (.get k') r :: l₃))
    (hn : ∀ c op r', .lin c op r' ∈ l₂ → (∀ v, op ≠ .set v ∧ op ≠ .store v) ∧ ∀ v, r'.ran ≠ some (.ok v)) :
    ∃ o', r.ran = some o' := by
  exact builds_again (reach_c h) ho hl hn

-- in `demo` the first access fails with 9 and the next one runs the builder again
example : ∃ s : St Nat Nat, Reach none s ∧ ∃ l₁ l₂ l₃,
    s.log = l₁ ++ .lin ⟨0, 0⟩ (.get .tryRead) ⟨some (.err 9), .error 9⟩ ::
      (l₂ ++ .lin ⟨1, 0⟩ (.get .read) ⟨some (.ok 5), .value 5⟩ :: l₃) ∧
    ∀ c op r', .lin c op r' ∈ l₂ → op = .isSet ∧ r'.ran = none := by
  obtain ⟨s, h, hl, _⟩ := demo_reach
  refine ⟨s, h, demoLog.take 3, (demoLog.drop 4).take 7, demoLog.drop 12, by rw [hl]; decide, ?_⟩
  intro c op r' hm
  simp [demoLog] at hm
  simp [hm]

example : ∃ (s s₁ : St Nat Nat), Reach none s ∧ step s 0 (.finish .panic) = some s₁ := by
  have h : (run (init none : St Nat Nat) [(0, .call (.get .read)), (0, .go), (0, .go), (0, .go), (0, .go)]).bind
    (fun s => (step s 0 (.finish .panic)).map fun _ => ()) = some () := by decide
  rw [Option.bind_eq_some_iff] at h
  obtain ⟨s, h1, h2⟩ := h
  rw [Option.map_eq_some_iff] at h2
  obtain ⟨s₁, h3, _⟩ := h2
  exact ⟨s, s₁, reach_run .init h1, h3⟩

/-! ## C06 errors come from this call's own builder run -/

/-- One call runs the builder at most once. -/
theorem C06_at_most_one_run (h : Reach v₀ s) (i : CallId) :
    builderEvents i s.log = [] ∨ builderEvents i s.log = [.bstart i] ∨
      ∃ o, builderEvents i s.log = [.bstart i, .bend i o] := by
  rcases one_run (reach_c h) i with h1 | h1 | h1 | ⟨_, h1⟩
  · exact .inl h1
  · exact .inr (.inl h1)
  · exact .inr (.inr h1)
  · exact absurd h1 (no_abort h i).2

/-- A fallible accessor answers `Err(e)` only if the builder, run by this very call, returned `Err(e)`. -/
theorem C06_error_is_own (h : Reach v₀ s) {i : CallId} {ran : Option (Outcome V E)} {e : E}
    (hi : .res i ⟨ran, .error e⟩ ∈ s.log) :
    ran = some (.err e) ∧ builderEvents i s.log = [.bstart i, .bend i (.err e)] := by
  exact error_own (reach_c h) hi

/-- An accessor which returns a value either found it, without any builder run, or built exactly this value itself. -/
theorem C06_value_found_or_built (h : Reach v₀ s) {i : CallId} {k : GetKind} {ran : Option (Outcome V E)} {v : V}
    (hk : .inv i (.get k) ∈ s.log) (hi : .res i ⟨ran, .value v⟩ ∈ s.log) :
    (ran = none ∧ builderEvents i s.log = []) ∨
    (ran = some (.ok v) ∧ builderEvents i s.log = [.bstart i, .bend i (.ok v)]) := by
  exact found_or_built (reach_c h) hk hi

example : ∃ s : St Nat Nat, Reach none s ∧ .res ⟨0, 0⟩ ⟨some (.err 9), .error 9⟩ ∈ s.log ∧
    .inv ⟨1, 0⟩ (.get .read) ∈ s.log ∧ .res ⟨1, 0⟩ ⟨some (.ok 5), .value 5⟩ ∈ s.log := by
  obtain ⟨s, h, hl, _⟩ := demo_reach
  exact ⟨s, h, by rw [hl]; decide, by rw [hl]; decide, by rw [hl]; decide⟩

/-! ## C07 only accessors run the builder -/

/-- A call other than an accessor (writer, store, setter, clearer, predicate, clone / comparison / debug, use of a guard)
never makes a builder run. -/
theorem C07_others_never_build (h : Reach v₀ s) {i : CallId} {op : Op V} (hi : .inv i op ∈ s.log)
    (hop : ∀ k, op ≠ .get k) : builderEvents i s.log = [] := by
  exact others_no_build (reach_c h) hi hop

example : ∃ s : St Nat Nat, Reach none s ∧ .inv ⟨2, 1⟩ .clear ∈ s.log ∧ .inv ⟨3, 0⟩ .snapshot ∈ s.log ∧
    .inv ⟨2, 0⟩ .isSet ∈ s.log := by
  obtain ⟨s, h, hl, _⟩ := demo_reach
  exact ⟨s, h, by rw [hl]; decide, by rw [hl]; decide, by rw [hl]; decide⟩

/-! ## C08 a sync lazy field cannot wedge -/

/-- If no user guard is outstanding and no builder is running, some unfinished call can go on. -/
theorem C08_progress (h : Reach v₀ s) {p : Nat} (hp : s.pc p ≠ .idle)
    (hg : ∀ q g, s.pc q ≠ .gRead g ∧ s.pc q ≠ .gMut g ∧ s.pc q ≠ .gWrite g) (hb : ∀ q k, s.pc q ≠ .rBuild k) :
    ∃ q s', step s q .go = some s' := by
  refine progress (core_reach h) hp ?_ hb
  intro q hq
  have h1 := hg q
  revert hq h1
  cases s.pc q <;> simp [Pc.resting]

/-- Whatever the state: as long as anybody is inside, a call can go on, a guard can be dropped, or a builder is running
(and may end with any outcome). -/
theorem C08_progress_with_guards (h : Reach v₀ s) {p : Nat} (hp : s.pc p ≠ .idle) (o : Outcome V E) :
    ∃ q a s', (a = .go ∨ a = .drop ∨ a = .finish o) ∧ step s q a = some s' :=
  progress_any (core_reach h) hp o

/-- Without new calls everything is over after at most twelve steps per process, in whatever order the steps are taken;
`ps` lists the processes that are inside. -/
theorem C08_bounded {s' : St V E} {ps : List Nat} (hps : ps.Nodup) (hid : ∀ p, p ∉ ps → s.pc p = .idle)
    {sch : List (Nat × Act V E)} (hc : ∀ x ∈ sch, ∀ op, x.2 ≠ .call op) (hr : run s sch = some s') :
    sch.length ≤ 12 * ps.length := by
  have key : ∀ (sch : List (Nat × Act V E)) (s : St V E), (∀ p, p ∉ ps → s.pc p = .idle) →
      (∀ x ∈ sch, ∀ op, x.2 ≠ .call op) → run s sch = some s' → sch.length ≤ total s ps := by
    intro sch
    induction sch with
    | nil => intros; simp
    | cons x sch ih =>
      intro s hid hc hr
      obtain ⟨p, a⟩ := x
      simp only [run, Option.bind_eq_some_iff] at hr
      obtain ⟨s₁, h1, h2⟩ := hr
      have ha : ∀ op, a ≠ .call op := hc (p, a) (by simp)
      have hlt := rank_step ha h1
      have hp : p ∈ ps := by
        apply Classical.byContradiction
        intro hn
        rw [hid p hn] at hlt
        simp [rank] at hlt
      have h3 := total_step ha h1 hps hp
      have h4 := ih s₁ (by
        intro q hq
        rw [hlt.2 q (by rintro rfl; exact hq hp)]; exact hid q hq) (fun x hx => hc x (by simp [hx])) h2
      simp only [List.length_cons]
      omega
  exact Nat.le_trans (key sch s hid hc hr) (total_le s ps)

/-- Taken together: from any reachable state every run without new calls that cannot be extended ends with nobody
inside, after at most twelve steps per process. -/
theorem C08_cannot_wedge {s' : St V E} (h : Reach v₀ s) {ps : List Nat} (hps : ps.Nodup)
    (hid : ∀ p, p ∉ ps → s.pc p = .idle)
    {sch : List (Nat × Act V E)} (hc : ∀ x ∈ sch, ∀ op, x.2 ≠ .call op) (hr : run s sch = some s') (o : Outcome V E)
    (hmax : ∀ q a, (∀ op, a ≠ .call op) → step s' q a = none) :
    sch.length ≤ 12 * ps.length ∧ ∀ p, s'.pc p = .idle := by
  refine ⟨C08_bounded hps hid hc hr, ?_⟩
  intro p
  apply Classical.byContradiction
  intro hp
  obtain ⟨q, a, s₂, ha, h2⟩ := C08_progress_with_guards (reach_run h hr) hp o
  have : ∀ op, a ≠ .call op := by intro op; rcases ha with rfl | rfl | rfl <;> simp
  rw [hmax q a this] at h2
  cases h2

-- two accessors and a clear under way at the same time, no guard, no builder running
example : ∃ s : St Nat Nat, Reach none s ∧ s.pc 0 = .rUpg .read ∧ s.pc 1 = .rStart .tryRead ∧ s.pc 2 = .xStart (.put none) ∧
    (∀ q, q ∉ [0, 1, 2] → s.pc q = .idle) := by
  refine ⟨_, reach_run (sch := [(0, .call (.get .read)), (1, .call (.get .tryRead)), (2, .call .clear), (0, .go), (0, .go)])
    .init rfl, rfl, rfl, rfl, ?_⟩
  intro q hq
  simp only [List.mem_cons, List.not_mem_nil, or_false, not_or] at hq
  simp [St.begin, St.to, upd, init, hq]

/-! ## C09 values are neither lost nor duplicated -/

/-- When no call is under way: the values that went in by the answered calls (and the initial one) are, counted with
multiplicity, exactly the values handed out plus the one in the field. -/
theorem C09_conservation (h : Reach v₀ s) (hq : ∀ p, (s.pc p).resting = true) :
    (v₀.toList ++ (completed (hist s.log)).flatMap entered).Perm
      ((completed (hist s.log)).flatMap handedOut ++ s.value.toList) := by
  exact conservation (reach_c h) hq

/-- The same at any moment, for the calls that took effect so far; `c` is the value in the field except for the instant
between the two writes of one call. -/
theorem C09_conservation_any_time (h : Reach v₀ s) :
    ∃ c, (s.lk.wr = none → c = s.value) ∧
      (v₀.toList ++ (lins s.log).flatMap entered).Perm ((lins s.log).flatMap handedOut ++ c.toList) := by
  obtain ⟨_, c, hL, _, hcq⟩ := logInv_reach h
  refine ⟨c, ?_, legal_conserves hL⟩
  intro hw
  apply hcq
  intro p
  cases hm : mid (s.pc p) with
  | false => rfl
  | true =>
    have := ((core_reach h).wr p).2 (by simp [mid_excl hm])
    rw [hw] at this; cases this

-- `demo`: 5 and 7 built, 8 assigned; 5 and 7 handed out, 8 in the field
example : ∃ s : St Nat Nat, Reach none s ∧ (completed (hist s.log)).flatMap entered = [5, 7, 8] ∧
    (completed (hist s.log)).flatMap handedOut = [5, 7] ∧ s.value = some 8 := by
  obtain ⟨s, h, hl, hv, _⟩ := demo_reach
  exact ⟨s, h, by rw [hl]; decide, by rw [hl]; decide, hv⟩

/-! ## C10 clone is a consistent snapshot -/

/-- What `clone` read is consistent, is the content of the original at some moment between call and return, and the new
container is exactly a fresh container with that content. -/
theorem C10_clone_consistent (h : Reach v₀ s) {l₁ l₂ : List (Ev V E)} {i : CallId} {ran : Option (Outcome V E)}
    {o : Option V} {b : Bool} (hl : s.log = l₁ ++ .res i ⟨ran, .snap o b⟩ :: l₂) :
    b = o.isSome ∧ (cloneOf o b : St V E) = init o ∧
    ∃ la lb, l₁ = la ++ lb ∧ .inv i .snapshot ∈ la ∧ Legal CellStep v₀ (lins la) o := by
  exact clone_consistent (reach_c h) hl

example : ∃ s : St Nat Nat, Reach none s ∧ ∃ l₁ l₂, s.log = l₁ ++ .res ⟨3, 0⟩ ⟨none, .snap (some 5) true⟩ :: l₂ := by
  obtain ⟨s, h, hl, _⟩ := demo_reach
  exact ⟨s, h, demoLog.take 16, demoLog.drop 17, by rw [hl]; decide⟩

/-! ## C14 (sync) reading again while read guards are out -/

/-- If the field has a value and nobody is inside except holders of shared guards, another accessor call runs to its end
without waiting, whoever holds guards. -/
theorem C14_sync_reread (h : Reach v₀ s) {r : Nat} (hr : s.pc r = .idle) {v : V} (hv : s.value = some v)
    (ho : ∀ q, s.pc q = .idle ∨ ∃ g, s.pc q = .gRead g) :
    ∃ s', run s [(r, .call (.get .read)), (r, .go), (r, .go), (r, .go), (r, .go)] = some s' ∧
      s'.pc r = .gRead (s.me r) ∧ .res (s.me r) ⟨none, .value v⟩ ∈ s'.log := by
  have hc := core_reach h
  have hwr : s.lk.wr = none := by
    cases hw : s.lk.wr with
    | none => rfl
    | some q =>
      have := (hc.wr q).1 hw
      rcases ho q with h1 | ⟨g, h1⟩ <;> rw [h1] at this <;> cases this
  have hup : s.lk.upg = none := by
    cases hw : s.lk.upg with
    | none => rfl
    | some q =>
      have := (hc.upg q).1 hw
      rcases ho q with h1 | ⟨g, h1⟩ <;> rw [h1] at this <;> cases this
  simp [run, step, invoke, go, hr, hv, hwr, hup, St.begin, St.to, St.lin, St.ev, St.ret, St.me, Lock.tryUpgradable,
    heldGuard, GetKind.mutable]

-- process 1 holds the guard of the field with value 5 and process 0 reads it
example : ∃ s : St Nat Nat, Reach none s ∧ s.pc 1 = .gRead ⟨1, 0⟩ ∧ s.pc 0 = .idle ∧ s.value = some 5 ∧
    ∀ q, s.pc q = .idle ∨ ∃ g, s.pc q = .gRead g := by
  refine ⟨_, reach_run (sch := demo.take 21) .init rfl, rfl, rfl, rfl, ?_⟩
  intro q
  by_cases h1 : q = 1
  · subst h1; exact .inr ⟨_, rfl⟩
  · by_cases h0 : q = 0
    · subst h0; exact .inl rfl
    · by_cases h2 : q = 2
      · subst h2; exact .inl rfl
      · left; simp [St.begin, St.to, St.ret, St.lin, St.ev, upd, init, *]

end Verif.Props.Sync
