import Verif.Proof.Whole
import Verif.Props.Mixed
import Verif.Props.AsyncMixed
/-!
# All fields of all objects together: C100

Model: `Verif.Model.Whole`, which writes down the events of all containers of `Verif.Model.Mixed` (sync) and
`Verif.Model.AsyncMixed` (async) in the order in which they happen. `Trace eqv dep v₀ w₀ s g`: some schedule of any number of
threads leads from the contents `v₀` (lazy) and `w₀` (lock-protected) to `s`, and `g` is its record.

That the calls on each container are linearizable is C88 and C92. Here they are linearizable together, in one order which
agrees with the clock across containers and across builders which call others; so an object with many fields can be
reasoned about as if every call happened at once.
-/

namespace Verif.Props.Whole
open Verif.Spec Verif.Spec.Whole Verif.Model Verif.Model.Whole Verif.Proof Verif.Proof.Whole

set_option linter.unusedSectionVars false
variable {F L V W E : Type} [DecidableEq F] [DecidableEq L] {eqv : W → W → Bool} {dep : F ⊕ L → F ⊕ L → Prop}
  {v₀ : F → Option V} {w₀ : L → W} {g : List (Tagged F L V W E)}

/-! ## Sync structs -/

section
variable {s : Mixed.St F L V W E}

/-- The calls on all fields of all objects, lazy and lock-protected, builders which call others included, are linearizable
together. No assumption on the order in which fields are used. -/
theorem C100_linearizable (h : Trace eqv dep v₀ w₀ s g) :
    WellFormed (hist (whole g)) ∧ Linearizable (Containers eqv) ⟨v₀, w₀⟩ (hist (whole g)) := by
  obtain ⟨T, τ, h1, h2, _⟩ := sync_all h
  exact ⟨h1.wellFormed, h1.linearizable h2⟩

/-- When nobody is in a call on a lazy field or keeps a guard of one, the contents of all fields are those the order of the
calls leads to. -/
theorem C100_contents (h : Trace eqv dep v₀ w₀ s g) (hq : ∀ t, s.stack t = []) :
    LinearizesTo (Containers eqv) ⟨v₀, w₀⟩ (hist (whole g)) ⟨fun i => (s.obj i).value, s.lk.val⟩ := by
  obtain ⟨T, τ, h1, h2, h3⟩ := sync_all h
  have f := h1.facts
  exact ⟨lins (whole g), h3 hq ▸ h2, f.nodup, f.lin_inv, f.res_lin, f.order⟩

/-- The record leaves nothing out and adds nothing: what it says of a container is the log of that container ... -/
theorem C100_record (h : Trace eqv dep v₀ w₀ s g) : (∀ i, lazyPart i g = (s.obj i).log) ∧ lockPart g = s.lk.log :=
  ⟨(srec h).lazy, (srec h).lock⟩

/-- ... and every schedule has one. -/
theorem C100_recorded : Mixed.Reach eqv dep v₀ w₀ s ↔ ∃ g, Trace eqv dep v₀ w₀ s g := by
  constructor
  · intro h
    induction h with
    | init => exact ⟨[], .init⟩
    | step _ ha hs ih => exact ⟨_, .step ih.choose_spec ha hs⟩
  · rintro ⟨g, h⟩
    exact trace_reach h

/-- Runs a schedule as long as it keeps to the order, with the record. -/
def runRec (eqv : W → W → Bool) (depB : F ⊕ L → F ⊕ L → Bool) (s : Mixed.St F L V W E) (g : List (Tagged F L V W E)) :
    List (Nat × Mixed.Act F L V W E) → Option (Mixed.St F L V W E × List (Tagged F L V W E))
  | [] => some (s, g)
  | (t, a) :: rest =>
    if Props.Mixed.allowedB depB s t a then
      (Mixed.step eqv s t a).bind fun s' => runRec eqv depB s' (g ++ news s s' t a) rest
    else none

theorem trace_runRec {depB : F ⊕ L → F ⊕ L → Bool} {s₀ : Mixed.St F L V W E} {g₀ : List (Tagged F L V W E)}
    (h₀ : Trace eqv (fun a b => depB a b = true) v₀ w₀ s₀ g₀) {sch : List (Nat × Mixed.Act F L V W E)}
    (h : runRec eqv depB s₀ g₀ sch = some (s, g)) : Trace eqv (fun a b => depB a b = true) v₀ w₀ s g := by
  induction sch generalizing s₀ g₀ with
  | nil => simp only [runRec, Option.some.injEq, Prod.mk.injEq] at h; obtain ⟨rfl, rfl⟩ := h; exact h₀
  | cons x sch ih =>
    obtain ⟨t, a⟩ := x
    simp only [runRec] at h
    split at h
    · rename_i hal
      simp only [Option.bind_eq_some_iff] at h
      obtain ⟨s₁, h1, h2⟩ := h
      exact ih (.step h₀ (Props.Mixed.allowed_of hal) h1) h2
    · cases h

/-- The struct of `Props.Mixed.layered`. Thread 0 reads the session; its builder reads the configuration, and sets the
counter to 2 after thread 1 has cleared the configuration; then thread 1 reads the counter. -/
def syncRun : List (Nat × Mixed.Act Bool Unit Nat Nat Nat) :=
  [(0, .call true (.get .read))] ++ Mixed.gos 0 (true, 0) 4 ++
  [(0, .call false (.get .read))] ++ Mixed.gos 0 (false, 1) 4 ++ [(0, .drop (false, 1))] ++
  [(1, .call false .clear)] ++ Mixed.gos 1 (false, 2) 5 ++
  [(0, .lock (.call (.swap () 2)))] ++ Mixed.locks 0 4 ++
  [(1, .lock (.call (.get ())))] ++ Mixed.locks 1 3 ++
  [(0, .finish (.ok 9))] ++ Mixed.gos 0 (true, 0) 5 ++ [(0, .drop (true, 0))]

-- the reader of the session sees what it asked for, though the configuration it was built from is gone by then
example : ∃ (s : Mixed.St Bool Unit Nat Nat Nat) (g : List (Tagged Bool Unit Nat Nat Nat)),
    Trace (fun a b => a == b) (fun a b => Mixed.layered a b = true) (fun i => if i then none else some 7) (fun _ => 1) s g ∧
    (∀ t, s.stack t = []) ∧ ((s.obj true).value, (s.obj false).value, s.lk.val ()) = (some 9, none, 2) ∧
    hist (whole g) =
      [.inv ⟨0, 0⟩ (.lazy true (.get .read)), .inv ⟨2, 0⟩ (.lazy false (.get .read)), .res ⟨2, 0⟩ (.lazy ⟨none, .value 7⟩),
        .inv ⟨4, 0⟩ (.lazy false .clear), .res ⟨4, 0⟩ (.lazy ⟨none, .old (some 7)⟩), .inv ⟨1, 0⟩ (.lock (.swap () 2)),
        .res ⟨1, 0⟩ (.lock (.value 1)), .inv ⟨3, 0⟩ (.lock (.get ())), .res ⟨3, 0⟩ (.lock (.value 2)),
        .res ⟨0, 0⟩ (.lazy ⟨some (.ok 9), .value 9⟩)] := by
  have h : ∃ x, runRec (fun a b => a == b) Mixed.layered (Mixed.init (fun i => if i then none else some 7) (fun _ => 1)) []
        syncRun = some x ∧ x.1.stack 0 = [] ∧ x.1.stack 1 = [] ∧ (∀ t, x.1.stack (t + 2) = []) ∧
        ((x.1.obj true).value, (x.1.obj false).value, x.1.lk.val ()) = (some 9, none, 2) ∧ hist (whole x.2) = _ :=
    ⟨_, rfl, rfl, rfl, fun _ => rfl, rfl, rfl⟩
  obtain ⟨⟨s, g⟩, h1, h2, h3, h4, h5, h6⟩ := h
  refine ⟨s, g, trace_runRec .init h1, fun t => ?_, h5, h6⟩
  match t with
  | 0 => exact h2
  | 1 => exact h3
  | t + 2 => exact h4 t

end

/-! ## Async structs -/

section
variable {s : AsyncMixed.St F L V W E}

/-- The same for async structs, and the calls which were cancelled need not be explained: what remains without them is
linearizable. -/
theorem C100_async_linearizable (h : AsyncTrace eqv dep v₀ w₀ s g) :
    WellFormed (without (abandoned (whole g)) (hist (whole g))) ∧
    Linearizable (Containers eqv) ⟨v₀, w₀⟩ (without (abandoned (whole g)) (hist (whole g))) := by
  obtain ⟨T, τ, h1, h2, _⟩ := async_all h
  exact ⟨keys_without h1.wellFormed, h1.linearizable_without h2⟩

/-- When nobody is in a call on a lazy field or keeps a guard of one, the contents of all fields are those the order of the
calls leads to. -/
theorem C100_async_contents (h : AsyncTrace eqv dep v₀ w₀ s g) (hq : ∀ t i p, .lazy i p ∉ s.stack t) :
    LinearizesTo (Containers eqv) ⟨v₀, w₀⟩ (without (abandoned (whole g)) (hist (whole g))) ⟨fun i => (s.obj i).value, s.lk.val⟩ := by
  obtain ⟨T, τ, h1, h2, h3⟩ := async_all h
  exact h1.linearizesTo_without (h3 hq ▸ h2)

/-- The record is what the logs of the containers are. -/
theorem C100_async_record (h : AsyncTrace eqv dep v₀ w₀ s g) :
    (∀ i, lazyPart i g = (s.obj i).log) ∧ lockPart g = s.lk.log :=
  ⟨(arec h).lazy, (arec h).lock⟩

/-- Every schedule has a record. -/
theorem C100_async_recorded : AsyncMixed.Reach eqv dep v₀ w₀ s ↔ ∃ g, AsyncTrace eqv dep v₀ w₀ s g := by
  constructor
  · intro h
    induction h with
    | init => exact ⟨[], .init⟩
    | step _ ha hs ih => exact ⟨_, .step ih.choose_spec ha hs⟩
  · rintro ⟨g, h⟩
    exact asyncTrace_reach h

/-- Runs a schedule as long as it keeps to the order, with the record. -/
def asyncRunRec (eqv : W → W → Bool) (n : Nat) (depB : F ⊕ L → F ⊕ L → Bool) (s : AsyncMixed.St F L V W E)
    (g : List (Tagged F L V W E)) :
    List (Nat × AsyncMixed.Act F L V W E) → Option (AsyncMixed.St F L V W E × List (Tagged F L V W E))
  | [] => some (s, g)
  | (t, a) :: rest =>
    if Props.AsyncMixed.allowedB n depB s t a then
      (AsyncMixed.step eqv s t a).bind fun s' => asyncRunRec eqv n depB s' (g ++ asyncNews s s' a) rest
    else none

theorem trace_asyncRunRec {n : Nat} {depB : F ⊕ L → F ⊕ L → Bool} {s₀ : AsyncMixed.St F L V W E}
    {g₀ : List (Tagged F L V W E)} (h₀ : AsyncTrace eqv (fun a b => depB a b = true) v₀ w₀ s₀ g₀)
    {sch : List (Nat × AsyncMixed.Act F L V W E)} (h : asyncRunRec eqv n depB s₀ g₀ sch = some (s, g)) :
    AsyncTrace eqv (fun a b => depB a b = true) v₀ w₀ s g := by
  induction sch generalizing s₀ g₀ with
  | nil => simp only [asyncRunRec, Option.some.injEq, Prod.mk.injEq] at h; obtain ⟨rfl, rfl⟩ := h; exact h₀
  | cons x sch ih =>
    obtain ⟨t, a⟩ := x
    simp only [asyncRunRec] at h
    split at h
    · rename_i hal
      simp only [Option.bind_eq_some_iff] at h
      obtain ⟨s₁, h1, h2⟩ := h
      exact ih (.step h₀ (Props.AsyncMixed.allowed_of (AsyncMixed.inv_reach (asyncTrace_reach h₀)) hal) h1) h2
    · cases h

/-- The same struct. Task 2 keeps a read guard of the counter. Task 0 reads the session; its builder has read the
configuration and wants to set the counter when task 0 is cancelled. Then task 2 lets the counter go, and task 1 reads the
session: its builder reads the configuration too, and sets the counter to 3. -/
def asyncRun : List (Nat × AsyncMixed.Act Bool Unit Nat Nat Nat) :=
  [(2, .lock (.read ()))] ++ AsyncMixed.gos 2 (.lock 0) 1 ++
  [(0, .call true (.get .read))] ++ AsyncMixed.gos 0 (.lazy true 1) 3 ++
  [(0, .call false (.get .read))] ++ AsyncMixed.gos 0 (.lazy false 2) 4 ++ [(0, .act (.lazy false 2) .drop)] ++
  [(0, .lock (.swap () 2)), (0, .act (.lock 3) .cancel), (0, .act (.lazy true 1) .cancel)] ++
  [(2, .act (.lock 0) (.dropLock ((), false)))] ++
  [(1, .call true (.get .read))] ++ AsyncMixed.gos 1 (.lazy true 4) 3 ++
  [(1, .call false (.get .read))] ++ AsyncMixed.gos 1 (.lazy false 5) 4 ++ [(1, .act (.lazy false 5) .drop)] ++
  [(1, .lock (.swap () 3))] ++ AsyncMixed.gos 1 (.lock 6) 3 ++
  [(1, .act (.lazy true 4) (.finish (.ok 9)))] ++ AsyncMixed.gos 1 (.lazy true 4) 4 ++ [(1, .act (.lazy true 4) .drop)]

-- two calls were abandoned; without them the history is that of task 1 alone, and the guard of task 2
example : ∃ (s : AsyncMixed.St Bool Unit Nat Nat Nat) (g : List (Tagged Bool Unit Nat Nat Nat)),
    AsyncTrace (fun a b => a == b) (fun a b => Mixed.layered a b = true) (fun i => if i then none else some 7)
      (fun _ => 1) s g ∧
    (∀ t, s.stack t = []) ∧ ((s.obj true).value, (s.obj false).value, s.lk.val ()) = (some 9, some 7, 3) ∧
    abandoned (whole g) = [⟨7, 0⟩, ⟨2, 0⟩] ∧
    without (abandoned (whole g)) (hist (whole g)) =
      [.inv ⟨1, 0⟩ (.lock (.read ())), .res ⟨1, 0⟩ (.lock .unit),
        .inv ⟨4, 0⟩ (.lazy false (.get .read)), .res ⟨4, 0⟩ (.lazy ⟨none, .value 7⟩),
        .inv ⟨8, 0⟩ (.lazy true (.get .read)), .inv ⟨10, 0⟩ (.lazy false (.get .read)),
        .res ⟨10, 0⟩ (.lazy ⟨none, .value 7⟩), .inv ⟨13, 0⟩ (.lock (.swap () 3)), .res ⟨13, 0⟩ (.lock (.value 1)),
        .res ⟨8, 0⟩ (.lazy ⟨some (.ok 9), .value 9⟩)] := by
  have h : ∃ x, asyncRunRec (fun a b => a == b) 2 Mixed.layered
        (AsyncMixed.init (fun i => if i then none else some 7) (fun _ => 1)) [] asyncRun = some x ∧
        x.1.stack 0 = [] ∧ x.1.stack 1 = [] ∧ x.1.stack 2 = [] ∧ (∀ t, x.1.stack (t + 3) = []) ∧
        ((x.1.obj true).value, (x.1.obj false).value, x.1.lk.val ()) = (some 9, some 7, 3) ∧
        abandoned (whole x.2) = _ ∧ without (abandoned (whole x.2)) (hist (whole x.2)) = _ :=
    ⟨_, rfl, rfl, rfl, rfl, fun _ => rfl, rfl, rfl, rfl⟩
  obtain ⟨⟨s, g⟩, h1, h2, h3, h4, h5, h6, h7, h8⟩ := h
  refine ⟨s, g, trace_asyncRunRec .init h1, fun t => ?_, h6, h7, h8⟩
  match t with
  | 0 => exact h2
  | 1 => exact h3
  | 2 => exact h4
  | t + 3 => exact h5 t

end

end Verif.Props.Whole
