import Verif.Proof.Plain
import Verif.Props.AsyncFallible
/-
C113: lazy fields of plain structs whose builders use each other.
-/
namespace Verif.Props.Plain
open Verif.Spec Verif.Model Verif.Model.Plain Verif.Proof.Plain
open Verif.Props.Fallible (demoBld demoDep demoDep_wf demo_reads)

variable {F V E W : Type} [DecidableEq F] {bld : F → Code F V E}

/-- The builders of an object, if they do nothing but read. -/
abbrev pureBld (bld : F → Code F V E) : F → Prog F V E W := fun i => Prog.pure (bld i)

/-- **C113.** Reading a field comes to what single-threaded evaluation gives, value, error or panic, provided the stack is large enough; if
evaluation gives nothing no stack is. -/
theorem C113_result_iff (i : F) (s : St F V W) (o : Outcome V E) :
    (∃ n s', get (pureBld bld) n i s = some (o, s')) ↔ Yields bld s.cell i o :=
  get_iff i s o (Fits.start bld s.cell)

/-- **C113.** Room for as many builders as there are empty fields is enough, or nothing is: then the read does not return. -/
theorem C113_stack (fs : List F) (s : St F V W) (hfs : ∀ j, s.cell j = none → j ∈ fs) (i : F) (n : Nat) (r : Outcome V E × St F V W)
    (h : get (pureBld bld) n i s = some r) : get (pureBld bld) fs.length i s = some r := by
  obtain ⟨o, s'⟩ := r
  obtain ⟨⟨m, hm⟩, -⟩ := get_good n i s o s' (Fits.start bld s.cell) h
  obtain ⟨s'', h', -⟩ := get_enough fs.length i s o (Fits.start bld s.cell) (den_bound fs hfs m hm)
  have h1 := get_mono _ (Nat.le_max_left n fs.length) i s _ h
  have h2 := get_mono _ (Nat.le_max_right n fs.length) i s _ h'
  rw [h1] at h2
  rw [h', ← h2]

/-- **C113.** If no field needs itself every read returns. -/
theorem C113_acyclic {dep : F → F → Prop} (hwf : WellFounded fun j i => dep i j) (hr : ∀ i, (bld i).Reads (dep i)) (fs : List F)
    (s : St F V W) (hfs : ∀ j, s.cell j = none → j ∈ fs) (i : F) :
    ∃ o s', get (pureBld bld) fs.length i s = some (o, s') := by
  obtain ⟨o, ho⟩ := Verif.Proof.Fallible.yields_total hwf hr s.cell i
  obtain ⟨n, s', h⟩ := (C113_result_iff i s o).2 ho
  exact ⟨o, s', C113_stack fs s hfs i n _ h⟩

/-- One read after another: what they come to, and what is left. -/
theorem reads_good {v₀ : F → Option V} (n : Nat) (is : List F) (s : St F V W) (hs : Fits bld v₀ s.cell) (os : List (Outcome V E))
    (s' : St F V W) (h : reads (pureBld bld) n is s = some (os, s')) :
    os.length = is.length ∧ (∀ p ∈ is.zip os, Yields bld v₀ p.1 p.2) ∧ Left bld v₀ s s' := by
  induction is generalizing s os with
  | nil => cases h; exact ⟨rfl, fun p hp => (List.not_mem_nil hp).elim, Left.refl hs⟩
  | cons i is ih =>
    simp only [reads] at h
    cases hg : get (pureBld bld) n i s with
    | none => rw [hg] at h; cases h
    | some p =>
      obtain ⟨o, s₁⟩ := p
      rw [hg] at h
      obtain ⟨hd, hl, -⟩ := get_good n i s o s₁ hs hg
      cases hr : reads (pureBld bld) n is s₁ with
      | none => simp only [hr] at h; cases h
      | some p =>
        obtain ⟨os₁, s₂⟩ := p
        simp only [hr] at h
        cases h
        obtain ⟨h1, h2, h3⟩ := ih s₁ hl.fits os₁ hr
        refine ⟨by simp [h1], ?_, hl.trans h3⟩
        intro p hp
        rcases List.mem_cons.1 hp with rfl | hp
        · exact (yields_iff_den i o (Fits.start bld v₀)).2 hd
        · exact h2 p hp

/-- **C113.** Fields are read one after the other: each answer is that of evaluation in the object as it was at the beginning, whatever was
read before and in which order. -/
theorem C113_order (n : Nat) (is : List F) (s : St F V W) (os : List (Outcome V E)) (s' : St F V W)
    (h : reads (pureBld bld) n is s = some (os, s')) : os.length = is.length ∧ ∀ p ∈ is.zip os, Yields bld s.cell p.1 p.2 :=
  let h := reads_good n is s (Fits.start bld s.cell) os s' h
  ⟨h.1, h.2.1⟩

/-- **C113.** What is in the object afterwards: what was there before, and for every other field nothing or what it comes to. -/
theorem C113_cells (n : Nat) (is : List F) (s : St F V W) (os : List (Outcome V E)) (s' : St F V W)
    (h : reads (pureBld bld) n is s = some (os, s')) :
    (∀ j v, s.cell j = some v → s'.cell j = some v) ∧ (∀ j v, s'.cell j = some v → Yields bld s.cell j (.ok v)) ∧
    ∀ p ∈ is.zip os, ∀ v, p.2 = .ok v → s'.cell p.1 = some v := by
  have hg := reads_good n is s (Fits.start bld s.cell) os s' h
  refine ⟨hg.2.2.keep, fun j v hj => (yields_iff_den j _ (Fits.start bld s.cell)).2 (hg.2.2.fits.val j v hj), ?_⟩
  clear hg
  induction is generalizing s os with
  | nil => intro p hp; cases h; exact (List.not_mem_nil hp).elim
  | cons i is ih =>
    simp only [reads] at h
    cases hg : get (pureBld bld) n i s with
    | none => rw [hg] at h; cases h
    | some p =>
      obtain ⟨o, s₁⟩ := p
      rw [hg] at h
      cases hr : reads (pureBld bld) n is s₁ with
      | none => simp only [hr] at h; cases h
      | some p =>
        obtain ⟨os₁, s₂⟩ := p
        simp only [hr] at h
        cases h
        intro p hp v hv
        rcases List.mem_cons.1 hp with rfl | hp
        · exact (reads_good n is s₁ (Fits.start bld s₁.cell) os₁ _ hr).2.2.keep i v ((get_keeps _ n i s o s₁ hg).2 v hv)
        · exact ih s₁ os₁ hr p hp v hv

/-- **C113.** Which builders run: those of fields with a value never, those which come to a value at most once. -/
theorem C113_once (n : Nat) (is : List F) (s : St F V W) (os : List (Outcome V E)) (s' : St F V W)
    (h : reads (pureBld bld) n is s = some (os, s')) :
    ∃ l, s'.log = l ++ s.log ∧ (∀ j ∈ l, s.cell j = none) ∧ ∀ j v, Yields bld s.cell j (.ok v) → l.count j ≤ 1 := by
  obtain ⟨l, h1, h2, h3⟩ := (reads_good n is s (Fits.start bld s.cell) os s' h).2.2.log
  refine ⟨l, h1, h2, fun j v hy => ?_⟩
  obtain ⟨m, hm⟩ := (yields_iff_den j _ (Fits.start bld s.cell)).1 hy
  exact (h3 j m v hm).1

/-- **C113.** A plain and a sync struct with the same builders give the same answers, whatever the threads of the sync one do. -/
theorem C113_like_sync {dep : F → F → Prop} (hwf : WellFounded fun j i => dep i j) (hr : ∀ i, (bld i).Reads (dep i)) {i : F} {n : Nat}
    {s s' : St F V W} {o : Outcome V E} (h : get (pureBld bld) n i s = some (o, s')) {t : Verif.Model.Fallible.CSt F V E}
    (ht : Verif.Model.Fallible.CReach bld s.cell t) {id : CallId} {k : GetKind} {a : Res V E}
    (hk : LEv.inv id (.get k) ∈ (t.m.obj i).log) (ha : LEv.res id a ∈ (t.m.obj i).log) : a.ret = getRet k o :=
  (Verif.Props.Fallible.C86_answers hwf hr ht ((C113_result_iff i s o).1 ⟨n, s', h⟩) hk ha).1

/-- **C113.** And an async one. -/
theorem C113_like_async {dep : F → F → Prop} (hwf : WellFounded fun j i => dep i j) (hr : ∀ i, (bld i).Reads (dep i)) {i : F} {n : Nat}
    {s s' : St F V W} {o : Outcome V E} (h : get (pureBld bld) n i s = some (o, s')) {t : Verif.Model.AsyncFallible.CSt F V E}
    (ht : Verif.Model.AsyncFallible.CReach bld s.cell t) {id : CallId} {k : GetKind} {a : Res V E}
    (hk : LEv.inv id (.get k) ∈ (t.m.obj i).log) (ha : LEv.res id a ∈ (t.m.obj i).log) : a.ret = getRet k o :=
  (Verif.Props.AsyncFallible.C87_answers hwf hr ht ((C113_result_iff i s o).1 ⟨n, s', h⟩) hk ha).1

/-- **C113.** Builders which also change other fields: a value never changes, and who is given a value is given the one in the field. -/
theorem C113_keeps (b : F → Prog F V E W) (n : Nat) (i : F) (s : St F V W) (o : Outcome V E) (s' : St F V W)
    (h : get b n i s = some (o, s')) :
    (∀ j v, s.cell j = some v → s'.cell j = some v) ∧ (∀ v, o = .ok v → s'.cell i = some v) :=
  get_keeps b n i s o s' h

/-! ### Witnesses -/

/-- **C113.** Not every read returns: a builder which reads its own field uses up any stack. -/
theorem C113_returns_false : ∃ (bld : Unit → Code Unit Nat Nat), ∀ (n : Nat) (s : St Unit Nat Unit), s.cell () = none →
    get (pureBld bld) n () s = none := by
  refine ⟨fun _ => .read .read () fun _ => .ret (.ok 1), fun n => ?_⟩
  induction n with
  | zero => intro s hs; rw [Verif.Model.Plain.get.eq_def]; simp [hs]
  | succ n ih =>
    intro s hs
    rw [Verif.Model.Plain.get]
    simp only [hs, Prog.pure, exec]
    rw [ih { s with log := () :: s.log } hs]

/-- A builder which reads its own field only the first time, told by a field with inner mutability. -/
def again : Unit → Prog Unit Nat Nat Bool := fun _ =>
  .act (fun _ => true) fun
    | false => .read .read () fun _ => .ret (.ok 1)
    | true => .ret (.ok 2)

/-- **C113.** With other fields taken into account a read can panic although every builder returns a value: the field was filled
meanwhile. It keeps that value. -/
theorem C113_panic_false : ∃ (b : Unit → Prog Unit Nat Nat Bool) (n : Nat) (s s' : St Unit Nat Bool),
    s.cell () = none ∧ get b n () s = some (.panic, s') ∧ s'.cell () = some 2 ∧ s'.log = [(), ()] :=
  ⟨again, 2, ⟨fun _ => none, false, []⟩, _, rfl, rfl, rfl, rfl⟩

/-! ### Cases -/

/-- An object with four empty fields and the builders of C86. -/
def empty : St (Fin 4) Nat Unit := ⟨fun _ => none, (), []⟩

/-- Field 3 lets the failure of field 1 through, field 0 catches it; builders of the failing field 1 run again, that of 2 does not. -/
example : (reads (pureBld demoBld) 4 [3, 0, 2] empty).map (fun r => (r.1, r.2.log)) =
    some ([.panic, .ok 17, .ok 5], [1, 0, 2, 1, 3]) := rfl

example : ∃ o s', get (pureBld demoBld) 4 0 empty = some (o, s') :=
  C113_acyclic demoDep_wf demo_reads [0, 1, 2, 3] empty (by decide) 0

/-- Three builders are on the stack at most. -/
example : get (pureBld demoBld) 2 0 empty = none ∧ (get (pureBld demoBld) 3 0 empty).isSome = true := ⟨rfl, rfl⟩

example : Yields demoBld empty.cell 0 (.ok 17) := (C113_result_iff 0 empty _).1 ⟨4, _, rfl⟩

end Verif.Props.Plain
