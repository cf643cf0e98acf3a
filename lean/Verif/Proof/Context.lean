import Verif.Spec.Context
/-
Helper lemmas for C110: a run of the macro which begins with nothing borrowed mutably succeeds, and what it remembers is right.
-/
namespace Verif.Proof.Context
open Verif.Model.Args Verif.Model.Structs Verif.Model.Context Verif.Spec.Context

/-- What is kept. -/
structure Inv (a : StructArgs) (fs : List FieldArgs) (s : St) : Prop where
  sync : ∀ b, s.memo .ratherSync = some b → b = (prepare a fs).isRatherSync
  struct : ∀ b, s.memo .needsBuilderStruct = some b → b = (prepare a fs).needsBuilderStruct
  dflt : ∀ b, s.memo .needsDefault = some b → b = (prepare a fs).needsDefault
  opt : a.needsBuilder ≠ none → ∀ b, s.memo .optIn = some b → b = (prepare a fs).isBuilderOptIn
  extra : ∀ f ∈ s.extra, f ∈ (prepare a fs).extra
  table : ∀ f ∈ s.table, f ∈ (prepare a fs).allFields
  idents : ∀ n ∈ s.idents, ∃ x ∈ s.table, x.ident = n
  asked : ∀ q b, (q, b) ∈ s.asked → b = answer a fs q
  given : ∀ f x, (f, x) ∈ s.given → f ∈ (prepare a fs).allFields ∧ x ∈ (prepare a fs).allFields ∧ x.ident = f.ident
  built : ∀ n o, (n, o) ∈ s.built → ∃ x ∈ (prepare a fs).allFields, x.ident = n ∧ o = some x

/-- With these borrows, and at least these contexts in the table. -/
structure At (a : StructArgs) (fs : List FieldArgs) (sh : Cell → Nat) (al : Cell → Bool) (T : List FieldArgs) (s : St) : Prop where
  inv : Inv a fs s
  sh : s.shared = sh
  al : s.alone = al
  has : ∀ x ∈ T, x ∈ s.table

variable {a : StructArgs} {fs : List FieldArgs} {sh : Cell → Nat} {al : Cell → Bool} {T : List FieldArgs}

/-- The run succeeds, leaves borrows as they were, and its result meets `φ`. -/
def Keeps {α : Type} (a : StructArgs) (fs : List FieldArgs) (sh : Cell → Nat) (al : Cell → Bool) (T : List FieldArgs)
    (m : M α) (φ : α → Prop) : Prop :=
  ∀ s, At a fs sh al T s → ∃ x s', m s = some (x, s') ∧ At a fs sh al T s' ∧ φ x

theorem bind_eq {α β : Type} (m : M α) (f : α → M β) (s : St) :
    (m >>= f) s = match m s with | some (x, s') => f x s' | none => none := rfl

theorem Keeps.ret {α : Type} {x : α} {φ : α → Prop} (h : φ x) : Keeps a fs sh al T (pure x) φ :=
  fun s hs => ⟨x, s, rfl, hs, h⟩

theorem Keeps.bind {α β : Type} {m : M α} {f : α → M β} {φ : α → Prop} {ψ : β → Prop}
    (hm : Keeps a fs sh al T m φ) (hf : ∀ x, φ x → Keeps a fs sh al T (f x) ψ) : Keeps a fs sh al T (m >>= f) ψ := by
  intro s hs
  obtain ⟨x, s', e, h', hx⟩ := hm s hs
  obtain ⟨y, s'', e', h'', hy⟩ := hf x hx s' h'
  exact ⟨y, s'', by rw [bind_eq, e]; exact e', h'', hy⟩

theorem Keeps.mono {α : Type} {m : M α} {φ ψ : α → Prop} (hm : Keeps a fs sh al T m φ) (h : ∀ x, φ x → ψ x) :
    Keeps a fs sh al T m ψ := by
  intro s hs
  obtain ⟨x, s', e, h', hx⟩ := hm s hs
  exact ⟨x, s', e, h', h x hx⟩

theorem Keeps.each {α : Type} {step : α → M Unit} : ∀ {l : List α},
    (∀ x ∈ l, Keeps a fs sh al T (step x) fun _ => True) → Keeps a fs sh al T (each step l) fun _ => True
  | [], _ => Keeps.ret trivial
  | x :: l, h =>
    Keeps.bind (h x (List.mem_cons_self ..)) fun _ _ => Keeps.each fun y hy => h y (List.mem_cons_of_mem _ hy)

theorem Inv.borrows {s : St} (h : Inv a fs s) (sh : Cell → Nat) (al : Cell → Bool) :
    Inv a fs { s with shared := sh, alone := al } :=
  ⟨h.sync, h.struct, h.dflt, h.opt, h.extra, h.table, h.idents, h.asked, h.given, h.built⟩

/-- One more `Ref`. -/
def more (sh : Cell → Nat) (c : Cell) : Cell → Nat := fun k => if k = c then sh k + 1 else sh k

/-- A `RefMut`. -/
def taken (al : Cell → Bool) (c : Cell) : Cell → Bool := fun k => if k = c then true else al k

theorem less_more (sh : Cell → Nat) (c : Cell) : (fun k => if k = c then more sh c k - 1 else more sh c k) = sh := by
  funext k; unfold more; by_cases h : k = c <;> simp [h]

theorem untaken {al : Cell → Bool} {c : Cell} (h : al c = false) :
    (fun k => if k = c then false else taken al c k) = al := by
  funext k; unfold taken; by_cases hk : k = c
  · subst hk; simp [h]
  · simp [hk]

theorem borrow_at {c : Cell} {s : St} (hs : At a fs sh al T s) (h : al c = false) :
    ∃ s', borrow c s = some ((), s') ∧ At a fs (more sh c) al T s' := by
  refine ⟨{ s with shared := more s.shared c }, ?_, hs.inv.borrows _ s.alone, by rw [hs.sh], hs.al, hs.has⟩
  unfold borrow; rw [hs.al, h]; rfl

theorem release_at {c : Cell} {s : St} (hs : At a fs (more sh c) al T s) :
    ∃ s', release c s = some ((), s') ∧ At a fs sh al T s' := by
  refine ⟨_, rfl, hs.inv.borrows _ s.alone, ?_, hs.al, hs.has⟩
  show (fun k => if k = c then s.shared k - 1 else s.shared k) = sh
  rw [hs.sh]; exact less_more sh c

theorem Keeps.withRef {α : Type} {m : M α} {φ : α → Prop} {c : Cell} (h : al c = false)
    (hm : Keeps a fs (more sh c) al T m φ) : Keeps a fs sh al T (withRef c m) φ := by
  intro s hs
  obtain ⟨s₁, e₁, h₁⟩ := borrow_at hs h
  obtain ⟨x, s₂, e₂, h₂, hx⟩ := hm s₁ h₁
  obtain ⟨s₃, e₃, h₃⟩ := release_at h₂
  refine ⟨x, s₃, ?_, h₃, hx⟩
  simp only [Model.Context.withRef, bind_eq, e₁, e₂, e₃]; rfl

theorem Keeps.withMut {α : Type} {m : M α} {φ : α → Prop} {c : Cell} (h : al c = false) (h0 : sh c = 0)
    (hm : Keeps a fs sh (taken al c) T m φ) : Keeps a fs sh al T (withMut c m) φ := by
  intro s hs
  obtain ⟨x, s₂, e₂, h₂, hx⟩ := hm { s with alone := taken s.alone c }
    ⟨hs.inv.borrows s.shared _, hs.sh, by rw [hs.al], hs.has⟩
  have e₁ : borrowMut c s = some ((), { s with alone := taken s.alone c }) := by
    unfold borrowMut; rw [hs.al, h, hs.sh, h0]; rfl
  refine ⟨x, { s₂ with alone := fun k => if k = c then false else s₂.alone k }, ?_,
    ⟨h₂.inv.borrows s₂.shared _, h₂.sh, ?_, h₂.has⟩, hx⟩
  · simp only [Model.Context.withMut, bind_eq, e₁, e₂]; rfl
  · rw [h₂.al]; exact untaken h

theorem Keeps.change {f : St → St} (h : ∀ s, At a fs sh al T s → At a fs sh al T (f s)) :
    Keeps a fs sh al T (change f) fun _ => True :=
  fun s hs => ⟨(), f s, rfl, h s hs, trivial⟩

theorem Keeps.onGet {α : Type} {f : St → M α} {φ : α → Prop}
    (h : ∀ s, At a fs sh al T s → ∃ x s', f s s = some (x, s') ∧ At a fs sh al T s' ∧ φ x) :
    Keeps a fs sh al T (get >>= f) φ := h

/-- The run does not touch this part of the state. -/
def Spares {α β : Type} (g : St → β) (m : M α) : Prop := ∀ s x s', m s = some (x, s') → g s' = g s

/-- The part is not about borrows. -/
def Blind {β : Type} (g : St → β) : Prop := ∀ s sh al, g { s with shared := sh, alone := al } = g s

theorem Spares.ret {α β : Type} {g : St → β} (x : α) : Spares g (pure x : M α) := by
  intro s y s' e; cases e; rfl

theorem Spares.bind {α β γ : Type} {g : St → γ} {m : M α} {f : α → M β} (hm : Spares g m) (hf : ∀ x, Spares g (f x)) :
    Spares g (m >>= f) := by
  intro s y s' e
  rw [bind_eq] at e
  cases hx : m s with
  | none => rw [hx] at e; cases e
  | some r =>
    obtain ⟨x, s₁⟩ := r
    rw [hx] at e
    rw [hf x s₁ y s' e, hm s x s₁ hx]

theorem Spares.get {γ : Type} {g : St → γ} : Spares g Model.Context.get := by intro s y s' e; cases e; rfl

theorem Spares.panics {α γ : Type} {g : St → γ} : Spares g (panics : M α) := by intro s y s' e; cases e

theorem Spares.change {γ : Type} {g : St → γ} {f : St → St} (h : ∀ s, g (f s) = g s) : Spares g (change f) := by
  intro s y s' e; cases e; exact h s

theorem Spares.borrow {γ : Type} {g : St → γ} (hg : Blind g) {c : Cell} : Spares g (borrow c) := by
  intro s y s' e; unfold Model.Context.borrow at e
  by_cases h : s.alone c = true
  · rw [if_pos h] at e; cases e
  · rw [if_neg h] at e; cases e; exact hg s _ s.alone

theorem Spares.borrowMut {γ : Type} {g : St → γ} (hg : Blind g) {c : Cell} : Spares g (borrowMut c) := by
  intro s y s' e; unfold Model.Context.borrowMut at e
  by_cases h : (s.alone c || s.shared c != 0) = true
  · rw [if_pos h] at e; cases e
  · rw [if_neg h] at e; cases e; exact hg s s.shared _

theorem Spares.withRef {α γ : Type} {g : St → γ} (hg : Blind g) {c : Cell} {m : M α} (h : Spares g m) :
    Spares g (withRef c m) :=
  Spares.bind (Spares.borrow hg) fun _ => Spares.bind h fun _ =>
    Spares.bind (Spares.change fun s => hg s _ s.alone) fun _ => Spares.ret _

theorem Spares.withMut {α γ : Type} {g : St → γ} (hg : Blind g) {c : Cell} {m : M α} (h : Spares g m) :
    Spares g (withMut c m) :=
  Spares.bind (Spares.borrowMut hg) fun _ => Spares.bind h fun _ =>
    Spares.bind (Spares.change fun s => hg s s.shared _) fun _ => Spares.ret _

/-- The part does not depend on what is remembered there. -/
def Apart {γ : Type} (g : St → γ) (m : Memo) : Prop :=
  ∀ (s : St) (o : Option Bool), g { s with memo := fun k => if k = m then o else s.memo k } = g s

theorem Spares.remember {γ : Type} {g : St → γ} (hg : Blind g) {m : Memo} {init : M Bool} (hk : Apart g m)
    (h : Spares g init) : Spares g (remember m init) := by
  refine Spares.withMut hg (Spares.bind Spares.get fun s => ?_)
  cases s.memo m with
  | some b => exact Spares.ret b
  | none =>
    refine Spares.bind h fun b => Spares.bind Spares.get fun s' => ?_
    cases s'.memo m with
    | some _ => exact Spares.panics
    | none => exact Spares.bind (Spares.change fun s => hk s (some b)) fun _ => Spares.ret _

theorem Spares.allFields {γ : Type} {g : St → γ} (hg : Blind g) : Spares g (allFields fs) :=
  Spares.withRef hg (Spares.bind Spares.get fun _ => Spares.ret _)

theorem Spares.ratherInit {γ : Type} {g : St → γ} (hg : Blind g) : Spares g (match a.isSync with
    | some b => pure b
    | none => do return ((← Model.Context.allFields fs).findSome? (·.isSync)).getD false) := by
  cases a.isSync with
  | some v => exact Spares.ret v
  | none => exact Spares.bind (Spares.allFields hg) fun _ => Spares.ret _

theorem Spares.rather {γ : Type} {g : St → γ} (hg : Blind g) (hk : Apart g .ratherSync) : Spares g (isRatherSync a fs) :=
  Spares.remember hg hk (Spares.ratherInit hg)

theorem Spares.structInit {γ : Type} {g : St → γ} (hg : Blind g) (hk : Apart g .optIn) : Spares g (match a.needsBuilder with
    | some b => (pure b : M Bool)
    | none =>
      if fs.any (fun f => f.needsBuilder == some true) then do
        Model.Context.withMut (.memo .optIn) <| Model.Context.change fun (s : St) =>
          { s with memo := fun k => if k = .optIn then some ((s.memo k).getD true) else s.memo k }
        pure true
      else pure false) := by
  cases a.needsBuilder with
  | some v => exact Spares.ret v
  | none =>
    by_cases hf : fs.any (fun f => f.needsBuilder == some true) = true
    · simp only [if_pos hf]
      refine Spares.bind (Spares.withMut hg (Spares.change fun s => ?_)) fun _ => Spares.ret _
      have := hk s (some ((s.memo .optIn).getD true))
      rw [← this]; congr 1
      have : (fun k => if k = Memo.optIn then some ((s.memo k).getD true) else s.memo k) =
          fun k => if k = Memo.optIn then some ((s.memo .optIn).getD true) else s.memo k := by
        funext k; by_cases h : k = .optIn <;> simp [h]
      rw [this]
    · simp only [if_neg hf]
      exact Spares.ret _

theorem Spares.dfltInit {γ : Type} {g : St → γ} (hg : Blind g) (hk : Apart g .ratherSync) : Spares g (match a.needsDefault with
    | some b => (pure b : M Bool)
    | none =>
      if a.needsNew then pure true
      else do
        let sync ← isRatherSync a fs
        return fs.any fun f => f.hasDefaultValue || (sync && f.isLazy.getD false)) := by
  cases a.needsDefault with
  | some v => exact Spares.ret v
  | none =>
    by_cases hf : a.needsNew = true
    · simp only [if_pos hf]; exact Spares.ret _
    · simp only [if_neg hf]
      exact Spares.bind (Spares.rather hg hk) fun _ => Spares.ret _

theorem Spares.ask {γ : Type} {g : St → γ} (hg : Blind g) (hk : ∀ m, Apart g m)
    (ha : ∀ s l, g { s with asked := l } = g s) (q : Ask) : Spares g (Model.Context.ask a fs q) := by
  have hq : Spares g (q.put a fs) := by
    cases q with
    | ratherSync => exact Spares.rather hg (hk _)
    | needsBuilderStruct => exact Spares.remember hg (hk _) (Spares.structInit hg (hk _))
    | needsDefault => exact Spares.remember hg (hk _) (Spares.dfltInit hg (hk _))
    | isSync f =>
      simp only [Ask.put]
      cases f.isSync with
      | some b => exact Spares.ret _
      | none => exact Spares.rather hg (hk _)
    | needsBuilder f =>
      simp only [Ask.put]
      cases f.needsBuilder with
      | some b => exact Spares.ret _
      | none =>
        cases a.needsBuilder with
        | none => exact Spares.ret _
        | some v =>
          cases v with
          | false => exact Spares.ret _
          | true => exact Spares.bind (Spares.remember hg (hk _) (Spares.ret _)) fun _ => Spares.ret _
  exact Spares.bind hq fun b => Spares.bind (Spares.change fun s => ha s _) fun _ => Spares.ret _

theorem Spares.each {α γ : Type} {g : St → γ} {step : α → M Unit} (h : ∀ x, Spares g (step x)) :
    ∀ l, Spares g (each step l)
  | [] => Spares.ret _
  | x :: l => Spares.bind (h x) fun _ => Spares.each h l

theorem blind_memo (k : Memo) : Blind fun s => s.memo k := fun _ _ _ => rfl

theorem apart_memo {k m : Memo} (h : k ≠ m) : Apart (fun s => s.memo k) m := fun s o => by simp [h]

/-- Remembering an answer which meets `φ`, of which those remembered are known to meet it. -/
theorem Keeps.remember {m : Memo} {init : M Bool} {φ : Bool → Prop} (h : al (.memo m) = false) (h0 : sh (.memo m) = 0)
    (known : ∀ s, Inv a fs s → ∀ b, s.memo m = some b → φ b)
    (store : ∀ s b, Inv a fs s → φ b → Inv a fs { s with memo := fun k => if k = m then some b else s.memo k })
    (free : Spares (fun s => s.memo m) init)
    (hi : Keeps a fs sh (taken al (.memo m)) T init φ) : Keeps a fs sh al T (remember m init) φ := by
  refine Keeps.withMut h h0 (Keeps.onGet fun s hs => ?_)
  cases hm : s.memo m with
  | some b => exact ⟨b, s, rfl, hs, known s hs.inv b hm⟩
  | none =>
    obtain ⟨b, s₁, e, h₁, hb⟩ := hi s hs
    have hn : s₁.memo m = none := (free s b s₁ e).trans hm
    refine ⟨b, { s₁ with memo := fun k => if k = m then some b else s₁.memo k }, ?_,
      ⟨store s₁ b h₁.inv hb, h₁.sh, h₁.al, h₁.has⟩, hb⟩
    simp only [bind_eq, e, Model.Context.get, hn]
    rfl

theorem extra_sync {f : FieldArgs} (h : f ∈ (prepare a fs).extra) : f.isSync = none := by
  unfold prepare at h
  by_cases hr : a.isRefCounted = true
  · rw [if_pos hr] at h
    obtain ⟨n, _, rfl⟩ := List.mem_map.1 h
    rfl
  · rw [if_neg hr] at h; cases h

theorem findSome_extra {l : List FieldArgs} (h : ∀ f ∈ l, f.isSync = none) :
    (l ++ fs).findSome? (·.isSync) = fs.findSome? (·.isSync) := by
  induction l with
  | nil => rfl
  | cons f l ih =>
    rw [List.cons_append, List.findSome?_cons, h f (List.mem_cons_self ..)]
    exact ih fun g hg => h g (List.mem_cons_of_mem _ hg)

theorem rather_eq : (prepare a fs).isRatherSync = a.isSync.getD ((fs.findSome? (·.isSync)).getD false) := by
  show a.isSync.getD ((((prepare a fs).extra ++ fs).findSome? (·.isSync)).getD false) = _
  rw [findSome_extra fun f hf => extra_sync hf]

theorem Keeps.allFields (h : al .extraFields = false) :
    Keeps a fs sh al T (allFields fs) fun l => ∃ e, l = e ++ fs ∧ ∀ f ∈ e, f ∈ (prepare a fs).extra := by
  refine Keeps.withRef h (Keeps.onGet fun s hs => ⟨s.extra ++ fs, s, rfl, hs, s.extra, rfl, hs.inv.extra⟩)

theorem Keeps.rather (h : al (.memo .ratherSync) = false) (h0 : sh (.memo .ratherSync) = 0) (he : al .extraFields = false) :
    Keeps a fs sh al T (isRatherSync a fs) fun b => b = (prepare a fs).isRatherSync := by
  refine Keeps.remember h h0 (fun s hs => hs.sync) (fun s b hs hb => ?_) ?_ ?_
  · exact ⟨fun b' e => by simpa using (Option.some.inj e) ▸ hb, hs.struct, hs.dflt, hs.opt, hs.extra, hs.table, hs.idents,
      hs.asked, hs.given, hs.built⟩
  · exact Spares.ratherInit (blind_memo _)
  · rw [rather_eq]
    cases ha : a.isSync with
    | some v => exact Keeps.ret rfl
    | none =>
      refine Keeps.bind (Keeps.allFields ?_) fun l hl => Keeps.ret ?_
      · unfold taken; simp [he]
      · obtain ⟨e, rfl, hl⟩ := hl
        rw [findSome_extra fun f hf => extra_sync (hl f hf)]; rfl

theorem needsBuilder_builder (h : a.needsBuilder = none) : a.builder = none := by
  unfold StructArgs.needsBuilder at h; cases hb : a.builder <;> simp_all

theorem Keeps.opt (hn : a.needsBuilder ≠ none) (h : al (.memo .optIn) = false) (h0 : sh (.memo .optIn) = 0) :
    Keeps a fs sh al T (isBuilderOptIn a) fun b => b = (prepare a fs).isBuilderOptIn := by
  refine Keeps.remember h h0 (fun s hs => hs.opt hn) (fun s b hs hb => ?_) (Spares.ret _) (Keeps.ret rfl)
  · exact ⟨hs.sync, hs.struct, hs.dflt, fun _ b' e => by simpa using (Option.some.inj e) ▸ hb, hs.extra, hs.table, hs.idents,
      hs.asked, hs.given, hs.built⟩

theorem Keeps.struct (h : al (.memo .needsBuilderStruct) = false) (h0 : sh (.memo .needsBuilderStruct) = 0)
    (ho : al (.memo .optIn) = false) (ho0 : sh (.memo .optIn) = 0) :
    Keeps a fs sh al T (needsBuilderStruct a fs) fun b => b = (prepare a fs).needsBuilderStruct := by
  refine Keeps.remember h h0 (fun s hs => hs.struct) (fun s b hs hb => ?_) ?_ ?_
  · exact ⟨hs.sync, fun b' e => by simpa using (Option.some.inj e) ▸ hb, hs.dflt, hs.opt, hs.extra, hs.table, hs.idents,
      hs.asked, hs.given, hs.built⟩
  · exact Spares.structInit (blind_memo _) (apart_memo (by decide))
  · unfold Ctx.needsBuilderStruct
    show Keeps _ _ _ _ _ _ fun b => b = a.needsBuilder.getD (fs.any fun f => f.needsBuilder == some true)
    cases ha : a.needsBuilder with
    | some v => exact Keeps.ret rfl
    | none =>
      by_cases hf : fs.any (fun f => f.needsBuilder == some true) = true
      · simp only [if_pos hf]
        refine Keeps.bind (φ := fun _ => True) (Keeps.withMut ?_ ho0 (Keeps.change fun s hs => ?_)) fun _ _ => Keeps.ret ?_
        · unfold taken; simp [ho]
        · have hs' := hs.inv
          exact ⟨⟨fun b e => hs'.sync b (by simpa using e), fun b e => hs'.struct b (by simpa using e),
            fun b e => hs'.dflt b (by simpa using e), fun hn => absurd ha hn, hs'.extra, hs'.table, hs'.idents, hs'.asked,
            hs'.given, hs'.built⟩, hs.sh, hs.al, hs.has⟩
        · rw [hf]; rfl
      · simp only [if_neg hf]
        exact Keeps.ret (by simpa using hf)

theorem Keeps.dflt (h : al (.memo .needsDefault) = false) (h0 : sh (.memo .needsDefault) = 0)
    (hr : al (.memo .ratherSync) = false) (hr0 : sh (.memo .ratherSync) = 0) (he : al .extraFields = false) :
    Keeps a fs sh al T (needsDefault a fs) fun b => b = (prepare a fs).needsDefault := by
  refine Keeps.remember h h0 (fun s hs => hs.dflt) (fun s b hs hb => ?_) ?_ ?_
  · exact ⟨hs.sync, hs.struct, fun b' e => by simpa using (Option.some.inj e) ▸ hb, hs.opt, hs.extra, hs.table, hs.idents,
      hs.asked, hs.given, hs.built⟩
  · exact Spares.dfltInit (blind_memo _) (apart_memo (by decide))
  · show Keeps _ _ _ _ _ _ fun b => b = match a.needsDefault with
      | some b => b
      | none => if a.needsNew then true
        else fs.any (fun f => f.hasDefaultValue || ((prepare a fs).isRatherSync && f.isLazy.getD false))
    cases ha : a.needsDefault with
    | some v => exact Keeps.ret rfl
    | none =>
      by_cases hf : a.needsNew = true
      · simp only [if_pos hf]; exact Keeps.ret rfl
      · simp only [if_neg hf]
        refine Keeps.bind (Keeps.rather ?_ hr0 ?_) fun b hb => Keeps.ret ?_
        · unfold taken; simp [hr]
        · unfold taken; simp [he]
        · rw [hb]

/-- Nothing is borrowed mutably. -/
def nobody : Cell → Bool := fun _ => false

theorem Keeps.ask (q : Ask) (h0 : ∀ m, sh (.memo m) = 0) :
    Keeps a fs sh nobody T (Model.Context.ask a fs q) fun b => b = answer a fs q := by
  have hq : Keeps a fs sh nobody T (q.put a fs) fun b => b = answer a fs q := by
    cases q with
    | ratherSync => exact Keeps.rather rfl (h0 _) rfl
    | needsBuilderStruct => exact Keeps.struct rfl (h0 _) rfl (h0 _)
    | needsDefault => exact Keeps.dflt rfl (h0 _) rfl (h0 _) rfl
    | isSync f =>
      simp only [Ask.put, answer]
      unfold FCtx.isSync
      cases f.isSync with
      | some b => exact Keeps.ret rfl
      | none => exact Keeps.rather rfl (h0 _) rfl
    | needsBuilder f =>
      simp only [Ask.put, answer]
      unfold FCtx.needsBuilder
      cases f.needsBuilder with
      | some b => exact Keeps.ret rfl
      | none =>
        show Keeps _ _ _ _ _ _ fun b => b = a.needsBuilder.elim false fun needs => needs && !(prepare a fs).isBuilderOptIn
        cases ha : a.needsBuilder with
        | none => exact Keeps.ret rfl
        | some v =>
          cases v with
          | false => exact Keeps.ret rfl
          | true =>
            refine Keeps.bind (Keeps.opt (by rw [ha]; simp) rfl (h0 _)) fun b hb => Keeps.ret ?_
            rw [hb]; rfl
  refine Keeps.bind hq fun b hb => Keeps.bind (φ := fun _ => True) (Keeps.change fun s hs => ?_) fun _ _ => Keeps.ret hb
  have i := hs.inv
  refine ⟨⟨i.sync, i.struct, i.dflt, i.opt, i.extra, i.table, i.idents, fun q' b' h => ?_, i.given, i.built⟩, hs.sh, hs.al,
    hs.has⟩
  rcases List.mem_append.1 h with h | h
  · exact i.asked q' b' h
  · cases List.mem_singleton.1 h; exact hb

/-- Cells a call borrows mutably. -/
def needs : Leaf → Cell → Prop
  | _, .memo _ => True
  | .add b, .bag b' => b = b'
  | .ident _, .builderIdents => True
  | .error, .errors => True
  | .typed _ _ _, .errors => True
  | .text, .tokens => True
  | .unique, .uniqueId => True
  | .setChecker f, .checker f' => f = f'
  | _, _ => False

theorem Keeps.leaf (l : Leaf) (h0 : ∀ c, needs l c → sh c = 0)
    (hn : ∀ n, l = .ident n → ∃ x ∈ T, x.ident = n) :
    Keeps a fs sh nobody T (l.run a fs) fun _ => True := by
  have hm : ∀ m, sh (.memo m) = 0 := fun m => h0 _ (by cases l <;> trivial)
  cases l with
  | ask q => exact Keeps.bind (Keeps.ask q hm) fun _ _ => Keeps.ret trivial
  | add b => exact Keeps.withMut rfl (h0 _ rfl) (Keeps.ret trivial)
  | ident n =>
    refine Keeps.withMut rfl (h0 _ trivial) (Keeps.change fun s hs => ?_)
    have i := hs.inv
    refine ⟨⟨i.sync, i.struct, i.dflt, i.opt, i.extra, i.table, fun n' h => ?_, i.asked, i.given, i.built⟩, hs.sh, hs.al,
      hs.has⟩
    rcases List.mem_append.1 h with h | h
    · exact i.idents n' h
    · cases List.mem_singleton.1 h
      obtain ⟨x, hx, e⟩ := hn n rfl
      exact ⟨x, hs.has x hx, e⟩
  | join b => exact Keeps.withRef rfl (Keeps.ret trivial)
  | error => exact Keeps.withMut rfl (h0 _ trivial) (Keeps.ret trivial)
  | text => exact Keeps.withMut rfl (h0 _ trivial) (Keeps.ret trivial)
  | unique =>
    exact Keeps.bind (φ := fun _ => True) (Keeps.withRef rfl (Keeps.ret trivial)) fun _ _ =>
      Keeps.withMut rfl (h0 _ trivial) (Keeps.ret trivial)
  | setChecker f => exact Keeps.withMut rfl (h0 _ rfl) (Keeps.ret trivial)
  | getChecker f => exact Keeps.withRef rfl (Keeps.ret trivial)
  | typed f qs err =>
    refine Keeps.onGet fun s hs => ?_
    by_cases hf : s.typed.contains f = true
    · simp only [if_pos hf]
      exact ⟨(), s, rfl, hs, trivial⟩
    · simp only [if_neg hf]
      have k₁ : Keeps a fs sh nobody T (Model.Context.each (fun q => do let _ ← Model.Context.ask a fs q; pure ()) qs)
          fun _ => True :=
        Keeps.each fun q _ => Keeps.bind (Keeps.ask q hm) fun _ _ => Keeps.ret trivial
      have p₁ : Spares (fun s => s.typed)
          (Model.Context.each (fun q => do let _ ← Model.Context.ask a fs q; pure ()) qs) :=
        Spares.each (fun q => Spares.bind (Spares.ask (fun _ _ _ => rfl) (fun _ _ _ => rfl) (fun _ _ => rfl) q) fun _ =>
          Spares.ret _) qs
      have k₂ : Keeps a fs sh nobody T (if err = true then pushError else pure ()) fun _ => True := by
        cases err with
        | true => exact Keeps.withMut rfl (h0 _ trivial) (Keeps.ret trivial)
        | false => exact Keeps.ret trivial
      have p₂ : Spares (fun s => s.typed) (if err = true then pushError else pure ()) := by
        cases err with
        | true => exact Spares.withMut (fun _ _ _ => rfl) (Spares.ret _)
        | false => exact Spares.ret _
      obtain ⟨x₁, s₁, e₁, h₁, _⟩ := k₁ s hs
      obtain ⟨x₂, s₂, e₂, h₂, _⟩ := k₂ s₁ h₁
      have ht : s₂.typed.contains f = false := by
        have := p₂ s₁ x₂ s₂ e₂
        have := p₁ s x₁ s₁ e₁
        simp_all
      refine ⟨(), { s₂ with typed := f :: s₂.typed }, ?_, ⟨?_, h₂.sh, h₂.al, h₂.has⟩, trivial⟩
      · cases err with
        | true =>
          have e₂ : pushError s₁ = some (x₂, s₂) := e₂
          simp only [bind_eq, e₁, if_true, e₂, Model.Context.get, ht]; rfl
        | false =>
          cases e₂
          simp only [bind_eq, e₁, Model.Context.get, ht]; simp only [Bool.false_eq_true, if_false, bind_eq, Model.Context.get, ht]; rfl
      · have i := h₂.inv
        exact ⟨i.sync, i.struct, i.dflt, i.opt, i.extra, i.table, i.idents, i.asked, i.given, i.built⟩

/-- More contexts are known. -/
theorem At.grow {T' : List FieldArgs} {s : St} (h : At a fs sh al T s) (h' : ∀ x ∈ T', x ∈ s.table) : At a fs sh al T' s :=
  ⟨h.inv, h.sh, h.al, h'⟩

/-- Cells which the calls of a phase borrow mutably are free. -/
def Calm (p : Phase) (sh : Cell → Nat) : Prop := ∀ l, occurs p l = true → ∀ c, needs l c → sh c = 0

theorem Keeps.whole {g : Gens} (hg : g.Fits) {p : Phase} (h : Calm p sh) :
    Keeps a fs sh nobody T (Model.Context.each (·.run a fs) (g.whole p)) fun _ => True :=
  Keeps.each fun l hl => Keeps.leaf l (h l (hg.whole p l hl).1) fun n e => absurd e ((hg.whole p l hl).2 n)

theorem Keeps.field {g : Gens} (hg : g.Fits) {p : Phase} {x : FieldArgs} (hx : x ∈ T) (h : Calm p sh) :
    Keeps a fs sh nobody T (Model.Context.each (·.run a fs) (g.field p x)) fun _ => True :=
  Keeps.each fun l hl => Keeps.leaf l (h l (hg.field p x l hl).1) fun n e => ⟨x, hx, ((hg.field p x l hl).2 n e).symm⟩

theorem Keeps.withFieldCtx {f : FieldArgs} {body : FieldArgs → M Unit} (hf : f ∈ (prepare a fs).allFields)
    (h0 : sh .table = 0)
    (hb : ∀ x ∈ (prepare a fs).allFields, Keeps a fs (more sh .table) nobody [x] (body x) fun _ => True) :
    Keeps a fs sh nobody [] (withFieldCtx f body) fun _ => True := by
  unfold Model.Context.withFieldCtx
  intro s hs
  -- the entry is put in
  have k : Keeps a fs sh nobody [] (Model.Context.withMut .table <| Model.Context.change fun s =>
      if s.table.any (·.ident == f.ident) then s else { s with table := s.table ++ [f] }) fun _ => True := by
    refine Keeps.withMut rfl h0 (Keeps.change fun s hs => ?_)
    by_cases h : s.table.any (·.ident == f.ident) = true
    · rw [if_pos h]; exact hs
    · rw [if_neg h]
      have i := hs.inv
      refine ⟨⟨i.sync, i.struct, i.dflt, i.opt, i.extra, fun x hx => ?_, fun n hn => ?_, i.asked, i.given, i.built⟩, hs.sh,
        hs.al, fun x hx => by cases hx⟩
      · rcases List.mem_append.1 hx with hx | hx
        · exact i.table x hx
        · cases List.mem_singleton.1 hx; exact hf
      · obtain ⟨x, hx, e⟩ := i.idents n hn
        exact ⟨x, List.mem_append_left _ hx, e⟩
  obtain ⟨_, s₁, e₁, h₁, _⟩ := k s hs
  obtain ⟨s₂, e₂, h₂⟩ := borrow_at h₁ (c := .table) rfl
  simp only [bind_eq, e₁, e₂, Model.Context.get]
  cases hx : s₂.table.find? (·.ident == f.ident) with
  | none =>
    obtain ⟨s₃, e₃, h₃⟩ := release_at h₂
    exact ⟨(), s₃, by simpa [bind_eq] using e₃, h₃, trivial⟩
  | some x =>
    have hxt := List.mem_of_find?_eq_some hx
    have hxi : x.ident = f.ident := by simpa using List.find?_some hx
    have i := h₂.inv
    have hxa := i.table x hxt
    have h₃ : At a fs (more sh .table) nobody [x] { s₂ with given := s₂.given ++ [(f, x)] } := by
      refine ⟨⟨i.sync, i.struct, i.dflt, i.opt, i.extra, i.table, i.idents, i.asked, fun f' x' h => ?_, i.built⟩, h₂.sh,
        h₂.al, fun y hy => by cases List.mem_singleton.1 hy; exact hxt⟩
      rcases List.mem_append.1 h with h | h
      · exact i.given f' x' h
      · cases List.mem_singleton.1 h; exact ⟨hf, hxa, hxi⟩
    obtain ⟨_, s₄, e₄, h₄, _⟩ := hb x hxa _ h₃
    obtain ⟨s₅, e₅, h₅⟩ := release_at h₄
    refine ⟨(), s₅, ?_, h₅.grow fun y hy => (by cases hy), trivial⟩
    simp only [bind_eq, Model.Context.change, e₄]
    exact e₅

theorem extra_sub {l : List FieldArgs} (h : ∃ e, l = e ++ fs ∧ ∀ f ∈ e, f ∈ (prepare a fs).extra) :
    ∀ f ∈ l, f ∈ (prepare a fs).allFields := by
  obtain ⟨e, rfl, he⟩ := h
  intro f hf
  rcases List.mem_append.1 hf with hf | hf
  · exact List.mem_append_left _ (he f hf)
  · exact List.mem_append_right _ hf

theorem Keeps.over {g : Gens} (hg : g.Fits) {p : Phase} (h0 : sh .table = 0) (h : Calm p (more sh .table)) :
    Keeps a fs sh nobody [] (overFields a fs g p) fun _ => True :=
  Keeps.bind (Keeps.allFields rfl) fun _ hl => Keeps.each fun f hf =>
    Keeps.withFieldCtx (extra_sub hl f hf) h0 fun _ _ => Keeps.field hg (List.mem_singleton.2 rfl) h

/-- Nothing is borrowed. -/
def zero : Cell → Nat := fun _ => 0

theorem Keeps.counted : Keeps a fs zero nobody [] (prepareRefCounted a fs) fun _ => True := by
  unfold prepareRefCounted
  by_cases h : a.isRefCounted = true
  · rw [if_pos h]
    cases hm : myselfField a with
    | none =>
      exfalso
      unfold StructArgs.isRefCounted at h; unfold myselfField at hm
      cases hr : a.rc <;> simp_all
    | some n =>
      refine Keeps.bind (Keeps.ask _ fun _ => rfl) fun _ _ => Keeps.withMut rfl rfl (Keeps.change fun s hs => ?_)
      have i := hs.inv
      refine ⟨⟨i.sync, i.struct, i.dflt, i.opt, fun f hf => ?_, i.table, i.idents, i.asked, i.given, i.built⟩, hs.sh, hs.al,
        hs.has⟩
      rcases List.mem_append.1 hf with hf | hf
      · exact i.extra f hf
      · cases List.mem_singleton.1 hf
        unfold prepare; simp [h, hm]
  · rw [if_neg h]; exact Keeps.ret trivial

theorem Keeps.prepared {g : Gens} (hg : g.Fits) : Keeps a fs zero nobody [] (prepareStruct a fs g) fun _ => True := by
  refine Keeps.bind Keeps.counted fun _ _ => Keeps.bind (Keeps.over hg rfl ?_) fun _ _ =>
    Keeps.bind (Keeps.over hg rfl ?_) fun _ _ => Keeps.whole hg ?_
  all_goals intro l hl c hc; cases l <;> cases c <;> simp_all [occurs, needs, more, zero]

theorem Keeps.shadow {g : Gens} (hg : g.Fits) : Keeps a fs zero nobody [] (shadowStruct a fs g) fun _ => True := by
  unfold shadowStruct
  by_cases h : a.isSerde = true
  · rw [if_pos h]
    refine Keeps.withRef rfl (Keeps.bind (Keeps.ask _ fun _ => rfl) fun d _ => ?_)
    cases d with
    | true =>
      refine Keeps.withRef rfl (Keeps.whole hg ?_)
      intro l hl c hc; cases l <;> cases c <;> simp_all [occurs, needs, more, zero]
      subst hc; simp
    | false =>
      refine Keeps.whole hg ?_
      intro l hl c hc; cases l <;> cases c <;> simp_all [occurs, needs, more, zero]
      subst hc; simp
  · rw [if_neg h]; exact Keeps.ret trivial

theorem Keeps.rewritten {g : Gens} (hg : g.Fits) : Keeps a fs zero nobody [] (rewriteStruct a fs g) fun _ => True := by
  have h₁ : Keeps a fs zero nobody [] (overFields a fs g .fromShadow) fun _ => True := Keeps.over hg rfl (by
    intro l hl c hc; cases l <;> cases c <;> simp_all [occurs, needs, more, zero])
  have h₂ : Keeps a fs zero nobody [] (overFields a fs g .intoShadow) fun _ => True := Keeps.over hg rfl (by
    intro l hl c hc; cases l <;> cases c <;> simp_all [occurs, needs, more, zero])
  unfold rewriteStruct
  refine Keeps.bind (Keeps.whole hg fun l hl c hc => rfl) fun _ _ => Keeps.bind (Keeps.shadow hg) fun _ _ => ?_
  cases a.isSerde && a.needsDeserialize <;> cases a.isSerde && a.needsSerialize
  · exact Keeps.ret trivial
  · exact h₂
  · exact Keeps.bind h₁ fun _ _ => Keeps.ret trivial
  · exact Keeps.bind h₁ fun _ _ => h₂

/-- Further `Ref`s of the table. -/
def plus (sh : Cell → Nat) (n : Nat) : Cell → Nat := fun k => if k = .table then sh k + n else sh k

theorem plus_zero (sh : Cell → Nat) : plus sh 0 = sh := by funext k; unfold plus; by_cases h : k = .table <;> simp [h]

theorem plus_succ (sh : Cell → Nat) (n : Nat) : plus sh (n + 1) = more (plus sh n) .table := by
  funext k; unfold plus more; by_cases h : k = .table <;> simp [h]; omega

theorem plus_more (sh : Cell → Nat) (n : Nat) : plus (more sh .table) n = plus sh (n + 1) := by
  funext k; unfold plus more; by_cases h : k = .table <;> simp [h]; omega

theorem lookups : ∀ (ns : List String) (s : St), s.alone .table = false → (∀ n ∈ ns, ∃ x ∈ s.table, x.ident = n) →
    Model.Context.each (fun n => do
      Model.Context.borrow .table
      if ((← Model.Context.get).table.find? (·.ident == n)).isNone then release .table) ns s =
      some ((), { s with shared := plus s.shared ns.length })
  | [], s, _, _ => by
    rw [List.length_nil, plus_zero]; rfl
  | n :: ns, s, h, hn => by
    have e : Model.Context.borrow .table s = some ((), { s with shared := more s.shared .table }) := by
      unfold Model.Context.borrow; rw [h]; rfl
    have hf : (s.table.find? (·.ident == n)).isNone = false := by
      obtain ⟨x, hx, e⟩ := hn n (List.mem_cons_self ..)
      rw [Option.isNone_eq_false_iff, List.find?_isSome]
      exact ⟨x, hx, by simp [e]⟩
    have ih := lookups ns { s with shared := more s.shared .table } h fun m hm => hn m (List.mem_cons_of_mem _ hm)
    have hp : plus (more s.shared .table) ns.length = plus s.shared (n :: ns).length := plus_more _ _
    simp only [hp] at ih
    rw [← ih]
    simp only [Model.Context.each, bind_eq, e, Model.Context.get, hf]
    rfl

/-- All contexts of the builder's fields are found, and borrowed at once. -/
theorem builder_ctxs {s : St} (hs : At a fs sh nobody [] s) :
    ∃ xs s', builderFieldCtxs s = some (xs, s') ∧ (∀ o ∈ xs, ∃ x ∈ s'.table, o = some x) ∧
      At a fs (plus sh xs.length) nobody [] s' := by
  obtain ⟨s₁, e₁, h₁⟩ := borrow_at hs (c := .builderIdents) rfl
  have i := h₁.inv
  have found : ∀ n ∈ s₁.idents, ∃ x ∈ s₁.table, x.ident = n ∧ s₁.table.find? (·.ident == n) = some x := by
    intro n hn
    obtain ⟨x, hx, e⟩ := i.idents n hn
    have : (s₁.table.find? (·.ident == n)).isSome := List.find?_isSome.2 ⟨x, hx, by simp [e]⟩
    obtain ⟨y, hy⟩ := Option.isSome_iff_exists.1 this
    exact ⟨y, List.mem_of_find?_eq_some hy, by simpa using List.find?_some hy, hy⟩
  have e₂ := lookups s₁.idents s₁ (by rw [h₁.al]; rfl) i.idents
  generalize hxs : (s₁.idents.map fun n => s₁.table.find? (·.ident == n)) = xs at *
  have hlen : xs.length = s₁.idents.length := by rw [← hxs, List.length_map]
  have h₂ : At a fs (more (plus sh xs.length) .builderIdents) nobody []
      { s₁ with shared := plus s₁.shared s₁.idents.length, built := s₁.built ++ s₁.idents.zip xs } := by
    refine ⟨⟨i.sync, i.struct, i.dflt, i.opt, i.extra, i.table, i.idents, i.asked, i.given, fun n o h => ?_⟩, ?_, h₁.al,
      fun y hy => by cases hy⟩
    · rcases List.mem_append.1 h with h | h
      · exact i.built n o h
      · rw [← hxs, List.zip_map_right] at h
        obtain ⟨⟨m, m'⟩, hm, e⟩ := List.mem_map.1 h
        have hmm : m = m' := by
          have : ∀ (l : List String) p, p ∈ l.zip l → p.1 = p.2 := by
            intro l
            induction l with
            | nil => intro p hp; cases hp
            | cons z l ih =>
              intro p hp
              rcases List.mem_cons.1 hp with hp | hp
              · subst hp; rfl
              · exact ih p hp
          exact this _ _ hm
        subst hmm
        obtain ⟨x, hx, hi, hf⟩ := found m (List.of_mem_zip hm).1
        simp only [Prod.map, id] at e
        cases e
        exact ⟨x, i.table x hx, hi, hf⟩
    · show plus s₁.shared s₁.idents.length = _
      rw [h₁.sh, hlen]; funext k; unfold plus more; by_cases h : k = .table <;> simp [h]
  obtain ⟨s₃, e₃, h₃⟩ := release_at h₂
  refine ⟨xs, s₃, ?_, ?_, h₃⟩
  · unfold builderFieldCtxs Model.Context.withRef
    simp only [bind_eq, e₁, Model.Context.get, e₂, Model.Context.change, hxs]
    cases e₃; rfl
  · intro o ho
    have : s₃.table = s₁.table := by
      cases e₃; rfl
    rw [this, ← hxs] at *
    obtain ⟨n, hn, rfl⟩ := List.mem_map.1 ho
    obtain ⟨x, hx, _, hf⟩ := found n hn
    exact ⟨x, hx, hf⟩

theorem loop {g : Gens} (hg : g.Fits) (hc : ∀ n, Calm .build (plus sh n)) : ∀ (xs : List (Option FieldArgs)) (s : St),
    At a fs (plus sh xs.length) nobody [] s → (∀ o ∈ xs, ∃ x ∈ s.table, o = some x) →
    ∃ s', buildLoop a fs g xs s = some ((), s') ∧ At a fs sh nobody [] s'
  | [], s, hs, _ => ⟨s, rfl, by rw [← plus_zero sh]; exact hs⟩
  | o :: xs, s, hs, hx => by
    obtain ⟨x, hxt, rfl⟩ := hx o (List.mem_cons_self ..)
    have all : ∀ o ∈ xs, ∃ x ∈ s.table, o = some x := fun o ho => hx o (List.mem_cons_of_mem _ ho)
    have h₀ : At a fs (plus sh (xs.length + 1)) nobody s.table s := hs.grow fun y hy => hy
    obtain ⟨_, s₁, e₁, h₁, _⟩ := Keeps.field hg (p := .build) (x := x) hxt (hc _) s h₀
    rw [plus_succ] at h₁
    obtain ⟨s₂, e₂, h₂⟩ := release_at h₁
    obtain ⟨s₃, e₃, h₃⟩ := loop hg hc xs s₂ (h₂.grow fun y hy => by cases hy) fun o ho => by
      obtain ⟨y, hy, e⟩ := all o ho
      exact ⟨y, h₂.has y hy, e⟩
    exact ⟨s₃, by simp only [buildLoop, bind_eq, e₁, e₂, e₃], h₃⟩

theorem Keeps.builder {g : Gens} (hg : g.Fits) (hm : ∀ m, sh (.memo m) = 0) (hb : Calm .builder sh)
    (hc : ∀ n, Calm .build (plus sh n)) : Keeps a fs sh nobody [] (builderStruct a fs g) fun _ => True := by
  unfold builderStruct
  refine Keeps.bind (Keeps.ask _ hm) fun d _ => ?_
  cases d with
  | false => exact Keeps.ret trivial
  | true =>
    refine Keeps.bind (Keeps.whole hg hb) fun _ _ => ?_
    intro s hs
    obtain ⟨xs, s₁, e₁, hx, h₁⟩ := builder_ctxs hs
    obtain ⟨s₂, e₂, h₂⟩ := loop hg hc xs s₁ h₁ hx
    obtain ⟨_, s₃, e₃, h₃, _⟩ := Keeps.whole hg hb s₂ h₂
    exact ⟨(), s₃, by simp only [bind_eq, e₁, e₂, e₃], h₃, trivial⟩

theorem Keeps.finalized {g : Gens} (hg : g.Fits) : Keeps a fs zero nobody [] (finalize a fs g) fun _ => True := by
  unfold finalize
  have text : ∀ {sh al}, al .tokens = false → sh .tokens = 0 → Keeps a fs sh al [] tokensExtend fun _ => True :=
    fun h h' => Keeps.withMut h h' (Keeps.ret trivial)
  refine Keeps.bind (Keeps.leaf _ (fun c hc => rfl) fun n e => by cases e) fun _ _ =>
    Keeps.bind (Keeps.leaf _ (fun c hc => rfl) fun n e => by cases e) fun _ _ => Keeps.withRef rfl ?_
  refine Keeps.bind (Keeps.whole hg ?_) fun _ _ => Keeps.bind (Keeps.builder hg (fun _ => rfl) ?_ fun n => ?_) fun _ _ =>
    Keeps.withRef rfl (Keeps.bind (text rfl rfl) fun _ _ => Keeps.bind (Keeps.withMut rfl rfl (text rfl rfl)) fun _ _ =>
      text rfl rfl)
  all_goals intro l hl c hc; cases l <;> cases c <;> simp_all [occurs, needs, more, zero, plus]

theorem Keeps.all {g : Gens} (hg : g.Fits) : Keeps a fs zero nobody [] (rewrite a fs g) fun _ => True :=
  Keeps.bind (Keeps.prepared hg) fun _ _ => Keeps.bind (Keeps.rewritten hg) fun _ _ => Keeps.finalized hg

theorem start : At a fs zero nobody [] {} := by
  refine ⟨⟨?_, ?_, ?_, ?_, ?_, ?_, ?_, ?_, ?_, ?_⟩, rfl, rfl, ?_⟩
  all_goals intros; first | contradiction | simp_all

end Verif.Proof.Context
