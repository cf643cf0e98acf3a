import Verif.Model.Hygiene
import Verif.Model.Emit
import Verif.Model.Exclusive
import Verif.Model.Serde
/-
C116: the local variables of generated functions in structs written by macros.

A struct with `#[fxstruct]` may come out of a `macro_rules!` macro, some of its arguments written in the macro, others given to
it by its user. The macro call, the attributes and the arguments are then of several contexts.

Claim: whatever the contexts, each use of a local variable in a generated function refers to a variable of the function. That is
false: `C116_fails_accessor`, `C116_fails_setter`, `C116_fails_build`. The exact rules are `C116_helper_iff` and
`C116_build_iff`; all is well if there is one context only, `C116_partial`.
-/
namespace Verif.Props.Hygiene
open Verif.Model Verif.Model.Args Verif.Model.Init Verif.Model.Builder Verif.Model.Hygiene Verif.Spec.Scope

variable {H : Type}

section
variable {N : Type}

theorem refers_skip {Γ : List (N × H)} : Refers Γ .skip ↔ True := ⟨fun _ => trivial, fun _ => .skip⟩

theorem refers_use {Γ : List (N × H)} {n : N} {h : H} : Refers Γ (.use n h) ↔ (n, h) ∈ Γ :=
  ⟨fun | .use h => h, .use⟩

theorem refers_seq {Γ : List (N × H)} {a b : Ex N H} : Refers Γ (.seq a b) ↔ Refers Γ a ∧ Refers Γ b :=
  ⟨fun | .seq h₁ h₂ => ⟨h₁, h₂⟩, fun h => .seq h.1 h.2⟩

theorem refers_bind {Γ : List (N × H)} {n : N} {h : H} {a b : Ex N H} :
    Refers Γ (.bind n h a b) ↔ Refers Γ a ∧ Refers ((n, h) :: Γ) b :=
  ⟨fun | .bind h₁ h₂ => ⟨h₁, h₂⟩, fun h => .bind h.1 h.2⟩

end

theorem refers_all {Γ : List (Name × H)} {l : List (Ex Name H)} : Refers Γ (all l) ↔ ∀ e ∈ l, Refers Γ e := by
  induction l with
  | nil => simp [all, refers_skip]
  | cons a l ih =>
    simp only [all, List.foldr_cons, refers_seq, List.forall_mem_cons] at ih ⊢
    rw [ih]

/-! ### The text is that of the other models -/

/-- The variables in a chain of the bodies of `Model.Method`: `self` at the beginning, once more as the argument of what may run
the builder, and the value. -/
def opNames : Method.MOp → List Name
  | .getOrInit _ | .getOrTryInit _ | .lazyRead _ _ _ => [.self]
  | .setV | .replaceV | .replaceSomeV | .storeV | .memReplaceV => [.value]
  | _ => []

def chainNames (l : List Method.MOp) : List Name := .self :: l.flatMap opNames

/-- The variables of a body. -/
def bodyNames (b : Method.Body) : List Name := (b.pre.elim [] chainNames) ++ chainNames b.main

theorem bind_ok {α β : Type} {a : Gen α} {f : α → Gen β} {b : β} (h : (a >>= f) = .ok b) : ∃ r, a = .ok r ∧ f r = .ok b := by
  cases a with
  | ok r => exact ⟨r, rfl, h⟩
  | error => cases h
  | panic => cases h

/-- The names left after `let`s are put aside. -/
def kept (l : List Name) : List Name := l.filter fun n => n == .self || n == .value

theorem flat_shortcut (x : FCtx) : (Method.shortcut x).flatMap opNames = [] := by
  unfold Method.shortcut; split <;> rfl

theorem flat_ok (x : FCtx) : (Method.okReturn x).flatMap opNames = [] := by
  unfold Method.okReturn; split <;> rfl

theorem flat_await (x : FCtx) : (Method.awaitCall x).flatMap opNames = [] := by
  unfold Method.awaitCall; split <;> rfl

theorem flat_meth (x : FCtx) : (Method.plainMeth x).flatMap opNames = [] := by
  unfold Method.plainMeth; split <;> rfl

theorem flat_cmethod (x : FCtx) : (Method.syncCMethod x).flatMap opNames = [] := by
  unfold Method.syncCMethod; split <;> split <;> rfl

theorem flat_init (x : FCtx) : opNames (Method.plainLazyInit x) = [.self] := by
  unfold Method.plainLazyInit; split <;> rfl

theorem reader_text {x : FCtx} {k : Kind} {b : Method.Body} (sp : Spans H) (h : Method.syncReader x = .ok b) :
    kept (syncReader sp x k).body.names = bodyNames b := by
  unfold Method.syncReader at h
  unfold syncReader onSelf countedSelf
  split at h
  · rename_i hl
    obtain ⟨r, _, h⟩ := bind_ok h
    cases h
    simp [hl, kept, Ex.names, bodyNames, chainNames, opNames, flat_await]
  · rename_i hl
    split at h <;> cases h <;> simp [hl, kept, Ex.names, bodyNames, chainNames, flat_await]
    · cases x.isFallible <;> rfl
    · rfl

/-- The variables of the functions of this model are those of the bodies of `Model.Method`, `let`s aside. -/
theorem C116_text {x : FCtx} {k : Kind} {b : Method.Body} (sp : Spans H) (h : Method.body x k = .ok b) :
    (helper sp x k).body.names.filter (fun n => n == .self || n == .value) = bodyNames b := by
  change kept _ = _
  cases k with
  | accessor =>
    simp only [Method.body, helper] at h ⊢
    split at h
    · rename_i hs
      simp only [hs, if_true]
      unfold Method.syncAccessor at h
      unfold syncAccessor
      split at h
      · rename_i hc
        simp only [hc, if_true, onSelf, countedSelf]
        split at h
        · rename_i hl
          obtain ⟨r, _, h⟩ := bind_ok h
          cases h
          simp [hl, kept, Ex.names, bodyNames, chainNames, opNames, flat_await, flat_shortcut, flat_cmethod, flat_ok]
        · rename_i hl
          split at h
          · rename_i hk
            cases h
            simp [hl, hk, kept, Ex.names, bodyNames, chainNames, opNames, flat_shortcut, flat_cmethod]
          · rename_i hk
            split at h <;> cases h <;> simp [hl, hk, kept, Ex.names, bodyNames, chainNames, flat_cmethod]
            cases x.isCopy <;> rfl
      · rename_i hc
        simp only [hc, Bool.false_eq_true, if_false]
        split at h
        · rename_i hk
          simp only [hk, if_true]
          exact reader_text sp h
        · rename_i hk
          obtain ⟨r, _, h⟩ := bind_ok h
          cases h
          simp [hk, onSelf, kept, Ex.names, bodyNames, chainNames, opNames]
    · rename_i hs
      simp only [hs, Bool.false_eq_true, if_false]
      unfold Method.plainAccessor at h
      unfold plainAccessor onSelf countedSelf
      split at h
      · rename_i hl
        obtain ⟨r, _, h⟩ := bind_ok h
        cases h
        simp only [hl, if_true]
        cases hm : x.accessorMode == .copy <;>
          simp [kept, Ex.names, bodyNames, chainNames, flat_init, flat_shortcut, flat_meth, flat_ok]
        exact ⟨rfl, rfl⟩
      · rename_i hl
        split at h
        · split at h <;> cases h <;> simp [hl, kept, Ex.names, bodyNames, chainNames, opNames, flat_meth]
          split <;> simp [opNames]
        · split at h <;> cases h <;> simp [hl, kept, Ex.names, bodyNames, chainNames, opNames]
  | accessorMut =>
    simp only [Method.body, helper] at h ⊢
    split at h
    · rename_i hs
      simp only [hs, if_true]
      unfold Method.syncAccessorMut at h
      unfold syncAccessorMut onSelf countedSelf
      split at h
      · rename_i hl
        obtain ⟨r, _, h⟩ := bind_ok h
        cases h
        simp [hl, kept, Ex.names, bodyNames, chainNames, opNames, flat_await]
      · rename_i hl
        split at h <;> cases h <;> simp [hl, kept, Ex.names, bodyNames, chainNames, opNames]
    · rename_i hs
      simp only [hs, Bool.false_eq_true, if_false]
      unfold Method.plainAccessorMut at h
      unfold plainAccessorMut onSelf countedSelf
      split at h
      · rename_i hl
        obtain ⟨r, _, h⟩ := bind_ok h
        cases h
        simp [hl, kept, Ex.names, bodyNames, chainNames, flat_init, flat_shortcut, flat_ok]
        exact ⟨rfl, rfl⟩
      · rename_i hl
        split at h <;> cases h <;> simp [hl, kept, Ex.names, bodyNames, chainNames, opNames]
  | reader =>
    simp only [Method.body, helper] at h ⊢
    split at h
    · exact reader_text sp h
    · cases h
  | writer =>
    simp only [Method.body, helper] at h ⊢
    split at h
    · unfold Method.syncWriter at h
      unfold syncWriter onSelf
      split at h
      · obtain ⟨r, _, h⟩ := bind_ok h
        cases h
        simp [kept, Ex.names, bodyNames, chainNames, opNames, flat_await]
      · cases h
        simp [kept, Ex.names, bodyNames, chainNames, opNames, flat_await]
    · cases h
  | setter =>
    simp only [Method.body, helper] at h ⊢
    split at h
    · rename_i hs
      simp only [hs, if_true]
      unfold Method.syncSetter at h
      unfold syncSetter onValue
      split at h
      · rename_i hl
        cases h
        simp [hl, kept, Ex.names, bodyNames, chainNames, opNames, flat_await]
      · rename_i hl
        split at h
        · rename_i ho
          split at h <;> cases h <;> simp [hl, ho, kept, Ex.names, bodyNames, chainNames, opNames, flat_await]
        · rename_i ho
          split at h
          · rename_i hk
            cases h
            simp [hl, ho, hk, kept, Ex.names, bodyNames, chainNames, opNames, flat_await]
          · rename_i hk
            cases h
            simp [hl, ho, hk, kept, Ex.names, bodyNames, chainNames, opNames]
    · rename_i hs
      simp only [hs, Bool.false_eq_true, if_false]
      unfold Method.plainSetter at h
      unfold plainSetter onValue
      split at h
      · rename_i hl
        cases h
        simp [hl, kept, Ex.names, bodyNames, chainNames, opNames]
      · rename_i hl
        split at h
        · rename_i hi
          cases h
          simp [hl, hi, kept, Ex.names, bodyNames, chainNames]
          cases x.isOptional <;> rfl
        · rename_i hi
          split at h <;> cases h <;> simp [hl, hi, kept, Ex.names, bodyNames, chainNames, opNames]
  | clearer =>
    simp only [Method.body, helper] at h ⊢
    split at h
    · rename_i hs
      simp only [hs, if_true]
      unfold Method.syncClearer at h
      unfold syncClearer onSelf
      split at h <;> cases h <;> simp [kept, Ex.names, bodyNames, chainNames, opNames, flat_await]
    · rename_i hs
      simp only [hs, Bool.false_eq_true, if_false]
      unfold Method.plainClearer at h
      unfold plainClearer onSelf
      split at h <;> cases h <;> simp [kept, Ex.names, bodyNames, chainNames, opNames]
  | predicate =>
    simp only [Method.body, helper] at h ⊢
    split at h
    · rename_i hs
      simp only [hs, if_true]
      unfold Method.syncPredicate at h
      unfold syncPredicate onSelf
      split at h
      · cases h; simp [kept, Ex.names, bodyNames, chainNames, opNames]
      · split at h <;> cases h <;> simp [kept, Ex.names, bodyNames, chainNames, flat_await]
        · cases x.isFallible <;> simp [opNames]
        · rfl
    · rename_i hs
      simp only [hs, Bool.false_eq_true, if_false]
      unfold Method.plainPredicate at h
      unfold plainPredicate onSelf
      split at h
      · cases h; simp [kept, Ex.names, bodyNames, chainNames, opNames]
      · split at h <;> cases h <;> simp [kept, Ex.names, bodyNames, chainNames, opNames]
  | builder => cases h
  | lazy => cases h

theorem returned_names (sp : Spans H) (x : FCtx) (k : Kind) :
    (helper sp x k).body.names.getLast? = some .old ↔ k = .setter ∧ x.isSync = false ∧ x.isLazy = true := by
  cases k <;> simp only [helper, plainAccessor, plainAccessorMut, plainSetter, plainClearer, plainPredicate, syncAccessor,
    syncAccessorMut, syncReader, syncWriter, syncSetter, syncClearer, syncPredicate, builderMethod, lazyWrapper, onSelf, onValue,
    countedSelf] <;> (try split) <;> (try split) <;> (try split) <;> (try split) <;> simp_all [Ex.names]

theorem returned_body {x : FCtx} {k : Kind} {b : Method.Body} (h : Method.body x k = .ok b) :
    b.retPre = true ↔ k = .setter ∧ x.isSync = false ∧ x.isLazy = true := by
  have hr : ∀ {b : Method.Body}, Method.syncReader x = .ok b → b.retPre = false := by
    intro b h
    unfold Method.syncReader at h
    split at h
    · obtain ⟨r, _, h⟩ := bind_ok h
      cases h; rfl
    · split at h <;> cases h <;> rfl
  cases k <;> simp only [Method.body] at h
  case accessor =>
    split at h
    · unfold Method.syncAccessor at h
      split at h
      · split at h
        · obtain ⟨r, _, h⟩ := bind_ok h; cases h; simp
        · split at h
          · cases h; simp
          · split at h <;> cases h <;> simp
      · split at h
        · simp [hr h]
        · obtain ⟨r, _, h⟩ := bind_ok h; cases h; simp
    · unfold Method.plainAccessor at h
      split at h
      · obtain ⟨r, _, h⟩ := bind_ok h; cases h; simp
      · split at h <;> split at h <;> cases h <;> simp
  case accessorMut =>
    split at h
    · unfold Method.syncAccessorMut at h
      split at h
      · obtain ⟨r, _, h⟩ := bind_ok h; cases h; simp
      · split at h <;> cases h <;> simp
    · unfold Method.plainAccessorMut at h
      split at h
      · obtain ⟨r, _, h⟩ := bind_ok h; cases h; simp
      · split at h <;> cases h <;> simp
  case reader =>
    split at h
    · simp [hr h]
    · cases h
  case writer =>
    split at h
    · unfold Method.syncWriter at h
      split at h
      · obtain ⟨r, _, h⟩ := bind_ok h; cases h; simp
      · cases h; simp
    · cases h
  case setter =>
    split at h
    · rename_i hs
      unfold Method.syncSetter at h
      split at h
      · cases h; simp [hs]
      · split at h <;> split at h <;> cases h <;> simp [hs]
    · rename_i hs
      unfold Method.plainSetter at h
      split at h
      · rename_i hl; cases h; simp [hs, hl]
      · rename_i hl
        split at h
        · cases h; simp [hl]
        · split at h <;> cases h <;> simp [hl]
  case clearer =>
    split at h
    · unfold Method.syncClearer at h
      split at h <;> cases h <;> simp
    · unfold Method.plainClearer at h
      split at h <;> cases h <;> simp
  case predicate =>
    split at h
    · unfold Method.syncPredicate at h
      split at h
      · cases h; simp
      · split at h <;> cases h <;> simp
    · unfold Method.plainPredicate at h
      split at h
      · cases h; simp
      · split at h <;> cases h <;> simp
  all_goals cases h

/-- A function of this model ends with what its `let` holds exactly if that is what the body of `Model.Method` returns. -/
theorem C116_returned {x : FCtx} {k : Kind} {b : Method.Body} (sp : Spans H) (h : Method.body x k = .ok b) :
    (helper sp x k).body.names.getLast? = some .old ↔ b.retPre = true := by
  rw [returned_names, returned_body h]

/-- The setter of a plain lazy field returns what it took out first. -/
example : ∃ b, Method.body ⟨{ args := {} }, { ident := "a", lazy := some {}, setter := some {} }⟩ .setter = .ok b ∧
    b.retPre = true := ⟨_, rfl, rfl⟩

/-- The variables of an initialiser of `Model.Init`. -/
def initNames : IE → List Name
  | .dv _ | .sdv | .dflt | .none | .onceNew => []
  | .some e | .onceFrom e | .cellNew e | .lockNew _ e | .proxyNew _ _ e => initNames e
  | .slotTake | .slotUnwrap => [.self]
  | .orElseSome e d => initNames e ++ initNames d
  | .ifSlot a b => .self :: (initNames a ++ initNames b)
  | .ifLetSlot a b => .self :: (initNames a ++ initNames b)
  | .mapOrElse e d b => initNames e ++ initNames d ++ initNames b
  | .var => [.manual]
  | .shadow => [.shadow]
  | .me | .meTake | .meIntoInner => [.meVar]

/-- The variables of what is wrapped. -/
def reprNames : VRepr → List Name
  | .none => []
  | .exact e | .versatile e => initNames e

/-- What is wrapped by the generator of a sync field. -/
theorem syncWrap_names {x : FCtx} {r : VRepr} {e : IE} : syncWrap x r = .ok e → initNames e = reprNames r := by
  have h0 : initNames (match r with
      | .none => .none
      | .exact e => e
      | .versatile e => if x.isOptional || x.isLazy then .some e else e) = reprNames r := by
    cases r with
    | none => rfl
    | exact a => rfl
    | versatile a =>
      simp only
      split <;> rfl
  intro h
  unfold syncWrap at h
  simp only at h
  by_cases hl : x.isLazy = true
  · rw [if_pos hl] at h
    obtain ⟨_, _, h⟩ := bind_ok h
    obtain ⟨_, _, h⟩ := bind_ok h
    cases h; exact h0
  · rw [if_neg hl] at h
    by_cases hr : (!x.isOptional && r == .none) = true
    · rw [if_pos hr] at h; cases h
    · rw [if_neg hr] at h
      cases h
      split <;> exact h0

theorem wrap_names {x : FCtx} {r : VRepr} {e : IE} (h : valueWrap x r = .ok e) : initNames e = reprNames r := by
  unfold valueWrap at h
  split at h
  · exact syncWrap_names h
  · unfold plainWrap at h
    cases r with
    | none =>
      simp only at h
      split at h
      · cases h; rfl
      · split at h
        · cases h; split <;> rfl
        · cases h
    | exact a => cases h; rfl
    | versatile a =>
      simp only at h
      split at h
      · cases h; rfl
      · cases h
        split
        · simp only [initNames]; split <;> rfl
        · split <;> rfl

theorem default_names {x : FCtx} {e : IE} (h : defaultWrap x = .ok e) : initNames e = [] := by
  have hr : reprNames (defaultRepr x) = [] ∧ reprNames ((defaultRepr x).map fixup) = [] := by
    unfold defaultRepr
    split
    · exact ⟨rfl, rfl⟩
    · split <;> exact ⟨rfl, rfl⟩
  unfold defaultWrap at h
  split at h
  · rename_i hs
    rw [← hr.1]
    exact wrap_names (by unfold valueWrap; rw [if_pos hs]; exact h)
  · rename_i hs
    rw [← hr.2]
    exact wrap_names (by unfold valueWrap; rw [if_neg hs]; exact h)

theorem valueForSet_names {x : FCtx} {e : IE} (sp : Spans H) (h : builderValueForSet x = .ok e) :
    (valueForSet sp x).names = initNames e := by
  unfold builderValueForSet at h
  unfold valueForSet
  split at h
  · rename_i hd
    obtain ⟨a, ha, h⟩ := bind_ok h
    obtain ⟨m, hm, h⟩ := bind_ok h
    cases h
    simp [hd, Ex.names, initNames, default_names ha, wrap_names hm, reprNames]
  · rename_i hd
    split at h
    · rename_i ho
      obtain ⟨a, ha, h⟩ := bind_ok h
      obtain ⟨m, hm, h⟩ := bind_ok h
      cases h
      simp only [ho, Bool.or_true, if_true]
      simp [Ex.names, initNames, wrap_names ha, wrap_names hm, reprNames]
    · rename_i ho
      simp [hd, ho, Ex.names, wrap_names h, reprNames, initNames]

/-- The variables of the initialisers in `build()` are those of `Model.Init`. -/
theorem C116_build_text {x : FCtx} {e : IE} (sp : Spans H) (h : builderInit x = .ok e) :
    (builderSetter sp x).names = initNames e := by
  unfold builderInit at h
  unfold builderSetter
  split at h
  · rename_i hs
    simp only [hs, if_true]
    unfold syncBuilderInit at h
    obtain ⟨_, _, h⟩ := bind_ok h
    obtain ⟨od, hn, h⟩ : ∃ od : IE → IE, initNames (od .slotTake) = [.self] ∧
        (if !x.forcedBuilder && !x.needsBuilder then syncWrap x (defaultRepr x)
          else if x.isLazy then do
            builderWrapper x
            return .proxyNew (useAsync x) x.isFallible (od .slotTake)
          else if x.needsLock then builderValueForSet x
          else if x.isOptional then return od .slotTake
          else builderValueForSet x) = Gen.ok e := by
      simp only at h
      by_cases hd : x.field.hasDefaultValue = true
      · rw [if_pos hd] at h
        obtain ⟨d, hd, h⟩ := bind_ok h
        obtain ⟨od, hod, h⟩ := bind_ok h
        cases hod
        refine ⟨fun e => .orElseSome e (fixup d), ?_, h⟩
        unfold defaultRepr at hd
        split at hd
        · cases hd; rfl
        · split at hd <;> cases hd; rfl
      · rw [if_neg hd] at h
        obtain ⟨od, hod, h⟩ := bind_ok h
        cases hod
        exact ⟨_, rfl, h⟩
    unfold syncBuilderSetter
    split at h
    · rename_i hb
      simp only [hb, if_true, Ex.names]
      have : valueWrap x (defaultRepr x) = .ok e := by unfold valueWrap; rw [if_pos hs]; exact h
      rw [wrap_names this]
      unfold defaultRepr
      split
      · rfl
      · split <;> rfl
    · rename_i hb
      simp only [hb, Bool.false_eq_true, if_false]
      split at h
      · rename_i hl
        obtain ⟨_, _, h⟩ := bind_ok h
        cases h
        simp [hl, Ex.names, initNames, hn]
      · rename_i hl
        simp only [hl, Bool.false_eq_true, if_false]
        split at h
        · rename_i hk
          simp only [hk, if_true]
          exact valueForSet_names sp h
        · rename_i hk
          simp only [hk, Bool.false_eq_true, if_false]
          split at h
          · rename_i ho
            cases h
            simp [ho, Ex.names, hn]
          · rename_i ho
            simp only [ho, Bool.false_eq_true, if_false]
            exact valueForSet_names sp h
  · rename_i hs
    simp only [hs, Bool.false_eq_true, if_false]
    unfold plainBuilderInit at h
    obtain ⟨d, hd, h⟩ := bind_ok h
    have hd := default_names hd
    unfold plainBuilderSetter
    split at h
    · rename_i hb
      cases h
      simp only [hb, if_true, Ex.names, hd]
    · rename_i hb
      simp only [hb, Bool.false_eq_true, if_false]
      split at h
      · rename_i hl
        cases h
        simp [hl, Ex.names, initNames, hd]
      · rename_i hl
        simp only [hl, Bool.false_eq_true, if_false]
        split at h
        · rename_i ho
          cases h
          simp only [ho, if_true]
          simp [Ex.names, initNames, hd]
          split <;> rfl
        · rename_i ho
          simp only [ho, Bool.false_eq_true, if_false]
          exact valueForSet_names sp h

/-! ### The rules -/

/-- The context the code for a helper is of: that of the argument of the field, without one that of its attribute, without one that
of the argument of the struct, without one that of the macro call. -/
inductive Written (sp : Spans H) (x : FCtx) (k : Kind) : H → Prop
  | own {a : Helper} : x.field.getHelper k = some a → Written sp x k (sp.arg x.field.ident k)
  | attr {h : H} : x.field.getHelper k = none → sp.attr x.field.ident = some h → Written sp x k h
  | struct {a : Helper} : x.field.getHelper k = none → sp.attr x.field.ident = none → x.ctx.args.getHelper k = some a →
      Written sp x k (sp.sarg k)
  | call : x.field.getHelper k = none → sp.attr x.field.ident = none → x.ctx.args.getHelper k = none → Written sp x k sp.call

theorem written_iff {sp : Spans H} {x : FCtx} {k : Kind} {h : H} : Written sp x k h ↔ helperSpan sp x k = h := by
  unfold helperSpan fieldSpan structSpan
  constructor
  · rintro (⟨h₁⟩ | ⟨h₁, h₂⟩ | ⟨h₁, h₂, h₃⟩ | ⟨h₁, h₂, h₃⟩) <;> simp [*]
  · intro e
    cases h₁ : x.field.getHelper k with
    | some a => rw [h₁] at e; cases e; exact .own h₁
    | none =>
      cases h₂ : sp.attr x.field.ident with
      | some b => rw [h₁, h₂] at e; cases e; exact .attr h₁ h₂
      | none =>
        cases h₃ : x.ctx.args.getHelper k with
        | some a => rw [h₁, h₂, h₃] at e; cases e; exact .struct h₁ h₂ h₃
        | none => rw [h₁, h₂, h₃] at e; cases e; exact .call h₁ h₂ h₃

/-- What a helper of the field asks of the contexts. -/
def HelperRule (sp : Spans H) (x : FCtx) : Kind → Prop
  | .accessor => x.isLazy = true →
      Written sp x .accessor sp.call ∧ (x.isSync = false → Written sp x .lazy sp.call)
  | .accessorMut => x.isLazy = true →
      if x.isSync then Written sp x .accessor sp.call else Written sp x .accessorMut sp.call
  | .reader => x.isLazy = true → Written sp x .reader sp.call
  | .setter => x.isSync = false → x.isLazy = false → x.isInnerMut = true → Written sp x .setter sp.call
  | .writer | .clearer | .predicate | .builder | .lazy => True

/-- The local variables of a helper are its own exactly if: the field is lazy and the code which may run the builder is of the
context of the macro call; the setter of an `inner_mut` field is of that context. All else is right in any contexts. -/
theorem C116_helper_iff (sp : Spans H) (x : FCtx) (k : Kind) : (helper sp x k).Closed ↔ HelperRule sp x k := by
  have hn : ∀ {a b : H}, a = b ↔ b = a := fun {a b} => ⟨Eq.symm, Eq.symm⟩
  cases k <;> simp only [helper, HelperRule, Fn.Closed, written_iff]
  case accessor =>
    cases hs : x.isSync
    · simp only [Bool.false_eq_true, if_false, plainAccessor, onSelf, countedSelf]
      cases hl : x.isLazy
      · simp [refers_use]
      · simp only [if_true, refers_seq, refers_use, List.mem_singleton, Prod.mk.injEq, true_and, forall_const]
        constructor
        · rintro ⟨h₁, h₂⟩; exact ⟨h₂.symm, h₁.trans h₂.symm⟩
        · rintro ⟨h₁, h₂⟩; exact ⟨h₂.trans h₁.symm, h₁.symm⟩
    · simp only [if_true, syncAccessor, syncReader, onSelf, countedSelf]
      cases hl : x.isLazy <;> cases hc : (x.isClone || x.isCopy) <;> cases hk : x.needsLock <;>
        simp [refers_use, refers_bind, refers_seq, hn]
  case accessorMut =>
    cases hs : x.isSync
    · simp only [Bool.false_eq_true, if_false, plainAccessorMut, onSelf, countedSelf]
      cases hl : x.isLazy <;> simp [refers_use, refers_seq, hn]
    · simp only [if_true, syncAccessorMut, onSelf, countedSelf]
      cases hl : x.isLazy <;> simp [refers_use, refers_seq, hn]
  case reader =>
    simp only [syncReader, onSelf, countedSelf]
    cases hl : x.isLazy <;> simp [refers_use, refers_seq, hn]
  case setter =>
    cases hs : x.isSync
    · simp only [Bool.false_eq_true, if_false, plainSetter, onValue]
      cases hl : x.isLazy <;> cases hi : x.isInnerMut <;> simp [refers_use, refers_bind, refers_seq, hn]
    · simp only [if_true, syncSetter, onValue]
      cases hl : x.isLazy <;> cases ho : x.isOptional <;> cases hk : x.needsLock <;>
        simp [refers_use, refers_bind, refers_seq]
  case writer => simp [syncWriter, onSelf, refers_use]
  case clearer => split <;> simp [syncClearer, plainClearer, onSelf, refers_use]
  case predicate => split <;> simp [syncPredicate, plainPredicate, onSelf, refers_use]
  case builder => simp [builderMethod, onValue, refers_use, refers_seq]
  case lazy => simp [lazyWrapper, onSelf, refers_use]

/-- What a field asks of the contexts in `build()`: the argument which brought it into the builder is of the context of the
macro call. Free is only a field which is not in the builder, or which is there by a name alone and has no other way to a value. -/
def BuildRule (sp : Spans H) (x : FCtx) : Prop :=
  Written sp x .builder sp.call ∨
  (x.isBuilderRequired = false ∧ x.needsBuilder = false ∧
    (x.forcedBuilder = true → x.isLazy = false ∧ x.isOptional = false ∧ x.field.hasDefaultValue = false))

theorem field_build_iff (sp : Spans H) (x : FCtx) {Γ : List (Name × H)} (hΓ : ∀ h, (Name.self, h) ∈ Γ ↔ h = sp.call)
    (hm : ∀ h, (Name.manual, h) ∉ Γ) :
    Refers [(.self, sp.call)] (checker sp x) ∧ Refers Γ (builderSetter sp x) ↔ BuildRule sp x := by
  have hn : ∀ {a b : H}, a = b ↔ b = a := fun {a b} => ⟨Eq.symm, Eq.symm⟩
  unfold checker hasChecker builderSetter syncBuilderSetter plainBuilderSetter valueForSet BuildRule
  rw [written_iff]
  generalize helperSpan sp x .builder = h
  cases x.isSync <;> cases x.isBuilderRequired <;> cases x.needsBuilder <;> cases x.forcedBuilder <;> cases x.isLazy <;>
    cases x.isOptional <;> cases x.field.hasDefaultValue <;> cases x.needsLock <;>
    simp [refers_skip, refers_use, refers_bind, refers_seq, hΓ, hm, hn]

/-- The local variables of `build` are its own exactly if all fields follow the rule. -/
theorem C116_build_iff (sp : Spans H) (c : Ctx) :
    (build sp c).Closed ↔ ∀ f ∈ builderFields c, BuildRule sp ⟨c, f⟩ := by
  unfold Hygiene.build onSelf Fn.Closed
  by_cases hr : c.args.isRefCounted = true
  · simp only [hr, if_true, refers_seq, refers_bind, refers_skip, refers_use, refers_all, List.mem_map, true_and,
      List.mem_cons, true_or, forall_exists_index, and_imp, forall_apply_eq_imp_iff₂]
    constructor
    · rintro ⟨h₁, h₂⟩ f hf
      exact (field_build_iff sp ⟨c, f⟩ (by simp) (by simp)).mp ⟨h₁ f hf, h₂ f hf⟩
    · intro h
      exact ⟨fun f hf => ((field_build_iff sp ⟨c, f⟩ (Γ := [(.me, sp.call), (.self, sp.call)]) (by simp) (by simp)).mpr (h f hf)).1,
        fun f hf => ((field_build_iff sp ⟨c, f⟩ (by simp) (by simp)).mpr (h f hf)).2⟩
  · simp only [hr, Bool.false_eq_true, if_false, refers_seq, refers_all, List.mem_map, forall_exists_index, and_imp,
      forall_apply_eq_imp_iff₂]
    constructor
    · rintro ⟨h₁, h₂⟩ f hf
      exact (field_build_iff sp ⟨c, f⟩ (by simp) (by simp)).mp ⟨h₁ f hf, h₂ f hf⟩
    · intro h
      exact ⟨fun f hf => ((field_build_iff sp ⟨c, f⟩ (Γ := [(.self, sp.call)]) (by simp) (by simp)).mpr (h f hf)).1,
        fun f hf => ((field_build_iff sp ⟨c, f⟩ (by simp) (by simp)).mpr (h f hf)).2⟩

private theorem names_all (l : List (Ex Name H)) : (Hygiene.all l).names = l.flatMap Ex.names := by
  induction l with
  | nil => rfl
  | cons a l ih =>
    have : (Hygiene.all (a :: l)).names = a.names ++ (Hygiene.all l).names := rfl
    rw [this, ih]; rfl

/-- The variables of the conversion to the shadow: for each step of the conversion in `Model.Serde`, those it uses. -/
theorem C116_into_text (sp : Spans H) (c : Ctx) :
    (intoShadowFn sp c).body.names = (Serde.intoCode c).flatMap fun | .init _ => [.meVar, .meVar] | .move _ => [.meVar] := by
  unfold intoShadowFn Serde.intoCode Serde.serFields
  simp only [Ex.names, names_all, List.flatMap_append, List.flatMap_map]
  rfl

/-- The same for the conversion from the shadow. -/
theorem C116_from_text (sp : Spans H) (c : Ctx) :
    (fromShadowFn sp c).body.names.filter (fun n => n == .shadow) =
      List.replicate ((c.allFields.filter fun f => Serde.deserialised ⟨c, f⟩).length) Name.shadow := by
  unfold fromShadowFn Serde.deserialised
  simp only [names_all]
  generalize c.allFields.filter _ = fs
  induction fs with
  | nil => rfl
  | cons f fs ih =>
    simp only [List.map_cons, List.flatMap_cons, List.filter_append, ih, List.length_cons, List.replicate_succ']
    have h : (Hygiene.fromShadow sp ⟨c, f⟩).names.filter (fun n => n == Name.shadow) = [.shadow] := by
      unfold Hygiene.fromShadow
      split
      · rfl
      · split <;> rfl
    rw [h, ← List.replicate_succ', List.replicate_succ]
    rfl

/-- A lazy and an optional field, both in the shadow: the lazy one is built first. -/
example : (intoShadowFn ({ call := 0, rc := 0, attr := fun _ => none, arg := fun _ _ => 0, sarg := fun _ => 0 } : Spans Nat)
    { args := { serde := some {} }, fields := [{ ident := "a", lazy := some {} }, { ident := "b", optional := some true }] }).body.names =
    [.meVar, .meVar, .meVar, .meVar] := by decide +kernel

/-- `myself`, the downgrading method and the conversions for serde are right in any contexts. -/
theorem C116_others (sp : Spans H) (c : Ctx) :
    (myself sp).Closed ∧ (fromShadowFn sp c).Closed ∧ (intoShadowFn sp c).Closed := by
  refine ⟨by simp [myself, onSelf, Fn.Closed, refers_use], ?_, ?_⟩
  · simp only [fromShadowFn, Fn.Closed, refers_all, List.mem_map, forall_exists_index, and_imp, forall_apply_eq_imp_iff₂]
    intro f _
    unfold Hygiene.fromShadow
    split
    · simp [refers_use]
    · split <;> simp [refers_use, refers_bind]
  · simp only [intoShadowFn, Fn.Closed, refers_seq, refers_all, List.mem_map, forall_exists_index, and_imp,
      forall_apply_eq_imp_iff₂]
    exact ⟨fun f _ => by simp [lazyInit, refers_seq, refers_use], fun f _ => by simp [fromStruct, refers_use]⟩

/-- The claim for one struct and the contexts its parts are of: no use of a local variable in a generated function misses. -/
def AllClosed (sp : Spans H) (c : Ctx) : Prop :=
  (∀ f ∈ c.allFields, ∀ k, (helper sp ⟨c, f⟩ k).Closed) ∧ (build sp c).Closed ∧ (myself sp).Closed ∧
  (fromShadowFn sp c).Closed ∧ (intoShadowFn sp c).Closed

/-- **C116, partial.** If all attributes and arguments are of the context of the macro call, each use of a local variable refers
to a variable of the function. Missing from the full claim: structs whose parts are of several contexts. -/
theorem C116_partial {sp : Spans H} (c : Ctx) (ha : ∀ n k, sp.arg n k = sp.call) (ht : ∀ n h, sp.attr n = some h → h = sp.call)
    (hs : ∀ k, sp.sarg k = sp.call) : AllClosed sp c := by
  have hh : ∀ x k, helperSpan sp x k = sp.call := by
    intro x k
    unfold helperSpan fieldSpan structSpan
    cases x.field.getHelper k with
    | some => simp [ha]
    | none =>
      cases hat : sp.attr x.field.ident with
      | some h => simp [ht _ _ hat]
      | none => cases x.ctx.args.getHelper k <;> simp [hs]
  obtain ⟨h₁, h₂, h₃⟩ := C116_others sp c
  refine ⟨fun f _ k => (C116_helper_iff sp _ k).mpr ?_, (C116_build_iff sp c).mpr fun f _ => .inl (written_iff.mpr (hh _ _)), h₁, h₂, h₃⟩
  cases k <;> simp only [HelperRule, written_iff, hh, implies_true, and_self, ite_self]

/-- **C116.** A lazy field with an attribute of another context than the macro call has no accessor, reader or mutable accessor
which compiles, unless the argument for it is of the context of the call. -/
theorem C116_lazy_field {sp : Spans H} {x : FCtx} {h : H} (hl : x.isLazy = true) (ht : sp.attr x.field.ident = some h)
    (hc : h ≠ sp.call) {k : Kind} (hk : k = .accessor ∨ k = .reader ∨ (k = .accessorMut ∧ x.isSync = false))
    (ha : x.field.getHelper k = none ∨ sp.arg x.field.ident k ≠ sp.call) : ¬ (helper sp x k).Closed := by
  have hne : helperSpan sp x k ≠ sp.call := by
    unfold helperSpan fieldSpan
    cases hg : x.field.getHelper k with
    | none => simpa [ht] using hc
    | some => simpa using ha.resolve_left (by simp [hg])
  rw [C116_helper_iff]
  rcases hk with rfl | rfl | ⟨rfl, hs⟩
  · exact fun hr => hne (written_iff.mp (hr hl).1)
  · exact fun hr => hne (written_iff.mp (hr hl))
  · intro hr
    have hr := hr hl
    rw [hs] at hr
    exact hne (written_iff.mp hr)

/-- **C116.** A field in the builder with an attribute of another context than the macro call, and no argument `builder` of its
own, makes a `build` which does not compile. -/
theorem C116_builder_field {sp : Spans H} {c : Ctx} {f : FieldArgs} {h : H} (hf : f ∈ builderFields c)
    (hn : (FCtx.mk c f).needsBuilder = true) (ht : sp.attr f.ident = some h) (hc : h ≠ sp.call) (hb : f.builder = none) :
    ¬ (build sp c).Closed := by
  rw [C116_build_iff]
  intro hr
  rcases hr f hf with hr | ⟨_, hr, _⟩
  · apply hc
    have hr := written_iff.mp hr
    simpa [helperSpan, fieldSpan, FieldArgs.getHelper, hb, ht] using hr
  · rw [hn] at hr; cases hr

/-! ### Witnesses -/

/-- All of the struct is written in the macro, but the attributes of fields, which its user gives to it:
`macro_rules! s { ($(#[$m:meta])*) => { #[fxstruct(..)] struct S { $(#[$m])* a: T } } }`. -/
def fromUser : Spans Nat where
  call := 1
  arg _ _ := 0
  attr _ := some 0
  sarg _ := 1
  rc := 1

/-- `#[fxstruct] struct S { #[fieldx(lazy, get)] a: T }`. -/
def lazyGet (sync : Bool) : FCtx :=
  { ctx := { args := { modeSync := some sync } }, field := { ident := "a", lazy := some {}, accessor := some {} } }

/-- **C116 is false of the code**: the accessor of a lazy field, plain or sync. -/
theorem C116_fails_accessor : ∀ sync, Exclusive.acceptStructFull (lazyGet sync).ctx.args = true ∧
    Exclusive.acceptFieldFull (lazyGet sync).field = true ∧
    (∃ b, Method.body (lazyGet sync) .accessor = .ok b) ∧ ¬ (helper fromUser (lazyGet sync) .accessor).Closed := by
  intro sync
  refine ⟨by cases sync <;> decide +kernel, by cases sync <;> decide +kernel, by cases sync <;> exact ⟨_, rfl⟩, ?_⟩
  exact C116_lazy_field (h := 0) (by cases sync <;> decide +kernel) rfl (by decide) (.inl rfl) (.inr (Nat.zero_ne_one))

/-- `#[fxstruct] struct S { #[fieldx(inner_mut, set)] a: T }`. -/
def innerSet : FCtx := { ctx := { }, field := { ident := "a", innerMut := some true, setter := some {} } }

/-- **C116 is false of the code**: the setter of an `inner_mut` field. -/
theorem C116_fails_setter : Exclusive.acceptStructFull innerSet.ctx.args = true ∧
    Exclusive.acceptFieldFull innerSet.field = true ∧
    (∃ b, Method.body innerSet .setter = .ok b) ∧ ¬ (helper fromUser innerSet .setter).Closed := by
  refine ⟨by decide +kernel, by decide +kernel, ⟨_, rfl⟩, ?_⟩
  rw [C116_helper_iff]
  intro hr
  exact absurd (written_iff.mp (hr (by decide +kernel) (by decide +kernel) (by decide +kernel))) (by decide +kernel)

/-- `#[fxstruct(builder)] struct S { #[fieldx(get)] a: T, b: T }`. -/
def builderGet : Ctx :=
  { args := { builder := some {} }, fields := [{ ident := "a", accessor := some {} }, { ident := "b" }] }

/-- **C116 is false of the code**: `build`. -/
theorem C116_fails_build : Exclusive.acceptStructFull builderGet.args = true ∧
    (∀ f ∈ builderGet.fields, Exclusive.acceptFieldFull f = true) ∧
    (∀ f ∈ builderFields builderGet, ∃ e, builderInit ⟨builderGet, f⟩ = .ok e) ∧ ¬ (build fromUser builderGet).Closed := by
  have hb : builderFields builderGet = [{ ident := "a", accessor := some {} }, { ident := "b" }] := by decide +kernel
  refine ⟨by decide +kernel, by decide +kernel, ?_, ?_⟩
  · rw [hb]
    intro f hf
    simp only [List.mem_cons, List.not_mem_nil, or_false] at hf
    rcases hf with rfl | rfl <;> exact ⟨_, rfl⟩
  · exact C116_builder_field (f := { ident := "a", accessor := some {} }) (h := 0) (by rw [hb]; simp) (by decide +kernel) rfl
      (by decide) rfl

/-- Written all in one place, as is usual, and with an attribute on the field: the hypotheses of `C116_partial` hold. -/
def oneContext : Spans Nat where
  call := 1
  arg _ _ := 1
  attr _ := some 1
  sarg _ := 1
  rc := 7

example : AllClosed oneContext builderGet :=
  C116_partial builderGet (fun _ _ => rfl) (fun _ _ h => by cases h; rfl) fun _ => rfl

/-- The rule for the accessor of a lazy field is met by arguments of the context of the call, in spite of the attribute. -/
example : (helper { oneContext with attr := fun _ => some 0 } (lazyGet false) .accessor).Closed :=
  (C116_helper_iff _ _ _).mpr fun _ => ⟨.own rfl, fun _ => .own rfl⟩

/-- A field without attributes does no harm to `build`, if only those of its neighbours do not either. -/
example : (build { fromUser with attr := fun n => if n = "a" then some 1 else none } builderGet).Closed :=
  (C116_build_iff _ _).mpr (by
    have hb : builderFields builderGet = [{ ident := "a", accessor := some {} }, { ident := "b" }] := by decide +kernel
    rw [hb]
    intro f hf
    simp only [List.mem_cons, List.not_mem_nil, or_false] at hf
    rcases hf with rfl | rfl <;> exact .inl (written_iff.mpr (by decide +kernel)))

/-- The text of both is that of `Model.Method` and `Model.Init`: the setter of an `inner_mut` field, an initialiser. -/
example : ((helper fromUser innerSet .setter).body.names = [.self, .value]) ∧
    (builderSetter fromUser ⟨builderGet, { ident := "a", default := some { value := some "3" } }⟩).names = [.self, .manual] := by
  decide +kernel

end Verif.Props.Hygiene
