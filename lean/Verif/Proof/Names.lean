import Verif.Model.Names
/-! Lemmas about generated names. -/
namespace Verif.Proof.Names
open Verif.Model.Args Verif.Model.Emit Verif.Model.Names

/-- Default name of a slot on a base name, as characters. -/
def chars (b : List Char) : Slot → List Char
  | .wrap => ['_', '_', 'f', 'x', '_', 'a', 's', 'y', 'n', 'c', '_', 'w', 'r', 'a', 'p', '_', 'f', 'o', 'r', '_', 'b', 'u', 'i', 'l', 'd', '_'] ++ b
  | .helper .accessor => b
  | .helper .builder => b
  | .helper .accessorMut => b ++ ['_', 'm', 'u', 't']
  | .helper .clearer => ['c', 'l', 'e', 'a', 'r', '_'] ++ b
  | .helper .lazy => ['b', 'u', 'i', 'l', 'd', '_'] ++ b
  | .helper .predicate => ['h', 'a', 's', '_'] ++ b
  | .helper .reader => ['r', 'e', 'a', 'd', '_'] ++ b
  | .helper .setter => ['s', 'e', 't', '_'] ++ b
  | .helper .writer => ['w', 'r', 'i', 't', 'e', '_'] ++ b

/-- The prefixes the macro puts before base names. -/
def prefixes : List (List Char) :=
  [['c', 'l', 'e', 'a', 'r', '_'], ['b', 'u', 'i', 'l', 'd', '_'], ['h', 'a', 's', '_'], ['r', 'e', 'a', 'd', '_'], ['s', 'e', 't', '_'], ['w', 'r', 'i', 't', 'e', '_'],
   ['_', '_', 'f', 'x', '_', 'a', 's', 'y', 'n', 'c', '_', 'w', 'r', 'a', 'p', '_', 'f', 'o', 'r', '_', 'b', 'u', 'i', 'l', 'd', '_']]

/-- A base name that looks like no generated name. -/
structure CleanChars (b : List Char) : Prop where
  pre : ∀ p ∈ prefixes, ¬ p <+: b
  preMut : ∀ p ∈ prefixes, ¬ p <+: b ++ ['_', 'm', 'u', 't']
  suf : ¬ ['_', 'm', 'u', 't'] <:+ b

theorem slotName_chars (x : FCtx) (t : Slot)
    (hf : ∀ k, (x.field.getHelper k).bind (·.name) = none)
    (hs : ∀ k, (x.ctx.args.getHelper k).bind (·.name) = none) :
    (slotName x t).toList = chars (baseName x.field).toList t := by
  cases t with
  | wrap =>
    have e : "__fx_async_wrap_for_".toList ++ "build_".toList = ['_', '_', 'f', 'x', '_', 'a', 's', 'y', 'n', 'c', '_', 'w', 'r', 'a', 'p', '_', 'f', 'o', 'r', '_', 'b', 'u', 'i', 'l', 'd', '_'] := by
      decide +kernel
    have h : slotName x .wrap = "__fx_async_wrap_for_" ++ ("build_" ++ baseName x.field ++ "") := by
      show "__fx_async_wrap_for_" ++ helperName x .lazy = _
      congr 1
      unfold helperName namePrefix
      rw [hf, hs]
      rfl
    rw [h, String.append_empty, String.toList_append, String.toList_append, ← List.append_assoc, e]
    rfl
  | helper k =>
    cases k <;>
    simp [slotName, helperName, hf, namePrefix, hs, nameSuffix, defaultPrefix, defaultSuffix, chars,
      String.toList_append]

theorem chars_inj {a b : List Char} (ha : CleanChars a) (hb : CleanChars b) {s t : Slot}
    (hs : s ≠ .helper .builder) (ht : t ≠ .helper .builder) (h : chars a s = chars b t) : a = b ∧ s = t := by
  have pa : ∀ p ∈ prefixes, ∀ c, p ++ c ≠ a := fun p hp c e => ha.pre p hp ⟨c, e⟩
  have pb : ∀ p ∈ prefixes, ∀ c, p ++ c ≠ b := fun p hp c e => hb.pre p hp ⟨c, e⟩
  have pam : ∀ p ∈ prefixes, ∀ c, p ++ c ≠ a ++ ['_', 'm', 'u', 't'] := fun p hp c e => ha.preMut p hp ⟨c, e⟩
  have pbm : ∀ p ∈ prefixes, ∀ c, p ++ c ≠ b ++ ['_', 'm', 'u', 't'] := fun p hp c e => hb.preMut p hp ⟨c, e⟩
  have sa : ∀ c, c ++ ['_', 'm', 'u', 't'] ≠ a := fun c e => ha.suf ⟨c, e⟩
  have sb : ∀ c, c ++ ['_', 'm', 'u', 't'] ≠ b := fun c e => hb.suf ⟨c, e⟩
  rcases s with k | _ <;> rcases t with l | _
  · cases k <;> cases l <;> first
      | exact absurd rfl hs
      | exact absurd rfl ht
      | exact ⟨h, rfl⟩
      | exact ⟨List.append_cancel_right h, rfl⟩
      | exact ⟨List.append_cancel_left h, rfl⟩
      | exact absurd h (sb _)
      | exact absurd h.symm (sb _)
      | exact absurd h.symm (sa _)
      | exact absurd h (pb _ (by decide) _)
      | exact absurd h.symm (pa _ (by decide) _)
      | exact absurd h (pbm _ (by decide) _)
      | exact absurd h.symm (pam _ (by decide) _)
      | simp [chars] at h
  · cases k <;> first
      | exact absurd rfl hs
      | exact absurd h.symm (pa _ (by decide) _)
      | exact absurd h.symm (pam _ (by decide) _)
      | simp [chars] at h
  · cases l <;> first
      | exact absurd rfl ht
      | exact absurd h (pb _ (by decide) _)
      | exact absurd h (pbm _ (by decide) _)
      | simp [chars] at h
  · exact ⟨List.append_cancel_left h, rfl⟩

theorem nodup_map_of_inj {α β : Type} (f : α → β) (l : List α) (hn : l.Nodup)
    (hi : ∀ a ∈ l, ∀ b ∈ l, f a = f b → a = b) : (l.map f).Nodup := by
  induction l with
  | nil => simp
  | cons a r ih =>
    rw [List.map_cons, List.nodup_cons]
    rw [List.nodup_cons] at hn
    refine ⟨?_, ih hn.2 (fun x hx y hy => hi x (by simp [hx]) y (by simp [hy]))⟩
    intro hm
    obtain ⟨b, hb, he⟩ := List.mem_map.mp hm
    have := hi b (by simp [hb]) a (by simp) he
    subst this
    exact hn.1 hb

theorem slots_nodup (x : FCtx) : (slots x).Nodup := by
  have h1 : (([.accessor, .accessorMut, .reader, .writer, .setter, .clearer, .predicate] : List Kind).filter
      (emits x)).map Slot.helper |>.Nodup := by
    apply nodup_map_of_inj
    · exact List.Sublist.nodup List.filter_sublist (by decide)
    · intro a _ b _ h; cases h; rfl
  unfold slots
  rw [List.nodup_append, List.nodup_append]
  refine ⟨⟨h1, by split <;> simp, ?_⟩, by split <;> simp, ?_⟩
  · intro a ha b hb e
    subst e
    obtain ⟨k, hk, rfl⟩ := List.mem_map.mp ha
    have := (List.mem_filter.mp hk).1
    split at hb
    · simp at hb; subst hb; simp at this
    · simp at hb
  · intro a ha b hb e
    subst e
    split at hb
    · simp only [List.mem_singleton] at hb
      subst hb
      simp only [List.mem_append, List.mem_map, reduceCtorEq, and_false, exists_false, false_or] at ha
      split at ha <;> simp at ha
    · simp at hb

theorem slots_no_builder (x : FCtx) : Slot.helper .builder ∉ slots x := by
  unfold slots
  simp only [List.mem_append, List.mem_map, List.mem_filter]
  rintro ((⟨k, ⟨hk, _⟩, he⟩ | h) | h)
  · cases he; simp at hk
  · split at h <;> simp at h
  · split at h <;> simp at h

end Verif.Proof.Names
