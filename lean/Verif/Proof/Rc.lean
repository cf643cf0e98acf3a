import Verif.Model.Rc
/-! Invariant of reference counted structs. -/

namespace Verif.Proof.Rc
open Verif.Model.Rc

variable {V : Type} {s s' : St V} {sync : Bool}

/-- A strong reference to `a`. -/
def isStrong (a : Nat) : Ref V → Bool
  | .strong b => b == a
  | _ => false

/-- An object under construction for `a`. -/
def isMaking (a : Nat) : Ref V → Bool
  | .making b _ => b == a
  | _ => false

/-- Number of variables satisfying `p`. -/
def num (s : St V) (p : Ref V → Bool) : Nat := s.refs.countP p

/-- 1 or 0. -/
def one (b : Bool) : Nat := if b then 1 else 0

structure Inv (s : St V) : Prop where
  cnt : ∀ a, (s.box a).strong = num s (isStrong a)
  live : ∀ a, (s.box a).obj.isSome = true ↔ 0 < (s.box a).strong
  fresh : ∀ a, s.next ≤ a → (s.box a).strong = 0 ∧ num s (isMaking a) = 0 ∧ a ∉ s.made
  once : ∀ a, num s (isMaking a) ≤ 1
  busy : ∀ a, 0 < num s (isMaking a) → (s.box a).strong = 0 ∧ a ∉ s.made
  own : ∀ a o, Ref.making a o ∈ s.refs → o.me = some a
  made : ∀ a, a ∈ s.made → ∀ o, (s.box a).obj = some o → o.me = some a

theorem num_push (s : St V) (r : Ref V) (p : Ref V → Bool) : num (s.push r) p = num s p + one (p r) := by
  simp [num, St.push, one, List.countP_append, List.countP_cons]

theorem countP_set' {p : Ref V → Bool} {r' : Ref V} : ∀ {l : List (Ref V)} {i : Nat} {r : Ref V}, l[i]? = some r →
    (l.set i r').countP p + one (p r) = l.countP p + one (p r')
  | [], _, _, h => by simp at h
  | x :: l, 0, r, h => by
    simp at h
    subst h
    simp [List.countP_cons, one]
    omega
  | x :: l, i + 1, r, h => by
    simp only [List.getElem?_cons_succ] at h
    have := countP_set' (p := p) (r' := r') h
    simp only [List.set_cons_succ, List.countP_cons]
    omega

theorem num_set {i : Nat} {r r' : Ref V} (h : s.refs[i]? = some r) (p : Ref V → Bool) :
    num (s.setRef i r') p + one (p r) = num s p + one (p r') := countP_set' h

theorem mem_set {l : List (Ref V)} {i : Nat} {r x : Ref V} (h : x ∈ l.set i r) : x ∈ l ∨ x = r := List.mem_or_eq_of_mem_set h

theorem num_pos {i : Nat} {r : Ref V} (h : s.refs[i]? = some r) {p : Ref V → Bool} (hp : p r = true) : 0 < num s p :=
  List.countP_pos_iff.2 ⟨r, List.mem_of_getElem? h, hp⟩

/-- Neither strong nor under construction. -/
def isPlain : Ref V → Bool
  | .strong _ => false
  | .making _ _ => false
  | _ => true

theorem plain_strong {r : Ref V} (h : isPlain r = true) (a : Nat) : isStrong a r = false ∧ isMaking a r = false := by
  cases r <;> simp_all [isPlain, isStrong, isMaking]

theorem inv_push (hi : Inv s) {r : Ref V} (h : isPlain r = true) : Inv (s.push r) := by
  have hs : ∀ a, num (s.push r) (isStrong a) = num s (isStrong a) := by
    intro a; rw [num_push, (plain_strong h a).1]; rfl
  have hm : ∀ a, num (s.push r) (isMaking a) = num s (isMaking a) := by
    intro a; rw [num_push, (plain_strong h a).2]; rfl
  refine ⟨fun a => by rw [hs]; exact hi.cnt a, hi.live, fun a h => by rw [hm]; exact hi.fresh a h,
    fun a => by rw [hm]; exact hi.once a, fun a h => by rw [hm] at h; exact hi.busy a h, ?_, hi.made⟩
  intro a o hm
  simp only [St.push, List.mem_append, List.mem_singleton] at hm
  rcases hm with hm | hm
  · exact hi.own a o hm
  · rw [← hm] at h; cases h

/-- Replacing a variable by one of the same kind. -/
theorem inv_set (hi : Inv s) {i : Nat} {r r' : Ref V} (h : s.refs[i]? = some r)
    (h1 : ∀ a, isStrong a r' = isStrong a r) (h2 : ∀ a, isMaking a r' = true → isMaking a r = true)
    (h3 : ∀ a o, r' = .making a o → o.me = some a) : Inv (s.setRef i r') := by
  have hs : ∀ a, num (s.setRef i r') (isStrong a) = num s (isStrong a) := by
    intro a
    have := num_set (r' := r') h (isStrong a)
    rw [h1 a] at this; omega
  have hm : ∀ a, num (s.setRef i r') (isMaking a) ≤ num s (isMaking a) := by
    intro a
    have := num_set (r' := r') h (isMaking a)
    have h2 := h2 a
    cases hx : isMaking a r' <;> cases hy : isMaking a r <;> simp [hx, hy, one] at this h2 ⊢ <;> omega
  refine ⟨fun a => by rw [hs]; exact hi.cnt a, hi.live, fun a h => ?_,
    fun a => Nat.le_trans (hm a) (hi.once a), fun a h => hi.busy a (Nat.lt_of_lt_of_le h (hm a)), ?_, hi.made⟩
  · have := hi.fresh a h
    have hm := hm a
    exact ⟨this.1, by omega, this.2.2⟩
  · intro a o hmem
    rcases mem_set hmem with hmem | hmem
    · exact hi.own a o hmem
    · exact h3 a o hmem.symm

/-- A new strong reference beside others. -/
theorem inv_dup (hi : Inv s) {b : Nat} (h : 0 < (s.box b).strong) : Inv ((s.incr b).push (.strong b)) := by
  have hs : ∀ a, num ((s.incr b).push (.strong b)) (isStrong a) = num s (isStrong a) + one (b == a) := by
    intro a; rw [num_push]; rfl
  have hm : ∀ a, num ((s.incr b).push (.strong b)) (isMaking a) = num s (isMaking a) := by
    intro a; rw [num_push]; rfl
  have hb : ∀ a, (((s.incr b).push (.strong b)).box a).strong = (s.box a).strong + one (b == a) := by
    intro a
    by_cases hab : a = b
    · subst hab; simp [St.incr, St.push, St.setBox, one]
    · simp [St.incr, St.push, St.setBox, one, hab, Ne.symm hab]
  have ho : ∀ a, (((s.incr b).push (.strong b)).box a).obj = (s.box a).obj := by
    intro a
    by_cases hab : a = b
    · subst hab; simp [St.incr, St.push, St.setBox]
    · simp [St.incr, St.push, St.setBox, hab]
  have hz : ∀ a, (s.box a).strong = 0 → one (b == a) = 0 := by
    intro a ha
    by_cases hab : b = a
    · subst hab; omega
    · simp [one, hab]
  refine ⟨fun a => by rw [hs, hb, hi.cnt a], fun a => ?_, fun a h => ?_, fun a => by rw [hm]; exact hi.once a, fun a h => ?_,
    fun a o h => ?_, fun a h o ho' => hi.made a h o (by rw [← ho]; exact ho')⟩
  · rw [ho, hb, hi.live a]
    have := hz a
    omega
  · have h1 := hi.fresh a h
    rw [hb, hz a h1.1, hm]
    exact h1
  · rw [hm] at h
    have h1 := hi.busy a h
    rw [hb, hz a h1.1]
    exact h1
  · simp only [St.push, List.mem_append, List.mem_singleton, reduceCtorEq, or_false] at h
    exact hi.own a o h

/-- A strong reference goes away (dropped, or its content moved out). -/
theorem inv_drop (hi : Inv s) {i a : Nat} (h : s.refs[i]? = some (.strong a)) {r' : Ref V} (hr : isPlain r' = true) :
    Inv ((s.decr a).setRef i r') := by
  have h0 : (s.decr a).refs[i]? = some (.strong a) := h
  have hpos : 0 < (s.box a).strong := by rw [hi.cnt a]; exact num_pos h (by simp [isStrong])
  have hs : ∀ b, num ((s.decr a).setRef i r') (isStrong b) + one (a == b) = num s (isStrong b) := by
    intro b
    have := num_set (r' := r') h0 (isStrong b)
    rw [(plain_strong hr b).1] at this
    exact this
  have hm : ∀ b, num ((s.decr a).setRef i r') (isMaking b) = num s (isMaking b) := by
    intro b
    have := num_set (r' := r') h0 (isMaking b)
    rw [(plain_strong hr b).2] at this
    exact this
  have hb : ∀ b, (((s.decr a).setRef i r').box b).strong + one (a == b) = (s.box b).strong := by
    intro b
    by_cases hab : b = a
    · subst hab; simp [St.decr, St.setRef, St.setBox, one]; omega
    · simp [St.decr, St.setRef, St.setBox, one, hab, Ne.symm hab]
  have hle : ∀ b, (((s.decr a).setRef i r').box b).strong ≤ (s.box b).strong := by
    intro b; have := hb b; omega
  refine ⟨fun b => ?_, fun b => ?_, fun b h => ?_, fun b => by rw [hm]; exact hi.once b, fun b h => ?_,
    fun b o h => ?_, fun b h o ho => ?_⟩
  · have h1 := hs b
    have h2 := hb b
    have h3 := hi.cnt b
    omega
  · by_cases hab : b = a
    · subst hab
      have hl := hi.live b
      simp only [St.decr, St.setRef, St.setBox, if_true]
      by_cases h1 : (s.box b).strong ≤ 1
      · simp [h1]
      · simp [h1, hl]; omega
    · have hl := hi.live b
      simpa [St.decr, St.setRef, St.setBox, hab] using hl
  · have h1 := hi.fresh b h
    have := hle b
    rw [hm]
    exact ⟨by omega, h1.2⟩
  · rw [hm] at h
    have h1 := hi.busy b h
    have := hle b
    exact ⟨by omega, h1.2⟩
  · rcases mem_set h with h | h
    · exact hi.own b o h
    · rw [← h] at hr; cases hr
  · refine hi.made b h o ?_
    by_cases hab : b = a
    · subst hab
      simp only [St.decr, St.setRef, St.setBox, if_true] at ho
      split at ho
      · cases ho
      · exact ho
    · simpa [St.decr, St.setRef, St.setBox, hab] using ho

/-- `Rc::new` of a value. -/
theorem inv_alloc (hi : Inv s) {i : Nat} {r : Ref V} (h : s.refs[i]? = some r) (hr : isPlain r = true) (o : Obj V) :
    Inv (s.alloc i o) := by
  have hf := hi.fresh s.next (Nat.le_refl _)
  have hs : ∀ b, num (s.alloc i o) (isStrong b) = num s (isStrong b) + one (s.next == b) := by
    intro b
    have := num_set (r' := .strong s.next) h (isStrong b)
    rw [(plain_strong hr b).1] at this
    exact this
  have hm : ∀ b, num (s.alloc i o) (isMaking b) = num s (isMaking b) := by
    intro b
    have := num_set (r' := .strong s.next) h (isMaking b)
    rw [(plain_strong hr b).2] at this
    exact this
  have hb : ∀ b, b ≠ s.next → (s.alloc i o).box b = s.box b := by
    intro b hb; simp [St.alloc, St.setRef, St.setBox, hb]
  have hn : (s.alloc i o).box s.next = ⟨1, some o⟩ := by simp [St.alloc, St.setRef, St.setBox]
  refine ⟨fun b => ?_, fun b => ?_, fun b h => ?_, fun b => by rw [hm]; exact hi.once b, fun b h => ?_,
    fun b o h => ?_, fun b h o' ho => ?_⟩
  · by_cases hbn : b = s.next
    · subst hbn
      have := hi.cnt s.next
      rw [hs, hn]; simp [one]; omega
    · rw [hs, hb b hbn, hi.cnt b]; simp [one, Ne.symm hbn]
  · by_cases hbn : b = s.next
    · subst hbn; rw [hn]; simp
    · rw [hb b hbn]; exact hi.live b
  · have h' : s.next + 1 ≤ b := h
    rw [hb b (by omega), hm]
    exact hi.fresh b (by omega)
  · rw [hm] at h
    rw [hb b (by rintro rfl; omega)]
    exact hi.busy b h
  · rcases mem_set h with h | h
    · exact hi.own b o h
    · cases h
  · refine hi.made b h o' ?_
    rw [← hb b (by rintro rfl; exact hf.2.2 h)]
    exact ho

/-- Changing the content but not its self reference. -/
theorem inv_content (hi : Inv s) {a : Nat} {o o' : Obj V} (h : (s.box a).obj = some o) (hme : o'.me = o.me) :
    Inv (s.setBox a { s.box a with obj := some o' }) := by
  have hb : ∀ b, ((s.setBox a { s.box a with obj := some o' }).box b).strong = (s.box b).strong := by
    intro b
    by_cases hab : b = a
    · subst hab; simp [St.setBox]
    · simp [St.setBox, hab]
  refine ⟨fun b => by rw [hb]; exact hi.cnt b, fun b => ?_, fun b h => by rw [hb]; exact hi.fresh b h, hi.once,
    fun b h => by rw [hb]; exact hi.busy b h, hi.own, fun b hm x hx => ?_⟩
  · rw [hb, ← hi.live b]
    by_cases hab : b = a
    · subst hab; simp [St.setBox, h]
    · simp [St.setBox, hab]
  · by_cases hab : b = a
    · subst hab
      simp only [St.setBox, if_true, Option.some.injEq] at hx
      rw [← hx, hme]
      exact hi.made b hm o h
    · simp only [St.setBox, hab, if_false] at hx
      exact hi.made b hm x hx

/-- Construction ends with object `o'`. -/
theorem inv_finish (hi : Inv s) {i a : Nat} {o o' : Obj V} (h : s.refs[i]? = some (.making a o)) {m : List Nat}
    (hm : m = s.made ∨ m = a :: s.made ∧ o'.me = some a) :
    Inv { (s.setBox a ⟨1, some o'⟩).setRef i (.strong a) with made := m } := by
  have hp : 0 < num s (isMaking a) := num_pos h (by simp [isMaking])
  have hk := hi.busy a hp
  have h1 := hi.once a
  have hsub : ∀ b, b ∈ m → b = a ∧ o'.me = some a ∨ b ∈ s.made := by
    intro b hb
    rcases hm with rfl | ⟨rfl, h2⟩
    · exact .inr hb
    · simp only [List.mem_cons] at hb
      rcases hb with hb | hb
      · exact .inl ⟨hb, h2⟩
      · exact .inr hb
  have hs : ∀ b, num { (s.setBox a ⟨1, some o'⟩).setRef i (.strong a) with made := m } (isStrong b)
      = num s (isStrong b) + one (a == b) := by
    intro b
    exact num_set (s := s) (r' := .strong a) h (isStrong b)
  have hmk : ∀ b, num { (s.setBox a ⟨1, some o'⟩).setRef i (.strong a) with made := m } (isMaking b) + one (a == b)
      = num s (isMaking b) := by
    intro b
    exact num_set (s := s) (r' := .strong a) h (isMaking b)
  have hb : ∀ b, b ≠ a → { (s.setBox a ⟨1, some o'⟩).setRef i (.strong a) with made := m }.box b = s.box b := by
    intro b hb; simp [St.setRef, St.setBox, hb]
  have hn : { (s.setBox a ⟨1, some o'⟩).setRef i (.strong a) with made := m }.box a = ⟨1, some o'⟩ := by
    simp [St.setRef, St.setBox]
  refine ⟨fun b => ?_, fun b => ?_, fun b h => ?_, fun b => ?_, fun b h => ?_, fun b x hx => ?_, fun b hbm x hx => ?_⟩
  · rw [hs]
    by_cases hab : b = a
    · subst hab; rw [hn]; have := hi.cnt b; simp [one]; omega
    · rw [hb b hab, hi.cnt b]; simp [one, Ne.symm hab]
  · by_cases hab : b = a
    · subst hab; rw [hn]; simp
    · rw [hb b hab]; exact hi.live b
  · have hf := hi.fresh b h
    have hab : b ≠ a := by rintro rfl; omega
    have := hmk b
    rw [hb b hab]
    refine ⟨hf.1, by omega, fun hbm => ?_⟩
    rcases hsub b hbm with h3 | h3
    · exact hab h3.1
    · exact hf.2.2 h3
  · have := hmk b
    have := hi.once b
    omega
  · have h2 := hmk b
    have hab : b ≠ a := by
      rintro rfl
      have h3 : one (b == b) = 1 := by simp [one]
      omega
    have := hi.busy b (by omega)
    rw [hb b hab]
    refine ⟨this.1, fun hbm => ?_⟩
    rcases hsub b hbm with h3 | h3
    · exact hab h3.1
    · exact this.2 h3
  · rcases mem_set hx with hx | hx
    · exact hi.own b x hx
    · cases hx
  · by_cases hab : b = a
    · subst hab
      rw [hn] at hx
      simp only [Option.some.injEq] at hx
      subst hx
      rcases hsub b hbm with h3 | h3
      · exact h3.2
      · exact absurd h3 hk.2
    · rw [hb b hab] at hx
      rcases hsub b hbm with h3 | h3
      · exact absurd h3.1 hab
      · exact hi.made b h3 x hx

theorem up_pos {me : Option Nat} {a : Nat} (h : s.up me = some a) : me = some a ∧ 0 < (s.box a).strong := by
  unfold St.up at h
  cases me with
  | none => cases h
  | some b =>
    simp only [Option.bind_some] at h
    split at h
    · simp only [Option.some.injEq] at h
      subst h
      exact ⟨rfl, by assumption⟩
    · cases h

/-- Putting back the object with the same self reference. -/
theorem inv_back (hi : Inv s) {i : Nat} {r : Ref V} {o o' : Obj V} (h : s.refs[i]? = some r) (hl : s.look r = some o)
    (hme : o'.me = o.me) : Inv (s.back i r o') := by
  cases r with
  | strong a => exact inv_content hi hl hme
  | value x => exact inv_set hi h (fun _ => rfl) (fun _ h => h) (by rintro a o ⟨⟩)
  | making a x =>
    simp only [St.look, Option.some.injEq] at hl
    subst hl
    refine inv_set hi h (fun _ => rfl) (fun _ h => h) ?_
    rintro b y hy
    simp only [Ref.making.injEq] at hy
    obtain ⟨rfl, rfl⟩ := hy
    rw [hme]
    exact hi.own _ _ (List.mem_of_getElem? h)
  | _ => exact hi

theorem back_strong (s : St V) (i : Nat) (r : Ref V) (o : Obj V) (b : Nat) :
    ((s.back i r o).box b).strong = (s.box b).strong := by
  unfold St.back
  split
  · simp only [St.setBox]
    split
    · next h => subst h; rfl
    · rfl
  all_goals rfl

theorem inv_step (hi : Inv s) {a : Act V} {o : Out V} (h : step sync s a = some (s', o)) : Inv s' := by
  cases a with
  | create =>
    simp only [step, Option.some.injEq, Prod.mk.injEq] at h
    obtain ⟨rfl, rfl⟩ := h
    have hf := hi.fresh s.next (Nat.le_refl _)
    have hs : ∀ b, num ({ s.push (.making s.next ⟨some s.next, none⟩) with next := s.next + 1 } : St V) (isStrong b)
        = num s (isStrong b) := by intro b; exact num_push s _ _
    have hm : ∀ b, num ({ s.push (.making s.next ⟨some s.next, none⟩) with next := s.next + 1 } : St V) (isMaking b)
        = num s (isMaking b) + one (s.next == b) := by intro b; exact num_push s _ _
    refine ⟨fun b => by rw [hs]; exact hi.cnt b, hi.live, fun b hb => ?_, fun b => ?_, fun b hb => ?_, fun b x hx => ?_,
      hi.made⟩
    · have hb' : s.next + 1 ≤ b := hb
      have h1 := hi.fresh b (by omega)
      refine ⟨h1.1, ?_, h1.2.2⟩
      rw [hm, h1.2.1]
      have : s.next ≠ b := by omega
      simp [one, this]
    · rw [hm]
      by_cases hbn : s.next = b
      · subst hbn; simp [one]; omega
      · simp [one, hbn]; exact hi.once b
    · rw [hm] at hb
      by_cases hbn : s.next = b
      · subst hbn; exact ⟨hf.1, hf.2.2⟩
      · simp [one, hbn] at hb; exact hi.busy b hb
    · simp only [St.push, List.mem_append, List.mem_singleton, Ref.making.injEq] at hx
      rcases hx with hx | ⟨rfl, rfl⟩
      · exact hi.own b x hx
      · rfl
  | finish i =>
    simp only [step] at h
    split at h
    · next a o' hr =>
      simp only [Option.some.injEq, Prod.mk.injEq] at h
      obtain ⟨rfl, rfl⟩ := h
      exact inv_finish hi hr (.inr ⟨rfl, hi.own _ _ (List.mem_of_getElem? hr)⟩)
    · cases h
  | finishOther i j =>
    simp only [step] at h
    split at h
    · next a o₁ o₂ hr hj =>
      simp only [Option.some.injEq, Prod.mk.injEq] at h
      obtain ⟨rfl, rfl⟩ := h
      have hij : i ≠ j := by rintro rfl; rw [hr] at hj; cases hj
      have h1 : Inv (s.setRef j (.value o₁)) := inv_set hi hj (fun _ => rfl) (fun _ h => h) (by rintro a o ⟨⟩)
      have h2 : (s.setRef j (.value o₁)).refs[i]? = some (.making a o₁) := by
        simp only [St.setRef]
        rw [List.getElem?_set_ne (Ne.symm hij)]; exact hr
      exact inv_finish h1 h2 (m := s.made) (o' := o₂) (.inl rfl)
    · cases h
  | abandon i =>
    simp only [step] at h
    split at h
    · next a o' hr =>
      simp only [Option.some.injEq, Prod.mk.injEq] at h
      obtain ⟨rfl, rfl⟩ := h
      exact inv_set hi hr (fun _ => rfl) (fun _ h => by simp [isMaking] at h) (by rintro a o ⟨⟩)
    · cases h
  | default =>
    simp only [step, Option.some.injEq, Prod.mk.injEq] at h
    obtain ⟨rfl, rfl⟩ := h
    exact inv_push hi rfl
  | cloneObj i =>
    simp only [step] at h
    split at h
    · simp only [Option.some.injEq, Prod.mk.injEq] at h
      obtain ⟨rfl, rfl⟩ := h
      exact inv_push hi rfl
    · cases h
  | wrap i =>
    simp only [step] at h
    split at h
    · next o' hr =>
      simp only [Option.some.injEq, Prod.mk.injEq] at h
      obtain ⟨rfl, rfl⟩ := h
      exact inv_alloc hi hr rfl o'
    · cases h
  | cloneRef i =>
    simp only [step] at h
    split at h
    · next a hr =>
      simp only [Option.some.injEq, Prod.mk.injEq] at h
      obtain ⟨rfl, rfl⟩ := h
      exact inv_dup hi (by rw [hi.cnt]; exact num_pos hr (by simp [isStrong]))
    · simp only [Option.some.injEq, Prod.mk.injEq] at h
      obtain ⟨rfl, rfl⟩ := h
      exact inv_push hi rfl
    · cases h
  | drop i =>
    simp only [step] at h
    split at h
    · next a hr =>
      simp only [Option.some.injEq, Prod.mk.injEq] at h
      obtain ⟨rfl, rfl⟩ := h
      exact inv_drop hi hr rfl
    · next hr =>
      simp only [Option.some.injEq, Prod.mk.injEq] at h
      obtain ⟨rfl, rfl⟩ := h
      exact inv_set hi hr (fun _ => rfl) (fun _ h => by simp [isMaking] at h) (by rintro a o ⟨⟩)
    · next hr =>
      simp only [Option.some.injEq, Prod.mk.injEq] at h
      obtain ⟨rfl, rfl⟩ := h
      exact inv_set hi hr (fun _ => rfl) (fun _ h => by simp [isMaking] at h) (by rintro a o ⟨⟩)
    · cases h
  | downgrade i =>
    simp only [step] at h
    split at h
    · simp only [Option.some.injEq, Prod.mk.injEq] at h
      obtain ⟨rfl, rfl⟩ := h
      exact inv_push hi rfl
    · cases h
  | upgrade i =>
    simp only [step] at h
    split at h
    · split at h
      · next hu =>
        simp only [Option.some.injEq, Prod.mk.injEq] at h
        obtain ⟨rfl, rfl⟩ := h
        exact inv_dup hi (up_pos hu).2
      · simp only [Option.some.injEq, Prod.mk.injEq] at h
        obtain ⟨rfl, rfl⟩ := h
        exact hi
    · cases h
  | tryUnwrap i =>
    simp only [step] at h
    split at h
    · next a hr =>
      split at h
      · next o' ho =>
        split at h
        · next h1 =>
          simp only [Option.some.injEq, Prod.mk.injEq] at h
          obtain ⟨rfl, rfl⟩ := h
          have := inv_drop hi hr (r' := .value o') rfl
          simpa [St.decr, h1] using this
        · cases h
      · cases h
    · cases h
  | makeMut i =>
    simp only [step] at h
    split at h
    · next a hr =>
      split at h
      · next o' ho =>
        have hd := inv_drop hi hr (r' := .gone) rfl
        have hl : i < s.refs.length := by
          rcases Nat.lt_or_ge i s.refs.length with h | h
          · exact h
          · rw [List.getElem?_eq_none h] at hr; cases hr
        have hg : ((s.decr a).setRef i .gone).refs[i]? = some .gone := by
          simp [St.setRef, St.decr, St.setBox, hl]
        have hal := inv_alloc hd hg rfl o'
        have he : ((s.decr a).setRef i .gone).alloc i o' = (s.decr a).alloc i o' := by
          simp only [St.alloc, St.setRef, St.setBox, St.decr, List.set_set]
          rfl
        rw [he] at hal
        split at h
        · next h1 =>
          split at h
          · simp only [Option.some.injEq, Prod.mk.injEq] at h
            obtain ⟨rfl, rfl⟩ := h
            simpa [St.decr, h1] using hal
          · simp only [Option.some.injEq, Prod.mk.injEq] at h
            obtain ⟨rfl, rfl⟩ := h
            exact hi
        · simp only [Option.some.injEq, Prod.mk.injEq] at h
          obtain ⟨rfl, rfl⟩ := h
          exact hal
      · cases h
    · cases h
  | myself i =>
    simp only [step] at h
    split at h
    · split at h
      · next hu =>
        simp only [Option.some.injEq, Prod.mk.injEq] at h
        obtain ⟨rfl, rfl⟩ := h
        exact inv_dup hi (up_pos hu).2
      · simp only [Option.some.injEq, Prod.mk.injEq] at h
        obtain ⟨rfl, rfl⟩ := h
        exact hi
    · cases h
  | myselfDowngrade i =>
    simp only [step] at h
    split at h
    · simp only [Option.some.injEq, Prod.mk.injEq] at h
      obtain ⟨rfl, rfl⟩ := h
      exact inv_push hi rfl
    · cases h
  | access i v keep =>
    simp only [step] at h
    split at h
    · next r hr =>
      split at h
      · next x hx =>
        simp only [Option.some.injEq] at h
        unfold St.access at h
        split at h
        · simp only [Prod.mk.injEq] at h
          obtain ⟨rfl, rfl⟩ := h
          exact hi
        · simp only [Prod.mk.injEq] at h
          obtain ⟨rfl, rfl⟩ := h
          exact hi
        · simp only [Prod.mk.injEq] at h
          obtain ⟨rfl, rfl⟩ := h
          exact hi
        · next b _ hu =>
          have hbk := inv_back hi hr hx (o' := { x with val := some v }) rfl
          simp only [Prod.mk.injEq] at h
          obtain ⟨rfl, rfl⟩ := h
          split
          · exact inv_dup hbk (by rw [back_strong]; exact (up_pos hu).2)
          · exact hbk
      · cases h
    · cases h

theorem inv_init : Inv (St.init : St V) :=
  ⟨fun _ => rfl, fun a => by simp [St.init], fun a _ => ⟨rfl, rfl, by simp [St.init]⟩, fun _ => Nat.zero_le _,
    fun a h => by simp [num, St.init] at h, fun a o h => by simp [St.init] at h, fun a h => by simp [St.init] at h⟩

theorem inv_reach (h : Reach sync s) : Inv s := by
  induction h with
  | init => exact inv_init
  | step _ h ih => exact inv_step ih h

end Verif.Proof.Rc
