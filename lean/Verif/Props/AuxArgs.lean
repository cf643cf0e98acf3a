import Verif.Spec.AuxArgs
/-
C114: the argument types of fieldx_aux.
-/
namespace Verif.Props.AuxArgs
open Verif.Model.Parse Verif.Model.AuxArgs Verif.Spec.AuxArgs

variable {T α : Type}

/-- Literals and the rest together are all there is. -/
theorem parts_length (args : List Arg) :
    (args.filter fun a => a.lit?.isNone).length + (args.filterMap (·.lit?)).length = args.length := by
  induction args with
  | nil => rfl
  | cons a as ih => cases a <;> simp [Arg.lit?] at ih ⊢ <;> omega

/-- What is not a literal is `off`. -/
theorem valueList_eq {args : List Arg} {r : ValueArg T} (h : valueList args = some r) :
    (args = [] ∧ r = ⟨false, none⟩) ∨ (args = [.word "off"] ∧ r = ⟨true, none⟩) := by
  unfold valueList at h
  split at h
  · next hk =>
    have hc : called "off" args = args := by
      unfold called known at *
      rw [List.filter_eq_self]
      intro a ha
      have := List.all_eq_true.1 hk a ha
      cases hn : a.name with
      | none => rw [hn] at this; cases this
      | some n => rw [hn] at this; simpa using this
    simp only [flag, slot, hc] at h
    match args, h with
    | [], h => simp at h; exact .inl ⟨rfl, h.symm⟩
    | [a], h =>
      refine .inr ?_
      cases a with
      | word n =>
        simp [known, Arg.name] at hk
        simp [flagArg] at h
        exact ⟨by rw [hk], h.symm⟩
      | nv n v => simp [flagArg] at h
      | list n as => simp [flagArg] at h
      | lit l => simp [flagArg] at h
    | _ :: _ :: _, h => simp at h
  · cases h

theorem setLiteral_eq {conv : Lit → Option T} {a r : ValueArg T} {lits : List Lit} (h : setLiteral conv a lits = some r) :
    ∃ l v, lits = [l] ∧ conv l = some v ∧ r = { a with value := some v } := by
  unfold setLiteral validateLiterals at h
  match lits, h with
  | [], h => simp at h
  | [l], h =>
    simp at h
    obtain ⟨v, hv, rfl⟩ := h
    exact ⟨l, v, rfl, hv, rfl⟩
  | _ :: _ :: _, h => simp at h

/-- **C114.** An argument with a literal value is read exactly if it has a list with `off` or not and one literal of its type or none, in any
order. -/
theorem C114_value_iff (conv : Lit → Option T) (a : Arg) (r : ValueArg T) :
    fxValue conv a = some r ↔ ∃ n args, a = .list n args ∧ Says conv args r.off r.value := by
  constructor
  · intro h
    cases a with
    | word n => simp [fxValue, nesting, asKeyword] at h
    | nv n v => simp [fxValue, nesting] at h
    | lit l => simp [fxValue, nesting] at h
    | list n args =>
      refine ⟨n, args, rfl, ?_⟩
      simp only [fxValue, nesting] at h
      cases hv : (valueList (args.filter fun a => a.lit?.isNone) : Option (ValueArg T)) with
      | none => rw [hv] at h; cases h
      | some r₀ =>
        rw [hv] at h
        simp only [Option.bind_eq_bind, Option.bind_some] at h
        have hlen := parts_length args
        split at h
        · obtain ⟨l, v, hl, hc, rfl⟩ := setLiteral_eq h
          rcases valueList_eq hv with ⟨h1, rfl⟩ | ⟨h1, rfl⟩
          · rw [h1, hl] at hlen
            match args, hlen, hl, h1 with
            | [a], _, hl, h1 =>
              cases a <;> simp [Arg.lit?] at hl
              subst hl
              exact .lit hc
          · rw [h1, hl] at hlen
            match args, hlen, hl, h1 with
            | [a, b], _, hl, h1 =>
              cases a <;> cases b <;> simp [Arg.lit?] at hl h1
              · subst hl h1; exact .offLit hc
              · subst hl h1; exact .litOff hc
        · next hz =>
          cases h
          have hl : args.filterMap (·.lit?) = [] := List.length_eq_zero_iff.1 (by omega)
          rcases valueList_eq hv with ⟨h1, rfl⟩ | ⟨h1, rfl⟩
          · rw [h1, hl] at hlen
            match args, hlen with
            | [], _ => exact .nothing
          · rw [h1, hl] at hlen
            match args, hlen, hl, h1 with
            | [a], _, hl, h1 =>
              cases a <;> simp [Arg.lit?] at hl h1
              subst h1
              exact .off
  · rintro ⟨n, args, rfl, h⟩
    obtain ⟨off, value⟩ := r
    cases h with
    | nothing => rfl
    | off => rfl
    | lit hc =>
      simp [fxValue, nesting, Arg.lit?, valueList, known, flag, slot, called, setLiteral, validateLiterals, hc]
    | offLit hc =>
      simp [fxValue, nesting, Arg.lit?, valueList, known, flag, slot, called, setLiteral, validateLiterals, hc, Arg.name, flagArg]
    | litOff hc =>
      simp [fxValue, nesting, Arg.lit?, valueList, known, flag, slot, called, setLiteral, validateLiterals, hc, Arg.name, flagArg]

/-- **C114.** The documented forms are read as documented. What is missing: the word alone, `C114_keyword_false`. -/
theorem C114_documented_partial (conv : Lit → Option T) (a : Arg) (v : Option T) (h : Documented conv a v) (hw : ∀ n, a ≠ .word n) :
    ∃ r, fxValue conv a = some r ∧ r.get = v := by
  cases h with
  | word => exact absurd rfl (hw _)
  | lit hc => exact ⟨_, (C114_value_iff conv _ ⟨false, _⟩).2 ⟨_, _, rfl, .lit hc⟩, rfl⟩
  | offLit hc => exact ⟨_, (C114_value_iff conv _ ⟨true, _⟩).2 ⟨_, _, rfl, .offLit hc⟩, rfl⟩
  | off => exact ⟨_, (C114_value_iff conv _ ⟨true, none⟩).2 ⟨_, _, rfl, .off⟩, rfl⟩

/-- **C114.** The word alone is documented and refused, whatever the type. -/
theorem C114_keyword_false (conv : Lit → Option T) (n : String) : Documented conv (.word n) none ∧ fxValue conv (.word n) = none :=
  ⟨.word, rfl⟩

/-- **C114.** The flag: the word, and a list which is empty or has `off` alone. -/
theorem C114_flag_iff (a : Arg) (r : ValueArg Unit) :
    fxFlag a = some r ↔ (r = ⟨false, none⟩ ∧ ((∃ n, a = .word n) ∨ ∃ n, a = .list n [])) ∨
      (r = ⟨true, none⟩ ∧ ∃ n, a = .list n [.word "off"]) := by
  constructor
  · intro h
    cases a with
    | word n => simp [fxFlag, nesting, asKeyword] at h; exact .inl ⟨h.symm, .inl ⟨n, rfl⟩⟩
    | nv n v => simp [fxFlag, nesting] at h
    | lit l => simp [fxFlag, nesting] at h
    | list n args =>
      simp only [fxFlag, nesting] at h
      cases hv : (valueList (args.filter fun a => a.lit?.isNone) : Option (ValueArg Unit)) with
      | none => rw [hv] at h; cases h
      | some r₀ =>
        rw [hv] at h
        simp only [Option.bind_eq_bind, Option.bind_some] at h
        have hlen := parts_length args
        split at h
        · next hp => simp only [validateLiterals, hp, decide_true, Bool.and_self, if_true] at h; cases h
        · next hz =>
          cases h
          have hl : args.filterMap (·.lit?) = [] := List.length_eq_zero_iff.1 (by omega)
          rcases valueList_eq hv with ⟨h1, rfl⟩ | ⟨h1, rfl⟩
          · rw [h1, hl] at hlen
            match args, hlen with
            | [], _ => exact .inl ⟨rfl, .inr ⟨n, rfl⟩⟩
          · rw [h1, hl] at hlen
            match args, hlen, hl, h1 with
            | [a], _, hl, h1 =>
              cases a <;> simp [Arg.lit?] at hl h1
              subst h1
              exact .inr ⟨rfl, n, rfl⟩
  · rintro (⟨rfl, ⟨n, rfl⟩ | ⟨n, rfl⟩⟩ | ⟨rfl, n, rfl⟩) <;> rfl

/-- **C114.** The flags of fieldx are these flags, and its strings these values. -/
theorem C114_same (a : Arg) :
    fxBool a = (fxFlag a).map (fun r => !r.off) ∧ fxString a = (fxValue strVal a).map ValueArg.get := by
  constructor
  · cases a with
    | word n => rfl
    | nv n v => rfl
    | lit l => rfl
    | list n args =>
      simp only [fxBool, fxFlag, nesting, valueList]
      by_cases hk : known ["off"] (args.filter fun a => a.lit?.isNone) = true
      · simp only [hk, if_true]
        cases flag "off" (args.filter fun a => a.lit?.isNone) with
        | none => rfl
        | some b =>
          simp only [Option.map_some, Option.bind_eq_bind, Option.bind_some]
          split
          · next h => simp [noLits, validateLiterals, h]
          · rfl
      · simp [hk]
  · cases a with
    | word n => rfl
    | nv n v => rfl
    | lit l => rfl
    | list n args =>
      simp only [fxString, fxValue, nesting, valueList]
      by_cases hk : known ["off"] (args.filter fun a => a.lit?.isNone) = true
      · simp only [hk, if_true]
        cases flag "off" (args.filter fun a => a.lit?.isNone) with
        | none => rfl
        | some b =>
          simp only [Option.map_some, Option.bind_eq_bind, Option.bind_some]
          generalize args.filterMap (·.lit?) = lits
          match lits with
          | [] => simp [ValueArg.get]
          | [l] => cases l <;> simp [strLit, setLiteral, validateLiterals, strVal, ValueArg.get]
          | _ :: _ :: _ => simp [strLit, setLiteral, validateLiterals]
      · simp [hk]

theorem decimal_iff (t : String) (n : Nat) : decimal t = some n ↔ Numeral t ∧ worth t.toList = n := by
  have key : ∀ (cs : List Char) (a n : Nat),
      cs.foldl (fun n c => n.bind fun n => if '0' ≤ c ∧ c ≤ '9' then some (10 * n + (c.toNat - '0'.toNat)) else none) (some a) = some n ↔
        (∀ c ∈ cs, '0' ≤ c ∧ c ≤ '9') ∧ a * 10 ^ cs.length + worth cs = n := by
    intro cs
    induction cs with
    | nil => intro a n; simp [worth]
    | cons c cs ih =>
      intro a n
      by_cases hc : '0' ≤ c ∧ c ≤ '9'
      · simp only [List.foldl_cons, Option.bind_some, hc, and_self, if_true]
        rw [ih]
        have h48 : '0'.toNat = 48 := rfl
        simp only [List.mem_cons, forall_eq_or_imp, hc, and_self, true_and, worth, List.length_cons, Nat.pow_succ, h48]
        have : (10 * a + (c.toNat - 48)) * 10 ^ cs.length + worth cs =
            a * (10 ^ cs.length * 10) + ((c.toNat - 48) * 10 ^ cs.length + worth cs) := by
          rw [Nat.add_mul, Nat.mul_comm 10 a, Nat.mul_assoc, Nat.mul_comm 10 (10 ^ cs.length), Nat.add_assoc]
        rw [this]
      · have hn : ∀ cs : List Char,
            cs.foldl (fun n c => n.bind fun n => if '0' ≤ c ∧ c ≤ '9' then some (10 * n + (c.toNat - '0'.toNat)) else none)
              (none : Option Nat) = none := by
          intro cs; induction cs with
          | nil => rfl
          | cons c cs ih => simpa using ih
        simp only [List.foldl_cons, Option.bind_some, hc, if_false, hn]
        constructor
        · intro h; cases h
        · rintro ⟨h, _⟩; exact absurd (h c (List.mem_cons_self ..)) hc
  unfold decimal Numeral
  cases ht : t.toList with
  | nil => simp
  | cons c cs =>
    have := key (c :: cs) 0 n
    rw [Nat.zero_mul, Nat.zero_add] at this
    simpa using this

/-- **C114.** A number is read exactly if it is written with digits and fits the type. -/
theorem C114_number_iff (bits : Nat) (l : Lit) (n : Nat) :
    uint bits l = some n ↔ n < 2 ^ bits ∧ ∃ t, l = .other t ∧ Numeral t ∧ worth t.toList = n := by
  cases l with
  | str s => simp [uint]
  | bool b => simp [uint]
  | other t =>
    simp only [Lit.other.injEq, ← decimal_iff]
    cases ht : decimal t with
    | none =>
      simp only [uint, ht]
      constructor
      · intro h; cases h
      · rintro ⟨_, t', rfl, h⟩; rw [ht] at h; cases h
    | some m =>
      simp only [uint, ht]
      constructor
      · intro h
        split at h
        · next hm => cases h; exact ⟨hm, t, rfl, ht⟩
        · cases h
      · rintro ⟨hn, t', rfl, h⟩
        rw [ht] at h
        cases h
        simp [hn]

/-- **C114.** The same for types with a sign. -/
theorem C114_signed_iff (bits : Nat) (l : Lit) (n : Nat) :
    sint (bits + 1) l = some n ↔ n < 2 ^ bits ∧ ∃ t, l = .other t ∧ Numeral t ∧ worth t.toList = n :=
  C114_number_iff bits l n

/-- **C114.** Texts and truth values are read exactly from literals of the type. -/
theorem C114_literal_iff (l : Lit) : (∀ s, strVal l = some s ↔ l = .str s) ∧ ∀ b, boolVal l = some b ↔ l = .bool b := by
  cases l <;> simp [strVal, boolVal]

example : boolVal (.bool false) = some false := rfl

/-- **C114.** A syntax element which must be given is there: `value()` does not panic. -/
theorem C114_syn_iff (parse : List Elem → Option T) (kw : Bool) (a : Raw) (r : Option T) :
    synValue parse kw a = some r ↔
      (∃ n es t, a = .list n es ∧ parse es = some t ∧ r = some t) ∨ (kw = true ∧ r = none ∧ ∃ n, a = .word n) := by
  cases a with
  | word n => cases kw <;> simp [synValue, eq_comm]
  | nv n v => simp [synValue]
  | list n es =>
    simp only [synValue, Option.map_eq_some_iff]
    constructor
    · rintro ⟨t, h1, rfl⟩; exact .inl ⟨n, es, t, rfl, h1, rfl⟩
    · rintro (⟨n', es', t, h, h1, rfl⟩ | ⟨_, _, _, h⟩)
      · cases h; exact ⟨t, h1, rfl⟩
      · cases h

theorem C114_syn_value (parse : List Elem → Option T) (a : Raw) (r : Option T) (h : synValue parse false a = some r) :
    r.isSome = true := by
  rcases (C114_syn_iff parse false a r).1 h with ⟨_, _, t, _, _, rfl⟩ | ⟨h, _⟩
  · rfl
  · cases h

/-- **C114.** A list of elements is read exactly if all its elements are and their number is between the bounds. -/
theorem C114_punctuated_iff (item : Elem → Option T) (min max : Int) (n : String) (es : List Elem) (ts : List T) :
    punctuatedArg item min max (.list n es) = some ts ↔ es.mapM item = some ts ∧ within min max es.length := by
  have hlen : ∀ (es : List Elem) (ts : List T), es.mapM item = some ts → ts.length = es.length := by
    intro es
    induction es with
    | nil => intro ts h; simp at h; rw [h]; rfl
    | cons e es ih =>
      intro ts h
      rw [List.mapM_cons] at h
      cases he : item e with
      | none => simp [he] at h
      | some t =>
        cases hes : es.mapM item with
        | none => simp [he, hes] at h
        | some ts' => simp [he, hes] at h; rw [← h]; simp [ih ts' hes]
  simp only [punctuatedArg, punctuated, within]
  cases h : es.mapM item with
  | none => simp
  | some items =>
    have := hlen es items h
    simp only [this, Option.some.injEq]
    constructor
    · intro h'
      split at h'
      · cases h'
      · split at h'
        · cases h'
        · cases h'; exact ⟨rfl, by omega, by omega⟩
    · rintro ⟨rfl, h1, h2⟩
      rw [if_neg (by omega), if_neg (by omega)]

/-- **C114.** The word alone is not an empty list: it is read as its own only element. -/
theorem C114_punctuated_false : punctuatedArg (fun e => match e with | .item (.word p) => some p | _ => none) (-1) (-1) (.word "foo") =
    some ["foo"] := rfl

/-- **C114.** A tuple is read exactly if its elements are arguments or literals, as many as there are parts, each readable in its place. -/
theorem C114_tuple_iff (parsers : List (Arg → Option T)) (a : Raw) (ts : List T) :
    synTuple parsers a = some ts ↔ ∃ (n : String) (items : List Arg), a = .list n (items.map Elem.item) ∧ items.length = parsers.length ∧
      ts.length = parsers.length ∧ ∀ p ∈ parsers.zip (items.zip ts), p.1 p.2.1 = some p.2.2 := by
  have hm : ∀ (es : List Elem) (items : List Arg), metaList es = some items ↔ es = items.map Elem.item := by
    intro es
    unfold metaList
    induction es with
    | nil => intro items; cases items <;> simp
    | cons e es ih =>
      intro items
      rw [List.mapM_cons]
      cases e with
      | other t => cases items <;> simp [Elem.meta?]
      | item a =>
        cases hes : es.mapM Elem.meta? with
        | none =>
          cases items with
          | nil => simp [Elem.meta?]
          | cons b bs =>
            have := (ih bs)
            rw [hes] at this
            simp only [Elem.meta?, Option.bind_eq_bind, Option.bind_some, Option.bind_none, List.map_cons, List.cons.injEq]
            constructor
            · intro h; cases h
            · rintro ⟨_, h⟩; cases this.2 h
        | some as =>
          have h1 := (ih as).1 hes
          cases items with
          | nil => simp [Elem.meta?]
          | cons b bs =>
            simp only [Elem.meta?, Option.bind_eq_bind, Option.bind_some, Option.pure_def, Option.some.injEq, List.map_cons, List.cons.injEq, Elem.item.injEq]
            constructor
            · rintro ⟨rfl, rfl⟩; exact ⟨rfl, h1⟩
            · rintro ⟨rfl, h⟩
              refine ⟨rfl, ?_⟩
              have := (ih bs).2 h
              rw [hes] at this
              exact Option.some.inj this
  have ht : ∀ (parsers : List (Arg → Option T)) (items : List Arg) (ts : List T), items.length = parsers.length →
      (inTurn parsers items = some ts ↔ ts.length = parsers.length ∧ ∀ p ∈ parsers.zip (items.zip ts), p.1 p.2.1 = some p.2.2) := by
    intro parsers
    induction parsers with
    | nil => intro items ts h; cases ts <;> simp [inTurn]
    | cons p ps ih =>
      intro items ts h
      cases items with
      | nil => cases h
      | cons a as =>
        have hl : as.length = ps.length := by simpa using h
        simp only [inTurn]
        cases ts with
        | nil =>
          cases hp : p a with
          | none => simp
          | some t => cases hr : inTurn ps as <;> simp
        | cons t ts =>
          have := ih as ts hl
          cases hp : p a with
          | none => simp [hp]
          | some t' =>
            simp only [Option.map_eq_some_iff, List.cons.injEq, List.length_cons, Nat.add_right_cancel_iff, List.zip_cons_cons,
              List.mem_cons, forall_eq_or_imp, hp, Option.some.injEq]
            constructor
            · rintro ⟨ts', h1, rfl, rfl⟩
              have := this.1 h1
              exact ⟨this.1, rfl, this.2⟩
            · rintro ⟨h1, rfl, h2⟩
              exact ⟨ts, this.2 ⟨h1, h2⟩, rfl, rfl⟩
  cases a with
  | word n => simp [synTuple]
  | nv n v => simp [synTuple]
  | list n es =>
    simp only [synTuple]
    cases hes : metaList es with
    | none =>
      refine ⟨fun h => (by cases h), ?_⟩
      rintro ⟨n', items, h, _⟩
      cases h
      rw [(hm _ items).2 rfl] at hes
      cases hes
    | some items =>
      have he := (hm es items).1 hes
      subst he
      constructor
      · intro h
        simp only at h
        split at h
        · cases h
        · split at h
          · cases h
          · have hl : items.length = parsers.length := by omega
            exact ⟨n, items, rfl, hl, (ht parsers items ts hl).1 h⟩
      · rintro ⟨n', items', h, hl, h'⟩
        have : items' = items := by
          have h2 : items.map Elem.item = items'.map Elem.item := (Raw.list.inj h).2
          have h3 := (hm _ items').2 h2
          rw [hes] at h3
          exact (Option.some.inj h3).symm
        subst this
        simp only
        rw [if_neg (by omega), if_neg (by omega)]
        exact (ht parsers items' ts hl).2 h'

/-- **C114.** The example of the documentation, `foo(std::sync::Arc, 1..=42)`, is refused whatever the parts are able to read. -/
theorem C114_tuple_false (parsers : List (Arg → Option T)) :
    synTuple parsers (.list "foo" [.item (.word "std::sync::Arc"), .other "1..=42"]) = none := rfl

/-- **C114.** `set_literals!`: the fields are set one after the other as far as there are literals, if their number is allowed. -/
theorem C114_literals_iff (min : Nat) (max : Option Nat) (fields : List (Lit → Option α)) (lits : List Lit) (vs : List (Option α)) :
    setLiterals min max fields lits = some vs ↔
      min ≤ lits.length ∧ (∀ m, max = some m → lits.length ≤ m) ∧ vs.length = fields.length ∧
      ∀ (i : Nat) (f : Lit → Option α), fields[i]? = some f → (match lits[i]? with
        | some l => ∃ v, f l = some v ∧ vs[i]? = some (some v)
        | none => vs[i]? = some none) := by
  have ha : ∀ (fields : List (Lit → Option α)) (lits : List Lit) (vs : List (Option α)), assign fields lits = some vs ↔
      vs.length = fields.length ∧ ∀ (i : Nat) (f : Lit → Option α), fields[i]? = some f → (match lits[i]? with
        | some l => ∃ v, f l = some v ∧ vs[i]? = some (some v)
        | none => vs[i]? = some none) := by
    intro fields
    induction fields with
    | nil => intro lits vs; cases vs <;> simp [assign]
    | cons f fs ih =>
      intro lits vs
      cases lits with
      | nil =>
        simp only [assign, Option.map_eq_some_iff]
        constructor
        · rintro ⟨vs', h, rfl⟩
          obtain ⟨h1, h2⟩ := (ih [] vs').1 h
          refine ⟨by simp [h1], fun i g hi => ?_⟩
          cases i with
          | zero => simp
          | succ i => simpa using h2 i g (by simpa using hi)
        · rintro ⟨h1, h2⟩
          cases vs with
          | nil => cases h1
          | cons v vs =>
            have h0 := h2 0 f rfl
            simp at h0
            refine ⟨vs, (ih [] vs).2 ⟨by simpa using h1, fun i g hi => ?_⟩, by rw [h0]⟩
            simpa using h2 (i + 1) g (by simpa using hi)
      | cons l ls =>
        simp only [assign]
        constructor
        · intro h
          cases hf : f l with
          | none => simp [hf] at h
          | some v =>
            simp only [hf, Option.map_eq_some_iff] at h
            obtain ⟨vs', h, rfl⟩ := h
            obtain ⟨h1, h2⟩ := (ih ls vs').1 h
            refine ⟨by simp [h1], fun i g hi => ?_⟩
            cases i with
            | zero => simp at hi; subst hi; simp [hf]
            | succ i => simpa using h2 i g (by simpa using hi)
        · rintro ⟨h1, h2⟩
          cases vs with
          | nil => cases h1
          | cons v vs =>
            have h0 := h2 0 f rfl
            simp at h0
            obtain ⟨w, hw, rfl⟩ := h0
            simp only [hw, Option.map_eq_some_iff]
            refine ⟨vs, (ih ls vs).2 ⟨by simpa using h1, fun i g hi => ?_⟩, rfl⟩
            simpa using h2 (i + 1) g (by simpa using hi)
  unfold setLiterals
  constructor
  · intro h
    split at h
    · cases h
    · split at h
      · cases h
      · next h1 h2 =>
        refine ⟨by omega, fun m hm => ?_, (ha fields lits vs).1 h⟩
        subst hm
        simp at h2
        exact h2
  · rintro ⟨h1, h2, h3⟩
    rw [if_neg (by omega), if_neg, (ha fields lits vs).2 h3]
    cases max with
    | none => simp
    | some m => have := h2 m rfl; simp; omega

/-- **C114.** Without an upper bound literals for which there is no field are dropped. -/
theorem C114_literals_false : setLiterals 0 none [strVal] [.str "name", .str "lost", .bool true] = some [some "name"] := rfl

/-! ### Cases -/

example : fxValue (uint 8) (.list "size" [.lit (.other "200")]) = some ⟨false, some 200⟩ := by
  exact (C114_value_iff _ _ ⟨false, some 200⟩).2 ⟨_, _, rfl, .lit ((C114_number_iff 8 _ 200).2 ⟨by decide, "200", rfl, (decimal_iff _ _).1 (by decide +kernel)⟩)⟩
example : fxValue (uint 8) (.list "size" [.lit (.other "256")]) = none := by decide +kernel
example : fxValue boolVal (.list "flag" [.lit (.bool true), .word "off"]) = some ⟨true, some true⟩ := by decide +kernel
example : fxValue (sint 8) (.list "size" [.lit (.other "128")]) = none := by decide +kernel
/-- An empty list is read, without a value. -/
example : fxValue strVal (.list "name" []) = some ⟨false, none⟩ := by decide +kernel
example : punctuatedArg (fun e => match e with | .item (.word p) => some p | _ => none) 1 2
    (.list "error" [.item (.word "Error"), .item (.word "Error::Unset")]) = some ["Error", "Error::Unset"] := by decide +kernel
example : within 1 2 2 ∧ ¬ within 1 2 3 ∧ within (-1) (-1) 100 := by unfold within; omega
example : synTuple [fun | .word p => some p | _ => none, fun | .lit (.str s) => some s | _ => none]
    (.list "foo" [.item (.word "Arc"), .item (.lit (.str "x"))]) = some ["Arc", "x"] := by decide +kernel
example : setLiterals 1 (some 2) [strVal, strVal] [.str "a"] = some [some "a", none] := by decide +kernel

end Verif.Props.AuxArgs
