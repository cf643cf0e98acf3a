import Verif.Spec.Reach
import Verif.Model.Visibility
import Verif.Props.Names
/-
Visibility of the items of an expansion, and from where they can be used: C95.
-/
namespace Verif.Props.Visibility
open Verif.Model.Args Verif.Model.Names Verif.Model.Visibility Verif.Model.Exclusive
open Verif.Spec.Prec Verif.Spec.ArgRead Verif.Spec.Reach Verif.Props.Names

/-- What the arguments mean. -/
def meaning : PubMode → Vis
  | .priv => .inherited
  | .all => .pub
  | .super => .super
  | .crate => .crate
  | .inMod p => .inPath p

/-- What a serde argument, given or not, says about visibility. -/
inductive SerdeVis : Option Serde → Option PubMode → Prop
  | absent : SerdeVis none none
  | given (h : Serde) (r : Option PubMode) : ArgVis h.pub h.priv r → SerdeVis (some h) r

/-- `Wants c d i v`: item `i` of a struct declared with visibility `d` is to have visibility `v`. -/
inductive Wants (c : Ctx) (d : Vis) : Item → Vis → Prop
  /-- the struct and `builder()` as declared -/
  | struct : Wants c d .struct d
  | builderFn : Wants c d .builderFn d
  /-- the builder, its `new()` and `build()` as the builder argument of the struct says, or as declared -/
  | ofBuilder {a : Option PubMode} {v : Vis} (i : Item) : i ∈ [Item.builderStruct, .builderNew, .build] →
      HelperVis (structRaw c.args .builder) a → Decides [a.map meaning] d v → Wants c d i v
  /-- the other methods of the builder, and `new()`, are public -/
  | builderSet (f : FieldArgs) : Wants c d (.builderSet f) .pub
  | new : Wants c d .new .pub
  /-- the methods for the pointer to itself as the `rc` argument says, or private -/
  | ofRc {a : Option PubMode} {v : Vis} (i : Item) : i ∈ [Item.myself, .downgrade] →
      HelperVis c.args.rc a → Decides [a.map meaning] .inherited v → Wants c d i v
  /-- the shadow as the serde argument says, or private -/
  | shadow {a : Option PubMode} {v : Vis} : SerdeVis c.args.serde a → Decides [a.map meaning] .inherited v →
      Wants c d .shadow v
  /-- helpers as C38 says -/
  | helper (f : FieldArgs) (k : Kind) (m : Option PubMode) : k ≠ .builder →
      (k = .accessorMut → genMode ⟨c, f⟩ = .plain) → Rule ⟨c, f⟩ k m → Wants c d (.helper f k) ((m.map meaning).getD d)
  | getMut (f : FieldArgs) (m : Option PubMode) : genMode ⟨c, f⟩ ≠ .plain → Rule ⟨c, f⟩ .accessor m →
      Wants c d (.helper f .accessorMut) ((m.map meaning).getD d)

/-- Item `i` can be named in module `m`. -/
def Reaches (c : Ctx) (decl : List String) (pl : Place) (i : Item) (m : Mod) : Prop :=
  ∃ v, Spells (written c decl i) v ∧ Seen pl v m

/-! ### Writing -/

theorem modeTokens_spells (m : PubMode) : Spells (modeTokens m) (meaning m) := by
  cases m
  · exact .inherited
  · exact .crate
  · exact .super
  · exact .inPath _
  · exact .pub

theorem helperTokens_spells {decl : List String} {d : Vis} (hd : Spells decl d) (m : Option PubMode) :
    Spells (helperTokens decl m) ((m.map meaning).getD d) := by
  rcases m with _ | m
  · exact hd
  · cases m
    · exact .inherited
    · exact .crate
    · exact .super
    · exact .inPath _
    · exact .pub

theorem spells_unique {ts : List String} {v w : Vis} (h : Spells ts v) (h' : Spells ts w) : v = w := by
  have key : ∀ us, Spells us w → us = ts → v = w := by
    intro us h2 e
    cases h <;> cases h2 <;> simp_all
  exact key _ h' rfl

theorem decides_one {α : Type} {a : Option α} {d v : α} (h : Decides [a] d v) : v = a.getD d := by
  cases h with
  | here => rfl
  | next h => cases h; rfl

theorem decides_self {α : Type} (a : Option α) (d : α) : Decides [a] d (a.getD d) := by
  cases a with
  | none => exact .next (.dflt _)
  | some a => exact .here _ _ _

theorem argVis_eq {p : Option PubMode} {q : Option Bool} {a : Option PubMode} (h : ArgVis p q a) :
    publicMode p q = a := by
  cases h with
  | priv => rfl
  | pub _ h => unfold publicMode; rcases q with _ | _ | _ <;> simp_all

theorem helperVis_eq {h : Option Helper} {a : Option PubMode} (hv : HelperVis h a) : h.bind (·.publicMode) = a := by
  cases hv with
  | absent => rfl
  | given h r hr => exact argVis_eq hr

theorem argVis_self (p : Option PubMode) (q : Option Bool) : ArgVis p q (publicMode p q) := by
  rcases q with _ | _ | _
  · exact .pub _ _ (by simp)
  · exact .pub _ _ (by simp)
  · exact .priv _

theorem helperVis_self (h : Option Helper) : HelperVis h (h.bind (·.publicMode)) := by
  cases h with
  | none => exact .absent
  | some h => exact .given h _ (argVis_self _ _)

theorem rule_unique {x : FCtx} {k : Kind} {m m' : Option PubMode} (h : Rule x k m) (h' : Rule x k m') : m = m' := by
  obtain ⟨a, b, e, f, h1, h2, h3, h4, h5⟩ := h
  obtain ⟨a', b', e', f', g1, g2, g3, g4, g5⟩ := h'
  have e1 : a = a' := by rw [← helperVis_eq h1, ← helperVis_eq g1]
  have e2 : b = b' := by rw [← argVis_eq h2, ← argVis_eq g2]
  have e3 : e = e' := by rw [← helperVis_eq h3, ← helperVis_eq g3]
  have e4 : f = f' := by rw [← argVis_eq h4, ← argVis_eq g4]
  subst e1 e2 e3 e4
  have fn : ∀ {l : List (Option (Option PubMode))} {d r s}, Decides l d r → Decides l d s → r = s := by
    intro l d r s h
    induction h with
    | dflt => intro h; cases h; rfl
    | here => intro h; cases h; rfl
    | next _ ih => intro h; cases h with | next h => exact ih h
  exact fn h5 g5

theorem optTokens (a : Option PubMode) {decl : List String} {d : Vis} (hd : Spells decl d) :
    Spells ((a.map modeTokens).getD decl) ((a.map meaning).getD d) := by
  cases a with
  | none => exact hd
  | some m => exact modeTokens_spells m

theorem builder_spells {c : Ctx} {decl : List String} {d : Vis} (hd : Spells decl d) {a : Option PubMode} {v : Vis}
    (ha : HelperVis (structRaw c.args .builder) a) (hv : Decides [a.map meaning] d v) :
    Spells (builderStructTokens c.args decl) v := by
  unfold builderStructTokens
  rw [getHelper_struct, helperVis_eq ha, decides_one hv]
  exact optTokens a hd

/-- What is written is what the rule wants, for every item and all arguments, whatever the user wrote before `struct`. -/
theorem C95_written (c : Ctx) (decl : List String) (d : Vis) (hd : Spells decl d) (i : Item) (v : Vis)
    (h : Wants c d i v) : Spells (written c decl i) v := by
  cases h with
  | struct => exact hd
  | builderFn => exact hd
  | ofBuilder i hi ha hv =>
    simp only [List.mem_cons, List.not_mem_nil, or_false] at hi
    rcases hi with rfl | rfl | rfl <;> exact builder_spells hd ha hv
  | builderSet => exact .pub
  | new => exact .pub
  | ofRc i hi ha hv =>
    simp only [List.mem_cons, List.not_mem_nil, or_false] at hi
    rcases hi with rfl | rfl <;>
    · show Spells (((c.args.rc.bind (·.publicMode)).map modeTokens).getD []) v
      rw [helperVis_eq ha, decides_one hv]
      exact optTokens _ .inherited
  | @shadow a v ha hv =>
    have e : (c.args.serde.bind (fun h => publicMode h.pub h.priv)) = a := by
      generalize c.args.serde = s at ha
      cases ha with
      | absent => rfl
      | given h r hr => exact argVis_eq hr
    show Spells (((c.args.serde.bind (fun h => publicMode h.pub h.priv)).map modeTokens).getD []) v
    rw [e, decides_one hv]
    exact optTokens _ .inherited
  | helper f k m hk hm hr =>
    show Spells (helperTokens decl (emittedVis ⟨c, f⟩ k)) _
    rw [rule_unique hr (C38_emitted_partial ⟨c, f⟩ k hk hm)]
    exact helperTokens_spells hd _
  | getMut f m hg hr =>
    show Spells (helperTokens decl (emittedVis ⟨c, f⟩ .accessorMut)) _
    rw [rule_unique hr (C38_sync_get_mut ⟨c, f⟩ hg)]
    exact helperTokens_spells hd _

/-- The rule speaks about every item and wants one thing only. (A method of the builder is `builderSet`.) -/
theorem C95_wants (c : Ctx) (d : Vis) (i : Item) (hi : ∀ f, i ≠ .helper f .builder) :
    ∃ v, Wants c d i v ∧ ∀ w, Wants c d i w → w = v := by
  have hd : ∃ decl, Spells decl d := by
    cases d
    · exact ⟨_, .inherited⟩
    · exact ⟨_, .pub⟩
    · exact ⟨_, .crate⟩
    · exact ⟨_, .super⟩
    · exact ⟨_, .inPath _⟩
  obtain ⟨decl, hd⟩ := hd
  have one : ∀ {v w}, Wants c d i v → Wants c d i w → w = v := fun h h' =>
    spells_unique (C95_written c decl d hd i _ h') (C95_written c decl d hd i _ h)
  have any : ∃ v, Wants c d i v := by
    cases i with
    | struct => exact ⟨_, .struct⟩
    | builderFn => exact ⟨_, .builderFn⟩
    | builderStruct => exact ⟨_, .ofBuilder _ (by simp) (helperVis_self _) (decides_self _ _)⟩
    | builderNew => exact ⟨_, .ofBuilder _ (by simp) (helperVis_self _) (decides_self _ _)⟩
    | build => exact ⟨_, .ofBuilder _ (by simp) (helperVis_self _) (decides_self _ _)⟩
    | builderSet => exact ⟨_, .builderSet _⟩
    | new => exact ⟨_, .new⟩
    | myself => exact ⟨_, .ofRc _ (by simp) (helperVis_self _) (decides_self _ _)⟩
    | downgrade => exact ⟨_, .ofRc _ (by simp) (helperVis_self _) (decides_self _ _)⟩
    | shadow =>
      have : ∃ a, SerdeVis c.args.serde a := by
        cases c.args.serde with
        | none => exact ⟨_, .absent⟩
        | some h => exact ⟨_, .given h _ (argVis_self _ _)⟩
      obtain ⟨a, ha⟩ := this
      exact ⟨_, .shadow ha (decides_self _ _)⟩
    | helper f k =>
      by_cases hk : k = .builder
      · subst hk; exact absurd rfl (hi f)
      · by_cases hm : k = .accessorMut → genMode ⟨c, f⟩ = .plain
        · exact ⟨_, .helper f k _ hk hm (C38_rule _ _)⟩
        · have h1 : k = .accessorMut := by
            apply Classical.byContradiction; intro h; exact hm (fun e => absurd e h)
          subst h1
          exact ⟨_, .getMut f _ (fun h => hm (fun _ => h)) (C38_rule _ _)⟩
  obtain ⟨v, hv⟩ := any
  exact ⟨v, hv, fun w hw => one hv hw⟩

/-! ### Seeing -/

/-- Seeing is a matter of how far down the item's own path is shared. -/
theorem seen_iff {pl : Place} {v : Vis} (h : Legal pl v) (hne : pl.here ≠ []) (m : Mod) :
    Seen pl v m ↔ pl.here.take (depth pl v) <+: m := by
  cases h with
  | pub => exact ⟨fun _ => by simp [depth], fun _ => .pub m⟩
  | inherited =>
    simp only [depth, List.take_length]
    constructor
    · rintro ⟨⟩; exact List.prefix_append _ _
    · rintro ⟨t, rfl⟩; exact .inherited t
  | crate =>
    obtain ⟨c, up, hc⟩ := List.exists_cons_of_ne_nil hne
    simp only [depth, hc, List.take_succ_cons, List.take_zero]
    constructor
    · rintro ⟨⟩
      rename_i c' up' down h
      rw [hc] at h; cases h
      exact ⟨_, rfl⟩
    · rintro ⟨t, rfl⟩; exact .crate c up t hc
  | super up c last h =>
    have e : pl.here.take (pl.here.length - 1) = c :: up := by
      rw [← List.dropLast_eq_take, h, ← List.cons_append, List.dropLast_concat]
    simp only [depth, e]
    constructor
    · intro hs
      cases hs with
      | super up' down last' h' =>
        rw [h, ← List.cons_append] at h'
        have := (List.append_inj' h' rfl).1
        rw [← this]; exact List.prefix_append _ _
    · rintro ⟨t, rfl⟩
      exact .super (c :: up) t last (by rw [h]; rfl)
  | inPath p c up down h1 h2 =>
    have e : pl.here.take (pl.resolve p).length = pl.resolve p := by
      rw [h1, h2, ← List.cons_append, List.take_left]
    simp only [depth, e]
    constructor
    · rintro ⟨⟩; exact List.prefix_append _ _
    · rintro ⟨t, rfl⟩; exact .inPath p t

theorem depth_le {pl : Place} {v : Vis} (h : Legal pl v) (hne : pl.here ≠ []) : depth pl v ≤ pl.here.length := by
  cases h with
  | pub => simp [depth]
  | inherited => simp [depth]
  | crate => have := List.length_pos_iff.mpr hne; simp only [depth]; omega
  | super up c last h => simp only [depth]; omega
  | inPath p c up down h1 h2 => simp [depth, h1, h2]

/-- One item is seen wherever another is if and only if it is not confined deeper. -/
theorem wider_iff {pl : Place} {a b : Vis} (ha : Legal pl a) (hb : Legal pl b) (hne : pl.here ≠ []) :
    (∀ m, m ≠ [] → Seen pl b m → Seen pl a m) ↔ depth pl a ≤ depth pl b := by
  constructor
  · intro h
    by_cases h0 : depth pl b = 0
    · -- another crate
      obtain ⟨c, up, hc⟩ := List.exists_cons_of_ne_nil hne
      have h1 := h [c ++ "x"] (by simp) ((seen_iff hb hne _).mpr (by simp [h0]))
      rw [seen_iff ha hne, hc] at h1
      rw [h0]
      cases hd : depth pl a with
      | zero => exact Nat.le_refl _
      | succ n =>
        exfalso
        rw [hd] at h1
        simp only [List.take_succ_cons, List.cons_prefix_cons] at h1
        have h2 := congrArg String.length h1.1
        rw [String.length_append] at h2
        have h3 : "x".length = 1 := by decide
        omega
    · have hle := depth_le hb hne
      have hpos := List.length_pos_iff.mpr hne
      have h1 := h (pl.here.take (depth pl b)) (by
        intro e
        have := congrArg List.length e
        simp at this
        rcases this with h | h
        · exact h0 h
        · exact hne h) ((seen_iff hb hne _).mpr (List.prefix_refl _))
      rw [seen_iff ha hne] at h1
      have := h1.length_le
      simp only [List.length_take] at this
      have := depth_le ha hne
      omega
  · intro h m _ hm
    rw [seen_iff hb hne] at hm
    rw [seen_iff ha hne]
    exact List.IsPrefix.trans (List.take_prefix_take_left h) hm

/-! ### Using -/

/-- What `Foo::builder().a(..).build()` names. -/
def chain (c : Ctx) : List Item := [.struct, .builderFn, .build] ++ c.allFields.map .builderSet

/-- Every item can be named where it stands and in the modules below, so that no part of an expansion is hidden from
another one: for every declared visibility and all arguments, in any module that is not the root of a crate (where
`super` is refused), as long as paths in `public(in path)` are legal. -/
theorem C95_home (c : Ctx) (decl : List String) (d : Vis) (pl : Place) (up : Mod) (cr last : String)
    (hpl : pl.here = cr :: (up ++ [last])) (hd : Spells decl d) (i : Item) (hi : ∀ f, i ≠ .helper f .builder)
    (hp : ∀ p, Wants c d i (.inPath p) → Legal pl (.inPath p)) (down : Mod) :
    Reaches c decl pl i (pl.here ++ down) := by
  obtain ⟨v, hv, -⟩ := C95_wants c d i hi
  have hl : Legal pl v := by
    cases v with
    | inherited => exact .inherited
    | pub => exact .pub
    | crate => exact .crate
    | super => exact .super up cr last hpl
    | inPath p => exact hp p hv
  have hne : pl.here ≠ [] := by rw [hpl]; simp
  refine ⟨v, C95_written c decl d hd i v hv, (seen_iff hl hne _).mpr ?_⟩
  exact List.IsPrefix.trans (List.take_prefix _ _) (List.prefix_append _ _)

/-- The exact rule for the builder: a call of it can be written wherever the struct can be named if and only if the
visibility that the `builder` argument gives, if any, is not narrower than that of the struct. `builder()` itself and the
methods that take values can always be called there. -/
theorem C95_chain_iff (c : Ctx) (decl : List String) (d v : Vis) (pl : Place) (hne : pl.here ≠ []) (hd : Spells decl d)
    (hld : Legal pl d) (hw : Wants c d .build v) (hlv : Legal pl v) :
    (∀ m, m ≠ [] → Seen pl d m → (∀ i ∈ chain c, i ≠ .build → Reaches c decl pl i m)) ∧
    ((∀ m, m ≠ [] → Seen pl d m → ∀ i ∈ chain c, Reaches c decl pl i m) ↔ depth pl v ≤ depth pl d) := by
  have hb := C95_written c decl d hd _ _ hw
  have rest : ∀ m, Seen pl d m → ∀ i ∈ chain c, i ≠ .build → Reaches c decl pl i m := by
    intro m hm i hi hne
    simp only [chain, List.cons_append, List.nil_append, List.mem_cons, List.mem_map] at hi
    rcases hi with rfl | rfl | rfl | ⟨f, _, rfl⟩
    · exact ⟨d, hd, hm⟩
    · exact ⟨d, hd, hm⟩
    · exact absurd rfl hne
    · exact ⟨.pub, .pub, .pub m⟩
  refine ⟨fun m _ => rest m, ?_⟩
  rw [← wider_iff hlv hld hne]
  constructor
  · intro h m hm0 hm
    obtain ⟨w, hw', hs⟩ := h m hm0 hm .build (by simp [chain])
    rwa [spells_unique hw' hb] at hs
  · intro h m hm0 hm i hi
    by_cases he : i = .build
    · subst he; exact ⟨v, hb, h m hm0 hm⟩
    · exact rest m hm i hi he

/-- Part of the full claim: with a `builder` argument that says nothing about visibility (or without one, if only fields
ask for a builder) the whole call can be written wherever the struct can be named. Missing: an argument that says
something, for which `C95_chain_iff` is the rule and which can be false (`C95_chain_false`). -/
theorem C95_chain_partial (c : Ctx) (decl : List String) (d : Vis) (pl : Place) (hd : Spells decl d)
    (hs : HelperVis (structRaw c.args .builder) none) (m : Mod) (hm : Seen pl d m) :
    ∀ i ∈ chain c, Reaches c decl pl i m := by
  intro i hi
  simp only [chain, List.cons_append, List.nil_append, List.mem_cons, List.mem_map] at hi
  rcases hi with rfl | rfl | rfl | ⟨f, _, rfl⟩
  · exact ⟨d, hd, hm⟩
  · exact ⟨d, hd, hm⟩
  · exact ⟨d, C95_written c decl d hd _ _ (.ofBuilder _ (by simp) hs (.next (.dflt _))), hm⟩
  · exact ⟨.pub, .pub, .pub m⟩

/-- The full claim is false: `pub struct` with `builder(private)` in a module. From the crate root the struct,
`builder()` and every method that takes a value can be named, but not `build()`. -/
theorem C95_chain_false :
    ∃ (c : Ctx) (decl : List String) (d : Vis) (pl : Place) (m : Mod), acceptStructFull c.args = true ∧
      Spells decl d ∧ Legal pl d ∧ (∀ v, Wants c d .build v → Legal pl v) ∧ Seen pl d m ∧
      (∀ i ∈ chain c, i ≠ .build → Reaches c decl pl i m) ∧ ¬ Reaches c decl pl .build m := by
  refine ⟨{ args := { builder := some { priv := some true } }, fields := [{ ident := "a" }] }, ["pub"], .pub,
    ⟨["app", "inner"], fun _ => []⟩, ["app"], by decide, .pub, .pub, ?_, .pub _, ?_, ?_⟩
  · intro v hv
    have := C95_written _ _ _ .pub _ _ hv
    have e : v = .inherited := spells_unique this Spells.inherited
    subst e; exact .inherited
  · intro i hi hne
    simp only [chain, List.cons_append, List.nil_append, List.mem_cons, List.mem_map] at hi
    rcases hi with rfl | rfl | rfl | ⟨f, _, rfl⟩
    · exact ⟨_, .pub, .pub _⟩
    · exact ⟨_, .pub, .pub _⟩
    · exact absurd rfl hne
    · exact ⟨_, .pub, .pub _⟩
  · rintro ⟨v, hv, hs⟩
    have e : v = .inherited := spells_unique hv Spells.inherited
    subst e
    generalize hm : ["app"] = m at hs
    cases hs with
    | inherited down => simp at hm

/-- Without a visibility in the `rc` argument the methods for the pointer to itself can be used only in the module of the
struct and below, however public the struct is and whatever `public` says at the level of the struct. -/
theorem C95_myself (c : Ctx) (decl : List String) (pl : Place) (h : HelperVis c.args.rc none) (m : Mod) :
    (Reaches c decl pl .myself m ↔ pl.here <+: m) ∧ (Reaches c decl pl .downgrade m ↔ pl.here <+: m) := by
  have key : ∀ i ∈ [Item.myself, .downgrade], Reaches c decl pl i m ↔ pl.here <+: m := by
    intro i hi
    have hs := C95_written c [] .inherited .inherited i .inherited (.ofRc i hi h (.next (.dflt _)))
    have he : written c decl i = written c [] i := by
      simp only [List.mem_cons, List.not_mem_nil, or_false] at hi
      rcases hi with rfl | rfl <;> rfl
    constructor
    · rintro ⟨v, hv, hm⟩
      rw [he] at hv
      have e : v = .inherited := spells_unique hv hs
      subst e
      cases hm with
      | inherited down => exact List.prefix_append _ _
    · rintro ⟨down, rfl⟩
      exact ⟨.inherited, by rw [he]; exact hs, .inherited down⟩
  exact ⟨key _ (by simp), key _ (by simp)⟩

/-! ### Cases -/

/-- A place three modules deep. -/
def exPlace : Place := ⟨["app", "a", "b"], fun p => if p == "crate::a" then ["app", "a"] else ["app"]⟩

/-- Non-trivial case for `C95_chain_iff`: `pub(in crate::a) struct` with `builder(public(crate))`; and one that is
narrower, `pub(crate) struct` with `builder(public(super))`. -/
example :
    (let c : Ctx := { args := { builder := some { pub := some .crate } }, fields := [{ ident := "x" }] }
     Spells ["pub", "(", "in", "crate::a", ")"] (.inPath "crate::a") ∧ Legal exPlace (.inPath "crate::a") ∧
      Wants c (.inPath "crate::a") .build .crate ∧ Legal exPlace .crate ∧
      depth exPlace .crate ≤ depth exPlace (.inPath "crate::a")) ∧
    (let c : Ctx := { args := { builder := some { pub := some .super } }, fields := [{ ident := "x" }] }
     Spells ["pub", "(", "crate", ")"] .crate ∧ Legal exPlace .crate ∧ Wants c .crate .build .super ∧
      Legal exPlace .super ∧ ¬ depth exPlace .super ≤ depth exPlace .crate) := by
  refine ⟨⟨.inPath _, .inPath _ "app" ["a"] ["b"] rfl rfl,
      .ofBuilder (a := some .crate) _ (by simp) (.given _ _ (.pub _ _ (by simp))) (.here _ _ _), .crate, by decide⟩,
    ⟨.crate, .crate, .ofBuilder (a := some .super) _ (by simp) (.given _ _ (.pub _ _ (by simp))) (.here _ _ _),
      .super ["a"] "app" "b" rfl, by decide⟩⟩

/-- Non-trivial case for `C95_home`: a shadow that is `pub(super)`. -/
example : let c : Ctx := { args := { serde := some { pub := some .super } }, fields := [{ ident := "x" }] }
    Wants c .inherited .shadow .super ∧ exPlace.here = "app" :: (["a"] ++ ["b"]) ∧
      Reaches c [] exPlace .shadow ["app", "a", "b", "tests"] := by
  intro c
  have h : Wants c .inherited .shadow .super :=
    .shadow (a := some .super) (.given _ _ (.pub _ _ (by simp))) (.here _ _ _)
  refine ⟨h, rfl, C95_home c [] .inherited exPlace ["a"] "app" "b" rfl .inherited .shadow (fun _ => by simp) ?_ ["tests"]⟩
  intro p hp
  obtain ⟨v, _, hu⟩ := C95_wants c .inherited .shadow (fun _ => by simp)
  have := (hu _ hp).trans (hu _ h).symm
  cases this

/-- Non-trivial case for `C95_chain_partial` and `C95_myself`: a public counted struct. -/
example : let c : Ctx := { args := { rc := some {}, builder := some {}, pub := some .all }, fields := [{ ident := "x" }] }
    HelperVis (structRaw c.args .builder) none ∧ HelperVis c.args.rc none ∧ Seen exPlace .pub ["other"] ∧
      Reaches c ["pub"] exPlace .build ["other"] ∧ ¬ Reaches c ["pub"] exPlace .myself ["other"] := by
  intro c
  have h1 : HelperVis (structRaw c.args .builder) none := .given _ _ (.pub _ _ (by simp))
  have h2 : HelperVis c.args.rc none := .given _ _ (.pub _ _ (by simp))
  refine ⟨h1, h2, .pub _, C95_chain_partial c _ .pub _ .pub h1 _ (.pub _) _ (by simp [chain]), ?_⟩
  rw [(C95_myself c _ _ h2 _).1]
  decide

end Verif.Props.Visibility
