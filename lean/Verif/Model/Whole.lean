import Verif.Spec.Whole
import Verif.Model.Mixed
import Verif.Model.AsyncMixed
/-!
# One history of all containers

The containers of `Verif.Model.Mixed` and `Verif.Model.AsyncMixed` keep a log each. Here the events of all of them are
written down in the order in which they happen: whenever a thread makes a step, what the step added to the log of the
container it worked on is added to the common record. This is bookkeeping and has no counterpart in /repo.
-/

namespace Verif.Model.Whole
open Verif.Spec Verif.Model

/-- Event of a lazy container, or of the lock-protected ones. -/
inductive Tag (F A R X B Q Y : Type) where
  | lazy (i : F) (e : LEv A R X)
  | lock (e : LEv B Q Y)

/-- The same, for the containers of `Verif.Model.Mixed` and `Verif.Model.AsyncMixed`. -/
abbrev Tagged (F L V W E : Type) := Tag F (Op V) (Res V E) (BEv V E) (Memory.Op L W) (Memory.Ret W) Unit

/-- Calls on lazy containers and on others are numbered separately in the model; these two keep them apart. -/
def lazyId (i : CallId) : CallId := ⟨2 * i.proc, i.seq⟩

/-- See `lazyId`. -/
def lockId (i : CallId) : CallId := ⟨2 * i.proc + 1, i.seq⟩

section
variable {F A R X B Q Y : Type}

/-- The event as one of the whole. -/
def Tag.ev : Tag F A R X B Q Y → LEv (Whole.Op F A B) (Whole.Ret R Q) Unit
  | .lazy i (.inv c op) => .inv (lazyId c) (.lazy i op)
  | .lazy i (.lin c op r) => .lin (lazyId c) (.lazy i op) (.lazy r)
  | .lazy _ (.res c r) => .res (lazyId c) (.lazy r)
  | .lazy _ (.cancel c) => .cancel (lazyId c)
  | .lazy _ (.other _) => .other ()
  | .lock (.inv c op) => .inv (lockId c) (.lock op)
  | .lock (.lin c op r) => .lin (lockId c) (.lock op) (.lock r)
  | .lock (.res c r) => .res (lockId c) (.lock r)
  | .lock (.cancel c) => .cancel (lockId c)
  | .lock (.other _) => .other ()

/-- The log of the whole. -/
def whole (g : List (Tag F A R X B Q Y)) : List (LEv (Whole.Op F A B) (Whole.Ret R Q) Unit) := g.map Tag.ev

/-- The part of lock-protected containers. -/
def lockPart (g : List (Tag F A R X B Q Y)) : List (LEv B Q Y) :=
  g.filterMap fun
    | .lock e => some e
    | .lazy _ _ => none

/-- What was added to a log. -/
def added {A : Type} (l l' : List A) : List A := l'.drop l.length

variable [DecidableEq F]

/-- The part of the lazy container `i`. -/
def lazyPart (i : F) (g : List (Tag F A R X B Q Y)) : List (LEv A R X) :=
  g.filterMap fun
    | .lazy j e => if j = i then some e else none
    | .lock _ => none

variable {L V W E : Type} [DecidableEq L]

/-! ## Sync structs -/

/-- What the step from `s` to `s'`, action `a` of thread `t`, adds. -/
def news (s s' : Mixed.St F L V W E) (t : Nat) : Mixed.Act F L V W E → List (Tagged F L V W E)
  | .call j _ => (added (s.obj j).log (s'.obj j).log).map (.lazy j)
  | .use f _ | .go f | .drop f => (added (s.obj f.1).log (s'.obj f.1).log).map (.lazy f.1)
  | .finish _ =>
    match Mixed.innermost s t with
    | some f => (added (s.obj f.1).log (s'.obj f.1).log).map (.lazy f.1)
    | none => []
  | .lock _ => (added s.lk.log s'.lk.log).map .lock

/-- Every schedule of `Mixed.Reach`, with the record of all events. -/
inductive Trace (eqv : W → W → Bool) (dep : F ⊕ L → F ⊕ L → Prop) (v₀ : F → Option V) (w₀ : L → W) :
    Mixed.St F L V W E → List (Tagged F L V W E) → Prop where
  | init : Trace eqv dep v₀ w₀ (Mixed.init v₀ w₀) []
  | step {s s' g t a} : Trace eqv dep v₀ w₀ s g → Mixed.Allowed dep s t a → Mixed.step eqv s t a = some s' →
      Trace eqv dep v₀ w₀ s' (g ++ news s s' t a)

/-! ## Async structs -/

/-- What the step from `s` to `s'`, action `a`, adds. -/
def asyncNews (s s' : AsyncMixed.St F L V W E) : AsyncMixed.Act F L V W E → List (Tagged F L V W E)
  | .call j _ | .act (.lazy j _) _ => (added (s.obj j).log (s'.obj j).log).map (.lazy j)
  | .lock _ | .act (.lock _) _ => (added s.lk.log s'.lk.log).map .lock
  | .fork _ | .ret => []

/-- Every schedule of `AsyncMixed.Reach`, with the record of all events. -/
inductive AsyncTrace (eqv : W → W → Bool) (dep : F ⊕ L → F ⊕ L → Prop) (v₀ : F → Option V) (w₀ : L → W) :
    AsyncMixed.St F L V W E → List (Tagged F L V W E) → Prop where
  | init : AsyncTrace eqv dep v₀ w₀ (AsyncMixed.init v₀ w₀) []
  | step {s s' g t a} : AsyncTrace eqv dep v₀ w₀ s g → AsyncMixed.Allowed dep s t a → AsyncMixed.step eqv s t a = some s' →
      AsyncTrace eqv dep v₀ w₀ s' (g ++ asyncNews s s' a)

end

end Verif.Model.Whole
