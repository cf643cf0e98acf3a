import Verif.Model.Expand
/-
The default expressions of the user, and the local variables around them.

Sources: /repo/fieldx_derive/src/codegen.rs 294-299 (`default`), 386-420 (`build`); /repo/fieldx_derive/src/codegen/codegen_trait.rs
253-275 (`maybe_ref_counted_create`), 430-478 (`field_builder_value_for_set`); /repo/fieldx_derive/src/codegen/plain.rs 444-460
(`field_from_shadow`); /repo/fieldx_derive/src/codegen/serde.rs 190-220 (`serde_field_default_fn`), 308-322 (`default` of the shadow),
375-384 (`from`); /repo/fieldx_derive/src/ctx/codegen.rs 291-300 (`shadow_var_ident`, `me_var_ident`).

All variables below are written with the context of the macro call, which is also that of a default expression in a struct
which is not made by a `macro_rules!` macro.

Simplification: the default of the `serde` argument of the whole struct is left out; it is in a function without parameters
(serde.rs 472-534).
-/
namespace Verif.Model.Captures
open Verif.Model.Args Verif.Model.Init Verif.Model.Expand

/-- The local variables around each expression of the user in an initialiser which stands among `Γ`: `field_manual_value` is bound
in the first branch of codegen_trait.rs 459-470 only, `v` in the second closure of plain.rs 451 only. -/
def scopes (Γ : List String) : IE → List (List String)
  | .dv _ | .sdv => [Γ]
  | .some e | .onceFrom e | .cellNew e | .lockNew _ e | .proxyNew _ _ e => scopes Γ e
  | .orElseSome a b | .ifSlot a b => scopes Γ a ++ scopes Γ b
  | .ifLetSlot a b => scopes ("field_manual_value" :: Γ) a ++ scopes Γ b
  | .mapOrElse e d b => scopes Γ e ++ scopes Γ d ++ scopes ("v" :: Γ) b
  | _ => []

/-- The initialiser of a field in a piece of the expansion. -/
def initIn (x : FCtx) : Piece → Gen IE
  | .dflt _ => defaultInit x
  | .build _ => builderInit x
  | .fromShadow _ => fromShadow x
  | .shadowDflt _ => .ok (shadowDefault x)
  | .serdeFn _ => .ok (serdeDefaultFn x)
  | _ => .error

/-- The field a piece with an initialiser is about. -/
def fieldOf : Piece → Option String
  | .dflt f | .build f | .fromShadow f | .shadowDflt f | .serdeFn f => some f
  | _ => none

/-- The parameters of the function the piece is in, and of the closure around it: codegen.rs 296, 416, codegen_trait.rs 258,
serde.rs 214, 313, 380. -/
def locals (c : Ctx) : Piece → List String
  | .build _ => "self" :: if c.args.isRefCounted then ["me"] else []
  | .fromShadow _ => ["__shadow"]
  | _ => []

/-- The local variables around the expressions of the user for a field, over the whole expansion. -/
def around (c : Ctx) (f : FieldArgs) (out : List Piece) : List (List String) :=
  (out.filter fun p => fieldOf p == some f.ident).flatMap fun p =>
    match initIn ⟨c, f⟩ p with
    | .ok e => scopes (locals c p) e
    | _ => []

end Verif.Model.Captures
