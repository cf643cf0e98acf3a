import Verif.Model.Args
/-
Rejection of conflicting arguments.

Sources: /repo/fieldx_aux/src/util.rs 50-141 (`validate_exclusives!`), its uses in
/repo/fieldx_derive/src/fields.rs 128-134, /repo/fieldx_derive/src/util/args.rs 68-74 and
/repo/fieldx_aux/src/serde_helper.rs 49; the check generated by `#[fxhelper]` in
/repo/fieldx_derive_support/src/lib.rs 73-106, 149-176; /repo/fieldx_aux/src/builder_helper.rs 98-121.

Simplification: an error is the list of conflicting groups, each with the names it mentions (spans dropped).
-/
namespace Verif.Model.Exclusive
open Verif.Model.Args

/-- An argument within a group: name used in messages, and `as_ref().map(is_true).unwrap_or(false)`
(fieldx_aux/src/util.rs 73-77). -/
abbrev Param := String × Bool

/-- A group: its title and its alternatives (`;`-separated), each a list of arguments (`,`-separated):
fieldx_aux/src/util.rs 61-80. -/
abbrev Group := String × List (List Param)

/-- State of the loop over the alternatives of one group: fieldx_aux/src/util.rs 85-86. -/
structure Scan where
  setParams    : List String
  subgroupsSet : Nat

/-- Loop over the arguments of one alternative: fieldx_aux/src/util.rs 89-95. -/
def scanSub : List Param → Bool → List String → Bool × List String
  | [], set, ps => (set, ps)
  | (n, true) :: r, _, ps => scanSub r true (ps ++ [n])
  | (_, false) :: r, set, ps => scanSub r set ps

/-- Loop over the alternatives of one group: fieldx_aux/src/util.rs 88-100. -/
def scanGroup : List (List Param) → Scan → Scan
  | [], s => s
  | sub :: r, s =>
    let (set, ps) := scanSub sub false s.setParams
    scanGroup r { setParams := ps, subgroupsSet := if set then s.subgroupsSet + 1 else s.subgroupsSet }

/-- Loop over the groups, collecting errors: fieldx_aux/src/util.rs 82-131. -/
def errors : List Group → List (String × List String)
  | [] => []
  | (g, subs) :: r =>
    let s := scanGroup subs ⟨[], 0⟩
    if s.subgroupsSet > 1 then (g, s.setParams) :: errors r else errors r

/-- fieldx_aux/src/util.rs 133-138: `Err` with all errors if there are any. -/
def validate (gs : List Group) : Except (List (String × List String)) Unit :=
  if (errors gs).length > 0 then .error (errors gs) else .ok ()

/-- A `FXPubMode` argument is always on (fieldx_aux/src/lib.rs 134-138). -/
def pubSet (p : Option PubMode) : Bool := p.isSome

/-- The groups of a field: fieldx_derive/src/fields.rs 128-134. -/
def fieldGroups (f : FieldArgs) : List Group :=
  [ ("visibility", [[("public", pubSet f.pub)], [("private", f.priv.getD false)]]),
    ("accessor mode", [[("copy", f.copy.getD false)], [("clone", f.clone.getD false)]]),
    ("field mode", [[("lazy", f.lazy.elim false (·.isTrue))],
                    [("optional", f.optional.getD false), ("inner_mut", f.innerMut.getD false)]]),
    ("in-/fallible mode", [[("fallible", f.fallible.elim false (·.isTrue))],
                    [("lock", f.lock.getD false), ("optional", f.optional.getD false),
                     ("inner_mut", f.innerMut.getD false)]]),
    ("concurrency mode", [[("sync", f.modeSync.getD false)], [("async", f.modeAsync.getD false)],
                    [("inner_mut", f.innerMut.getD false)], [("mode", f.mode.isSome)]]) ]

/-- The groups of a struct: fieldx_derive/src/util/args.rs 68-74. -/
def structGroups (s : StructArgs) : List Group :=
  [ ("visibility", [[("public", pubSet s.pub)], [("private", s.priv.getD false)]]),
    ("accessor mode", [[("copy", s.copy.getD false)], [("clone", s.clone.getD false)]]),
    ("concurrency mode", [[("sync", s.modeSync.getD false), ("r#async", s.modeAsync.getD false)],
                    [("inner_mut", s.innerMut.getD false)], [("mode", s.mode.isSome)]]),
    ("field mode", [[("lazy", s.lazy.elim false (·.isTrue))],
                    [("optional", s.optional.getD false), ("inner_mut", s.innerMut.getD false)]]),
    ("serde/ref.counting", [[("serde", s.serde.elim false (·.isTrue))], [("rc", s.rc.elim false (·.isTrue))]]) ]

/-- fieldx_derive/src/fields.rs 140-173 (features enabled): the arguments of a field are accepted. -/
def acceptField (f : FieldArgs) : Bool := (errors (fieldGroups f)).isEmpty

/-- fieldx_derive/src/util/args.rs 79-107 (features enabled): the arguments of a struct are accepted. -/
def acceptStruct (s : StructArgs) : Bool := (errors (structGroups s)).isEmpty

/-- The check generated inside each helper: fieldx_derive_support/src/lib.rs 149-176. Each group is a list of presence
tests; more than one present is an error. -/
def helperGroupOk (present : List Bool) : Bool := !((present.filter id).length > 1)

/-- Every helper: `public` and `private` by presence (`is_some`), fieldx_derive_support/src/lib.rs 73-79. -/
def acceptHelper (h : Helper) : Bool := helperGroupOk [h.pub.isSome, h.priv.isSome]

/-- The accessor helper adds "accessor mode": fieldx_aux/src/accessor_helper.rs 33-38. -/
def acceptAccessor (a : Accessor) : Bool := acceptHelper a.toHelper && helperGroupOk [a.clone, a.copy, a.asRef]

/-- A field-level builder helper allows no `error`, `post_build`, `opt_in`: fieldx_aux/src/builder_helper.rs 98-121. -/
def acceptFieldBuilder (b : Builder) : Bool :=
  acceptHelper b.toHelper && b.error.isNone && b.postBuild.isNone && b.optIn.isNone

/-- `fieldx_aux/src/serde_helper.rs 49, 51-55`. -/
def acceptSerde (s : Serde) : Bool :=
  (errors [("visibility", [[("public", pubSet s.pub)], [("private", s.priv.getD false)]])]).isEmpty

/-- All checks on one field. -/
def acceptFieldFull (f : FieldArgs) : Bool :=
  acceptField f && f.lazy.all acceptHelper && f.accessor.all acceptAccessor && f.accessorMut.all acceptHelper &&
  f.setter.all (fun s => acceptHelper s.toHelper) && f.reader.all acceptHelper && f.writer.all acceptHelper &&
  f.clearer.all acceptHelper && f.predicate.all acceptHelper && f.builder.all acceptFieldBuilder && f.serde.all acceptSerde

/-- All checks on the struct arguments. -/
def acceptStructFull (s : StructArgs) : Bool :=
  acceptStruct s && s.lazy.all acceptHelper && s.accessor.all acceptAccessor && s.accessorMut.all acceptHelper &&
  s.setter.all (fun x => acceptHelper x.toHelper) && s.reader.all acceptHelper && s.writer.all acceptHelper &&
  s.clearer.all acceptHelper && s.predicate.all acceptHelper && s.builder.all (fun b => acceptHelper b.toHelper) &&
  s.rc.all acceptHelper && s.serde.all acceptSerde

end Verif.Model.Exclusive
