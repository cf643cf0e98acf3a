{
 "claims": [
  {
   "property": "C01",
   "status": "proved",
   "theorems": [
    "Verif.Props.Sync.C01_memory_empty_while_building",
    "Verif.Props.Sync.C01_builder_runs_only_when_empty",
    "Verif.Props.Sync.C01_no_two_runs_overlap",
    "Verif.Props.Sync.C01_clear_between_builds"
   ],
   "note": "Small-step model of FXProxySync, any number of processes, any schedule, any builder outcome."
  },
  {
   "property": "C02",
   "status": "proved",
   "theorems": [
    "Verif.Props.Sync.C02_sync_linearizable"
   ],
   "note": "Textbook linearizability (Spec/Linear) of the full history including is_set. Here the atomic flag is read in the order of the interleaving; C89 lifts this."
  },
  {
   "property": "C03",
   "status": "proved",
   "theorems": [
    "Verif.Props.Sync.C03_flag_agrees",
    "Verif.Props.Sync.C03_flag_true_under_guard"
   ],
   "note": ""
  },
  {
   "property": "C04",
   "status": "proved",
   "theorems": [
    "Verif.Props.Sync.C04_no_change_under_guard",
    "Verif.Props.Sync.C04_deref_same_value",
    "Verif.Props.Sync.C04_no_exclusive_beside_guard"
   ],
   "note": ""
  },
  {
   "property": "C05",
   "status": "proved",
   "theorems": [
    "Verif.Props.Sync.C05_failure_leaves_no_trace",
    "Verif.Props.Sync.C05_builder_runs_again"
   ],
   "note": ""
  },
  {
   "property": "C06",
   "status": "proved",
   "theorems": [
    "Verif.Props.Sync.C06_at_most_one_run",
    "Verif.Props.Sync.C06_error_is_own",
    "Verif.Props.Sync.C06_value_found_or_built"
   ],
   "note": ""
  },
  {
   "property": "C07",
   "status": "proved",
   "theorems": [
    "Verif.Props.Sync.C07_others_never_build"
   ],
   "note": ""
  },
  {
   "property": "C08",
   "status": "proved",
   "theorems": [
    "Verif.Props.Sync.C08_progress",
    "Verif.Props.Sync.C08_progress_with_guards",
    "Verif.Props.Sync.C08_bounded",
    "Verif.Props.Sync.C08_cannot_wedge"
   ],
   "note": "Bound: twelve steps per process inside."
  },
  {
   "property": "C09",
   "status": "proved",
   "theorems": [
    "Verif.Props.Sync.C09_conservation",
    "Verif.Props.Sync.C09_conservation_any_time"
   ],
   "note": ""
  },
  {
   "property": "C10",
   "status": "proved",
   "theorems": [
    "Verif.Props.Sync.C10_clone_consistent"
   ],
   "note": "The new container is a separate state equal to a fresh one with the content read; nothing is shared (builder is a function pointer copy)."
  },
  {
   "property": "C11",
   "status": "proved",
   "theorems": [
    "Verif.Props.Async.C11_memory_empty_while_building",
    "Verif.Props.Async.C11_builder_runs_only_when_empty",
    "Verif.Props.Async.C11_no_two_runs_overlap",
    "Verif.Props.Async.C11_clear_between_builds"
   ],
   "note": "Small-step model of FXProxyAsync, any number of tasks, cancellation at every await point."
  },
  {
   "property": "C12",
   "status": "proved",
   "theorems": [
    "Verif.Props.Async.C12_async_linearizable",
    "Verif.Props.Async.C12_cancelled_no_effect",
    "Verif.Props.Async.C12_cancel_changes_nothing",
    "Verif.Props.Async.C12_cancelled_never_made"
   ],
   "note": "Cancelled calls are pending in the history; they have no effect at all."
  },
  {
   "property": "C13",
   "status": "proved",
   "theorems": [
    "Verif.Props.Async.C13_failure_leaves_no_trace",
    "Verif.Props.Async.C13_cancelled_build_leaves_no_trace",
    "Verif.Props.Async.C13_cancelled_holds_no_lock",
    "Verif.Props.Async.C13_builder_runs_again_after_failure",
    "Verif.Props.Async.C13_builder_runs_again_after_cancel"
   ],
   "note": ""
  },
  {
   "property": "C14",
   "status": "partial",
   "theorems": [
    "Verif.Props.Sync.C14_sync_reread",
    "Verif.Props.Async.C14_async_reread_blocks",
    "Verif.Props.Async.C14_async_reread_false",
    "Verif.Props.Async.C14_async_read_partial"
   ],
   "note": "True of sync (C14_sync_reread). False of async: the accessor takes the write lock even when the value is set, so a task holding a read guard blocks itself (C14_async_reread_false, for every schedule C14_async_reread_blocks)."
  },
  {
   "property": "C15",
   "status": "proved",
   "theorems": [
    "Verif.Props.Multi.C15_no_deadlock",
    "Verif.Props.Multi.C15_every_call_completes",
    "Verif.Props.Multi.C15_cycle_deadlocks",
    "Verif.Props.Multi.C15_kept_guard_deadlocks",
    "Verif.Props.Multi.C15_self_call_blocks",
    "Verif.Props.Cycles.C15_deadlock_iff"
   ],
   "note": "C15_deadlock_iff is exact. One container per lazy field, threads with stacks of nested calls, any dependency relation without cycles, any schedule. Non-lazy lock fields are not in this model (C88 has both)."
  },
  {
   "property": "C16",
   "status": "proved",
   "theorems": [
    "Verif.Props.Fields.C16_sequential_value",
    "Verif.Props.Fields.C16_value",
    "Verif.Props.Fields.C16_answers",
    "Verif.Props.Fields.C16_built_once",
    "Verif.Props.Fields.C16_no_endless_run",
    "Verif.Props.Fields.C16_ends_outside"
   ],
   "note": "Builders are programs which read other fields and return a value; they do not fail (C86 has those that do). Yardstick: big-step evaluation Spec.Eval."
  },
  {
   "property": "C17",
   "status": "proved",
   "theorems": [
    "Verif.Props.Program.C17_lazy_is_cell"
   ],
   "note": "By induction over the program, from the generated bodies; covers sync and async too, and any change of builder behaviour over time. Needs the used helpers to type-check (C54)."
  },
  {
   "property": "C18",
   "status": "proved",
   "theorems": [
    "Verif.Props.Program.C18_modes_agree"
   ],
   "note": "For any two declarations of the field with the same fallibility."
  },
  {
   "property": "C19",
   "status": "proved",
   "theorems": [
    "Verif.Props.Borrow.C19_cell",
    "Verif.Props.Borrow.C19_from_idle",
    "Verif.Props.Borrow.C19_panics_iff"
   ],
   "note": "Refinement of a cell with guards over every history of calls, guard drops and writes through guards. With optional(off) the clearer leaves T::default(), as C24 says."
  },
  {
   "property": "C20",
   "status": "partial",
   "theorems": [
    "Verif.Props.Args.C20_precedence",
    "Verif.Props.Args.C20_accessor_precedence",
    "Verif.Props.Args.C20_storage_precedence",
    "Verif.Props.Args.C20_skipped",
    "Verif.Props.Args.C20_details_precedence",
    "Verif.Props.Args.C20_attributes_precedence",
    "Verif.Props.Args.C20_sync_get_mut_attributes",
    "Verif.Props.Args.C20_get_mut_attributes_false",
    "Verif.Props.Args.C20_emits",
    "Verif.Props.Args.C20_field_decides_partial",
    "Verif.Props.Args.C20_reader_false",
    "Verif.Props.Args.C20_predicate_false",
    "Verif.Props.Args.C20_builder_false"
   ],
   "note": "The decision needs_* follows field, struct, default for all arguments (C20_precedence). Whether the method is finally written does not follow for reader, writer, predicate and builder: exact rule C20_emits, negations with witnesses. attributes_fn of get_mut is not used on sync and async fields, which take those of get (C20_sync_get_mut_attributes)."
  },
  {
   "property": "C21",
   "status": "partial",
   "theorems": [
    "Verif.Props.Args.C21_never_both",
    "Verif.Props.Args.C21_copy_agrees",
    "Verif.Props.Args.C21_plain_as_asked",
    "Verif.Props.Args.C21_sync_as_asked",
    "Verif.Props.Args.C21_modes_agree_partial",
    "Verif.Props.Args.C21_copy_off_false",
    "Verif.Props.Args.C21_clone_off_false",
    "Verif.Props.Args.C21_as_ref_false"
   ],
   "note": "Never both and copy agreement hold for all arguments; clone agreement fails for copy(off), clone(off) and as_ref (witnesses)."
  },
  {
   "property": "C22",
   "status": "partial",
   "theorems": [
    "Verif.Props.Args.C22_follows_struct",
    "Verif.Props.Args.C22_own_mode_partial",
    "Verif.Props.Args.C22_mode_async_is_plain",
    "Verif.Props.Args.C22_sync_in_async_struct",
    "Verif.Props.Args.C22_own_mode_false",
    "Verif.Props.Args.C22_undeclared_struct",
    "Verif.Props.Args.C22_order_dependent"
   ],
   "note": "False for field mode(async), for sync in an async struct, and for inner_mut with lock; exact consequences proved for all structs."
  },
  {
   "property": "C23",
   "status": "partial",
   "theorems": [
    "Verif.Props.Init.C23_welltyped_partial",
    "Verif.Props.Init.C23_default_iff",
    "Verif.Props.Init.C23_builder",
    "Verif.Props.Init.C23_fromShadow",
    "Verif.Props.Init.C23_intoShadow_iff",
    "Verif.Props.Init.C23_shadowDefault",
    "Verif.Props.Init.C23_serdeDefaultFn",
    "Verif.Props.Init.C23_declType_error",
    "Verif.Props.Init.C23_default_generated",
    "Verif.Props.Init.C23_builder_generated",
    "Verif.Props.Init.C23_evaluates",
    "Verif.Props.Init.C23_full_false_skip",
    "Verif.Props.Init.C23_full_false_serde"
   ],
   "note": "Typing relation separate from the generators; every generated initialiser has the declared type, with exact exceptions: a skipped field in a struct with lock, and an optional field without lock in a sync serde struct (witnesses). The macro itself panics on a bare default with a builder (exact rule C23_builder_generated)."
  },
  {
   "property": "C24",
   "status": "partial",
   "theorems": [
    "Verif.Props.Method.C24_setter",
    "Verif.Props.Method.C24_accessor",
    "Verif.Props.Method.C24_set_then_get",
    "Verif.Props.Method.C24_accessorMut",
    "Verif.Props.Method.C24_reader",
    "Verif.Props.Method.C24_writer",
    "Verif.Props.Method.C24_lazy_build",
    "Verif.Props.Method.C24_lazy_fail",
    "Verif.Props.Method.C24_clearer_partial",
    "Verif.Props.Method.C24_clearer_leaves_default",
    "Verif.Props.Method.C24_clearer_fails"
   ],
   "note": "For every helper that is written and type-checks. The clearer law is false for a plain inner_mut field with optional(off), where T::default() is left (witness); the predicate is C25."
  },
  {
   "property": "C25",
   "status": "partial",
   "theorems": [
    "Verif.Props.Method.C25_predicate_partial",
    "Verif.Props.Method.C25_predicate_tries_lock",
    "Verif.Props.Method.C25_fails"
   ],
   "note": "False for fallible optional fields behind a sync lock: the predicate is try_read().is_some(), true of an empty field (C25_fails). Proved for all other configurations."
  },
  {
   "property": "C26",
   "status": "partial",
   "theorems": [
    "Verif.Props.Args.C26_bool_inverted",
    "Verif.Props.Args.C26_roundtrip_false",
    "Verif.Props.Args.C26_bare_attribute_disables",
    "Verif.Props.Args.C26_explicit_kept_partial"
   ],
   "note": "False: the conversion inverts (negation proved for both booleans, and its consequence for a bare fieldx attribute)."
  },
  {
   "property": "C27",
   "status": "proved",
   "theorems": [
    "Verif.Props.Builder.C27_err_iff",
    "Verif.Props.Builder.C27_err_keeps",
    "Verif.Props.Builder.C27_retry"
   ],
   "note": "Required = builder(required) in force, or a settable field with nothing to fall back on."
  },
  {
   "property": "C28",
   "status": "proved",
   "theorems": [
    "Verif.Props.Builder.C28_contents",
    "Verif.Props.Builder.C28_last_wins",
    "Verif.Props.Builder.C28_order_irrelevant"
   ],
   "note": ""
  },
  {
   "property": "C29",
   "status": "proved",
   "theorems": [
    "Verif.Props.Builder.C29_emptied",
    "Verif.Props.Builder.C29_second_build"
   ],
   "note": ""
  },
  {
   "property": "C30",
   "status": "partial",
   "theorems": [
    "Verif.Props.Builder.C30_panic_iff",
    "Verif.Props.Builder.C30_no_panic_partial",
    "Verif.Props.Builder.C30_full_false"
   ],
   "note": "False: builder(\"name\", off) on a field with nothing to fall back on gets a setter but no check; build() then panics. Exact rule C30_panic_iff."
  },
  {
   "property": "C31",
   "status": "partial",
   "theorems": [
    "Verif.Props.Builder.C31_buildable_iff",
    "Verif.Props.Builder.C31_buildable_partial",
    "Verif.Props.Builder.C31_unsuppliable",
    "Verif.Props.Builder.C31_full_false"
   ],
   "note": "False: struct level builder(required) reaches fields with builder(off). Exact rule C31_buildable_iff."
  },
  {
   "property": "C32",
   "status": "partial",
   "theorems": [
    "Verif.Props.Serde.C32_round_trip_partial",
    "Verif.Props.Serde.C32_fails",
    "Verif.Props.Serde.C32_serialize_off_ill"
   ],
   "note": "For every struct that compiles and every content. False for an empty optional field of a plain struct with a declared default, which comes back with the default (C32_fails). A field that is deserialised but not serialised does not compile (C32_serialize_off_ill)."
  },
  {
   "property": "C33",
   "status": "partial",
   "theorems": [
    "Verif.Props.Serde.C33_serialise_partial",
    "Verif.Props.Serde.C33_lazy_partial",
    "Verif.Props.Serde.C33_async_fails"
   ],
   "note": "Builders run in order of declaration on the complete object, then fields are moved; serialisation fails only by the panic of a builder. False for async structs: lazy_init is not awaited, the field is written as null (C33_async_fails)."
  },
  {
   "property": "C34",
   "status": "partial",
   "theorems": [
    "Verif.Props.Serde.C34_no_failure_partial",
    "Verif.Props.Serde.C34_fails"
   ],
   "note": "False: the result of the initialisation is thrown away, the field is written as null (C34_fails, plain and sync). Holds if no builder fails."
  },
  {
   "property": "C35",
   "status": "partial",
   "theorems": [
    "Verif.Props.Serde.C35_missing_partial",
    "Verif.Props.Serde.C35_error_iff",
    "Verif.Props.Serde.C35_fails_sync",
    "Verif.Props.Serde.C35_fails_required"
   ],
   "note": "Proved with serde(default) on the struct, and without it for plain fields and fields without a declared default. False otherwise: sync fields stay empty though a default is declared, non-optional fields give an error (exact rule C35_error_iff)."
  },
  {
   "property": "C36",
   "status": "proved",
   "theorems": [
    "Verif.Props.Names.C36_name_rule",
    "Verif.Props.Names.C36_no_clash"
   ],
   "note": ""
  },
  {
   "property": "C37",
   "status": "partial",
   "theorems": [
    "Verif.Props.Names.C37_distinct_partial",
    "Verif.Props.Names.C37_builder_distinct_partial",
    "Verif.Props.Names.C37_clash",
    "Verif.Props.NameClash.C37_distinct_iff",
    "Verif.Props.NameClash.C37_builder_distinct_iff"
   ],
   "note": "C37_distinct_iff and C37_builder_distinct_iff are exact: five ways to clash, and the names of the macro itself. Proved when base names differ and do not look like generated names (no helper prefix, no _mut suffix, not reserved). False otherwise: has_x beside a predicate of x, v_mut beside get_mut of v, a field called new or build (C37_clash)."
  },
  {
   "property": "C38",
   "status": "partial",
   "theorems": [
    "Verif.Props.Names.C38_rule",
    "Verif.Props.Names.C38_emitted_partial",
    "Verif.Props.Names.C38_sync_get_mut",
    "Verif.Props.Names.C38_get_mut_false",
    "Verif.Props.Names.C38_builder_false"
   ],
   "note": "The decision function follows the rule for all arguments. False for what is written: sync get_mut takes the visibility of the accessor, builder methods are always pub."
  },
  {
   "property": "C39",
   "status": "partial",
   "theorems": [
    "Verif.Props.Exclusive.C39_rejected_iff",
    "Verif.Props.Exclusive.C39_error_complete",
    "Verif.Props.Exclusive.C39_field_rejected_iff",
    "Verif.Props.Exclusive.C39_struct_rejected_iff",
    "Verif.Props.Exclusive.C39_helper_presence_false",
    "Verif.Props.Exclusive.C39_helper_rule",
    "Verif.Props.Exclusive.C39_field_builder_rule",
    "Verif.Props.Exclusive.C39_field_full_iff",
    "Verif.Props.Exclusive.C39_struct_full_iff",
    "Verif.Props.Exclusive.C39_field_named",
    "Verif.Props.Exclusive.C39_struct_named"
   ],
   "note": "Holds for every table checked by validate_exclusives! (fields, structs, serde). The check inside helpers tests presence, so private(off) counts as set: negation and exact rule."
  },
  {
   "property": "C40",
   "status": "partial",
   "theorems": [
    "Verif.Props.Tokens.C40_prints",
    "Verif.Props.Tokens.C40_no_self_left_partial",
    "Verif.Props.Tokens.C40_others_kept",
    "Verif.Props.Tokens.C40_unchanged",
    "Verif.Props.Tokens.C40_idempotent",
    "Verif.Props.Tokens.C40_self_in_bounds"
   ],
   "note": "Exact for all token trees. No Self is left provided the struct generics do not mention Self; otherwise false (witness)."
  },
  {
   "property": "C41",
   "status": "partial",
   "theorems": [
    "Verif.Props.Tokens.C41_split_partial",
    "Verif.Props.Tokens.C41_tokens_kept",
    "Verif.Props.Tokens.C41_accepted_iff",
    "Verif.Props.Tokens.C41_punct_false"
   ],
   "note": "Items without top-level punctuation split exactly. Items such as doc = \"text\" or rustfmt::skip are torn apart and the macro panics (witness)."
  },
  {
   "property": "C42",
   "status": "proved",
   "theorems": [
    "Verif.Props.Tokens.C42_derives_first",
    "Verif.Props.Tokens.C42_permutation"
   ],
   "note": "sort_by taken as a stable merge sort."
  },
  {
   "property": "C43",
   "status": "proved",
   "theorems": [
    "Verif.Props.Tokens.C43_fresh",
    "Verif.Props.Tokens.C43_all_answered",
    "Verif.Props.Tokens.C43_wrapping_partial",
    "Verif.Props.Tokens.C43_wrap_false"
   ],
   "note": "With overflow checks (the counter panics) for every sequence; with a wrapping counter up to 2^32 requests, witness beyond."
  },
  {
   "property": "C44",
   "status": "proved",
   "theorems": [
    "Verif.Props.Rc.C44_myself_is_same",
    "Verif.Props.Rc.C44_lazy_no_panic",
    "Verif.Props.Rc.C44_panic_iff",
    "Verif.Props.Rc.C44_no_leak",
    "Verif.Props.Rc.C44_clone_is_not_itself",
    "Verif.Props.Rc.C44_default_lost",
    "Verif.Props.Rc.C44_clone_lost",
    "Verif.Props.Rc.C44_post_build_lost",
    "Verif.Props.Rc.C44_replaced_lost",
    "Verif.Props.Rc.C44_moved_lost"
   ],
   "note": "Histories of any length. The object counts as made by build() only if post_build returned the object it was given. Rc/Arc modelled after their documentation."
  },
  {
   "property": "C45",
   "status": "proved",
   "theorems": [
    "Verif.Props.Async.C45_async_flag_agrees",
    "Verif.Props.Async.C45_async_flag_true_under_guard"
   ],
   "note": ""
  },
  {
   "property": "C46",
   "status": "proved",
   "theorems": [
    "Verif.Props.Async.C46_async_no_change_under_guard",
    "Verif.Props.Async.C46_async_deref_same_value",
    "Verif.Props.Async.C46_async_no_exclusive_beside_guard"
   ],
   "note": ""
  },
  {
   "property": "C47",
   "status": "proved",
   "theorems": [
    "Verif.Props.Async.C47_async_at_most_one_run",
    "Verif.Props.Async.C47_async_error_is_own",
    "Verif.Props.Async.C47_async_value_found_or_built"
   ],
   "note": ""
  },
  {
   "property": "C48",
   "status": "proved",
   "theorems": [
    "Verif.Props.Async.C48_async_others_never_build"
   ],
   "note": ""
  },
  {
   "property": "C49",
   "status": "proved",
   "theorems": [
    "Verif.Props.Async.C49_async_progress",
    "Verif.Props.Async.C49_async_cannot_wedge"
   ],
   "note": "Bound: nine steps per task inside."
  },
  {
   "property": "C50",
   "status": "proved",
   "theorems": [
    "Verif.Props.Async.C50_async_conservation"
   ],
   "note": ""
  },
  {
   "property": "C51",
   "status": "proved",
   "theorems": [
    "Verif.Props.Async.C51_async_clone_consistent"
   ],
   "note": "clone uses blocking_read, which panics on an async worker thread (tokio); the model covers calls from outside the runtime."
  },
  {
   "property": "C52",
   "status": "partial",
   "theorems": [
    "Verif.Props.Init.C52_builder_iff",
    "Verif.Props.Init.C52_builder_partial",
    "Verif.Props.Init.C52_shadowDefault",
    "Verif.Props.Init.C52_full_false"
   ],
   "note": "Exact rule: wrong exactly for sync fields whose default reaches build() through field_default_wrap, which does not rewrite Self (witness)."
  },
  {
   "property": "C53",
   "status": "partial",
   "theorems": [
    "Verif.Props.Builder.C53_complete_iff",
    "Verif.Props.Builder.C53_complete_partial",
    "Verif.Props.Builder.C53_full_false"
   ],
   "note": "False exactly if a field of the user is marked skip."
  },
  {
   "property": "C54",
   "status": "partial",
   "theorems": [
    "Verif.Props.MethodTy.helper_typechecks_partial",
    "Verif.Props.MethodTy.helper_typechecks_common",
    "Verif.Props.MethodTy.setter_typechecks",
    "Verif.Props.MethodTy.helper_typechecks_fails"
   ],
   "note": "Exact rule for all attribute combinations: the body type-checks iff not refused (helper_typechecks_partial). False in general: nine accepted combinations whose helper the compiler refuses (helper_typechecks_fails)."
  },
  {
   "property": "C55",
   "status": "proved",
   "theorems": [
    "Verif.Props.Default.C55_contents",
    "Verif.Props.Default.C55_builder_agrees"
   ],
   "note": "For structs whose expansion succeeds and without the skipped-field-under-lock exception (ill-typed code, C23)."
  },
  {
   "property": "C56",
   "status": "partial",
   "theorems": [
    "Verif.Props.Default.C56_constructor_iff",
    "Verif.Props.Default.C56_has_default_partial",
    "Verif.Props.Default.C56_empty_false"
   ],
   "note": "Existence and name exact for all structs. That the Default called exists holds with at least one field; for a struct without fields new() calls a Default that is not written (witness)."
  },
  {
   "property": "C57",
   "status": "partial",
   "theorems": [
    "Verif.Props.Signature.C57_documented_partial",
    "Verif.Props.Signature.C57_error_iff",
    "Verif.Props.Signature.C57_skipped_partial",
    "Verif.Props.Signature.C57_skipped_false"
   ],
   "note": "Exact for all fields not skipped. False for skipped fields of plain inner_mut structs, which become RefCell (witness); skipped fields keep their type in all other cases."
  },
  {
   "property": "C58",
   "status": "proved",
   "theorems": [
    "Verif.Props.Signature.C58_documented"
   ],
   "note": "For every helper that is written and compiles (C54 says which do)."
  },
  {
   "property": "C59",
   "status": "proved",
   "theorems": [
    "Verif.Props.Locks.C59_linearizable",
    "Verif.Props.Locks.C59_wellFormed",
    "Verif.Props.Locks.C59_contents",
    "Verif.Props.Locks.C59_eq_atomic",
    "Verif.Props.Locks.C59_panics_only_by_user"
   ],
   "note": "Sync locks; any number of fields, threads and kept guards."
  },
  {
   "property": "C60",
   "status": "proved",
   "theorems": [
    "Verif.Props.Locks.C60_read_guard_stable",
    "Verif.Props.Locks.C60_read_guard_one_value",
    "Verif.Props.Locks.C60_write_guard_alone",
    "Verif.Props.Locks.C60_write_guard_stable"
   ],
   "note": ""
  },
  {
   "property": "C61",
   "status": "partial",
   "theorems": [
    "Verif.Props.Locks.C61_chain_partial",
    "Verif.Props.Locks.C61_no_deadlock_partial",
    "Verif.Props.Locks.C61_every_call_completes_partial",
    "Verif.Props.Locks.C61_readers_never_wait",
    "Verif.Props.Locks.C61_self_comparison_deadlocks",
    "Verif.Props.Locks.C61_crossing_deadlocks",
    "Verif.Props.Waits.C61_waits",
    "Verif.Props.Mixed.C61_deadlock_iff"
   ],
   "note": "C61_deadlock_iff is exact. Holds whenever locks are taken while others are held only along a well-founded order. False otherwise, also without any kept guard: comparing a field with itself while a setter waits, and two comparisons in opposite order with two setters (witnesses)."
  },
  {
   "property": "C62",
   "status": "partial",
   "theorems": [
    "Verif.Props.Serde.C62_written_partial",
    "Verif.Props.Serde.C62_read_partial",
    "Verif.Props.Serde.C62_serde_name_ignored"
   ],
   "note": "Holds for fields without a name in their serde argument; such a name is ignored (witness)."
  },
  {
   "property": "C63",
   "status": "proved",
   "theorems": [
    "Verif.Props.Parse.C63_field_order",
    "Verif.Props.Parse.C63_struct_order",
    "Verif.Props.Parse.C63_field_split",
    "Verif.Props.Parse.C63_positional_needed"
   ],
   "note": ""
  },
  {
   "property": "C64",
   "status": "proved",
   "theorems": [
    "Verif.Props.Parse.C64_field_grammar",
    "Verif.Props.Parse.C64_struct_grammar"
   ],
   "note": "A panic of the macro counts as refusal."
  },
  {
   "property": "C65",
   "status": "proved",
   "theorems": [
    "Verif.Props.Parse.C65_field_roundtrip",
    "Verif.Props.Parse.C65_field_range",
    "Verif.Props.Parse.C65_struct_roundtrip",
    "Verif.Props.Parse.C65_struct_range"
   ],
   "note": "Settings that no syntax denotes (visibility \"private\" inside public, a default that is off without a value) are excluded by FieldOk/StructOk; the range theorems show that they never come out."
  },
  {
   "property": "C66",
   "status": "proved",
   "theorems": [
    "Verif.Props.Parse.C66_field_says",
    "Verif.Props.Parse.C66_struct_says"
   ],
   "note": "The attributes argument inside serde is accepted and its content not recorded in the model."
  },
  {
   "property": "C67",
   "status": "partial",
   "theorems": [
    "Verif.Props.Parse.C67_field_documented_partial",
    "Verif.Props.Parse.C67_struct_documented_partial",
    "Verif.Props.Parse.C67_path_refused",
    "Verif.Props.Parse.C67_init_refused",
    "Verif.Props.Parse.C67_optIn_refused",
    "Verif.Props.Parse.C67_nv_refused",
    "Verif.Props.Parse.C67_full_false"
   ],
   "note": "Holds for the documentation without four forms, which are refused: public(path), builder(init(..)), builder(opt_in) of a field, attributes of the form name = \"value\"."
  },
  {
   "property": "C68",
   "status": "partial",
   "theorems": [
    "Verif.Props.Generics.C68_headers_iff",
    "Verif.Props.Generics.C68_bare_partial",
    "Verif.Props.Generics.C68_simple_partial",
    "Verif.Props.Generics.C68_serde_false",
    "Verif.Props.Generics.C68_serde_const_false",
    "Verif.Props.Generics.C68_builder_false",
    "Verif.Props.Generics.C68_rc_false"
   ],
   "note": "C68_headers_iff is exact. Holds for bare parameters with a where clause, and for all parameters without builder and serde; bounds, defaults or consts inside the angle brackets break serde and, in part, the builder (witnesses)."
  },
  {
   "property": "C69",
   "status": "partial",
   "theorems": [
    "Verif.Props.Structs.C69_exprs_iff",
    "Verif.Props.Structs.C69_exprs_partial",
    "Verif.Props.Structs.C69_rcOff_false",
    "Verif.Props.Structs.C69_skip_false",
    "Verif.Props.Structs.C69_serialize_false",
    "Verif.Props.Structs.C69_deserialize_false"
   ],
   "note": "C69_exprs_iff is exact. False for rc(off) with a builder, skipped fields with a builder, fields with serde(serialize(off)), serde(off) fields with default(off), and constructors of structs without fields."
  },
  {
   "property": "C70",
   "status": "partial",
   "theorems": [
    "Verif.Props.Structs.C70_self_iff",
    "Verif.Props.Structs.C70_self_partial",
    "Verif.Props.Structs.C70_full_false"
   ],
   "note": "C70_self_iff is exact. Struct level inner_mut (plain) and lock, reader, writer (sync) reach the hidden field and break it (witnesses)."
  },
  {
   "property": "C71",
   "status": "partial",
   "theorems": [
    "Verif.Props.Structs.C71_check_partial",
    "Verif.Props.Structs.C71_no_accessor",
    "Verif.Props.Structs.C71_skip_false",
    "Verif.Props.Structs.C71_rc_false"
   ],
   "note": "Exact for fields that are not skipped. Skipped fields, the hidden Weak among them, are checked though they have no accessor: rc with get(copy) at struct level never compiles."
  },
  {
   "property": "C72",
   "status": "partial",
   "theorems": [
    "Verif.Props.Structs.C72_used_iff",
    "Verif.Props.Structs.C72_used_partial",
    "Verif.Props.Structs.C72_full_false"
   ],
   "note": "C72_used_iff is exact. False if a parameter occurs only in fields that are skipped or out of serde."
  },
  {
   "property": "C73",
   "status": "proved",
   "theorems": [
    "Verif.Props.AsyncMulti.C73_no_deadlock",
    "Verif.Props.AsyncMulti.C73_every_call_completes",
    "Verif.Props.AsyncMulti.C73_cycle_deadlocks",
    "Verif.Props.AsyncMulti.C73_kept_guard_deadlocks",
    "Verif.Props.AsyncMulti.C73_self_call_blocks",
    "Verif.Props.AsyncCycles.C73_deadlock_iff"
   ],
   "note": "C73_deadlock_iff is exact. One container per async lazy field, tasks with stacks of nested calls, FIFO queue per lock, futures dropped anywhere. Builders await one call at a time."
  },
  {
   "property": "C74",
   "status": "proved",
   "theorems": [
    "Verif.Props.AsyncMulti.C74_drop_task"
   ],
   "note": "For tasks suspended at an await or keeping guards; a task inside blocking_read (clone, comparison, debug) is not suspended and cannot be dropped."
  },
  {
   "property": "C75",
   "status": "proved",
   "theorems": [
    "Verif.Props.AsyncFields.C75_value",
    "Verif.Props.AsyncFields.C75_answers",
    "Verif.Props.AsyncFields.C75_built_once",
    "Verif.Props.AsyncFields.C75_no_endless_run",
    "Verif.Props.AsyncFields.C75_ends_outside"
   ],
   "note": "Builders are programs which read other fields and return a value; they do not fail (C87 has those that do). Yardstick: big-step evaluation Spec.Eval."
  },
  {
   "property": "C76",
   "status": "partial",
   "theorems": [
    "Verif.Props.Build.C76_sound",
    "Verif.Props.Build.C76_typed_iff",
    "Verif.Props.Build.C76_rc_error_never",
    "Verif.Props.Build.C76_full_false",
    "Verif.Props.Build.C76_compiles_partial"
   ],
   "note": "C76_typed_iff is exact: false exactly for rc together with post_build and error, where the question mark stands in the closure of new_cyclic; no method makes that compile."
  },
  {
   "property": "C77",
   "status": "proved",
   "theorems": [
    "Verif.Props.Build.C77_missing",
    "Verif.Props.Build.C77_post",
    "Verif.Props.Build.C77_panic"
   ],
   "note": "For build() functions that compile. The user method is an arbitrary function; calls are logged."
  },
  {
   "property": "C78",
   "status": "partial",
   "theorems": [
    "Verif.Props.Build.C78_after_error",
    "Verif.Props.Build.C78_keeps_partial",
    "Verif.Props.Build.C78_keeps_full_false",
    "Verif.Props.Build.C78_second_build"
   ],
   "note": "C78_after_error is exact: a missing value leaves everything, a failed post_build leaves an empty builder."
  },
  {
   "property": "C79",
   "status": "partial",
   "theorems": [
    "Verif.Props.Attrs.C79_args",
    "Verif.Props.Attrs.C79_sync_get_mut_iff",
    "Verif.Props.Attrs.C79_get_mut_false",
    "Verif.Props.Attrs.C79_shadow_struct_iff",
    "Verif.Props.Attrs.C79_shadow_field_iff",
    "Verif.Props.Attrs.C79_args_partial",
    "Verif.Props.Attrs.C79_full_false"
   ],
   "note": "Holds for every item outside the serde shadow but the mutable accessors of sync and async fields, which take the attributes of the accessor. In the shadow the struct level attributes land on the shadow fields in place of the shadow struct; the two _iff theorems are exact."
  },
  {
   "property": "C80",
   "status": "partial",
   "theorems": [
    "Verif.Props.Attrs.C80_user",
    "Verif.Props.Attrs.C80_shadow_field_iff",
    "Verif.Props.Attrs.C80_shadow_field_partial",
    "Verif.Props.Attrs.C80_unlisted_all",
    "Verif.Props.Attrs.C80_order",
    "Verif.Props.Attrs.C80_struct",
    "Verif.Props.Attrs.C80_full_false"
   ],
   "note": "Holds for every item but shadow fields without a list at the level of the serde argument in force, which get all attributes; C80_shadow_field_iff is exact."
  },
  {
   "property": "C81",
   "status": "partial",
   "theorems": [
    "Verif.Props.Features.C81_names",
    "Verif.Props.Features.C81_accepted_iff",
    "Verif.Props.Features.C81_refusals",
    "Verif.Props.Features.C81_serde",
    "Verif.Props.Features.C81_provided_iff",
    "Verif.Props.Features.C81_provided_partial",
    "Verif.Props.Features.C81_full_false"
   ],
   "note": "C81_names, C81_accepted_iff and C81_provided_iff are exact. Only the keywords sync, r#async and serde are checked: lock, reader, writer, mode(..), inner_mut(off), and an async field beside a lazy one, bring in ::fieldx::sync without the feature (witnesses)."
  },
  {
   "property": "C82",
   "status": "partial",
   "theorems": [
    "Verif.Props.Features.C82_names",
    "Verif.Props.Features.C82_exists_iff",
    "Verif.Props.Features.C82_exists_partial",
    "Verif.Props.Features.C82_full_false"
   ],
   "note": "C82_names and C82_exists_iff are exact. False: helpers that return guards name ::parking_lot or ::tokio, which must be dependencies of the user."
  },
  {
   "property": "C83",
   "status": "partial",
   "theorems": [
    "Verif.Props.Expand.C83_refused_iff",
    "Verif.Props.Expand.C83_panics_iff",
    "Verif.Props.Expand.C83_reports_iff",
    "Verif.Props.Expand.C83_clean_iff",
    "Verif.Props.Expand.C83_count",
    "Verif.Props.Expand.C83_once_partial",
    "Verif.Props.Expand.C83_once_false",
    "Verif.Props.Expand.C83_lost_false"
   ],
   "note": "C83_panics_iff, C83_reports_iff and C83_count are exact. False in two ways: bare default on a lazy or optional sync field with a builder panics and loses all errors; a sync fallible field without error type is named again by the conversion from the shadow or by build()."
  },
  {
   "property": "C84",
   "status": "proved",
   "theorems": [
    "Verif.Props.Expand.C84_fields",
    "Verif.Props.Expand.C84_exprs",
    "Verif.Props.Expand.C84_methods_iff",
    "Verif.Props.Expand.C84_methods_once",
    "Verif.Props.Expand.C84_builder",
    "Verif.Props.Expand.C84_serde",
    "Verif.Props.Expand.C84_items",
    "Verif.Props.Expand.C84_complete_iff"
   ],
   "note": "The run is modelled as a program over a state of pieces and errors; pieces are tags, their tokens are in the other models. Panics over names which are no identifiers are left to C93."
  },
  {
   "property": "C85",
   "status": "partial",
   "theorems": [
    "Verif.Props.Expand.C85_declared",
    "Verif.Props.Expand.C85_undeclared_iff",
    "Verif.Props.Expand.C85_kept_partial",
    "Verif.Props.Expand.C85_undeclared_false"
   ],
   "note": "C85_declared is exact: the fields at fault are dropped from the struct. Unless sync and lazy, they stay in Default and bring up follow-up errors (witness)."
  },
  {
   "property": "C86",
   "status": "proved",
   "theorems": [
    "Verif.Props.Fallible.C86_sequential",
    "Verif.Props.Fallible.C86_value",
    "Verif.Props.Fallible.C86_answers",
    "Verif.Props.Fallible.C86_guards",
    "Verif.Props.Fallible.C86_built_once",
    "Verif.Props.Fallible.C86_no_endless_run",
    "Verif.Props.Fallible.C86_ends_outside"
   ],
   "note": "Builders are deterministic programs which call any of the five entry points of other fields, see their answers, keep one guard at a time, and end with a value, an error or a panic. Yardstick: big-step evaluation Spec.Runs and Spec.Yields. Nobody sets, clears or assigns."
  },
  {
   "property": "C87",
   "status": "proved",
   "theorems": [
    "Verif.Props.AsyncFallible.C87_value",
    "Verif.Props.AsyncFallible.C87_answers",
    "Verif.Props.AsyncFallible.C87_guards",
    "Verif.Props.AsyncFallible.C87_built_once",
    "Verif.Props.AsyncFallible.C87_no_endless_run",
    "Verif.Props.AsyncFallible.C87_ends_outside"
   ],
   "note": "As C86 over async containers, with futures dropped at any await. Single-threaded evaluation is deterministic and total by C86_sequential."
  },
  {
   "property": "C88",
   "status": "proved",
   "theorems": [
    "Verif.Props.Mixed.C88_lazy_linearizable",
    "Verif.Props.Mixed.C88_builder_runs_alone",
    "Verif.Props.Mixed.C88_locks_linearizable",
    "Verif.Props.Mixed.C88_chain",
    "Verif.Props.Mixed.C88_no_deadlock",
    "Verif.Props.Mixed.C88_deadlock_iff",
    "Verif.Props.Mixed.C88_every_call_completes",
    "Verif.Props.Mixed.C88_guard_across_builder_deadlocks",
    "Verif.Props.Mixed.C88_guard_meets_builder_deadlocks",
    "Verif.Props.Mixed.C88_self_comparison_deadlocks",
    "Verif.Props.Mixed.C88_crossing_comparisons_deadlock",
    "Verif.Props.Waits.C88_waits"
   ],
   "note": "C88_deadlock_iff is exact. A builder ends with no guard of its own kept. The four witnesses are the ways users are likely to meet a cycle."
  },
  {
   "property": "C89",
   "status": "proved",
   "theorems": [
    "Verif.Props.Weak.C89_sync_hb_linearizable",
    "Verif.Props.Weak.C89_async_hb_linearizable",
    "Verif.Props.Weak.C89_sync_race_free",
    "Verif.Props.Weak.C89_async_race_free",
    "Verif.Props.Weak.C89_sync_interleavings",
    "Verif.Props.Weak.C89_async_interleavings",
    "Verif.Props.Weak.C89_sync_published",
    "Verif.Props.Weak.C89_async_published",
    "Verif.Props.Weak.C89_sync_real_time_fails",
    "Verif.Props.Weak.C89_async_real_time_fails",
    "Verif.Props.Weak.C89_sync_writes",
    "Verif.Props.Weak.C89_sync_reads",
    "Verif.Props.Weak.C89_sync_stores",
    "Verif.Props.Weak.C89_sync_loads",
    "Verif.Props.Weak.C89_async_writes",
    "Verif.Props.Weak.C89_async_reads",
    "Verif.Props.Weak.C89_async_stores",
    "Verif.Props.Weak.C89_async_loads"
   ],
   "note": "Whether a load of the flag synchronises with the store it sees is left open, so the result holds for any memory orderings on the flag. The *_interleavings theorems say that every run of Model/Sync and Model/Async is a run here. The *_real_time_fails witnesses show that happens-before cannot be replaced by real time."
  },
  {
   "property": "C90",
   "status": "proved",
   "theorems": [
    "Verif.Props.AsyncLocks.C90_linearizable",
    "Verif.Props.AsyncLocks.C90_wellFormed",
    "Verif.Props.AsyncLocks.C90_contents",
    "Verif.Props.AsyncLocks.C90_eq_atomic",
    "Verif.Props.AsyncLocks.C90_cancelled",
    "Verif.Props.AsyncLocks.C90_cancel_no_effect",
    "Verif.Props.AsyncLocks.C90_cancelled_never_made",
    "Verif.Props.AsyncLocks.C90_read_guard_stable",
    "Verif.Props.AsyncLocks.C90_write_guard_alone",
    "Verif.Props.AsyncLocks.C90_write_guard_stable"
   ],
   "note": "Clone and comparison block the thread (blocking_read) and panic inside an async runtime; the model covers threads outside of it."
  },
  {
   "property": "C91",
   "status": "proved",
   "theorems": [
    "Verif.Props.AsyncLocks.C91_no_overtaking",
    "Verif.Props.AsyncLocks.C91_chain",
    "Verif.Props.AsyncLocks.C91_no_deadlock",
    "Verif.Props.AsyncLocks.C91_deadlock_iff",
    "Verif.Props.AsyncLocks.C91_every_call_completes",
    "Verif.Props.AsyncLocks.C91_readers_never_wait",
    "Verif.Props.AsyncLocks.C91_self_comparison_deadlocks",
    "Verif.Props.AsyncLocks.C91_reading_twice_deadlocks",
    "Verif.Props.AsyncLocks.C91_crossing_deadlocks",
    "Verif.Props.Waits.C91_waits"
   ],
   "note": ""
  },
  {
   "property": "C92",
   "status": "proved",
   "theorems": [
    "Verif.Props.AsyncMixed.C92_lazy_linearizable",
    "Verif.Props.AsyncMixed.C92_builder_runs_alone",
    "Verif.Props.AsyncMixed.C92_locks_linearizable",
    "Verif.Props.AsyncMixed.C92_chain",
    "Verif.Props.AsyncMixed.C92_no_deadlock",
    "Verif.Props.AsyncMixed.C92_deadlock_iff",
    "Verif.Props.AsyncMixed.C92_every_call_completes",
    "Verif.Props.AsyncMixed.C92_no_overtaking",
    "Verif.Props.AsyncMixed.C92_join_deadlocks",
    "Verif.Props.AsyncMixed.C92_guard_across_builder_deadlocks",
    "Verif.Props.AsyncMixed.C92_join_in_builder_deadlocks",
    "Verif.Props.Waits.C92_waits"
   ],
   "note": "C92_deadlock_iff is exact. The witnesses are the ways users are likely to meet a cycle; C92_join_deadlocks shows that the same order in the source is not enough when calls are joined."
  },
  {
   "property": "C93",
   "status": "partial",
   "theorems": [
    "Verif.Props.Idents.C93_token_iff",
    "Verif.Props.Idents.C93_helper_rule",
    "Verif.Props.Idents.C93_helper_iff",
    "Verif.Props.Idents.C93_serde_fn_iff",
    "Verif.Props.Idents.C93_builder_struct",
    "Verif.Props.Idents.C93_rc_iff",
    "Verif.Props.Idents.C93_shadow_iff",
    "Verif.Props.Idents.C93_whole_fn",
    "Verif.Props.Idents.C93_idents_iff",
    "Verif.Props.Idents.C93_clean_iff",
    "Verif.Props.Idents.C93_partial",
    "Verif.Props.Idents.C93_names",
    "Verif.Props.Idents.C93_pieces",
    "Verif.Props.Idents.C93_method_pieces",
    "Verif.Props.Idents.C93_false",
    "Verif.Props.Idents.C93_serde_false"
   ],
   "note": "False for raw identifiers: a field `r#type` gets an accessor and a builder method `type` (C93_false), and a serde default which is no string makes the macro panic if field or struct is written with r# (C93_serde_false). C93_idents_iff and C93_clean_iff are the exact rule; C93_partial holds without r#."
  },
  {
   "property": "C94",
   "status": "proved",
   "theorems": [
    "Verif.Props.Sound.C94_sound_iff",
    "Verif.Props.Sound.C94_common",
    "Verif.Props.Sound.C94_full_false"
   ],
   "note": "Sound joins the judgements of C23, C52, C54, C68, C69, C70, C72, C76, C82 and C93 over the pieces of one run. C94_sound_iff is exact under its hypotheses, which are what the user owes; C94_full_false shows that acceptance alone is not enough."
  },
  {
   "property": "C95",
   "status": "partial",
   "theorems": [
    "Verif.Props.Visibility.C95_written",
    "Verif.Props.Visibility.C95_wants",
    "Verif.Props.Visibility.C95_home",
    "Verif.Props.Visibility.C95_chain_iff",
    "Verif.Props.Visibility.C95_chain_partial",
    "Verif.Props.Visibility.C95_chain_false",
    "Verif.Props.Visibility.C95_myself"
   ],
   "note": "The rule for every item and the visibility in its own module hold in full. The last sentence is false: with builder(private) builder() and the methods that take values can be called outside, build() cannot (C95_chain_false); C95_chain_iff is exact."
  },
  {
   "property": "C96",
   "status": "proved",
   "theorems": [
    "Verif.Props.Calls.C96_linearizable",
    "Verif.Props.Calls.C96_container",
    "Verif.Props.Calls.C96_nothing_left",
    "Verif.Props.Calls.C96_never_stuck",
    "Verif.Props.Calls.C96_progress",
    "Verif.Props.Calls.C96_cannot_wedge"
   ],
   "note": "The bodies are those of the code generator (Model/Method) run on the container in small steps (Model/Sync). A self reference of an rc object can always be upgraded."
  },
  {
   "property": "C97",
   "status": "proved",
   "theorems": [
    "Verif.Props.LockCalls.C97_linearizable",
    "Verif.Props.LockCalls.C97_locks",
    "Verif.Props.LockCalls.C97_guards",
    "Verif.Props.LockCalls.C97_never_stuck",
    "Verif.Props.LockCalls.C97_callable",
    "Verif.Props.LockCalls.C97_progress",
    "Verif.Props.LockCalls.C97_cannot_wedge",
    "Verif.Props.LockCalls.C97_order_needed"
   ],
   "note": "The bodies are those of the code generator (Model/Method) run on the locks in small steps (Model/Locks). The predicate of a fallible field asks try_read() and is excluded in the statement; C25_fails is about it. C97_order_needed: without an order a single thread can wait for itself."
  },
  {
   "property": "C98",
   "status": "proved",
   "theorems": [
    "Verif.Props.AsyncCalls.C98_linearizable",
    "Verif.Props.AsyncCalls.C98_cancel",
    "Verif.Props.AsyncCalls.C98_container",
    "Verif.Props.AsyncCalls.C98_nothing_left",
    "Verif.Props.AsyncCalls.C98_never_stuck",
    "Verif.Props.AsyncCalls.C98_progress",
    "Verif.Props.AsyncCalls.C98_cannot_wedge"
   ],
   "note": "The bodies are those of the code generator (Model/Method) run on the container in small steps (Model/Async). Making a future and polling it for the first time are one step."
  },
  {
   "property": "C99",
   "status": "proved",
   "theorems": [
    "Verif.Props.AsyncLockCalls.C99_linearizable",
    "Verif.Props.AsyncLockCalls.C99_cancel",
    "Verif.Props.AsyncLockCalls.C99_locks",
    "Verif.Props.AsyncLockCalls.C99_guards",
    "Verif.Props.AsyncLockCalls.C99_never_stuck",
    "Verif.Props.AsyncLockCalls.C99_callable",
    "Verif.Props.AsyncLockCalls.C99_progress",
    "Verif.Props.AsyncLockCalls.C99_cannot_wedge",
    "Verif.Props.AsyncLockCalls.C99_order_needed"
   ],
   "note": "The bodies are those of the code generator (Model/Method) run on the fair locks of async fields in small steps (Model/AsyncLocks). Accessors which clone or copy, mutable accessors and the predicate of a fallible field do not compile for these fields (C24). C99_order_needed: without an order a single task can wait for itself until it is cancelled."
  },
  {
   "property": "C100",
   "status": "proved",
   "theorems": [
    "Verif.Props.Whole.C100_linearizable",
    "Verif.Props.Whole.C100_contents",
    "Verif.Props.Whole.C100_record",
    "Verif.Props.Whole.C100_recorded",
    "Verif.Props.Whole.C100_async_linearizable",
    "Verif.Props.Whole.C100_async_contents",
    "Verif.Props.Whole.C100_async_record",
    "Verif.Props.Whole.C100_async_recorded"
   ],
   "note": "The history is the record of all containers of C88 and C92 in the order of the steps; C100_record and C100_recorded say that it is faithful."
  },
  {
   "property": "C101",
   "status": "proved",
   "theorems": [
    "Verif.Props.Threads.C101_linearizable",
    "Verif.Props.Threads.C101_contents",
    "Verif.Props.Threads.C101_record",
    "Verif.Props.Threads.C101_recorded",
    "Verif.Props.Threads.C101_builder_runs_alone",
    "Verif.Props.Threads.C101_chain",
    "Verif.Props.Threads.C101_no_deadlock",
    "Verif.Props.Threads.C101_every_call_completes",
    "Verif.Props.Threads.C101_nothing_left",
    "Verif.Props.Threads.C101_guard_meets_builder_deadlocks",
    "Verif.Props.Waits.C101_waits"
   ],
   "note": "The helpers of C96 and C97 called by threads with nested builders as in C88. The predicate of a fallible field with a lock asks try_read() and is excluded as in C97."
  },
  {
   "property": "C102",
   "status": "partial",
   "theorems": [
    "Verif.Props.Conditional.C102_sound_iff",
    "Verif.Props.Conditional.C102_attributes_fn_partial",
    "Verif.Props.Conditional.C102_field_iff",
    "Verif.Props.Conditional.C102_attributes_impl_iff",
    "Verif.Props.Conditional.C102_builder_alone",
    "Verif.Props.Conditional.C102_shadow_alone",
    "Verif.Props.Conditional.C102_full_false"
   ],
   "note": "Holds for attributes_fn. C102_sound_iff is the exact rule for all attributes, from the arguments; a cfg on a field, on the builder alone or on the shadow breaks the code (C102_field_iff, C102_builder_alone, C102_shadow_alone, C102_full_false)."
  },
  {
   "property": "C103",
   "status": "proved",
   "theorems": [
    "Verif.Props.Tasks.C103_linearizable",
    "Verif.Props.Tasks.C103_contents",
    "Verif.Props.Tasks.C103_record",
    "Verif.Props.Tasks.C103_recorded",
    "Verif.Props.Tasks.C103_builder_runs_alone",
    "Verif.Props.Tasks.C103_cancel",
    "Verif.Props.Tasks.C103_chain",
    "Verif.Props.Tasks.C103_no_deadlock",
    "Verif.Props.Tasks.C103_every_call_completes",
    "Verif.Props.Tasks.C103_nothing_left",
    "Verif.Props.Tasks.C103_guard_across_builder_deadlocks",
    "Verif.Props.Tasks.C103_join_deadlocks",
    "Verif.Props.Waits.C103_waits",
    "Verif.Props.Overtaking.C103_no_overtaking"
   ],
   "note": "The helpers of C98 and C99 called by tasks with branches and nested builders as in C92. Waiting is that of the containers below."
  },
  {
   "property": "C104",
   "status": "partial",
   "theorems": [
    "Verif.Props.SerdeDerive.C104_directions",
    "Verif.Props.SerdeDerive.C104_through",
    "Verif.Props.SerdeDerive.C104_items",
    "Verif.Props.SerdeDerive.C104_shadow_fields",
    "Verif.Props.SerdeDerive.C104_field",
    "Verif.Props.SerdeDerive.C104_needs_iff",
    "Verif.Props.SerdeDerive.C104_struct_marks",
    "Verif.Props.SerdeDerive.C104_shadow_marks",
    "Verif.Props.SerdeDerive.C104_field_marks",
    "Verif.Props.SerdeDerive.C104_functions",
    "Verif.Props.SerdeDerive.C104_own_default_false",
    "Verif.Props.SerdeDerive.C104_bare_default_false"
   ],
   "note": "C104_needs_iff is the exact rule for what serde refers to; a bare serde default of a struct without Default does not compile (C104_bare_default_false). The last sentence is false of a struct which is only deserialised (C104_own_default_false)."
  },
  {
   "property": "C105",
   "status": "proved",
   "theorems": [
    "Verif.Props.Receptive.C105_sync",
    "Verif.Props.Receptive.C105_locks",
    "Verif.Props.Receptive.C105_calls",
    "Verif.Props.Receptive.C105_lock_calls",
    "Verif.Props.Receptive.C105_multi",
    "Verif.Props.Receptive.C105_mixed",
    "Verif.Props.Receptive.C105_threads",
    "Verif.Props.AsyncReceptive.C105_async",
    "Verif.Props.AsyncReceptive.C105_async_locks",
    "Verif.Props.AsyncReceptive.C105_async_calls",
    "Verif.Props.AsyncReceptive.C105_async_lock_calls",
    "Verif.Props.AsyncReceptive.C105_async_multi",
    "Verif.Props.AsyncReceptive.C105_async_mixed",
    "Verif.Props.AsyncReceptive.C105_async_mixed_within",
    "Verif.Props.AsyncReceptive.C105_tasks",
    "Verif.Props.AsyncReceptive.C105_tasks_within"
   ],
   "note": "One equivalence per action: it is possible exactly where the place in the code and the lock say so. Guards against models which hold because they refuse steps."
  },
  {
   "property": "C106",
   "status": "proved",
   "theorems": [
    "Verif.Props.Guards.C106_waits_iff",
    "Verif.Props.Guards.C106_waits",
    "Verif.Props.Guards.C106_beside",
    "Verif.Props.Guards.C106_beside_writer",
    "Verif.Props.Guards.C106_beside_readers"
   ],
   "note": "For every sync or async field, every helper the compiler accepts and any number of guards alive on the field. Guards of RefCell fields: C19. The predicate which tries the lock: C25_predicate_tries_lock. That a waiting writer also keeps readers out (parking_lot, tokio) is outside of this model of single calls; the lock models have it."
  },
  {
   "property": "C107",
   "status": "partial",
   "theorems": [
    "Verif.Props.Traits.C107_auto",
    "Verif.Props.Traits.C107_send_iff",
    "Verif.Props.Traits.C107_sync_iff",
    "Verif.Props.Traits.C107_documented_partial",
    "Verif.Props.Traits.C107_async_iff",
    "Verif.Props.Traits.C107_futures",
    "Verif.Props.Traits.C107_futures_lazy",
    "Verif.Props.Traits.C107_myself",
    "Verif.Props.Traits.C107_lock_guards",
    "Verif.Props.Traits.C107_guards",
    "Verif.Props.Traits.C107_lock_off_false",
    "Verif.Props.Traits.C107_protected_false",
    "Verif.Props.Traits.C107_async_false"
   ],
   "note": "The general rules are exact. False of the code: lock(off) or inner_mut makes a cell for one thread of a field of a sync struct (C107_lock_off_false); locks do not make up for types that are not Sync (C107_protected_false); an async struct with a lazy field beside such a cell is accepted and does not compile (C107_async_false). What std, once_cell, parking_lot and tokio types implement is trusted."
  },
  {
   "property": "C108",
   "status": "partial",
   "theorems": [
    "Verif.Props.Traits.C108_derives_iff",
    "Verif.Props.Traits.C108_clone_partial",
    "Verif.Props.Traits.C108_async_clone_false",
    "Verif.Props.Traits.C108_error_clone_false",
    "Verif.Props.Traits.C108_rc_eq_false"
   ],
   "note": "The general rule is exact. The first sentence is false of async structs with a lazy field, since the builder wrappers there are not Clone (C108_async_clone_false), and of error types that are not Clone (C108_error_clone_false). Reference counted structs have no PartialEq (C108_rc_eq_false)."
  },
  {
   "property": "C109",
   "status": "partial",
   "theorems": [
    "Verif.Props.Snapshot.C109_field_by_field_partial",
    "Verif.Props.Snapshot.C109_undisturbed_partial",
    "Verif.Props.Snapshot.C109_sync_partial",
    "Verif.Props.Snapshot.C109_async_partial",
    "Verif.Props.Snapshot.C109_torn_copy_false",
    "Verif.Props.Snapshot.C109_torn_compare_false"
   ],
   "note": "The first sentence is false: each field has its own lock, a setter may run between the copies of two fields, and the copy is then an object that never was (C109_torn_copy_false); a derived comparison may find objects equal that never were (C109_torn_compare_false). What is true instead is proved: field by field, and for copies nobody disturbs. That a derived clone copies fields one after another is what rustc documents, and trusted."
  },
  {
   "property": "C110",
   "status": "proved",
   "theorems": [
    "Verif.Props.Context.C110_no_conflict",
    "Verif.Props.Context.C110_answers",
    "Verif.Props.Context.C110_same_answers",
    "Verif.Props.Context.C110_contexts",
    "Verif.Props.Context.C110_builder_names",
    "Verif.Props.Context.C110_mode_span",
    "Verif.Props.Context.C110_opt_in_false"
   ],
   "note": "Generators are any lists of calls that occur in their phase. C110_contexts assumes that field names differ, as rustc demands. C110_opt_in_false says why the claim about opt-in builders is made for fields: asked directly, is_builder_opt_in depends on what was asked before; the code never does that."
  },
  {
   "property": "C111",
   "status": "partial",
   "theorems": [
    "Verif.Props.Derived.C111_field",
    "Verif.Props.Derived.C111_walk_iff",
    "Verif.Props.Derived.C111_eq_iff",
    "Verif.Props.Derived.C111_outside_partial",
    "Verif.Props.Derived.C111_print_partial",
    "Verif.Props.Derived.C111_runtime",
    "Verif.Props.Derived.C111_builder",
    "Verif.Props.Derived.C111_task_false",
    "Verif.Props.Derived.C111_print_false"
   ],
   "note": "False of the code: async containers use blocking_read, which panics in async code (C111_task_false, C111_print_false); a lazy sync field waits for writers even to be printed, so for ever in its own builder (C111_builder). The exact rules are C111_field, C111_walk_iff and C111_eq_iff."
  },
  {
   "property": "C112",
   "status": "partial",
   "theorems": [
    "Verif.Props.User.C112_calls",
    "Verif.Props.User.C112_guards",
    "Verif.Props.User.C112_panic_partial",
    "Verif.Props.User.C112_lost",
    "Verif.Props.User.C112_waits_iff",
    "Verif.Props.User.C112_cell_iff",
    "Verif.Props.User.C112_alone",
    "Verif.Props.User.C112_panic_false",
    "Verif.Props.User.C112_waits_false"
   ],
   "note": "False of the code: setters of lock and lazy fields convert under the write lock, so a conversion which reads the field never returns (C112_waits_false); the setter of a plain lazy field empties it first and loses the value if the conversion panics (C112_lost, C112_panic_false). The exact rules are C112_calls, C112_guards, C112_waits_iff and C112_cell_iff."
  },
  {
   "property": "C113",
   "status": "partial",
   "theorems": [
    "Verif.Props.Plain.C113_result_iff",
    "Verif.Props.Plain.C113_stack",
    "Verif.Props.Plain.C113_acyclic",
    "Verif.Props.Plain.C113_order",
    "Verif.Props.Plain.C113_cells",
    "Verif.Props.Plain.C113_once",
    "Verif.Props.Plain.C113_like_sync",
    "Verif.Props.Plain.C113_like_async",
    "Verif.Props.Plain.C113_keeps",
    "Verif.Props.Plain.C113_returns_false",
    "Verif.Props.Plain.C113_panic_false"
   ],
   "note": "Holds in full for builders which only read and do not need themselves (C113_acyclic, C113_order, C113_once). False otherwise: a cycle uses up the stack (C113_returns_false), exactly if single-threaded evaluation has no result (C113_result_iff, C113_stack); a builder which reads its own field depending on another field with inner mutability makes OnceCell panic (C113_panic_false)."
  },
  {
   "property": "C114",
   "status": "partial",
   "theorems": [
    "Verif.Props.AuxArgs.C114_value_iff",
    "Verif.Props.AuxArgs.C114_documented_partial",
    "Verif.Props.AuxArgs.C114_keyword_false",
    "Verif.Props.AuxArgs.C114_flag_iff",
    "Verif.Props.AuxArgs.C114_same",
    "Verif.Props.AuxArgs.C114_number_iff",
    "Verif.Props.AuxArgs.C114_signed_iff",
    "Verif.Props.AuxArgs.C114_literal_iff",
    "Verif.Props.AuxArgs.C114_syn_iff",
    "Verif.Props.AuxArgs.C114_syn_value",
    "Verif.Props.AuxArgs.C114_punctuated_iff",
    "Verif.Props.AuxArgs.C114_punctuated_false",
    "Verif.Props.AuxArgs.C114_tuple_iff",
    "Verif.Props.AuxArgs.C114_tuple_false",
    "Verif.Props.AuxArgs.C114_literals_iff",
    "Verif.Props.AuxArgs.C114_literals_false"
   ],
   "note": "What is read is exact for every type (the theorems with iff). False: a value argument as a bare word is documented and refused (C114_keyword_false); the documented tuple with a range is refused (C114_tuple_false); a list argument as a bare word is read as its own element (C114_punctuated_false); set_literals! without upper bound drops literals (C114_literals_false)."
  },
  {
   "property": "C115",
   "status": "partial",
   "theorems": [
    "Verif.Props.FxHelper.C115_refused_iff",
    "Verif.Props.FxHelper.C115_accepts_iff",
    "Verif.Props.FxHelper.C115_reported_iff",
    "Verif.Props.FxHelper.C115_determined_iff",
    "Verif.Props.FxHelper.C115_validate_iff",
    "Verif.Props.FxHelper.C115_compiles_iff",
    "Verif.Props.FxHelper.C115_fields",
    "Verif.Props.FxHelper.C115_derives",
    "Verif.Props.FxHelper.C115_uses",
    "Verif.Props.FxHelper.C115_names",
    "Verif.Props.FxHelper.C115_given",
    "Verif.Props.FxHelper.C115_helper",
    "Verif.Props.FxHelper.C115_accessor",
    "Verif.Props.FxHelper.C115_builder",
    "Verif.Props.FxHelper.C115_determined_false",
    "Verif.Props.FxHelper.C115_off_false"
   ],
   "note": "Everything is exact for every struct and every order of the hash map. False: with two groups violated the error depends on the order of the hash map (C115_determined_false); an argument switched off counts as given (C115_off_false)."
  },
  {
   "property": "C116",
   "status": "partial",
   "theorems": [
    "Verif.Props.Hygiene.C116_partial",
    "Verif.Props.Hygiene.C116_helper_iff",
    "Verif.Props.Hygiene.C116_build_iff",
    "Verif.Props.Hygiene.C116_others",
    "Verif.Props.Hygiene.C116_text",
    "Verif.Props.Hygiene.C116_returned",
    "Verif.Props.Hygiene.C116_build_text",
    "Verif.Props.Hygiene.C116_into_text",
    "Verif.Props.Hygiene.C116_from_text",
    "Verif.Props.Hygiene.C116_lazy_field",
    "Verif.Props.Hygiene.C116_builder_field",
    "Verif.Props.Hygiene.C116_fails_accessor",
    "Verif.Props.Hygiene.C116_fails_setter",
    "Verif.Props.Hygiene.C116_fails_build"
   ],
   "note": "The rules are exact for every struct and all contexts, and the text is that of the models of helpers and initialisers. False if the parts of the struct are of several contexts: accessors of lazy fields, setters of inner_mut fields and build (C116_fails_accessor, C116_fails_setter, C116_fails_build)."
  },
  {
   "property": "C117",
   "status": "partial",
   "theorems": [
    "Verif.Props.Words.C117_partial",
    "Verif.Props.Words.C117_iff",
    "Verif.Props.Words.C117_words",
    "Verif.Props.Words.C117_builder_ok",
    "Verif.Props.Words.C117_serde_missing",
    "Verif.Props.Words.C117_fails_ok",
    "Verif.Props.Words.C117_fails_serde"
   ],
   "note": "The rule is exact for every struct and every module. False for modules with a word of their own, such as `use anyhow::Ok` (C117_fails_ok), and for serde structs in modules which do not import the derives (C117_fails_serde)."
  },
  {
   "property": "C118",
   "status": "partial",
   "theorems": [
    "Verif.Props.Captures.C118_partial",
    "Verif.Props.Captures.C118_iff",
    "Verif.Props.Captures.C118_no_rc",
    "Verif.Props.Captures.C118_fails"
   ],
   "note": "The rule is exact for every struct without errors and every name. False for `me` in the default of a field of an rc struct with a builder (C118_fails); `self` and `__shadow` are the other two names."
  },
  {
   "property": "C119",
   "status": "partial",
   "theorems": [
    "Verif.Props.SelfCalls.C119_partial",
    "Verif.Props.SelfCalls.C119_iff",
    "Verif.Props.SelfCalls.C119_names",
    "Verif.Props.SelfCalls.C119_field",
    "Verif.Props.SelfCalls.C119_fails"
   ],
   "note": "The rule is exact for every struct without errors. False for `#[fxstruct(get)] struct S { default: T }` (C119_fails): `Self::default()` in `new` is then the accessor, and the code does not compile."
  },
  {
   "property": "C120",
   "status": "partial",
   "theorems": [
    "Verif.Props.DefaultText.C120_partial",
    "Verif.Props.DefaultText.C120_field_iff",
    "Verif.Props.DefaultText.C120_serde",
    "Verif.Props.DefaultText.C120_fn",
    "Verif.Props.DefaultText.C120_whole_rejects",
    "Verif.Props.DefaultText.C120_whole",
    "Verif.Props.DefaultText.C120_whole_own",
    "Verif.Props.DefaultText.C120_bare",
    "Verif.Props.DefaultText.C120_off",
    "Verif.Props.DefaultText.C120_off_iff",
    "Verif.Props.DefaultText.C120_off_alone",
    "Verif.Props.DefaultText.C120_same_iff",
    "Verif.Props.DefaultText.C120_read",
    "Verif.Props.DefaultText.C120_fails",
    "Verif.Props.DefaultText.C120_same_fails"
   ],
   "note": "The rules are exact for every item. False for string literals: a field of type &str with default(\"a\") does not compile (C120_fails), and the same string means different things in default and serde(default) (C120_same_fails)."
  },
  {
   "property": "C121",
   "status": "partial",
   "theorems": [
    "Verif.Props.Skip.C121_partial",
    "Verif.Props.Skip.C121_iff",
    "Verif.Props.Skip.C121_fails",
    "Verif.Props.Skip.C121_type_iff",
    "Verif.Props.Skip.C121_init_iff"
   ],
   "note": "Proved for any set of the ten ignored arguments at any of the skipped fields. False for the other fourteen (C121_iff has a struct for each), for instance builder on a skipped field makes a builder object for the struct."
  },
  {
   "property": "C122",
   "status": "partial",
   "theorems": [
    "Verif.Props.Lower.C122_partial",
    "Verif.Props.Lower.C122_iff",
    "Verif.Props.Lower.C122_fails",
    "Verif.Props.Lower.C122_lazy",
    "Verif.Props.Lower.C122_into",
    "Verif.Props.Lower.C122_clone",
    "Verif.Props.Lower.C122_copy",
    "Verif.Props.Lower.C122_locks",
    "Verif.Props.Lower.C122_inner_mut"
   ],
   "note": "Proved for seven arguments without rc and three with it; for lazy, into, clone, copy, reader, writer, lock, inner_mut under conditions. False without them (C122_iff has a struct for each): with no_new only a lazy of a field asks for Default, inner_mut of a field changes its mode, that of the struct does not."
  },
  {
   "property": "C123",
   "status": "proved",
   "theorems": [
    "Verif.Props.LockOnly.C123_rest",
    "Verif.Props.LockOnly.C123_methods",
    "Verif.Props.LockOnly.C123_writer_lost",
    "Verif.Props.LockOnly.C123_off_differs"
   ],
   "note": "C123_off_differs shows that the condition on the fields is needed: reader(off) of a field takes the lock away under reader of the struct, and not under lock."
  },
  {
   "property": "C124",
   "status": "proved",
   "theorems": [
    "Verif.Props.ModeArg.C124_keyword",
    "Verif.Props.ModeArg.C124_plain",
    "Verif.Props.ModeArg.C124_plain_fields",
    "Verif.Props.ModeArg.C124_plain_differs",
    "Verif.Props.ModeArg.C124_field_false"
   ],
   "note": "Of the arguments of a struct, as the documentation says it. C124_plain_differs shows that both conditions for leaving mode(plain) out are needed; C124_field_false shows that the two forms differ at a field (C22)."
  },
  {
   "property": "C125",
   "status": "proved",
   "theorems": [
    "Verif.Props.ErrorType.C125_default",
    "Verif.Props.ErrorType.C125_type",
    "Verif.Props.ErrorType.C125_same_type",
    "Verif.Props.ErrorType.C125_known"
   ],
   "note": "Types are compared by their text."
  },
  {
   "property": "C126",
   "status": "proved",
   "theorems": [
    "Verif.Props.AutoOptional.C126_automatic",
    "Verif.Props.AutoOptional.C126_iff",
    "Verif.Props.AutoOptional.C126_off"
   ],
   "note": "C126_iff names the one case where the two forms differ."
  },
  {
   "property": "C127",
   "status": "proved",
   "theorems": [
    "Verif.Props.IntoArg.C127_field",
    "Verif.Props.IntoArg.C127_struct",
    "Verif.Props.IntoArg.C127_alone",
    "Verif.Props.IntoArg.C127_no_helper"
   ],
   "note": "C127_alone shows that the condition on a struct is needed: into alone has an effect on fields which say set themselves."
  },
  {
   "property": "C128",
   "status": "proved",
   "theorems": [
    "Verif.Props.CloneArg.C128_field",
    "Verif.Props.CloneArg.C128_struct",
    "Verif.Props.CloneArg.C128_off"
   ],
   "note": "Of the keywords as such; C128_off shows that copy(off) is not only a default (C21)."
  },
  {
   "property": "C129",
   "status": "proved",
   "theorems": [
    "Verif.Props.OptIn.C129_marked",
    "Verif.Props.OptIn.C129_implied",
    "Verif.Props.OptIn.C129_explicit",
    "Verif.Props.OptIn.C129_none"
   ],
   "note": "C129_none: with no such field, builder(opt_in) makes a builder which sets nothing."
  },
  {
   "property": "C130",
   "status": "proved",
   "theorems": [
    "Verif.Props.AutoGet.C130_automatic",
    "Verif.Props.AutoGet.C130_said",
    "Verif.Props.AutoGet.C130_spelled"
   ],
   "note": "The documentation shows the rule for lazy fields only, by example; the rest is the rule of the code."
  }
 ]
}
