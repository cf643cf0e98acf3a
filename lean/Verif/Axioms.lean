import Verif.Props.Args
import Verif.Props.Async
import Verif.Props.AsyncCalls
import Verif.Props.AsyncCycles
import Verif.Props.AsyncFallible
import Verif.Props.AsyncFields
import Verif.Props.AsyncLockCalls
import Verif.Props.AsyncLocks
import Verif.Props.AsyncMixed
import Verif.Props.AsyncMulti
import Verif.Props.AsyncReceptive
import Verif.Props.Attrs
import Verif.Props.AutoGet
import Verif.Props.AutoOptional
import Verif.Props.AuxArgs
import Verif.Props.Borrow
import Verif.Props.Build
import Verif.Props.Builder
import Verif.Props.Calls
import Verif.Props.Captures
import Verif.Props.CloneArg
import Verif.Props.Conditional
import Verif.Props.Context
import Verif.Props.Cycles
import Verif.Props.Default
import Verif.Props.DefaultText
import Verif.Props.Derived
import Verif.Props.ErrorType
import Verif.Props.Exclusive
import Verif.Props.Expand
import Verif.Props.Fallible
import Verif.Props.Features
import Verif.Props.Fields
import Verif.Props.FxHelper
import Verif.Props.Generics
import Verif.Props.Guards
import Verif.Props.Hygiene
import Verif.Props.Idents
import Verif.Props.Init
import Verif.Props.IntoArg
import Verif.Props.LockCalls
import Verif.Props.LockOnly
import Verif.Props.Locks
import Verif.Props.Lower
import Verif.Props.Method
import Verif.Props.MethodTy
import Verif.Props.Mixed
import Verif.Props.ModeArg
import Verif.Props.Multi
import Verif.Props.NameClash
import Verif.Props.Names
import Verif.Props.OptIn
import Verif.Props.Overtaking
import Verif.Props.Parse
import Verif.Props.Plain
import Verif.Props.Program
import Verif.Props.Rc
import Verif.Props.Receptive
import Verif.Props.SelfCalls
import Verif.Props.Serde
import Verif.Props.SerdeDerive
import Verif.Props.Signature
import Verif.Props.Skip
import Verif.Props.Snapshot
import Verif.Props.Sound
import Verif.Props.Structs
import Verif.Props.Sync
import Verif.Props.Tasks
import Verif.Props.Threads
import Verif.Props.Tokens
import Verif.Props.Traits
import Verif.Props.User
import Verif.Props.Visibility
import Verif.Props.Waits
import Verif.Props.Weak
import Verif.Props.Whole
import Verif.Props.Words
/-! Axioms of every theorem named in MANIFEST.json. -/

#print axioms Verif.Props.Sync.C01_memory_empty_while_building
#print axioms Verif.Props.Sync.C01_builder_runs_only_when_empty
#print axioms Verif.Props.Sync.C01_no_two_runs_overlap
#print axioms Verif.Props.Sync.C01_clear_between_builds
#print axioms Verif.Props.Sync.C02_sync_linearizable
#print axioms Verif.Props.Sync.C03_flag_agrees
#print axioms Verif.Props.Sync.C03_flag_true_under_guard
#print axioms Verif.Props.Sync.C04_no_change_under_guard
#print axioms Verif.Props.Sync.C04_deref_same_value
#print axioms Verif.Props.Sync.C04_no_exclusive_beside_guard
#print axioms Verif.Props.Sync.C05_failure_leaves_no_trace
#print axioms Verif.Props.Sync.C05_builder_runs_again
#print axioms Verif.Props.Sync.C06_at_most_one_run
#print axioms Verif.Props.Sync.C06_error_is_own
#print axioms Verif.Props.Sync.C06_value_found_or_built
#print axioms Verif.Props.Sync.C07_others_never_build
#print axioms Verif.Props.Sync.C08_progress
#print axioms Verif.Props.Sync.C08_progress_with_guards
#print axioms Verif.Props.Sync.C08_bounded
#print axioms Verif.Props.Sync.C08_cannot_wedge
#print axioms Verif.Props.Sync.C09_conservation
#print axioms Verif.Props.Sync.C09_conservation_any_time
#print axioms Verif.Props.Sync.C10_clone_consistent
#print axioms Verif.Props.Async.C11_memory_empty_while_building
#print axioms Verif.Props.Async.C11_builder_runs_only_when_empty
#print axioms Verif.Props.Async.C11_no_two_runs_overlap
#print axioms Verif.Props.Async.C11_clear_between_builds
#print axioms Verif.Props.Async.C12_async_linearizable
#print axioms Verif.Props.Async.C12_cancelled_no_effect
#print axioms Verif.Props.Async.C12_cancel_changes_nothing
#print axioms Verif.Props.Async.C12_cancelled_never_made
#print axioms Verif.Props.Async.C13_failure_leaves_no_trace
#print axioms Verif.Props.Async.C13_cancelled_build_leaves_no_trace
#print axioms Verif.Props.Async.C13_cancelled_holds_no_lock
#print axioms Verif.Props.Async.C13_builder_runs_again_after_failure
#print axioms Verif.Props.Async.C13_builder_runs_again_after_cancel
#print axioms Verif.Props.Sync.C14_sync_reread
#print axioms Verif.Props.Async.C14_async_reread_blocks
#print axioms Verif.Props.Async.C14_async_reread_false
#print axioms Verif.Props.Async.C14_async_read_partial
#print axioms Verif.Props.Multi.C15_no_deadlock
#print axioms Verif.Props.Multi.C15_every_call_completes
#print axioms Verif.Props.Multi.C15_cycle_deadlocks
#print axioms Verif.Props.Multi.C15_kept_guard_deadlocks
#print axioms Verif.Props.Multi.C15_self_call_blocks
#print axioms Verif.Props.Cycles.C15_deadlock_iff
#print axioms Verif.Props.Fields.C16_sequential_value
#print axioms Verif.Props.Fields.C16_value
#print axioms Verif.Props.Fields.C16_answers
#print axioms Verif.Props.Fields.C16_built_once
#print axioms Verif.Props.Fields.C16_no_endless_run
#print axioms Verif.Props.Fields.C16_ends_outside
#print axioms Verif.Props.Program.C17_lazy_is_cell
#print axioms Verif.Props.Program.C18_modes_agree
#print axioms Verif.Props.Borrow.C19_cell
#print axioms Verif.Props.Borrow.C19_from_idle
#print axioms Verif.Props.Borrow.C19_panics_iff
#print axioms Verif.Props.Args.C20_precedence
#print axioms Verif.Props.Args.C20_accessor_precedence
#print axioms Verif.Props.Args.C20_storage_precedence
#print axioms Verif.Props.Args.C20_skipped
#print axioms Verif.Props.Args.C20_details_precedence
#print axioms Verif.Props.Args.C20_attributes_precedence
#print axioms Verif.Props.Args.C20_sync_get_mut_attributes
#print axioms Verif.Props.Args.C20_get_mut_attributes_false
#print axioms Verif.Props.Args.C20_emits
#print axioms Verif.Props.Args.C20_field_decides_partial
#print axioms Verif.Props.Args.C20_reader_false
#print axioms Verif.Props.Args.C20_predicate_false
#print axioms Verif.Props.Args.C20_builder_false
#print axioms Verif.Props.Args.C21_never_both
#print axioms Verif.Props.Args.C21_copy_agrees
#print axioms Verif.Props.Args.C21_plain_as_asked
#print axioms Verif.Props.Args.C21_sync_as_asked
#print axioms Verif.Props.Args.C21_modes_agree_partial
#print axioms Verif.Props.Args.C21_copy_off_false
#print axioms Verif.Props.Args.C21_clone_off_false
#print axioms Verif.Props.Args.C21_as_ref_false
#print axioms Verif.Props.Args.C22_follows_struct
#print axioms Verif.Props.Args.C22_own_mode_partial
#print axioms Verif.Props.Args.C22_mode_async_is_plain
#print axioms Verif.Props.Args.C22_sync_in_async_struct
#print axioms Verif.Props.Args.C22_own_mode_false
#print axioms Verif.Props.Args.C22_undeclared_struct
#print axioms Verif.Props.Args.C22_order_dependent
#print axioms Verif.Props.Init.C23_welltyped_partial
#print axioms Verif.Props.Init.C23_default_iff
#print axioms Verif.Props.Init.C23_builder
#print axioms Verif.Props.Init.C23_fromShadow
#print axioms Verif.Props.Init.C23_intoShadow_iff
#print axioms Verif.Props.Init.C23_shadowDefault
#print axioms Verif.Props.Init.C23_serdeDefaultFn
#print axioms Verif.Props.Init.C23_declType_error
#print axioms Verif.Props.Init.C23_default_generated
#print axioms Verif.Props.Init.C23_builder_generated
#print axioms Verif.Props.Init.C23_evaluates
#print axioms Verif.Props.Init.C23_full_false_skip
#print axioms Verif.Props.Init.C23_full_false_serde
#print axioms Verif.Props.Method.C24_setter
#print axioms Verif.Props.Method.C24_accessor
#print axioms Verif.Props.Method.C24_set_then_get
#print axioms Verif.Props.Method.C24_accessorMut
#print axioms Verif.Props.Method.C24_reader
#print axioms Verif.Props.Method.C24_writer
#print axioms Verif.Props.Method.C24_lazy_build
#print axioms Verif.Props.Method.C24_lazy_fail
#print axioms Verif.Props.Method.C24_clearer_partial
#print axioms Verif.Props.Method.C24_clearer_leaves_default
#print axioms Verif.Props.Method.C24_clearer_fails
#print axioms Verif.Props.Method.C25_predicate_partial
#print axioms Verif.Props.Method.C25_predicate_tries_lock
#print axioms Verif.Props.Method.C25_fails
#print axioms Verif.Props.Args.C26_bool_inverted
#print axioms Verif.Props.Args.C26_roundtrip_false
#print axioms Verif.Props.Args.C26_bare_attribute_disables
#print axioms Verif.Props.Args.C26_explicit_kept_partial
#print axioms Verif.Props.Builder.C27_err_iff
#print axioms Verif.Props.Builder.C27_err_keeps
#print axioms Verif.Props.Builder.C27_retry
#print axioms Verif.Props.Builder.C28_contents
#print axioms Verif.Props.Builder.C28_last_wins
#print axioms Verif.Props.Builder.C28_order_irrelevant
#print axioms Verif.Props.Builder.C29_emptied
#print axioms Verif.Props.Builder.C29_second_build
#print axioms Verif.Props.Builder.C30_panic_iff
#print axioms Verif.Props.Builder.C30_no_panic_partial
#print axioms Verif.Props.Builder.C30_full_false
#print axioms Verif.Props.Builder.C31_buildable_iff
#print axioms Verif.Props.Builder.C31_buildable_partial
#print axioms Verif.Props.Builder.C31_unsuppliable
#print axioms Verif.Props.Builder.C31_full_false
#print axioms Verif.Props.Serde.C32_round_trip_partial
#print axioms Verif.Props.Serde.C32_fails
#print axioms Verif.Props.Serde.C32_serialize_off_ill
#print axioms Verif.Props.Serde.C33_serialise_partial
#print axioms Verif.Props.Serde.C33_lazy_partial
#print axioms Verif.Props.Serde.C33_async_fails
#print axioms Verif.Props.Serde.C34_no_failure_partial
#print axioms Verif.Props.Serde.C34_fails
#print axioms Verif.Props.Serde.C35_missing_partial
#print axioms Verif.Props.Serde.C35_error_iff
#print axioms Verif.Props.Serde.C35_fails_sync
#print axioms Verif.Props.Serde.C35_fails_required
#print axioms Verif.Props.Names.C36_name_rule
#print axioms Verif.Props.Names.C36_no_clash
#print axioms Verif.Props.Names.C37_distinct_partial
#print axioms Verif.Props.Names.C37_builder_distinct_partial
#print axioms Verif.Props.Names.C37_clash
#print axioms Verif.Props.NameClash.C37_distinct_iff
#print axioms Verif.Props.NameClash.C37_builder_distinct_iff
#print axioms Verif.Props.Names.C38_rule
#print axioms Verif.Props.Names.C38_emitted_partial
#print axioms Verif.Props.Names.C38_sync_get_mut
#print axioms Verif.Props.Names.C38_get_mut_false
#print axioms Verif.Props.Names.C38_builder_false
#print axioms Verif.Props.Exclusive.C39_rejected_iff
#print axioms Verif.Props.Exclusive.C39_error_complete
#print axioms Verif.Props.Exclusive.C39_field_rejected_iff
#print axioms Verif.Props.Exclusive.C39_struct_rejected_iff
#print axioms Verif.Props.Exclusive.C39_helper_presence_false
#print axioms Verif.Props.Exclusive.C39_helper_rule
#print axioms Verif.Props.Exclusive.C39_field_builder_rule
#print axioms Verif.Props.Exclusive.C39_field_full_iff
#print axioms Verif.Props.Exclusive.C39_struct_full_iff
#print axioms Verif.Props.Exclusive.C39_field_named
#print axioms Verif.Props.Exclusive.C39_struct_named
#print axioms Verif.Props.Tokens.C40_prints
#print axioms Verif.Props.Tokens.C40_no_self_left_partial
#print axioms Verif.Props.Tokens.C40_others_kept
#print axioms Verif.Props.Tokens.C40_unchanged
#print axioms Verif.Props.Tokens.C40_idempotent
#print axioms Verif.Props.Tokens.C40_self_in_bounds
#print axioms Verif.Props.Tokens.C41_split_partial
#print axioms Verif.Props.Tokens.C41_tokens_kept
#print axioms Verif.Props.Tokens.C41_accepted_iff
#print axioms Verif.Props.Tokens.C41_punct_false
#print axioms Verif.Props.Tokens.C42_derives_first
#print axioms Verif.Props.Tokens.C42_permutation
#print axioms Verif.Props.Tokens.C43_fresh
#print axioms Verif.Props.Tokens.C43_all_answered
#print axioms Verif.Props.Tokens.C43_wrapping_partial
#print axioms Verif.Props.Tokens.C43_wrap_false
#print axioms Verif.Props.Rc.C44_myself_is_same
#print axioms Verif.Props.Rc.C44_lazy_no_panic
#print axioms Verif.Props.Rc.C44_panic_iff
#print axioms Verif.Props.Rc.C44_no_leak
#print axioms Verif.Props.Rc.C44_clone_is_not_itself
#print axioms Verif.Props.Rc.C44_default_lost
#print axioms Verif.Props.Rc.C44_clone_lost
#print axioms Verif.Props.Rc.C44_post_build_lost
#print axioms Verif.Props.Rc.C44_replaced_lost
#print axioms Verif.Props.Rc.C44_moved_lost
#print axioms Verif.Props.Async.C45_async_flag_agrees
#print axioms Verif.Props.Async.C45_async_flag_true_under_guard
#print axioms Verif.Props.Async.C46_async_no_change_under_guard
#print axioms Verif.Props.Async.C46_async_deref_same_value
#print axioms Verif.Props.Async.C46_async_no_exclusive_beside_guard
#print axioms Verif.Props.Async.C47_async_at_most_one_run
#print axioms Verif.Props.Async.C47_async_error_is_own
#print axioms Verif.Props.Async.C47_async_value_found_or_built
#print axioms Verif.Props.Async.C48_async_others_never_build
#print axioms Verif.Props.Async.C49_async_progress
#print axioms Verif.Props.Async.C49_async_cannot_wedge
#print axioms Verif.Props.Async.C50_async_conservation
#print axioms Verif.Props.Async.C51_async_clone_consistent
#print axioms Verif.Props.Init.C52_builder_iff
#print axioms Verif.Props.Init.C52_builder_partial
#print axioms Verif.Props.Init.C52_shadowDefault
#print axioms Verif.Props.Init.C52_full_false
#print axioms Verif.Props.Builder.C53_complete_iff
#print axioms Verif.Props.Builder.C53_complete_partial
#print axioms Verif.Props.Builder.C53_full_false
#print axioms Verif.Props.MethodTy.helper_typechecks_partial
#print axioms Verif.Props.MethodTy.helper_typechecks_common
#print axioms Verif.Props.MethodTy.setter_typechecks
#print axioms Verif.Props.MethodTy.helper_typechecks_fails
#print axioms Verif.Props.Default.C55_contents
#print axioms Verif.Props.Default.C55_builder_agrees
#print axioms Verif.Props.Default.C56_constructor_iff
#print axioms Verif.Props.Default.C56_has_default_partial
#print axioms Verif.Props.Default.C56_empty_false
#print axioms Verif.Props.Signature.C57_documented_partial
#print axioms Verif.Props.Signature.C57_error_iff
#print axioms Verif.Props.Signature.C57_skipped_partial
#print axioms Verif.Props.Signature.C57_skipped_false
#print axioms Verif.Props.Signature.C58_documented
#print axioms Verif.Props.Locks.C59_linearizable
#print axioms Verif.Props.Locks.C59_wellFormed
#print axioms Verif.Props.Locks.C59_contents
#print axioms Verif.Props.Locks.C59_eq_atomic
#print axioms Verif.Props.Locks.C59_panics_only_by_user
#print axioms Verif.Props.Locks.C60_read_guard_stable
#print axioms Verif.Props.Locks.C60_read_guard_one_value
#print axioms Verif.Props.Locks.C60_write_guard_alone
#print axioms Verif.Props.Locks.C60_write_guard_stable
#print axioms Verif.Props.Locks.C61_chain_partial
#print axioms Verif.Props.Locks.C61_no_deadlock_partial
#print axioms Verif.Props.Locks.C61_every_call_completes_partial
#print axioms Verif.Props.Locks.C61_readers_never_wait
#print axioms Verif.Props.Locks.C61_self_comparison_deadlocks
#print axioms Verif.Props.Locks.C61_crossing_deadlocks
#print axioms Verif.Props.Waits.C61_waits
#print axioms Verif.Props.Mixed.C61_deadlock_iff
#print axioms Verif.Props.Serde.C62_written_partial
#print axioms Verif.Props.Serde.C62_read_partial
#print axioms Verif.Props.Serde.C62_serde_name_ignored
#print axioms Verif.Props.Parse.C63_field_order
#print axioms Verif.Props.Parse.C63_struct_order
#print axioms Verif.Props.Parse.C63_field_split
#print axioms Verif.Props.Parse.C63_positional_needed
#print axioms Verif.Props.Parse.C64_field_grammar
#print axioms Verif.Props.Parse.C64_struct_grammar
#print axioms Verif.Props.Parse.C65_field_roundtrip
#print axioms Verif.Props.Parse.C65_field_range
#print axioms Verif.Props.Parse.C65_struct_roundtrip
#print axioms Verif.Props.Parse.C65_struct_range
#print axioms Verif.Props.Parse.C66_field_says
#print axioms Verif.Props.Parse.C66_struct_says
#print axioms Verif.Props.Parse.C67_field_documented_partial
#print axioms Verif.Props.Parse.C67_struct_documented_partial
#print axioms Verif.Props.Parse.C67_path_refused
#print axioms Verif.Props.Parse.C67_init_refused
#print axioms Verif.Props.Parse.C67_optIn_refused
#print axioms Verif.Props.Parse.C67_nv_refused
#print axioms Verif.Props.Parse.C67_full_false
#print axioms Verif.Props.Generics.C68_headers_iff
#print axioms Verif.Props.Generics.C68_bare_partial
#print axioms Verif.Props.Generics.C68_simple_partial
#print axioms Verif.Props.Generics.C68_serde_false
#print axioms Verif.Props.Generics.C68_serde_const_false
#print axioms Verif.Props.Generics.C68_builder_false
#print axioms Verif.Props.Generics.C68_rc_false
#print axioms Verif.Props.Structs.C69_exprs_iff
#print axioms Verif.Props.Structs.C69_exprs_partial
#print axioms Verif.Props.Structs.C69_rcOff_false
#print axioms Verif.Props.Structs.C69_skip_false
#print axioms Verif.Props.Structs.C69_serialize_false
#print axioms Verif.Props.Structs.C69_deserialize_false
#print axioms Verif.Props.Structs.C70_self_iff
#print axioms Verif.Props.Structs.C70_self_partial
#print axioms Verif.Props.Structs.C70_full_false
#print axioms Verif.Props.Structs.C71_check_partial
#print axioms Verif.Props.Structs.C71_no_accessor
#print axioms Verif.Props.Structs.C71_skip_false
#print axioms Verif.Props.Structs.C71_rc_false
#print axioms Verif.Props.Structs.C72_used_iff
#print axioms Verif.Props.Structs.C72_used_partial
#print axioms Verif.Props.Structs.C72_full_false
#print axioms Verif.Props.AsyncMulti.C73_no_deadlock
#print axioms Verif.Props.AsyncMulti.C73_every_call_completes
#print axioms Verif.Props.AsyncMulti.C73_cycle_deadlocks
#print axioms Verif.Props.AsyncMulti.C73_kept_guard_deadlocks
#print axioms Verif.Props.AsyncMulti.C73_self_call_blocks
#print axioms Verif.Props.AsyncCycles.C73_deadlock_iff
#print axioms Verif.Props.AsyncMulti.C74_drop_task
#print axioms Verif.Props.AsyncFields.C75_value
#print axioms Verif.Props.AsyncFields.C75_answers
#print axioms Verif.Props.AsyncFields.C75_built_once
#print axioms Verif.Props.AsyncFields.C75_no_endless_run
#print axioms Verif.Props.AsyncFields.C75_ends_outside
#print axioms Verif.Props.Build.C76_sound
#print axioms Verif.Props.Build.C76_typed_iff
#print axioms Verif.Props.Build.C76_rc_error_never
#print axioms Verif.Props.Build.C76_full_false
#print axioms Verif.Props.Build.C76_compiles_partial
#print axioms Verif.Props.Build.C77_missing
#print axioms Verif.Props.Build.C77_post
#print axioms Verif.Props.Build.C77_panic
#print axioms Verif.Props.Build.C78_after_error
#print axioms Verif.Props.Build.C78_keeps_partial
#print axioms Verif.Props.Build.C78_keeps_full_false
#print axioms Verif.Props.Build.C78_second_build
#print axioms Verif.Props.Attrs.C79_args
#print axioms Verif.Props.Attrs.C79_sync_get_mut_iff
#print axioms Verif.Props.Attrs.C79_get_mut_false
#print axioms Verif.Props.Attrs.C79_shadow_struct_iff
#print axioms Verif.Props.Attrs.C79_shadow_field_iff
#print axioms Verif.Props.Attrs.C79_args_partial
#print axioms Verif.Props.Attrs.C79_full_false
#print axioms Verif.Props.Attrs.C80_user
#print axioms Verif.Props.Attrs.C80_shadow_field_iff
#print axioms Verif.Props.Attrs.C80_shadow_field_partial
#print axioms Verif.Props.Attrs.C80_unlisted_all
#print axioms Verif.Props.Attrs.C80_order
#print axioms Verif.Props.Attrs.C80_struct
#print axioms Verif.Props.Attrs.C80_full_false
#print axioms Verif.Props.Features.C81_names
#print axioms Verif.Props.Features.C81_accepted_iff
#print axioms Verif.Props.Features.C81_refusals
#print axioms Verif.Props.Features.C81_serde
#print axioms Verif.Props.Features.C81_provided_iff
#print axioms Verif.Props.Features.C81_provided_partial
#print axioms Verif.Props.Features.C81_full_false
#print axioms Verif.Props.Features.C82_names
#print axioms Verif.Props.Features.C82_exists_iff
#print axioms Verif.Props.Features.C82_exists_partial
#print axioms Verif.Props.Features.C82_full_false
#print axioms Verif.Props.Expand.C83_refused_iff
#print axioms Verif.Props.Expand.C83_panics_iff
#print axioms Verif.Props.Expand.C83_reports_iff
#print axioms Verif.Props.Expand.C83_clean_iff
#print axioms Verif.Props.Expand.C83_count
#print axioms Verif.Props.Expand.C83_once_partial
#print axioms Verif.Props.Expand.C83_once_false
#print axioms Verif.Props.Expand.C83_lost_false
#print axioms Verif.Props.Expand.C84_fields
#print axioms Verif.Props.Expand.C84_exprs
#print axioms Verif.Props.Expand.C84_methods_iff
#print axioms Verif.Props.Expand.C84_methods_once
#print axioms Verif.Props.Expand.C84_builder
#print axioms Verif.Props.Expand.C84_serde
#print axioms Verif.Props.Expand.C84_items
#print axioms Verif.Props.Expand.C84_complete_iff
#print axioms Verif.Props.Expand.C85_declared
#print axioms Verif.Props.Expand.C85_undeclared_iff
#print axioms Verif.Props.Expand.C85_kept_partial
#print axioms Verif.Props.Expand.C85_undeclared_false
#print axioms Verif.Props.Fallible.C86_sequential
#print axioms Verif.Props.Fallible.C86_value
#print axioms Verif.Props.Fallible.C86_answers
#print axioms Verif.Props.Fallible.C86_guards
#print axioms Verif.Props.Fallible.C86_built_once
#print axioms Verif.Props.Fallible.C86_no_endless_run
#print axioms Verif.Props.Fallible.C86_ends_outside
#print axioms Verif.Props.AsyncFallible.C87_value
#print axioms Verif.Props.AsyncFallible.C87_answers
#print axioms Verif.Props.AsyncFallible.C87_guards
#print axioms Verif.Props.AsyncFallible.C87_built_once
#print axioms Verif.Props.AsyncFallible.C87_no_endless_run
#print axioms Verif.Props.AsyncFallible.C87_ends_outside
#print axioms Verif.Props.Mixed.C88_lazy_linearizable
#print axioms Verif.Props.Mixed.C88_builder_runs_alone
#print axioms Verif.Props.Mixed.C88_locks_linearizable
#print axioms Verif.Props.Mixed.C88_chain
#print axioms Verif.Props.Mixed.C88_no_deadlock
#print axioms Verif.Props.Mixed.C88_deadlock_iff
#print axioms Verif.Props.Mixed.C88_every_call_completes
#print axioms Verif.Props.Mixed.C88_guard_across_builder_deadlocks
#print axioms Verif.Props.Mixed.C88_guard_meets_builder_deadlocks
#print axioms Verif.Props.Mixed.C88_self_comparison_deadlocks
#print axioms Verif.Props.Mixed.C88_crossing_comparisons_deadlock
#print axioms Verif.Props.Waits.C88_waits
#print axioms Verif.Props.Weak.C89_sync_hb_linearizable
#print axioms Verif.Props.Weak.C89_async_hb_linearizable
#print axioms Verif.Props.Weak.C89_sync_race_free
#print axioms Verif.Props.Weak.C89_async_race_free
#print axioms Verif.Props.Weak.C89_sync_interleavings
#print axioms Verif.Props.Weak.C89_async_interleavings
#print axioms Verif.Props.Weak.C89_sync_published
#print axioms Verif.Props.Weak.C89_async_published
#print axioms Verif.Props.Weak.C89_sync_real_time_fails
#print axioms Verif.Props.Weak.C89_async_real_time_fails
#print axioms Verif.Props.Weak.C89_sync_writes
#print axioms Verif.Props.Weak.C89_sync_reads
#print axioms Verif.Props.Weak.C89_sync_stores
#print axioms Verif.Props.Weak.C89_sync_loads
#print axioms Verif.Props.Weak.C89_async_writes
#print axioms Verif.Props.Weak.C89_async_reads
#print axioms Verif.Props.Weak.C89_async_stores
#print axioms Verif.Props.Weak.C89_async_loads
#print axioms Verif.Props.AsyncLocks.C90_linearizable
#print axioms Verif.Props.AsyncLocks.C90_wellFormed
#print axioms Verif.Props.AsyncLocks.C90_contents
#print axioms Verif.Props.AsyncLocks.C90_eq_atomic
#print axioms Verif.Props.AsyncLocks.C90_cancelled
#print axioms Verif.Props.AsyncLocks.C90_cancel_no_effect
#print axioms Verif.Props.AsyncLocks.C90_cancelled_never_made
#print axioms Verif.Props.AsyncLocks.C90_read_guard_stable
#print axioms Verif.Props.AsyncLocks.C90_write_guard_alone
#print axioms Verif.Props.AsyncLocks.C90_write_guard_stable
#print axioms Verif.Props.AsyncLocks.C91_no_overtaking
#print axioms Verif.Props.AsyncLocks.C91_chain
#print axioms Verif.Props.AsyncLocks.C91_no_deadlock
#print axioms Verif.Props.AsyncLocks.C91_deadlock_iff
#print axioms Verif.Props.AsyncLocks.C91_every_call_completes
#print axioms Verif.Props.AsyncLocks.C91_readers_never_wait
#print axioms Verif.Props.AsyncLocks.C91_self_comparison_deadlocks
#print axioms Verif.Props.AsyncLocks.C91_reading_twice_deadlocks
#print axioms Verif.Props.AsyncLocks.C91_crossing_deadlocks
#print axioms Verif.Props.Waits.C91_waits
#print axioms Verif.Props.AsyncMixed.C92_lazy_linearizable
#print axioms Verif.Props.AsyncMixed.C92_builder_runs_alone
#print axioms Verif.Props.AsyncMixed.C92_locks_linearizable
#print axioms Verif.Props.AsyncMixed.C92_chain
#print axioms Verif.Props.AsyncMixed.C92_no_deadlock
#print axioms Verif.Props.AsyncMixed.C92_deadlock_iff
#print axioms Verif.Props.AsyncMixed.C92_every_call_completes
#print axioms Verif.Props.AsyncMixed.C92_no_overtaking
#print axioms Verif.Props.AsyncMixed.C92_join_deadlocks
#print axioms Verif.Props.AsyncMixed.C92_guard_across_builder_deadlocks
#print axioms Verif.Props.AsyncMixed.C92_join_in_builder_deadlocks
#print axioms Verif.Props.Waits.C92_waits
#print axioms Verif.Props.Idents.C93_token_iff
#print axioms Verif.Props.Idents.C93_helper_rule
#print axioms Verif.Props.Idents.C93_helper_iff
#print axioms Verif.Props.Idents.C93_serde_fn_iff
#print axioms Verif.Props.Idents.C93_builder_struct
#print axioms Verif.Props.Idents.C93_rc_iff
#print axioms Verif.Props.Idents.C93_shadow_iff
#print axioms Verif.Props.Idents.C93_whole_fn
#print axioms Verif.Props.Idents.C93_idents_iff
#print axioms Verif.Props.Idents.C93_clean_iff
#print axioms Verif.Props.Idents.C93_partial
#print axioms Verif.Props.Idents.C93_names
#print axioms Verif.Props.Idents.C93_pieces
#print axioms Verif.Props.Idents.C93_method_pieces
#print axioms Verif.Props.Idents.C93_false
#print axioms Verif.Props.Idents.C93_serde_false
#print axioms Verif.Props.Sound.C94_sound_iff
#print axioms Verif.Props.Sound.C94_common
#print axioms Verif.Props.Sound.C94_full_false
#print axioms Verif.Props.Visibility.C95_written
#print axioms Verif.Props.Visibility.C95_wants
#print axioms Verif.Props.Visibility.C95_home
#print axioms Verif.Props.Visibility.C95_chain_iff
#print axioms Verif.Props.Visibility.C95_chain_partial
#print axioms Verif.Props.Visibility.C95_chain_false
#print axioms Verif.Props.Visibility.C95_myself
#print axioms Verif.Props.Calls.C96_linearizable
#print axioms Verif.Props.Calls.C96_container
#print axioms Verif.Props.Calls.C96_nothing_left
#print axioms Verif.Props.Calls.C96_never_stuck
#print axioms Verif.Props.Calls.C96_progress
#print axioms Verif.Props.Calls.C96_cannot_wedge
#print axioms Verif.Props.LockCalls.C97_linearizable
#print axioms Verif.Props.LockCalls.C97_locks
#print axioms Verif.Props.LockCalls.C97_guards
#print axioms Verif.Props.LockCalls.C97_never_stuck
#print axioms Verif.Props.LockCalls.C97_callable
#print axioms Verif.Props.LockCalls.C97_progress
#print axioms Verif.Props.LockCalls.C97_cannot_wedge
#print axioms Verif.Props.LockCalls.C97_order_needed
#print axioms Verif.Props.AsyncCalls.C98_linearizable
#print axioms Verif.Props.AsyncCalls.C98_cancel
#print axioms Verif.Props.AsyncCalls.C98_container
#print axioms Verif.Props.AsyncCalls.C98_nothing_left
#print axioms Verif.Props.AsyncCalls.C98_never_stuck
#print axioms Verif.Props.AsyncCalls.C98_progress
#print axioms Verif.Props.AsyncCalls.C98_cannot_wedge
#print axioms Verif.Props.AsyncLockCalls.C99_linearizable
#print axioms Verif.Props.AsyncLockCalls.C99_cancel
#print axioms Verif.Props.AsyncLockCalls.C99_locks
#print axioms Verif.Props.AsyncLockCalls.C99_guards
#print axioms Verif.Props.AsyncLockCalls.C99_never_stuck
#print axioms Verif.Props.AsyncLockCalls.C99_callable
#print axioms Verif.Props.AsyncLockCalls.C99_progress
#print axioms Verif.Props.AsyncLockCalls.C99_cannot_wedge
#print axioms Verif.Props.AsyncLockCalls.C99_order_needed
#print axioms Verif.Props.Whole.C100_linearizable
#print axioms Verif.Props.Whole.C100_contents
#print axioms Verif.Props.Whole.C100_record
#print axioms Verif.Props.Whole.C100_recorded
#print axioms Verif.Props.Whole.C100_async_linearizable
#print axioms Verif.Props.Whole.C100_async_contents
#print axioms Verif.Props.Whole.C100_async_record
#print axioms Verif.Props.Whole.C100_async_recorded
#print axioms Verif.Props.Threads.C101_linearizable
#print axioms Verif.Props.Threads.C101_contents
#print axioms Verif.Props.Threads.C101_record
#print axioms Verif.Props.Threads.C101_recorded
#print axioms Verif.Props.Threads.C101_builder_runs_alone
#print axioms Verif.Props.Threads.C101_chain
#print axioms Verif.Props.Threads.C101_no_deadlock
#print axioms Verif.Props.Threads.C101_every_call_completes
#print axioms Verif.Props.Threads.C101_nothing_left
#print axioms Verif.Props.Threads.C101_guard_meets_builder_deadlocks
#print axioms Verif.Props.Waits.C101_waits
#print axioms Verif.Props.Conditional.C102_sound_iff
#print axioms Verif.Props.Conditional.C102_attributes_fn_partial
#print axioms Verif.Props.Conditional.C102_field_iff
#print axioms Verif.Props.Conditional.C102_attributes_impl_iff
#print axioms Verif.Props.Conditional.C102_builder_alone
#print axioms Verif.Props.Conditional.C102_shadow_alone
#print axioms Verif.Props.Conditional.C102_full_false
#print axioms Verif.Props.Tasks.C103_linearizable
#print axioms Verif.Props.Tasks.C103_contents
#print axioms Verif.Props.Tasks.C103_record
#print axioms Verif.Props.Tasks.C103_recorded
#print axioms Verif.Props.Tasks.C103_builder_runs_alone
#print axioms Verif.Props.Tasks.C103_cancel
#print axioms Verif.Props.Tasks.C103_chain
#print axioms Verif.Props.Tasks.C103_no_deadlock
#print axioms Verif.Props.Tasks.C103_every_call_completes
#print axioms Verif.Props.Tasks.C103_nothing_left
#print axioms Verif.Props.Tasks.C103_guard_across_builder_deadlocks
#print axioms Verif.Props.Tasks.C103_join_deadlocks
#print axioms Verif.Props.Waits.C103_waits
#print axioms Verif.Props.Overtaking.C103_no_overtaking
#print axioms Verif.Props.SerdeDerive.C104_directions
#print axioms Verif.Props.SerdeDerive.C104_through
#print axioms Verif.Props.SerdeDerive.C104_items
#print axioms Verif.Props.SerdeDerive.C104_shadow_fields
#print axioms Verif.Props.SerdeDerive.C104_field
#print axioms Verif.Props.SerdeDerive.C104_needs_iff
#print axioms Verif.Props.SerdeDerive.C104_struct_marks
#print axioms Verif.Props.SerdeDerive.C104_shadow_marks
#print axioms Verif.Props.SerdeDerive.C104_field_marks
#print axioms Verif.Props.SerdeDerive.C104_functions
#print axioms Verif.Props.SerdeDerive.C104_own_default_false
#print axioms Verif.Props.SerdeDerive.C104_bare_default_false
#print axioms Verif.Props.Receptive.C105_sync
#print axioms Verif.Props.Receptive.C105_locks
#print axioms Verif.Props.Receptive.C105_calls
#print axioms Verif.Props.Receptive.C105_lock_calls
#print axioms Verif.Props.Receptive.C105_multi
#print axioms Verif.Props.Receptive.C105_mixed
#print axioms Verif.Props.Receptive.C105_threads
#print axioms Verif.Props.AsyncReceptive.C105_async
#print axioms Verif.Props.AsyncReceptive.C105_async_locks
#print axioms Verif.Props.AsyncReceptive.C105_async_calls
#print axioms Verif.Props.AsyncReceptive.C105_async_lock_calls
#print axioms Verif.Props.AsyncReceptive.C105_async_multi
#print axioms Verif.Props.AsyncReceptive.C105_async_mixed
#print axioms Verif.Props.AsyncReceptive.C105_async_mixed_within
#print axioms Verif.Props.AsyncReceptive.C105_tasks
#print axioms Verif.Props.AsyncReceptive.C105_tasks_within
#print axioms Verif.Props.Guards.C106_waits_iff
#print axioms Verif.Props.Guards.C106_waits
#print axioms Verif.Props.Guards.C106_beside
#print axioms Verif.Props.Guards.C106_beside_writer
#print axioms Verif.Props.Guards.C106_beside_readers
#print axioms Verif.Props.Traits.C107_auto
#print axioms Verif.Props.Traits.C107_send_iff
#print axioms Verif.Props.Traits.C107_sync_iff
#print axioms Verif.Props.Traits.C107_documented_partial
#print axioms Verif.Props.Traits.C107_async_iff
#print axioms Verif.Props.Traits.C107_futures
#print axioms Verif.Props.Traits.C107_futures_lazy
#print axioms Verif.Props.Traits.C107_myself
#print axioms Verif.Props.Traits.C107_lock_guards
#print axioms Verif.Props.Traits.C107_guards
#print axioms Verif.Props.Traits.C107_lock_off_false
#print axioms Verif.Props.Traits.C107_protected_false
#print axioms Verif.Props.Traits.C107_async_false
#print axioms Verif.Props.Traits.C108_derives_iff
#print axioms Verif.Props.Traits.C108_clone_partial
#print axioms Verif.Props.Traits.C108_async_clone_false
#print axioms Verif.Props.Traits.C108_error_clone_false
#print axioms Verif.Props.Traits.C108_rc_eq_false
#print axioms Verif.Props.Snapshot.C109_field_by_field_partial
#print axioms Verif.Props.Snapshot.C109_undisturbed_partial
#print axioms Verif.Props.Snapshot.C109_sync_partial
#print axioms Verif.Props.Snapshot.C109_async_partial
#print axioms Verif.Props.Snapshot.C109_torn_copy_false
#print axioms Verif.Props.Snapshot.C109_torn_compare_false
#print axioms Verif.Props.Context.C110_no_conflict
#print axioms Verif.Props.Context.C110_answers
#print axioms Verif.Props.Context.C110_same_answers
#print axioms Verif.Props.Context.C110_contexts
#print axioms Verif.Props.Context.C110_builder_names
#print axioms Verif.Props.Context.C110_mode_span
#print axioms Verif.Props.Context.C110_opt_in_false
#print axioms Verif.Props.Derived.C111_field
#print axioms Verif.Props.Derived.C111_walk_iff
#print axioms Verif.Props.Derived.C111_eq_iff
#print axioms Verif.Props.Derived.C111_outside_partial
#print axioms Verif.Props.Derived.C111_print_partial
#print axioms Verif.Props.Derived.C111_runtime
#print axioms Verif.Props.Derived.C111_builder
#print axioms Verif.Props.Derived.C111_task_false
#print axioms Verif.Props.Derived.C111_print_false
#print axioms Verif.Props.User.C112_calls
#print axioms Verif.Props.User.C112_guards
#print axioms Verif.Props.User.C112_panic_partial
#print axioms Verif.Props.User.C112_lost
#print axioms Verif.Props.User.C112_waits_iff
#print axioms Verif.Props.User.C112_cell_iff
#print axioms Verif.Props.User.C112_alone
#print axioms Verif.Props.User.C112_panic_false
#print axioms Verif.Props.User.C112_waits_false
#print axioms Verif.Props.Plain.C113_result_iff
#print axioms Verif.Props.Plain.C113_stack
#print axioms Verif.Props.Plain.C113_acyclic
#print axioms Verif.Props.Plain.C113_order
#print axioms Verif.Props.Plain.C113_cells
#print axioms Verif.Props.Plain.C113_once
#print axioms Verif.Props.Plain.C113_like_sync
#print axioms Verif.Props.Plain.C113_like_async
#print axioms Verif.Props.Plain.C113_keeps
#print axioms Verif.Props.Plain.C113_returns_false
#print axioms Verif.Props.Plain.C113_panic_false
#print axioms Verif.Props.AuxArgs.C114_value_iff
#print axioms Verif.Props.AuxArgs.C114_documented_partial
#print axioms Verif.Props.AuxArgs.C114_keyword_false
#print axioms Verif.Props.AuxArgs.C114_flag_iff
#print axioms Verif.Props.AuxArgs.C114_same
#print axioms Verif.Props.AuxArgs.C114_number_iff
#print axioms Verif.Props.AuxArgs.C114_signed_iff
#print axioms Verif.Props.AuxArgs.C114_literal_iff
#print axioms Verif.Props.AuxArgs.C114_syn_iff
#print axioms Verif.Props.AuxArgs.C114_syn_value
#print axioms Verif.Props.AuxArgs.C114_punctuated_iff
#print axioms Verif.Props.AuxArgs.C114_punctuated_false
#print axioms Verif.Props.AuxArgs.C114_tuple_iff
#print axioms Verif.Props.AuxArgs.C114_tuple_false
#print axioms Verif.Props.AuxArgs.C114_literals_iff
#print axioms Verif.Props.AuxArgs.C114_literals_false
#print axioms Verif.Props.FxHelper.C115_refused_iff
#print axioms Verif.Props.FxHelper.C115_accepts_iff
#print axioms Verif.Props.FxHelper.C115_reported_iff
#print axioms Verif.Props.FxHelper.C115_determined_iff
#print axioms Verif.Props.FxHelper.C115_validate_iff
#print axioms Verif.Props.FxHelper.C115_compiles_iff
#print axioms Verif.Props.FxHelper.C115_fields
#print axioms Verif.Props.FxHelper.C115_derives
#print axioms Verif.Props.FxHelper.C115_uses
#print axioms Verif.Props.FxHelper.C115_names
#print axioms Verif.Props.FxHelper.C115_given
#print axioms Verif.Props.FxHelper.C115_helper
#print axioms Verif.Props.FxHelper.C115_accessor
#print axioms Verif.Props.FxHelper.C115_builder
#print axioms Verif.Props.FxHelper.C115_determined_false
#print axioms Verif.Props.FxHelper.C115_off_false
#print axioms Verif.Props.Hygiene.C116_partial
#print axioms Verif.Props.Hygiene.C116_helper_iff
#print axioms Verif.Props.Hygiene.C116_build_iff
#print axioms Verif.Props.Hygiene.C116_others
#print axioms Verif.Props.Hygiene.C116_text
#print axioms Verif.Props.Hygiene.C116_returned
#print axioms Verif.Props.Hygiene.C116_build_text
#print axioms Verif.Props.Hygiene.C116_into_text
#print axioms Verif.Props.Hygiene.C116_from_text
#print axioms Verif.Props.Hygiene.C116_lazy_field
#print axioms Verif.Props.Hygiene.C116_builder_field
#print axioms Verif.Props.Hygiene.C116_fails_accessor
#print axioms Verif.Props.Hygiene.C116_fails_setter
#print axioms Verif.Props.Hygiene.C116_fails_build
#print axioms Verif.Props.Words.C117_partial
#print axioms Verif.Props.Words.C117_iff
#print axioms Verif.Props.Words.C117_words
#print axioms Verif.Props.Words.C117_builder_ok
#print axioms Verif.Props.Words.C117_serde_missing
#print axioms Verif.Props.Words.C117_fails_ok
#print axioms Verif.Props.Words.C117_fails_serde
#print axioms Verif.Props.Captures.C118_partial
#print axioms Verif.Props.Captures.C118_iff
#print axioms Verif.Props.Captures.C118_no_rc
#print axioms Verif.Props.Captures.C118_fails
#print axioms Verif.Props.SelfCalls.C119_partial
#print axioms Verif.Props.SelfCalls.C119_iff
#print axioms Verif.Props.SelfCalls.C119_names
#print axioms Verif.Props.SelfCalls.C119_field
#print axioms Verif.Props.SelfCalls.C119_fails
#print axioms Verif.Props.DefaultText.C120_partial
#print axioms Verif.Props.DefaultText.C120_field_iff
#print axioms Verif.Props.DefaultText.C120_serde
#print axioms Verif.Props.DefaultText.C120_fn
#print axioms Verif.Props.DefaultText.C120_whole_rejects
#print axioms Verif.Props.DefaultText.C120_whole
#print axioms Verif.Props.DefaultText.C120_whole_own
#print axioms Verif.Props.DefaultText.C120_bare
#print axioms Verif.Props.DefaultText.C120_off
#print axioms Verif.Props.DefaultText.C120_off_iff
#print axioms Verif.Props.DefaultText.C120_off_alone
#print axioms Verif.Props.DefaultText.C120_same_iff
#print axioms Verif.Props.DefaultText.C120_read
#print axioms Verif.Props.DefaultText.C120_fails
#print axioms Verif.Props.DefaultText.C120_same_fails
#print axioms Verif.Props.Skip.C121_partial
#print axioms Verif.Props.Skip.C121_iff
#print axioms Verif.Props.Skip.C121_fails
#print axioms Verif.Props.Skip.C121_type_iff
#print axioms Verif.Props.Skip.C121_init_iff
#print axioms Verif.Props.Lower.C122_partial
#print axioms Verif.Props.Lower.C122_iff
#print axioms Verif.Props.Lower.C122_fails
#print axioms Verif.Props.Lower.C122_lazy
#print axioms Verif.Props.Lower.C122_into
#print axioms Verif.Props.Lower.C122_clone
#print axioms Verif.Props.Lower.C122_copy
#print axioms Verif.Props.Lower.C122_locks
#print axioms Verif.Props.Lower.C122_inner_mut
#print axioms Verif.Props.LockOnly.C123_rest
#print axioms Verif.Props.LockOnly.C123_methods
#print axioms Verif.Props.LockOnly.C123_writer_lost
#print axioms Verif.Props.LockOnly.C123_off_differs
#print axioms Verif.Props.ModeArg.C124_keyword
#print axioms Verif.Props.ModeArg.C124_plain
#print axioms Verif.Props.ModeArg.C124_plain_fields
#print axioms Verif.Props.ModeArg.C124_plain_differs
#print axioms Verif.Props.ModeArg.C124_field_false
#print axioms Verif.Props.ErrorType.C125_default
#print axioms Verif.Props.ErrorType.C125_type
#print axioms Verif.Props.ErrorType.C125_same_type
#print axioms Verif.Props.ErrorType.C125_known
#print axioms Verif.Props.AutoOptional.C126_automatic
#print axioms Verif.Props.AutoOptional.C126_iff
#print axioms Verif.Props.AutoOptional.C126_off
#print axioms Verif.Props.IntoArg.C127_field
#print axioms Verif.Props.IntoArg.C127_struct
#print axioms Verif.Props.IntoArg.C127_alone
#print axioms Verif.Props.IntoArg.C127_no_helper
#print axioms Verif.Props.CloneArg.C128_field
#print axioms Verif.Props.CloneArg.C128_struct
#print axioms Verif.Props.CloneArg.C128_off
#print axioms Verif.Props.OptIn.C129_marked
#print axioms Verif.Props.OptIn.C129_implied
#print axioms Verif.Props.OptIn.C129_explicit
#print axioms Verif.Props.OptIn.C129_none
#print axioms Verif.Props.AutoGet.C130_automatic
#print axioms Verif.Props.AutoGet.C130_said
#print axioms Verif.Props.AutoGet.C130_spelled
