{
 "claims": [
  {
   "property": "C01",
   "status": "proved",
   "theorems": [
    "Polog.C01_namespace_is_a_map",
    "Polog.C01_other_keys_unaffected",
    "Polog.C01_read_back"
   ],
   "note": "Refinement of the tree to a plain map, operation by operation."
  },
  {
   "property": "C02",
   "status": "proved",
   "theorems": [
    "Polog.C02_iteration_complete_and_exact"
   ],
   "note": ""
  },
  {
   "property": "C03",
   "status": "partial",
   "theorems": [
    "Polog.C03_add_handlers_never_overwrites",
    "Polog.C03_occupied_name_rejected",
    "Polog.C03_free_name_can_be_taken_partial",
    "Polog.C03_free_name_can_be_taken_fails",
    "Polog.C03_selected_name_cannot_be_taken",
    "Polog.C03_root_never_registrable"
   ],
   "note": "Never overwrites: proved. A free name can always be taken: false of the code (names above a registered one, names read before through get_handlers); proved for the rest."
  },
  {
   "property": "C04",
   "status": "partial",
   "theorems": [
    "Polog.C04_no_dead_branches_partial",
    "Polog.C04_no_dead_branches_fails"
   ],
   "note": "Proved for histories without branch selection; selecting a branch creates empty nodes, so the full statement fails."
  },
  {
   "property": "C05",
   "status": "partial",
   "theorems": [
    "Polog.C05_global_exceptions",
    "Polog.C05_namespace_is_made",
    "Polog.C05_namespace_is_made_with_generated_names",
    "Polog.C05_live_or_lost",
    "Polog.C05_selected_branch_partial",
    "Polog.C05_nothing_else_visible",
    "Polog.C05_emptied_branch_lost",
    "Polog.C05_global_is_a_map",
    "Polog.C05_selected_branch_fails",
    "Polog.C05_selected_early_fails"
   ],
   "note": "False as stated: a selected branch that is empty at some deletion is cut off and stays invisible for good (C05_selected_branch_fails, C05_selected_early_fails, C05_emptied_branch_lost). Proved: live view while every deletion leaves a handler in the branch; for every history live or lost; nothing else is ever visible. C05_global_exceptions: which registrations and deletions raise, and what."
  },
  {
   "property": "C06",
   "status": "proved",
   "theorems": [
    "Polog.C06_names_and_numbers",
    "Polog.C06_other_names_unaffected",
    "Polog.C06_levels_nonnegative",
    "Polog.C06_levels_raises_iff",
    "Polog.C06_kind_of_rejection"
   ],
   "note": ""
  },
  {
   "property": "C07",
   "status": "partial",
   "theorems": [
    "Polog.C07_displayed_under_current_name_partial",
    "Polog.C07_displayed_under_last_given_name",
    "Polog.C07_displayed_under_current_name_fails"
   ],
   "note": "Proved when no name is moved to another number; false otherwise (stale reverse name)."
  },
  {
   "property": "C08",
   "status": "proved",
   "theorems": [
    "Polog.C08_rejected_change_has_no_effect",
    "Polog.C08_accepted_iff_acceptable",
    "Polog.C08_kind_of_rejection",
    "Polog.C08_unknown_name_rejected"
   ],
   "note": ""
  },
  {
   "property": "C09",
   "status": "proved",
   "theorems": [
    "Polog.C09_settings_always_valid",
    "Polog.C09_settings_always_valid_concurrent",
    "Polog.C09_defaults"
   ],
   "note": ""
  },
  {
   "property": "C10",
   "status": "proved",
   "theorems": [
    "Polog.C10_no_impossible_combination",
    "Polog.C10_no_impossible_combination_concurrent"
   ],
   "note": ""
  },
  {
   "property": "C11",
   "status": "proved",
   "theorems": [
    "Polog.C11_items_applied_in_order",
    "Polog.C11_reload_exactly_once_per_change",
    "Polog.C11_order_matters"
   ],
   "note": ""
  },
  {
   "property": "C12",
   "status": "proved",
   "theorems": [
    "Polog.C12_handlers_cannot_modify",
    "Polog.C12_assignment_and_deletion_raise"
   ],
   "note": ""
  },
  {
   "property": "C13",
   "status": "proved",
   "theorems": [
    "Polog.C13_compare_as_times",
    "Polog.C13_trichotomy",
    "Polog.C13_eq_equivalence_and_hash",
    "Polog.C13_incomparable",
    "Polog.C13_ne_is_not_eq",
    "Polog.C13_sorted_by_time"
   ],
   "note": ""
  },
  {
   "property": "C14",
   "status": "proved",
   "theorems": [
    "Polog.C14_each_handler_exactly_once",
    "Polog.C14_each_registered_key_once"
   ],
   "note": ""
  },
  {
   "property": "C15",
   "status": "proved",
   "theorems": [
    "Polog.C15_field_value",
    "Polog.C15_fields_are_taken_in_order",
    "Polog.C15_record_exactly",
    "Polog.C15_other_fields_untouched",
    "Polog.C15_raising_extractor_is_isolated",
    "Polog.C15_independent"
   ],
   "note": ""
  },
  {
   "property": "C16",
   "status": "partial",
   "theorems": [
    "Polog.C16_no_argument",
    "Polog.C16_dictionary",
    "Polog.C16_list",
    "Polog.C16_list_with_ellipsis",
    "Polog.C16_tuple",
    "Polog.C16_rejected",
    "Polog.C16_tuple_with_ellipsis_fails",
    "Polog.C16_reused_list_fails",
    "Polog.C16_keys_of_container"
   ],
   "note": "Dictionary and list forms proved; tuple with Ellipsis raises AttributeError and a reused list loses its Ellipsis."
  },
  {
   "property": "C17",
   "status": "partial",
   "theorems": [
    "Polog.C17_nothing_vanishes_or_duplicates",
    "Polog.C17_handled_at_most_once",
    "Polog.C17_exactly_once_unless_late_partial",
    "Polog.C17_exactly_once_in_calm_executions_partial",
    "Polog.C17_sync_exactly_once",
    "Polog.C17_no_log_lost_fails"
   ],
   "note": "Unconditional: nothing is handled twice and nothing vanishes. Exactly once at rest: proved when no reload begins while a direct write is in flight, and for the synchronous engine; false in general (witness: late put into a stopped engine)."
  },
  {
   "property": "C18",
   "status": "partial",
   "theorems": [
    "Polog.C18_every_call_can_return_partial",
    "Polog.C18_before_the_first_engine_iff",
    "Polog.C18_start_without_changes_can_return",
    "Polog.C18_after_the_first_engine_iff",
    "Polog.C18_no_deadlock_fails",
    "Polog.C18_writer_never_stranded_fails",
    "Polog.C18_reload_always_ends_fails"
   ],
   "note": "False in general: three witness schedules (lock-order deadlock with the first write; writer stranded at a full stopped queue; engine without workers). Otherwise exact: before the first engine exists all calls can return if and only if the locks are not taken crosswise by the writer of the first log and a change of a setting (C18_before_the_first_engine_iff); after that a call can return if and only if it does not wait for room in a full queue whose workers have all left (C18_after_the_first_engine_iff, for pools with workers and while no exit hook runs; C55 describes what happens after the hook)."
  },
  {
   "property": "C19",
   "status": "proved",
   "theorems": [
    "Polog.C19_all_handled_exactly_once_when_stopped",
    "Polog.C19_no_log_lost_or_duplicated",
    "Polog.C19_handled_at_most_once",
    "Polog.C19_queue_bounded",
    "Polog.C19_stop_can_always_complete",
    "Polog.C19_late_put_is_lost"
   ],
   "note": ""
  },
  {
   "property": "C20",
   "status": "proved",
   "theorems": [
    "Polog.C20_taken_in_order",
    "Polog.C20_one_worker_keeps_order",
    "Polog.C20_sync_handled_before_return_in_order",
    "Polog.C20_sync_at_most_the_last_missing"
   ],
   "note": ""
  },
  {
   "property": "C21",
   "status": "partial",
   "theorems": [
    "Polog.C21_hook_is_registered",
    "Polog.C21_started_exactly_once",
    "Polog.C21_user_set_started_fails"
   ],
   "note": "Proved for the library itself; false if the user sets the public setting started."
  },
  {
   "property": "C22",
   "status": "proved",
   "theorems": [
    "Polog.C22_handle_log_records_exactly_when_level_passes",
    "Polog.C22_log_statement_records_exactly_when_level_passes"
   ],
   "note": "Both for handle_log and for log used as a statement."
  },
  {
   "property": "C23",
   "status": "partial",
   "theorems": [
    "Polog.C23_strict_rejects_exactly_wrong_calls_partial",
    "Polog.C23_log_statement_wrong_calls_record_nothing_partial",
    "Polog.C23_log_statement_two_messages",
    "Polog.C23_unknown_fields_rejected_unless_allowed",
    "Polog.C23_log_statement_raises_fails",
    "Polog.C23_log_statement_unknown_fields_fails",
    "Polog.C23_two_names_of_one_field_fails",
    "Polog.C23_loyal_ignores_only_the_wrong_arguments_partial",
    "Polog.C23_loyal_never_raises_fails",
    "Polog.C23_loyal_two_names_fails",
    "Polog.C23_loyal_log_statement_records_the_rest_fails"
   ],
   "note": "handle_log: proved for calls that do not give one field under two names. False parts: log(...) as a statement never raises and ignores unknown_fields_in_handle_logs; two names of one field; unknown level and clashes raise in silent mode."
  },
  {
   "property": "C24",
   "status": "partial",
   "theorems": [
    "Polog.C24_decorators_are_transparent",
    "Polog.C24_same_outcome_as_the_original",
    "Polog.C24_unknown_level_raises_fails",
    "Polog.C24_unprintable_result_raises_fails"
   ],
   "note": "Proved for code whose logging arguments are valid (the condition of the property): transparent_ and same_outcome theorems. The _fails theorems show that an unknown level or an unprintable result makes the decorated function raise. Handlers and engine fields are outside the call (C14, C17); in-place extractors are called through exception-proof code (C13)."
  },
  {
   "property": "C25",
   "status": "partial",
   "theorems": [
    "Polog.C25_failing_generator_is_recorded_as_success_fails",
    "Polog.C25_record_of_a_generator_is_made_before_its_body",
    "Polog.C25_one_record_per_call_partial",
    "Polog.C25_as_many_records_as_calls"
   ],
   "note": "Full call trees of any depth. Missing: code that calls an unlogged function from inside a fully unlogged one (C29 shows extra records there) and code with invalid logging arguments (C24). The _fails theorem: a decorated generator function is recorded as a success before its body begins; what the body does is not recorded."
  },
  {
   "property": "C26",
   "status": "proved",
   "theorems": [
    "Polog.C26_level_of_the_record",
    "Polog.C26_level_is_determined"
   ],
   "note": "For any code and any state; the record of one decorated call."
  },
  {
   "property": "C27",
   "status": "partial",
   "theorems": [
    "Polog.C27_exceptions_of_polog_are_new",
    "Polog.C27_own_exception_is_recorded_by_the_next_partial",
    "Polog.C27_never_recorded_twice",
    "Polog.C27_recorded_once_by_the_innermost_partial",
    "Polog.C27_lost_when_innermost_is_filtered_fails",
    "Polog.C27_tasks_never_record_an_exception_twice",
    "Polog.C27_two_threads_record_one_exception_fails"
   ],
   "note": "At most once: proved for all code of one thread without exception, and for all tasks of an event loop together. Exactly once, by the innermost: for chains of any length when the innermost decorator passes the level filter; the first _fails theorem shows that otherwise nobody records it. Two threads that meet one exception object may both record it (second _fails theorem). An exception that Polog raises itself is a new one, and the next decorated function around it records it."
  },
  {
   "property": "C28",
   "status": "partial",
   "theorems": [
    "Polog.C28_record_has_the_last_own_message_partial",
    "Polog.C28_earlier_messages_do_not_matter",
    "Polog.C28_inner_call_clears_the_message_fails",
    "Polog.C28_message_of_a_filtered_call_leaks_fails",
    "Polog.C28_message_of_a_task_is_lost_fails"
   ],
   "note": "Holds for code that leaves its messages after the decorated functions it calls; the _fails theorems show the ways in which it breaks otherwise (clearing, leaking, a message left by a task that the function awaits)."
  },
  {
   "property": "C29",
   "status": "partial",
   "theorems": [
    "Polog.C29_generator_body_runs_as_without_unlog",
    "Polog.C29_unlogged_generator_logs_fails",
    "Polog.C29_nothing_recorded_inside_unlogged_partial",
    "Polog.C29_nested_unlogged_call_switches_logging_on_fails",
    "Polog.C29_task_of_an_unlogged_call_records_nothing_partial",
    "Polog.C29_thread_started_by_an_unlogged_call_logs_fails"
   ],
   "note": "Holds if the unlogged function calls no further unlogged function; also for the tasks made in it. The _fails theorems show that a nested unlogged call switches logging on again, that a thread started in an unlogged call logs, and that the body of an unlogged generator function logs."
  },
  {
   "property": "C30",
   "status": "partial",
   "theorems": [
    "Polog.C30_every_stack_amounts_to_something",
    "Polog.C30_stack_amounts",
    "Polog.C30_stack_at_once",
    "Polog.C30_call_is_that_of_the_topmost",
    "Polog.C30_unlog_wins",
    "Polog.C30_mode_of_unlog_below_is_forgotten_fails",
    "Polog.C30_decorating_the_same_object_twice_fails",
    "Polog.C30_decorating_a_class_partial",
    "Polog.C30_unlogging_a_class",
    "Polog.C30_methods_argument",
    "Polog.C30_second_subclass_records_twice_fails",
    "Polog.C30_methods_argument_removes_unlog_fails"
   ],
   "note": "Stacks: proved in full for every stack and every interleaved history of other functions. Classes: for classes whose methods are separate functions decorated step by step; the _fails theorems show second subclasses, re-decorated objects, methods= and full=False below @log."
  },
  {
   "property": "C31",
   "status": "partial",
   "theorems": [
    "Polog.C31_block_records_once_partial",
    "Polog.C31_record_tells_how_it_went",
    "Polog.C31_correct_blocks_begin",
    "Polog.C31_unknown_level_fails",
    "Polog.C31_unprintable_exception_fails",
    "Polog.C31_block_without_brackets_partial",
    "Polog.C31_suppress_without_brackets",
    "Polog.C31_suppress_then_call_fails",
    "Polog.C31_blocks_inside_calls"
   ],
   "note": "Proved for every block with correct arguments (known levels, printable exceptions), every sequence of suppress calls and edits, every outcome and state; also for blocks without brackets. The _fails theorems show the two ways in which the exit itself raises."
  },
  {
   "property": "C32",
   "status": "partial",
   "theorems": [
    "Polog.C32_blocks_pair_up_partial",
    "Polog.C32_record_of_a_nested_block_partial",
    "Polog.C32_task_made_inside_a_block_fails",
    "Polog.C32_block_that_does_not_begin_fails"
   ],
   "note": "Proved for any interleaving of any number of tasks, any nesting, edits and suppress calls through the context objects. Missing: tasks created inside a block share its stack, and a with log.suppress(...) that raises while beginning leaves its object on the stack; both are shown by _fails theorems."
  },
  {
   "property": "C33",
   "status": "partial",
   "theorems": [
    "Polog.C33_ordinary_attributes",
    "Polog.C33_attribute_is_the_level_partial",
    "Polog.C33_level_of_the_record",
    "Polog.C33_attribute_suppress",
    "Polog.C33_attribute_block",
    "Polog.C33_explicit_level_has_priority_fails",
    "Polog.C33_registered_levels_can_be_used"
   ],
   "note": "log.n(...) is log(..., level=n) for every argument list and every registered level (no registered name is an attribute of the logger); records and blocks have the registered level. The _fails theorem shows that an explicit level does not have priority."
  },
  {
   "property": "C34",
   "status": "partial",
   "theorems": [
    "Polog.C34_record_of_a_failed_assertion",
    "Polog.C34_true_expression_does_nothing",
    "Polog.C34_false_expression_logs_once_when_not_debugging",
    "Polog.C34_false_expression_raises_when_debugging",
    "Polog.C34_records_when_debugging_partial",
    "Polog.C34_message_text",
    "Polog.C34_if_debug_writes_nothing_when_debugging_fails",
    "Polog.C34_all_writes_one_record_fails",
    "Polog.C34_failing_expression_is_recorded_fails",
    "Polog.C34_never_raises_when_not_debugging",
    "Polog.C34_more_than_one_message"
   ],
   "note": "True and non-debug cases proved. False of the code: when debugging, if_debug writes one record and all writes two; an expression whose truth value raises is lost when not debugging."
  },
  {
   "property": "C35",
   "status": "partial",
   "theorems": [
    "Polog.C35_wanted_log_is_written",
    "Polog.C35_failed_write_goes_to_alt",
    "Polog.C35_unwanted_log_goes_to_alt_partial",
    "Polog.C35_chain_first_able_handler_writes",
    "Polog.C35_chain_never_raises",
    "Polog.C35_raising_filter_goes_to_alt_fails",
    "Polog.C35_filter_must_return_true_fails"
   ],
   "note": "Proved for filters that answer with a bool; a raising filter bypasses alt, a non-bool answer counts as True."
  },
  {
   "property": "C36",
   "status": "partial",
   "theorems": [
    "Polog.C36_each_thread_writes_in_order",
    "Polog.C36_written_as_often_as_called",
    "Polog.C36_reliable_system_writes_everything",
    "Polog.C36_one_thread_writes_in_order",
    "Polog.C36_all_on_disk_at_rest_partial",
    "Polog.C36_every_schedule_finishes",
    "Polog.C36_calls_can_be_finished",
    "Polog.C36_nothing_lost_on_one_file_system_partial",
    "Polog.C36_nothing_lost_by_one_thread_partial",
    "Polog.C36_buffered_text_is_lost_fails",
    "Polog.C36_unflushed_text_of_another_thread_is_lost_fails",
    "Polog.C36_failed_reopening_stops_the_handler_fails",
    "Polog.C36_no_line_refused_while_open_partial",
    "Polog.C36_every_line_written_or_given_to_alt"
   ],
   "note": "Any schedule on one file system, and one thread with forced_flush on any: proved, whatever fails during rotation. False across file systems with forced_flush=False or with two threads (witness runs); a rotation that cannot open the new file stops the handler for good (witness). Calls finish under every schedule: at most five steps of each thread, no deadlock."
  },
  {
   "property": "C37",
   "status": "proved",
   "theorems": [
    "Polog.C37_checked_thread_rotates_iff_due",
    "Polog.C37_without_rules_never_moved",
    "Polog.C37_size_is_bounded",
    "Polog.C37_rotation_is_due_iff_some_limit_is_reached"
   ],
   "note": "Decision of the rule set for the string, for the checking thread in every schedule, size bound and absence of rules."
  },
  {
   "property": "C38",
   "status": "proved",
   "theorems": [
    "Polog.C38_accepted_rotation_strings",
    "Polog.C38_other_strings_raise_value_error"
   ],
   "note": ""
  },
  {
   "property": "C39",
   "status": "partial",
   "theorems": [
    "Polog.C39_every_pattern",
    "Polog.C39_every_pattern_of_an_empty_group",
    "Polog.C39_unclosed_brackets_fails",
    "Polog.C39_patterns_match_their_language_partial",
    "Polog.C39_empty_pattern_fails",
    "Polog.C39_empty_group_fails"
   ],
   "note": "Proved for non-empty patterns and groups (`*` is the last item); an empty pattern accepts everything and an empty group raises IndexError. Every text of a pattern, also those written wrongly, is covered by C39_every_pattern and C39_every_pattern_of_an_empty_group; brackets that are not closed are silently forgotten (C39_unclosed_brackets_fails)."
  },
  {
   "property": "C40",
   "status": "proved",
   "theorems": [
    "Polog.C40_one_thread_inside_a_handler",
    "Polog.C40_no_deadlock"
   ],
   "note": ""
  },
  {
   "property": "C41",
   "status": "partial",
   "theorems": [
    "Polog.C41_separately_opened_lock_files_partial",
    "Polog.C41_forked_processes_interleave_fails",
    "Polog.C41_one_process_inside_partial",
    "Polog.C41_processes_with_threads_never_interleave_fails"
   ],
   "note": "Proved with one thread per process; with several threads false: release gives the thread lock back before the file lock (witness)."
  },
  {
   "property": "C42",
   "status": "partial",
   "theorems": [
    "Polog.C42_line",
    "Polog.C42_no_line_exactly",
    "Polog.C42_extra_fields_once",
    "Polog.C42_failing_extractor",
    "Polog.C42_unprintable_value_fails",
    "Polog.C42_standard_texts",
    "Polog.C42_missing_fields",
    "Polog.C42_place_text",
    "Polog.C42_service_name_of_another_moment_fails",
    "Polog.C42_success_of_other_values",
    "Polog.C42_usual_line"
   ],
   "note": "The line is characterised exactly (iff) for every record (C42_line), and C42_usual_line says the whole line of a usual record in words of its own (UsualSpec.lean does not refer to the functions that make the texts). Fails for fields whose str() raises: the whole record has no line, not only the field. C42_success_of_other_values: what is shown for values of success that are not flags."
  },
  {
   "property": "C43",
   "status": "proved",
   "theorems": [
    "Polog.C43_padding",
    "Polog.C43_columns_line_up",
    "Polog.C43_level_names_fit"
   ],
   "note": ""
  },
  {
   "property": "C44",
   "status": "partial",
   "theorems": [
    "Polog.C44_time_of_work_partial",
    "Polog.C44_meaning_unique",
    "Polog.C44_whole_tens_fails"
   ],
   "note": "Proved: the text denotes the nearest hundred-millionth exactly when that is not a multiple of ten seconds. Fails for multiples of ten seconds and zero: rstrip removes zeros before the point."
  },
  {
   "property": "C45",
   "status": "partial",
   "theorems": [
    "Polog.C45_absent_exactly",
    "Polog.C45_raises_exactly",
    "Polog.C45_one_entry_each_partial",
    "Polog.C45_subclass_fails",
    "Polog.C45_text_lists_all_arguments"
   ],
   "note": "Proved for values whose class is exactly bool, int, float, str or no subclass of them. Fails for instances of subclasses (IntEnum): the name of the base class is stored."
  },
  {
   "property": "C46",
   "status": "partial",
   "theorems": [
    "Polog.C46_generated_names_are_distinct_partial",
    "Polog.C46_generated_names_are_identifiers_partial",
    "Polog.C46_what_a_generated_name_is",
    "Polog.C46_names_never_end_fails",
    "Polog.C46_unnamed_handlers_are_all_registered_partial"
   ],
   "note": "Proved for the first 4999*74 names; the numerals end there, and so do the names (witness)."
  },
  {
   "property": "C47",
   "status": "proved",
   "theorems": [
    "Polog.C47_roman_numeral_denotes_its_number",
    "Polog.C47_roman_numeral_is_the_usual_one",
    "Polog.C47_roman_numerals_are_distinct",
    "Polog.C47_no_numeral_from_5000"
   ],
   "note": ""
  },
  {
   "property": "C48",
   "status": "partial",
   "theorems": [
    "Polog.C48_constructor_exclusive",
    "Polog.C48_no_deadlock",
    "Polog.C48_after_first_construction_partial",
    "Polog.C48_first_call_alone_partial",
    "Polog.C48_two_objects_fails"
   ],
   "note": "Proved for every interleaving once the first construction is over, and for all calls ever when the first one ran alone (import). Fails for calls racing with the first construction: the lock is taken but nobody checks again whether the object exists (witness: two objects)."
  },
  {
   "property": "C49",
   "status": "partial",
   "theorems": [
    "Polog.C49_accepted_callable_partial",
    "Polog.C49_accepted_callable_exactly",
    "Polog.C49_plain_accepted",
    "Polog.C49_callable_accepted_exactly",
    "Polog.C49_not_callable_rejected",
    "Polog.C49_accepted_not_callable_fails",
    "Polog.C49_callable_rejected_fails",
    "Polog.C49_template_matches_exactly",
    "Polog.C49_double_name_template_fails",
    "Polog.C49_empty_template_callable_partial"
   ],
   "note": "Exact characterisation of what is accepted and of which accepted functions can be called. Fails both ways: def h(x, *, y) is accepted and cannot be called; def h(x, y=1), h(*args), h(x, **fields), h(x=None) can be called and are rejected. Also: what a general template matches."
  },
  {
   "property": "C50",
   "status": "partial",
   "theorems": [
    "Polog.C50_registered_fields_keep_automatic_fields",
    "Polog.C50_registered_fields_keep_manual_fields",
    "Polog.C50_fields_of_a_decorator_replace_the_level_fails",
    "Polog.C50_level_names_never_shadow",
    "Polog.C50_field_names_never_shadow"
   ],
   "note": "Proved for names registered with config.levels, add_fields and add_engine_fields after any history, and for what extraction does to the fields of records. The names of extra_fields of a single decorator are not checked (the _fails theorem)."
  },
  {
   "property": "C51",
   "status": "partial",
   "theorems": [
    "Polog.C51_off_untouched",
    "Polog.C51_on_partial",
    "Polog.C51_settings",
    "Polog.C51_conflict_rejected",
    "Polog.C51_raises_exactly",
    "Polog.C51_child_logger_fails",
    "Polog.C51_exc_info_fails",
    "Polog.C51_false_message_fails"
   ],
   "note": "Every history of switching, any filters of the program itself, every record logged on the root logger without mistakes; exact characterisation of the calls that raise. Fails for records of child loggers, for exc_info=False / exc_info=True outside except, and for messages that are false values."
  },
  {
   "property": "C52",
   "status": "partial",
   "theorems": [
    "Polog.C52_limit_partial",
    "Polog.C52_returns_when_handled",
    "Polog.C52_empty_queue_no_wait",
    "Polog.C52_long_handler_fails",
    "Polog.C52_engine_lock_fails",
    "Polog.C52_zero_waits_for_the_queue",
    "Polog.C52_zero_fails",
    "Polog.C52_time_limit_decorator",
    "Polog.C52_bad_limit_no_limit",
    "Polog.C52_limit_argument",
    "Polog.C52_wrong_limit_is_refused"
   ],
   "note": "Limit and prompt return proved for the polling; the limit does not cover the joins of busy workers, the wait for the engine lock, and the value zero (three witnesses). The decorator itself: exact for positive limits."
  },
  {
   "property": "C53",
   "status": "proved",
   "theorems": [
    "Polog.C53_one_and_only_one_use",
    "Polog.C53_right_uses",
    "Polog.C53_dispatch",
    "Polog.C53_number_of_arguments",
    "Polog.C53_plain_call_is_a_manual_record",
    "Polog.C53_brackets",
    "Polog.C53_empty_brackets",
    "Polog.C53_wrong_second_brackets",
    "Polog.C53_further_arguments_are_ignored_fails",
    "Polog.C53_refused_block_is_recorded_fails",
    "Polog.C53_wrong_use_loses_the_record"
   ],
   "note": "C53_wrong_use_loses_the_record shows the limit of the statement: a use that raises (log(text)(5)) also loses the record."
  },
  {
   "property": "C54",
   "status": "partial",
   "theorems": [
    "Polog.C54_registry_is_a_map",
    "Polog.C54_same_exceptions",
    "Polog.C54_get_all_fields_partial",
    "Polog.C54_get_all_fields_off_fails"
   ],
   "note": "Registry proved; get_all_fields ignores fields_intersection."
  },
  {
   "property": "C55",
   "status": "partial",
   "theorems": [
    "Polog.C55_exit_hook_drains_partial",
    "Polog.C55_exit_hook_drains_in_calm_executions_partial",
    "Polog.C55_after_exit_hook_blocked_for_ever",
    "Polog.C55_exit_hook_drains_fails"
   ],
   "note": "Same exception as C17: logs put into the queue of an engine that is being exchanged; C55_exit_hook_drains_fails shows one that is never handled although its call has returned and the hook has ended."
  },
  {
   "property": "C56",
   "status": "proved",
   "theorems": [
    "Polog.C56_lock_types"
   ],
   "note": ""
  },
  {
   "property": "C57",
   "status": "partial",
   "theorems": [
    "Polog.C57_one_record_one_line_partial",
    "Polog.C57_file_splits_into_records_partial",
    "Polog.C57_forged_line_fails"
   ],
   "note": "Proved for records that contain no line break in any text. Fails otherwise: the formatter does not escape, a message can forge a line."
  },
  {
   "property": "C58",
   "status": "partial",
   "theorems": [
    "Polog.C58_holds_the_saved_records_partial",
    "Polog.C58_order_of_calls",
    "Polog.C58_racing_construction_fails",
    "Polog.C58_every_call_can_return"
   ],
   "note": "Without racing first constructions: the object holds exactly what was saved since the last cleaning, in the order of the calls, for every interleaving; every call that has begun can be finished, with racing constructors as well. Two first constructions that race lose saved records."
  },
  {
   "property": "C59",
   "status": "partial",
   "theorems": [
    "Polog.C59_kept_handlers_are_called_partial",
    "Polog.C59_kept_handlers_are_called_once_partial",
    "Polog.C59_only_registered_handlers_are_called",
    "Polog.C59_calm_walk_never_raises",
    "Polog.C59_operations_are_changes",
    "Polog.C59_walk_ends_when_changes_stop",
    "Polog.C59_concurrent_registration_loses_handlers_fails"
   ],
   "note": "Walk as a state machine interleaved with elementary changes of the shared nodes. Proved: kept handlers are called (once) when no node is being read at the moment of a change in it; only registered handlers are called in every schedule; the walk ends. Fails without that hypothesis: a registration while the children of a node are read raises RuntimeError (dictionary changed size) and registered handlers miss the log."
  },
  {
   "property": "C60",
   "status": "partial",
   "theorems": [
    "Polog.C60_text_lists_the_fields_partial",
    "Polog.C60_text_determines_the_fields_partial",
    "Polog.C60_text_determines_the_fields_fails",
    "Polog.C60_subject_tells_the_outcome",
    "Polog.C60_outcome_from_the_subject",
    "Polog.C60_letter",
    "Polog.C60_one_letter_for_a_wanted_log",
    "Polog.C60_password_is_not_shown"
   ],
   "note": "Text proved for values without line breaks (lines of the text = fields; the text determines the fields); fails otherwise: a message can forge a field. Subject, addresses, format, password, number of letters: complete."
  },
  {
   "property": "C61",
   "status": "partial",
   "theorems": [
    "Polog.C61_every_letter_sent_or_reported_partial",
    "Polog.C61_no_letter_twice_partial",
    "Polog.C61_no_letter_is_forgotten",
    "Polog.C61_never_both_fails",
    "Polog.C61_sequential_sending_delivers_partial",
    "Polog.C61_one_worker_delivers_partial",
    "Polog.C61_sequential_sending_goes_on",
    "Polog.C61_every_call_ends",
    "Polog.C61_working_server_gets_every_letter_fails",
    "Polog.C61_connections_are_closed_fails"
   ],
   "note": "For all schedules, failures and lost answers: no letter is delivered or reported more often than it was given, at rest every letter was delivered or reported, and every call ends by itself. If no answer of the server is lost, never both (partial). Delivery of every letter and closing of connections only if calls do not overlap or for one worker (partial); with two workers letters of a working server are lost and connections stay open; a lost answer makes a letter both delivered and reported."
  },
  {
   "property": "C62",
   "status": "partial",
   "theorems": [
    "Polog.C62_smtp_accepted_iff_documented",
    "Polog.C62_smtp_rejected_with_value_error",
    "Polog.C62_file_accepted_iff_documented",
    "Polog.C62_file_rejected_with_value_error",
    "Polog.C62_rotation_needs_a_path",
    "Polog.C62_subclass_checks",
    "Polog.C62_accepted_object_serves_fails",
    "Polog.C62_object_with_flush_serves",
    "Polog.C62_requested_lock_is_taken_fails",
    "Polog.C62_locks_for_a_path"
   ],
   "note": "Exact characterisation for both constructors and for user tables. Fails: an accepted file object without flush makes every record both written and given to alt; lock_type=\"file\" with stdout or a file object is accepted and takes no lock."
  },
  {
   "property": "C63",
   "status": "proved",
   "theorems": [
    "Polog.C63_accepted_iff",
    "Polog.C63_value",
    "Polog.C63_value_in_the_record"
   ],
   "note": "Complete; composed with the extraction loop of records (C15)."
  },
  {
   "property": "C64",
   "status": "partial",
   "theorems": [
    "Polog.C64_weak_dictionary_is_a_map_partial",
    "Polog.C64_keys_and_values_partial",
    "Polog.C64_items_of_callables_partial",
    "Polog.C64_no_dead_value",
    "Polog.C64_pop_with_two_defaults",
    "Polog.C64_pop_partial",
    "Polog.C64_del_partial",
    "Polog.C64_equal_keys_fails",
    "Polog.C64_items_are_pairs_fails",
    "Polog.C64_set_accepts_exactly",
    "Polog.C64_get_of_any_object_fails",
    "Polog.C64_keys_that_cannot_be_referred_to_weakly"
   ],
   "note": "Proved for keys with identity equality (functions, which is what the program stores). With keys that compare equal pairs get lost; items() calls the value instead of the reference and raises or returns something else; get of an object without weak references raises TypeError."
  },
  {
   "property": "C65",
   "status": "proved",
   "theorems": [
    "Polog.C65_representation_lists_the_nodes",
    "Polog.C65_representation_determines_the_nodes"
   ],
   "note": "Complete for names that are identifiers (no separator, no line break). RecursionError of very deep trees is not modelled."
  },
  {
   "property": "C66",
   "status": "proved",
   "theorems": [
    "Polog.C66_engine_as_configured",
    "Polog.C66_limited_queue_has_workers",
    "Polog.C66_change_takes_effect"
   ],
   "note": "Complete for the engine of the settings pool_size and max_queue_size (not for a user engine)."
  },
  {
   "property": "C67",
   "status": "partial",
   "theorems": [
    "Polog.C67_log_is_built_in_as_configured",
    "Polog.C67_logging_is_intercepted_as_configured",
    "Polog.C67_fields_intersection_as_configured_partial",
    "Polog.C67_first_log_is_created",
    "Polog.C67_fields_intersection_as_configured_fails"
   ],
   "note": "Built-in log and interception: complete. fields_intersection: proved when the setting is not changed during the creation of the very first log; otherwise the copy stays wrong (LogItem.__new__ reads and copies the setting without a lock)."
  },
  {
   "property": "C68",
   "status": "partial",
   "theorems": [
    "Polog.C68_delete_handlers_frees_exactly_the_given",
    "Polog.C68_delete_by_name",
    "Polog.C68_delete_by_object_partial",
    "Polog.C68_unknown_object_rejected",
    "Polog.C68_delete_by_object_fails"
   ],
   "note": "Full behaviour of delete_handlers against a separate specification over the name-to-handler map. Deleting by object only looks at names without dots: C68_delete_by_object_fails."
  },
  {
   "property": "C69",
   "status": "partial",
   "theorems": [
    "Polog.C69_registered_object_rejected_partial",
    "Polog.C69_new_object_registered",
    "Polog.C69_same_object_twice_fails"
   ],
   "note": "Holds for positional registration and names without dots; explicit names and nested names allow duplicates (C69_same_object_twice_fails)."
  },
  {
   "property": "C70",
   "status": "partial",
   "theorems": [
    "Polog.C70_rotated_names_differ",
    "Polog.C70_rotated_files_are_distinct",
    "Polog.C70_rotated_file_is_in_the_directory",
    "Polog.C70_same_moment_overwrites_fails"
   ],
   "note": "Names are injective in (time, process id); the exception is two rotations in the same microsecond by one process, which overwrite: C70_same_moment_overwrites_fails."
  },
  {
   "property": "C71",
   "status": "partial",
   "theorems": [
    "Polog.C71_lines_of_all_processes_kept_partial",
    "Polog.C71_finished_line_can_be_found_partial",
    "Polog.C71_line_of_another_process_is_lost_fails",
    "Polog.C71_long_lines_are_torn_fails",
    "Polog.C71_other_process_keeps_writing_to_the_rotated_file",
    "Polog.C71_lines_of_all_threads_can_be_found_partial"
   ],
   "note": "Holds on one file system for lines that fit into the buffer. Fails for rotation to another file system (a process with the deleted file open loses its lines) and for long lines (the lock is released between write and flush)."
  },
  {
   "property": "C72",
   "status": "partial",
   "theorems": [
    "Polog.C72_caller_sees_the_original_traceback",
    "Polog.C72_without_cutting",
    "Polog.C72_record_of_a_decorated_call_partial",
    "Polog.C72_record_without_cutting_partial",
    "Polog.C72_first_decorator_makes_the_record",
    "Polog.C72_one_record_per_exception",
    "Polog.C72_outer_decorators_make_no_record",
    "Polog.C72_record_by_hand_partial",
    "Polog.C72_function_written_in_C_fails",
    "Polog.C72_exception_kept_from_before_fails"
   ],
   "note": "With cutting on the caller sees the traceback it would see without decorators; records show the way from the decorated function to the error; with deduplicate_errors at most one record per exception, made by the innermost decorator. Failures: functions written in C, and exceptions kept from before."
  },
  {
   "property": "C73",
   "status": "partial",
   "theorems": [
    "Polog.C73_every_event_is_in_the_file_partial",
    "Polog.C73_file_reads_back_line_by_line_partial",
    "Polog.C73_every_event_is_in_the_file_with_a_pool_partial",
    "Polog.C73_unprintable_value_loses_the_line_fails"
   ],
   "note": "partial: the file system does not refuse to move or open files (C36 describes what happens otherwise), objects whose str() does not raise (C73_unprintable_value_loses_the_line_fails: otherwise the whole line is missing), messages placed where they are not lost (C28), no unlogged call inside an unlogged one (C29); with several threads rotated files stay on one file system. Composition of C25, C28, C35, C36, C42, C57."
  },
  {
   "property": "C74",
   "status": "partial",
   "theorems": [
    "Polog.C74_stopped_program_loses_at_most_one_event_partial",
    "Polog.C74_unprintable_value_loses_finished_records_fails",
    "Polog.C74_stop_loses_at_most_one_record",
    "Polog.C74_finished_records_are_on_the_disk",
    "Polog.C74_forced_flush_is_needed",
    "Polog.C74_threads_lose_only_lines_in_work"
   ],
   "note": "Proved for every history of one process with the synchronous engine, default forced_flush, with the move split into its smallest steps, and for several threads with the move as one step; C74_forced_flush_is_needed shows a loss of finished records without it. For whole programs the theorem is partial in the same way as C73 (several threads: C81). That the operating system keeps what it was given (no fsync in the code) is assumed."
  },
  {
   "property": "C75",
   "status": "proved",
   "theorems": [
    "Polog.C75_every_record_has_a_cause"
   ],
   "note": "Proved without any hypothesis on the program."
  },
  {
   "property": "C76",
   "status": "partial",
   "theorems": [
    "Polog.C76_auto_with_registered_fields_partial",
    "Polog.C76_mandatory_fields",
    "Polog.C76_auto_is_true_exactly_for_decorators_partial",
    "Polog.C76_auto_can_be_forged_fails"
   ],
   "note": "Presence is proved for all programs. Truth of auto is proved if no message gives the field and no extra field of a decorator replaces it (for registered fields this holds always); message(auto=False) forges it."
  },
  {
   "property": "C77",
   "status": "partial",
   "theorems": [
    "Polog.C77_threshold_with_registered_fields_partial",
    "Polog.C77_nothing_below_the_threshold_partial",
    "Polog.C77_message_puts_a_record_below_the_threshold_fails"
   ],
   "note": "Proved if no message gives a level and no extra field of a decorator replaces it (for registered fields this holds always); message(level=...) puts a record with a lower level through the filter."
  },
  {
   "property": "C78",
   "status": "proved",
   "theorems": [
    "Polog.C78_begun_tasks_run_as_alone",
    "Polog.C78_begun_threads_run_as_alone",
    "Polog.C78_threads_do_not_disturb_each_other",
    "Polog.C78_every_thread_can_end"
   ],
   "note": "Proved for all interleavings, also for threads and tasks that begin while the program runs, under the condition that each exception object is met by one thread only (marks on exceptions are shared); C27_two_threads_record_one_exception_fails shows what happens otherwise. The engine itself is the subject of C17-C21."
  },
  {
   "property": "C79",
   "status": "partial",
   "theorems": [
    "Polog.C79_only_lines_of_events_no_event_twice",
    "Polog.C79_every_event_of_every_thread_is_in_the_file_partial",
    "Polog.C79_unprintable_field_empties_the_file_fails"
   ],
   "note": "Safety is proved for all executions. Completeness is partial: no reload begins while a log is being handed over (C17 shows such logs can be lost), the system does not refuse to move and open files, rotated files stay on one file system (C36), messages are left where they are not lost (C28), no unlogged call inside an unlogged call (C29), each exception object is met by one thread only (C27, C78). Values whose str() raises have to be excluded as well: C79_unprintable_field_empties_the_file_fails is a whole program of two threads whose file stays empty."
  },
  {
   "property": "C80",
   "status": "partial",
   "theorems": [
    "Polog.C80_file_is_an_interleaving_of_the_threads_partial",
    "Polog.C80_unprintable_field_empties_the_file_fails"
   ],
   "note": "Partial for the same reasons as C79, except that reloads of the synchronous engine do no harm. C80_unprintable_field_empties_the_file_fails: false for programs with a field whose str() raises."
  },
  {
   "property": "C81",
   "status": "partial",
   "theorems": [
    "Polog.C81_stopped_threads_lose_at_most_one_event_each_partial",
    "Polog.C81_unprintable_field_loses_all_records_fails"
   ],
   "note": "Partial for the same reasons as C80. A move of the file is one step here; C74 splits it, for one thread. C81_unprintable_field_loses_all_records_fails: false for programs with a field whose str() raises."
  },
  {
   "property": "C82",
   "status": "partial",
   "theorems": [
    "Polog.C82_every_call_is_accounted_for",
    "Polog.C82_a_cut_call_raises",
    "Polog.C82_which_interrupts_the_program_gets",
    "Polog.C82_after_an_interrupt",
    "Polog.C82_interrupts_lose_only_the_interrupted_calls_partial",
    "Polog.C82_calls_can_return_after_interrupts_partial",
    "Polog.C82_interrupted_change_halts_logging_fails",
    "Polog.C82_interrupted_first_log_breaks_logging_fails",
    "Polog.C82_interrupted_change_takes_no_effect_fails",
    "Polog.C82_interrupted_change_loses_logs_at_exit_fails",
    "Polog.C82_interrupt_during_processing",
    "Polog.C82_processing_without_interrupt",
    "Polog.C82_interrupt_in_a_handler_is_swallowed_fails",
    "Polog.C82_interrupt_at_every_moment",
    "Polog.C82_cost_of_an_interrupt"
   ],
   "note": "Holds for interrupts at all places except while the main thread loads the first engine, replaces the engine or runs the exit hook (C82_interrupts_lose_only_the_interrupted_calls_partial, C82_calls_can_return_after_interrupts_partial). The failures: exception_escaping has a bare except and swallows KeyboardInterrupt (a handler, the callback of a setting, load, stop); block takes the engine lock without with, so an interrupted config.set(pool_size=...) returns normally and leaves the lock taken for ever (C82_interrupted_change_halts_logging_fails). Not modelled: an interrupt between the acquisition of a lock and the entry into with."
  },
  {
   "property": "C83",
   "status": "partial",
   "theorems": [
    "Polog.C83_kill_loses_a_limited_number_partial",
    "Polog.C83_kill_loses_a_limited_number_in_calm_executions_partial",
    "Polog.C83_kill_loses_with_those_in_calls_partial",
    "Polog.C83_sync_loses_nothing",
    "Polog.C83_kill_loses_a_limited_number_fails"
   ],
   "note": "The bound max_queue_size + pool_size is proved for every reachable state at which no setting is being changed; it does not count the logs that C17 loses in an exchange of engines (none in calm executions). With the default max_queue_size=0 there is no bound: C83_kill_loses_a_limited_number_fails shows an execution for every number."
  },
  {
   "property": "C84",
   "status": "partial",
   "theorems": [
    "Polog.C84_result_is_shown",
    "Polog.C84_other_result_is_shown",
    "Polog.C84_local_variables_are_shown",
    "Polog.C84_traceback_is_shown_partial",
    "Polog.C84_line_shows_the_way_to_the_error_partial",
    "Polog.C84_file_name_with_a_blank_fails"
   ],
   "note": "Proved for file names without white space (C84_traceback_is_shown_partial); C84_file_name_with_a_blank_fails shows what becomes of other names. C84_line_shows_the_way_to_the_error_partial joins it with C72. The format of traceback.format_tb (Python 3.8) and that the JSON module reads what it wrote are assumptions stated in the theorems."
  },
  {
   "property": "C85",
   "status": "partial",
   "theorems": [
    "Polog.C85_letters_are_unique",
    "Polog.C85_refused_exactly",
    "Polog.C85_letter_stands_for_one_class_partial",
    "Polog.C85_dot_fails",
    "Polog.C85_parts_of_a_group",
    "Polog.C85_first_of_a_group_partial"
   ],
   "note": "Fails for the letter \".\": it is accepted, although the message of the error says it is not, and it stands for every token in patterns (C85_dot_fails)."
  },
  {
   "property": "C86",
   "status": "partial",
   "theorems": [
    "Polog.C86_killed_pool_loses_a_limited_number_partial"
   ],
   "note": "Joins C79 (lines of the threads), C83 (what a kill loses in the engine) and C74 (what it loses in the file). Partial: no log reached an engine while it was being exchanged (C17), a system that does not refuse to move and open files, rotated files on the file system of the log, and the limits of C28, C29."
  },
  {
   "property": "C87",
   "status": "partial",
   "theorems": [
    "Polog.C87_log_after_the_engine_has_stopped_hangs",
    "Polog.C87_ended_program_has_recorded_everything_partial",
    "Polog.C87_used_object_does_not_write_at_exit",
    "Polog.C87_program_ends_fails",
    "Polog.C87_first_log_at_exit_fails",
    "Polog.C87_orderly_program_can_end",
    "Polog.C87_program_can_end_iff",
    "Polog.C87_silent_program_can_end"
   ],
   "note": "The code does not have this property: the exit hook of the engine keeps the engine lock for ever, so a program with an object of log(...) that is kept until exit and was made before the first log never ends (C87_log_after_the_engine_has_stopped_hangs, C87_program_ends_fails); if the first log is written at exit with a pool of workers, it is lost (C87_first_log_at_exit_fails). Proved: when a program in which some log has returned ends, all objects and callbacks have logged and everything is handled (except logs put into an engine that was being exchanged, C17). The limit of time of the hook is not part of this model (C52). The order of the callbacks of atexit is that of CPython up to 3.13. C21_hook_is_registered: when any log call has returned, the exit hook is registered once. C87_program_can_end_iff: with the other threads ended and pools that have workers, the program can end exactly if no callback registered before the first log has something to log at exit; C87_silent_program_can_end: a program that logged nothing and has nothing to log can end."
  },
  {
   "property": "C88",
   "status": "partial",
   "theorems": [
    "Polog.C88_logged_attribute_iff",
    "Polog.C88_unlogged_attribute_iff",
    "Polog.C88_methods_attribute_iff",
    "Polog.C88_number_of_wrappers",
    "Polog.C88_decorated_class_calls_the_same_partial",
    "Polog.C88_unlogged_class_calls_the_same_partial",
    "Polog.C88_calls_through_the_class_itself",
    "Polog.C88_static_methods_fails",
    "Polog.C88_class_methods_fails",
    "Polog.C88_nested_classes_fails",
    "Polog.C88_diamond_fails",
    "Polog.C88_decorated_class_method_twice_fails",
    "Polog.C88_what_unlog_replaces",
    "Polog.C88_what_log_replaces",
    "Polog.C88_what_log_with_methods_replaces",
    "Polog.C88_unnamed_attribute_iff"
   ],
   "note": "The code does not have this property: static methods called through an instance are given the instance as well, also with @unlog and also if methods= does not name them (C88_static_methods_fails); class methods likewise, and through a derived class they are given the decorated class (C88_class_methods_fails); nested classes become functions (C88_nested_classes_fails); inherited methods are copied and hide those of siblings (C88_diamond_fails); a decorator below @classmethod is not seen and the call is recorded twice (C88_decorated_class_method_twice_fails). The number of wrappers that calls go through is exact too: one more, unless the attribute is itself a function made by Polog. Proved: ordinary methods keep everything in all classes whose order of resolution ends with that of the decorated class; and every call through the decorated class itself is as before; for every attribute that is replaced, exactly (iff) which accesses keep their calls (C88_logged_attribute_iff, C88_unlogged_attribute_iff, C88_methods_attribute_iff)."
  },
  {
   "property": "C89",
   "status": "proved",
   "theorems": [
    "Polog.C89_log_reads_as_a_dictionary",
    "Polog.C89_reads_the_same_every_time"
   ],
   "note": "Full. Values are opaque; subclasses of LogItem and direct use of the attribute fields are outside."
  },
  {
   "property": "C90",
   "status": "partial",
   "theorems": [
    "Polog.C90_record_shows_the_arguments_partial",
    "Polog.C90_arguments_are_shown_as_at_the_end",
    "Polog.C90_changed_arguments_fails"
   ],
   "note": "The code makes JSON of the arguments when the function has ended: an argument that the function changes is shown as it is afterwards (C90_changed_arguments_fails). Proved: the references are always right, unchanged arguments are shown as at the call, and in general they are shown as at the end. Texts of objects do not change the state; subclasses of int, str, ... as in C45."
  },
  {
   "property": "C91",
   "status": "partial",
   "theorems": [
    "Polog.C91_no_log_is_lost_or_doubled",
    "Polog.C91_everything_is_handled_partial",
    "Polog.C91_rest_is_reached_partial",
    "Polog.C91_synchronous_order",
    "Polog.C91_limited_queue_fails",
    "Polog.C91_reload_fails",
    "Polog.C91_exit_fails"
   ],
   "note": "Never lost or doubled: proved for all executions, with reloads and exit. Everything is handled and no schedule gets stuck: proved without reloads and without max_queue_size (partial). False with max_queue_size (three calls block the program), during config.set(pool_size=...) and at the exit: reachable states in which no thread can make a step. Trees of logs are finite: a handler that writes a log for every log is left out."
  },
  {
   "property": "C92",
   "status": "partial",
   "theorems": [
    "Polog.C92_record_has_the_given_fields",
    "Polog.C92_message_asks_for_what_is_given",
    "Polog.C92_strict_message_rejects_wrong_calls_partial",
    "Polog.C92_loyal_message_ignores_wrong_arguments_partial",
    "Polog.C92_loyal_unknown_level_fails"
   ],
   "note": "Proved for correct calls, with the record of the call; strict and loyal mode proved for calls that do not give one field under two names (partial). False in loyal mode for unknown level names: message raises in the code of the user."
  },
  {
   "property": "C93",
   "status": "partial",
   "theorems": [
    "Polog.C93_change_completes_partial",
    "Polog.C93_waiting_log_fails",
    "Polog.C93_two_handlers_fails",
    "Polog.C93_synchronous_fails"
   ],
   "note": "Proved: no log is lost or doubled (C91_no_log_is_lost_or_doubled allows changes by handlers at any moment); however far a change has got, it can be completed if all other threads are idle and no log is queued, and then the new engine is in place and the handler goes on. False in general: a log waiting in the queue of the only worker, two handlers that change settings at once, and a handler called under the engine lock each stop the program for ever."
  },
  {
   "property": "C94",
   "status": "partial",
   "theorems": [
    "Polog.C94_failed_calls_hold_no_lock",
    "Polog.C94_with_an_engine_no_call_raises",
    "Polog.C94_config_set_repairs_a_failed_start",
    "Polog.C94_exit_without_an_engine_ends",
    "Polog.C94_failures_lose_nothing_partial",
    "Polog.C94_calls_can_return_after_failures_partial",
    "Polog.C94_without_an_engine_every_call_raises",
    "Polog.C94_failed_first_engine_fails",
    "Polog.C94_failed_replacement_of_a_pool_fails",
    "Polog.C94_settings_describe_the_engine_fails"
   ],
   "note": "Proved when the engine that cannot be created was to replace the synchronous one: nothing is lost and calls return. False for the first engine (log calls raise AttributeError) and for a pool (the stopped pool stays in use, logs are lost, the next change hangs); false also that the settings describe the engine. Proved in all cases: calls that have ended hold no lock; once an engine exists no log call raises; config.set can repair a failed start; the exit hook ends without an engine."
  },
  {
   "property": "C95",
   "status": "partial",
   "theorems": [
    "Polog.C95_record_of_a_calm_run_partial",
    "Polog.C95_kept_field_is_taken_partial",
    "Polog.C95_record_keeps_its_fields",
    "Polog.C95_only_registered_fields",
    "Polog.C95_extraction_ends",
    "Polog.C95_calls_are_changes",
    "Polog.C95_registration_breaks_a_log_call_fails",
    "Polog.C95_deletion_breaks_a_log_call_fails",
    "Polog.C95_field_that_registers_a_field_fails",
    "Polog.C95_field_silently_missed_fails"
   ],
   "note": "Proved for all runs in which no name is added or removed while a record goes through the fields (fields may be replaced under their names); the other theorems are about all runs. False in general: a registration or a deletion at the wrong moment makes the log call raise RuntimeError and lose the record; a field can also be missed silently when CPython rebuilds the table."
  },
  {
   "property": "C96",
   "status": "partial",
   "theorems": [
    "Polog.C96_lines_are_in_the_file_they_were_given_to",
    "Polog.C96_all_lines_are_in_files_at_rest",
    "Polog.C96_renamed_file_keeps_receiving_lines",
    "Polog.C96_lines_stay_in_named_files_partial",
    "Polog.C96_missing_name_is_not_noticed",
    "Polog.C96_lines_after_removal_are_lost",
    "Polog.C96_replaced_log_is_never_rotated",
    "Polog.C96_rotation_repairs",
    "Polog.C96_lines_stay_in_named_files_fails"
   ],
   "note": "Proved for rotations on one file system; others do not change contents of existing files. That every line can be found in a named file is proved when others only rename and create; it is false when they remove or replace the log: the handler does not notice, writes on to the nameless file, reports nothing and never rotates again until a file at its name is large enough (proved for all continuations)."
  },
  {
   "property": "C97",
   "status": "partial",
   "theorems": [
    "Polog.C97_failures_let_nobody_in",
    "Polog.C97_failures_let_no_process_in",
    "Polog.C97_lock_can_be_taken_again_partial",
    "Polog.C97_failed_lock_stays_taken",
    "Polog.C97_thread_and_file_fails"
   ],
   "note": "Exclusion is proved for all lock types it belongs to. Going on is proved for the lock types `thread` and `file`; for `thread+file` it is false: the thread lock is not given back when the file lock raises, and every later record through the handler waits for ever (proved for all continuations). Only failures of the system call are modelled, not asynchronous interrupts between lines."
  },
  {
   "property": "C98",
   "status": "partial",
   "theorems": [
    "Polog.C98_what_a_function_swallows",
    "Polog.C98_fixed_when_decorated_partial",
    "Polog.C98_bare_decorator_swallows_nothing",
    "Polog.C98_later_suppress_fails"
   ],
   "note": "Proved under the condition that .suppress(...) is not called with classes of the same object after decorating; without the condition it is false, because the decorated function looks into the list of the object at the time of each call. The exact behaviour is proved too."
  },
  {
   "property": "C99",
   "status": "partial",
   "theorems": [
    "Polog.C99_nothing_is_doubled_or_reordered",
    "Polog.C99_every_line_is_stored_or_handed_to_alt_partial",
    "Polog.C99_goes_on_when_there_is_room_partial",
    "Polog.C99_rotation_on_a_full_disk_fails",
    "Polog.C99_alt_and_file_fails",
    "Polog.C99_torn_line_fails",
    "Polog.C99_silent_loss_fails"
   ],
   "note": "That nothing is doubled, reordered or mixed is proved for any number of threads. That every record is whole in the files or handed to alt is proved when calls of the handler do not overlap; with two workers it is false (a failing flush of one drops the line of the other, whose own flush then succeeds). A record may be in the file and handed to alt; a long line may be torn. Logging goes on while the file is open; but a rotation while something waits in the buffer closes the file for ever (proved for all continuations). The behaviour of file objects of Python (text layer, binary layer) is part of the model, see Full.lean; rotations are renames here and forced_flush is on."
  },
  {
   "property": "C100",
   "status": "partial",
   "theorems": [
    "Polog.C100_text_lists_the_fields",
    "Polog.C100_raises_exactly",
    "Polog.C100_text_determines_the_fields_partial",
    "Polog.C100_text_of_a_log_is_ambiguous_fails",
    "Polog.C100_text_of_settings",
    "Polog.C100_text_of_a_log_object"
   ],
   "note": "The exact text is proved for all logs, settings and objects. That a text determines the fields is proved when strings have no double quotes and other values no commas; it is false otherwise: quotes are not escaped. The text of id() is a parameter."
  },
  {
   "property": "C101",
   "status": "partial",
   "theorems": [
    "Polog.C101_nothing_vanishes_or_duplicates",
    "Polog.C101_every_call_can_return_partial",
    "Polog.C101_collected_while_the_engine_is_replaced_fails",
    "Polog.C101_first_log_collected_fails",
    "Polog.C101_collected_inside_put_fails",
    "Polog.C101_synchronous_engine_needs_no_lock"
   ],
   "note": "Safety is proved in full (every call of a stack is a thread of the engine model). That the calls end is proved when no interrupted call holds a lock or the mutex of the queue, and without condition for the synchronous engine after its start; it is false otherwise: a destructor that logs while its thread replaces the engine, writes the first log or puts into the queue waits for its own thread for ever. Destructors in worker threads are left out."
  },
  {
   "property": "C102",
   "status": "partial",
   "theorems": [
    "Polog.C102_log_is_read_off_the_code",
    "Polog.C102_each_thread_logs_what_its_code_says",
    "Polog.C102_file_is_read_off_the_code_partial",
    "Polog.C102_files_of_all_threads_are_read_off_the_code_partial"
   ],
   "note": "Proved for programs written as documented (Orderly in Calls/PlainSpec.lean); the other programs are the subject of C23, C24, C28, C29 and their _fails theorems. The specification mentions only the code, the settings and the tables of fields, no function of the model of the library. The versions down to the file have the limits of C73 and C79."
  },
  {
   "property": "C103",
   "status": "partial",
   "theorems": [
    "Polog.C103_class_names",
    "Polog.C103_methods_must_be_a_collection",
    "Polog.C103_class_wrong_argument_partial",
    "Polog.C103_class_without_methods_fails",
    "Polog.C103_class_accepts_partial",
    "Polog.C103_built_in_methods_fails",
    "Polog.C103_missing_method",
    "Polog.C103_class_as_in_C30",
    "Polog.C103_failed_decoration_changes_nothing_fails",
    "Polog.C103_methods_as_text_fails",
    "Polog.C103_handlers_exceptions",
    "Polog.C103_fields_exceptions",
    "Polog.C103_function_arguments",
    "Polog.C103_accepted_arguments_take_effect",
    "Polog.C103_function_exceptions",
    "Polog.C103_accepted_paths_can_be_selected",
    "Polog.C103_decorator_with_brackets",
    "Polog.C103_settings_do_not_matter"
   ],
   "note": "Proved for functions, with the kind of every exception (C103_function_exceptions, C103_handlers_exceptions, C103_fields_exceptions). For classes three things are false: a class without methods accepts any message and level, a class with methods of a built-in type (every subclass of Exception or list) is refused with a TypeError, and a name in methods which the class does not have leaves the class half decorated; a text given as methods is read letter by letter."
  },
  {
   "property": "C104",
   "status": "partial",
   "theorems": [
    "Polog.C104_minus_signs",
    "Polog.C104_what_unlog_refuses",
    "Polog.C104_with_and_without_brackets",
    "Polog.C104_functions",
    "Polog.C104_classes_partial",
    "Polog.C104_class_as_in_C30",
    "Polog.C104_built_in_functions_fails",
    "Polog.C104_built_in_methods_fails",
    "Polog.C104_failed_unlog_changes_nothing_fails",
    "Polog.C104_unlogging_a_subclass_forbids_its_base_fails"
   ],
   "note": "Proved for functions, for wrong objects and for classes without methods of built-in types. False: a class with methods of a built-in type (every subclass of Exception or list) is refused with a TypeError, after some of its methods may have been replaced; and unlogging a subclass makes the inherited methods impossible to log in the base class. C104_minus_signs: `@(-log)` is `@unlog`."
  },
  {
   "property": "C105",
   "status": "partial",
   "theorems": [
    "Polog.C105_change_of_settings_in_the_child",
    "Polog.C105_no_log_in_both_processes",
    "Polog.C105_where_the_logs_of_the_child_are",
    "Polog.C105_synchronous_child_loses_nothing",
    "Polog.C105_fork_of_a_calm_synchronous_program",
    "Polog.C105_synchronous_log_of_the_child",
    "Polog.C105_logs_for_the_old_pool_are_lost",
    "Polog.C105_child_of_a_program_with_workers_fails",
    "Polog.C105_stop_of_the_old_pool_hangs",
    "Polog.C105_config_set_in_the_child_fails",
    "Polog.C105_fork_during_a_change_hangs",
    "Polog.C105_fork_during_the_first_log_fails"
   ],
   "note": "False for programs with workers: a log call of the child returns and its log waits for ever in a queue that nobody reads; config.set(pool_size=...) after it never returns, and the work of the exit hook ends only by its limit of time. False for a fork while another thread writes the first log or exchanges engines: no log call of the child ever returns. polog has no code for child processes; the model of os.fork() is stated in Engine/Fork.lean."
  },
  {
   "property": "C106",
   "status": "partial",
   "theorems": [
    "Polog.C106_lines_of_forked_processes_once_partial",
    "Polog.C106_files_are_what_was_written_partial",
    "Polog.C106_child_of_a_calm_fork_can_log",
    "Polog.C106_fork_during_a_call_shuts_the_child_out",
    "Polog.C106_fork_during_a_check_shuts_the_child_out",
    "Polog.C106_child_hangs_fails",
    "Polog.C106_fork_between_write_and_flush_fails",
    "Polog.C106_waiting_lines_come_twice_fails",
    "Polog.C106_file_lock_excludes_partial",
    "Polog.C106_nobody_waits_for_the_dead_partial",
    "Polog.C106_parent_and_child_inside_fails",
    "Polog.C106_forks_of_others_do_no_harm",
    "Polog.C106_lock_of_the_dead_is_kept_fails"
   ],
   "note": "Proved for forced_flush=True and forks during which no other thread is in the handler. False for a fork between write and flush of another thread (the line comes twice), for a fork while another thread holds a lock of the handler (every call of the handler in the child hangs), for forced_flush=False (waiting lines come twice), and for the file lock, which parent and child share: both get inside, and the lock of a killed parent stays taken while its child lives and does not log."
  },
  {
   "property": "C107",
   "status": "partial",
   "theorems": [
    "Polog.C107_written_lines_are_kept",
    "Polog.C107_handler_goes_on_after_interrupts_partial",
    "Polog.C107_interrupt_in_the_lock_stops_the_handler",
    "Polog.C107_interrupt_in_a_rotation_ends_the_log_file",
    "Polog.C107_interrupt_before_the_new_file_loses_all_later_lines",
    "Polog.C107_undisturbed_call_ends_on_disk",
    "Polog.C107_interrupt_in_the_lock_fails",
    "Polog.C107_interrupt_in_a_rotation_fails"
   ],
   "note": "That written lines are kept, each call is accounted for and an interrupt costs at most one line, and that an undisturbed call ends with its line on disk, is proved for all interrupts; that the handler goes on is proved for interrupts outside three places. At those it is false: an interrupt in DoubleLock.__enter__ after the lock was taken or in __exit__ before it is released leaves it taken and every later call of every thread hangs; one between moving the log file and opening the new one leaves no log file for ever, and, if the old one was closed, all later lines fail."
  },
  {
   "property": "C108",
   "status": "partial",
   "theorems": [
    "Polog.C108_ordinary_exceptions_as_described",
    "Polog.C108_decorators_are_transparent_partial",
    "Polog.C108_never_recorded_twice_partial",
    "Polog.C108_answering_exception_is_never_recorded",
    "Polog.C108_refusing_exception_is_replaced",
    "Polog.C108_frozen_exception_fails",
    "Polog.C108_forgetting_exception_fails",
    "Polog.C108_answering_exception_fails"
   ],
   "note": "Proved: code that raises ordinary exceptions runs as in C24-C31 whatever other classes there are; code is transparent as long as no exception raises something when an attribute of it is asked for or set; an exception is never recorded twice unless its class ignores the setting of attributes. False otherwise: a class that refuses to set attributes (frozen dataclass) or raises when asked has its exceptions replaced by another one, even under @log.suppress(), without a record; a class that answers to every name is never recorded by decorators; one that ignores the setting of attributes is recorded by every decorator."
  },
  {
   "property": "C109",
   "status": "partial",
   "theorems": [
    "Polog.C109_written_lines_are_kept",
    "Polog.C109_call_inside_a_lock_never_returns",
    "Polog.C109_call_inside_a_lock_stops_the_handler",
    "Polog.C109_calls_can_be_finished_iff",
    "Polog.C109_destructor_while_a_line_is_written_fails",
    "Polog.C109_destructor_while_rotation_is_checked_fails"
   ],
   "note": "Proved for all executions: the files hold what was written, whole, in order and once, and every finished call has one fate; all calls can be finished if and only if no destructor has called the handler while a call of the same thread that it interrupted holds a lock of the handler. If one has, the two calls never return and no thread that is outside the handler ever gets a line through it again (for all continuations): both locks of the handler are plain, not reentrant. Reachable in the middle of writing a line and while the rules of rotation are checked."
  },
  {
   "property": "C110",
   "status": "partial",
   "theorems": [
    "Polog.C110_class_of_a_function",
    "Polog.C110_class_of_a_class_method",
    "Polog.C110_record_names_its_function",
    "Polog.C110_methods_of_different_classes_differ",
    "Polog.C110_built_in_functions_fails",
    "Polog.C110_bound_to_a_named_object_fails"
   ],
   "note": "Proved for every nesting of classes and functions and for every program: plain functions, methods, lambdas, methods bound to instances; class methods get the class they were taken from. False for built-in functions (the module they are bound to is recorded as the class) and for methods bound to an object with a __name__ of its own."
  },
  {
   "property": "C111",
   "status": "partial",
   "theorems": [
    "Polog.C111_files_hold_what_is_due",
    "Polog.C111_an_emptied_file_holds_the_later_lines",
    "Polog.C111_copy_and_empty_at_once_loses_nothing",
    "Polog.C111_line_between_copying_and_emptying_is_lost_fails",
    "Polog.C111_a_line_is_torn_fails",
    "Polog.C111_whole_lines_are_never_torn"
   ],
   "note": "Proved for all executions: every file holds what is due; a file emptied while no call is in progress holds exactly the later lines; copying and emptying with nothing in between loses nothing, even in the middle of a line. False otherwise: a line written between copying and emptying is in neither file and is not reported; if a file is emptied in the middle of a long line, the rest of the line stays in it."
  },
  {
   "property": "C112",
   "status": "partial",
   "theorems": [
    "Polog.C112_holds_the_saved_records",
    "Polog.C112_log_inside_stops_the_handler",
    "Polog.C112_clean_of_a_record_with_a_destructor_hangs",
    "Polog.C112_calls_can_be_finished",
    "Polog.C112_clean_returns_iff",
    "Polog.C112_clean_always_returns_fails",
    "Polog.C112_saving_always_returns_fails"
   ],
   "note": "Proved for all executions: the contents are those of C58; a log of a destructor inside the handler stops it for ever; a clean that is to free an object whose destructor logs never returns; otherwise everything in progress can be finished; clean returns exactly when nothing it frees logs. Not always: a single record with such an object makes clean hang."
  },
  {
   "property": "C113",
   "status": "partial",
   "theorems": [
    "Polog.C113_interrupted_calls_are_not_recorded",
    "Polog.C113_interrupts_pass_decorators",
    "Polog.C113_block_swallows_an_interrupt_fails",
    "Polog.C113_message_of_an_interrupted_call_leaks_fails"
   ],
   "note": "Proved for all programs: decorators neither record nor hold up interrupts. False: with log.suppress() lets Ctrl-C through (it swallows it), and the message of an interrupted call stays out of other records."
  }
 ]
}