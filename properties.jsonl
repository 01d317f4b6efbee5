{"id": "C01", "title": "Handler namespace behaves as a map from dotted paths", "statement": "After any history of assignments tree[path]=h and deletions del tree[path] on a handler namespace, reading tree[path] gives the handler stored by the last successful assignment to exactly that path that was not deleted afterwards, and raises KeyError when there is none. An operation on one path never changes what any other path gives; a rejected operation changes nothing.", "quantifier": "every finite history of assignments and deletions, every path (any depth), every handler value", "why_tests_cant": "The result depends on the whole history: deletion prunes branches, and a pruning mistake shows only for particular shapes of the surrounding tree. Tests sample a few shapes; the claim is over all histories and all paths.", "anchors": ["polog/data_structures/trees/named_tree/tree.py:NamedTree.__setitem__", "polog/data_structures/trees/named_tree/tree.py:NamedTree.__getitem__", "polog/data_structures/trees/named_tree/tree.py:NamedTree.__delitem__", "polog/data_structures/trees/named_tree/tree.py:NamedTree.cut_empty_branch", "polog/config.py:config.set_handler", "polog/config.py:config.delete_handlers"]}
{"id": "C02", "title": "Iteration and len report every registered handler exactly once", "statement": "Iterating over the namespace gives the handler of every occupied path exactly once (none missing, none repeated, empty nodes skipped), parents before children and shallower paths before deeper ones, and len(tree) is the number of occupied paths.", "quantifier": "every tree reachable by any history, of any depth and width", "why_tests_cant": "Breadth-first traversal over arbitrary shapes; a handler lost in traversal is a log silently not delivered. Finite tests cannot cover all shapes.", "anchors": ["polog/data_structures/trees/named_tree/walker.py:TreeWalker.bfs", "polog/data_structures/trees/named_tree/tree.py:NamedTree.__len__", "polog/data_structures/trees/named_tree/tree.py:NamedTree.__iter__", "polog/core/log_item.py:LogItem.call_handlers"]}
{"id": "C03", "title": "Registering a handler never overwrites, and a free name can be taken", "statement": "config.add_handlers(name=h) raises NameError and leaves every path unchanged whenever a handler is already registered under that name; and when no handler is registered under that name (and the name is valid) it succeeds and the handler is then found there.", "quantifier": "every reachable handler namespace and every valid name", "why_tests_cant": "The second half quantifies over every history that leaves the name without a handler (including reads that create empty nodes), which tests do not enumerate.", "anchors": ["polog/config.py:config.add_handlers", "polog/config.py:config.set_handler", "polog/data_structures/trees/named_tree/tree.py:NamedTree.__contains__"]}
{"id": "C04", "title": "The namespace keeps no dead branches", "statement": "After any history of assignments and deletions, every node other than the root that is present in the namespace either holds a handler or leads to a node that holds one; so `name in tree` is true exactly when some registered path equals name or starts with 'name.'.", "quantifier": "every finite history of assignments and deletions", "why_tests_cant": "Pruning walks up the parents and deletes siblings; that no empty branch survives is an invariant of all histories.", "anchors": ["polog/data_structures/trees/named_tree/tree.py:NamedTree.cut_empty_branch", "polog/data_structures/trees/named_tree/tree.py:NamedTree.__delitem__", "polog/data_structures/trees/named_tree/tree.py:NamedTree.search_or_create_node"]}
{"id": "C05", "title": "A local handler namespace is a live view of the selected branches", "statement": "For a namespace obtained by config.get_handlers(paths) or @log(handlers=[paths]), every path that starts with one of the selected paths gives the same handler there as in the global namespace, also after any later registrations and deletions in the global namespace; no other global handler is visible.", "quantifier": "every global namespace, every set of selected paths, every later history of registrations and deletions", "why_tests_cant": "The view shares mutable nodes with the global tree; whether sharing survives depends on every later history.", "anchors": ["polog/data_structures/trees/named_tree/projector.py:TreeProjector.on", "polog/data_structures/trees/named_tree/tree.py:NamedTree.put_node", "polog/config.py:config.get_handlers", "polog/loggers/auto/function_logger.py:FunctionLogger.get_handlers"]}
{"id": "C06", "title": "Level names and numbers are interchangeable", "statement": "After any history of config.levels(...) / config.standard_levels(), using a level name anywhere is the same as using the number most recently assigned to that name; a non-negative number stands for itself; an unassigned name, a negative number and any other object are rejected with KeyError, and assigning one name never changes another.", "quantifier": "every finite history of level assignments and every name or number", "why_tests_cant": "Last-write-wins over unbounded histories and all names.", "anchors": ["polog/core/stores/levels.py:Levels.set", "polog/core/stores/levels.py:Levels.get", "polog/config.py:config.levels", "polog/config.py:config.standard_levels"]}
{"id": "C07", "title": "A level is displayed under one of its current names", "statement": "The text shown for a level number is a name whose current number is that level if such a name exists, and the decimal number itself otherwise.", "quantifier": "every finite history of level assignments and every level number", "why_tests_cant": "Needs all histories, in particular ones that move a name from one number to another.", "anchors": ["polog/core/stores/levels.py:Levels.get_level_name", "polog/core/stores/levels.py:Levels.set"]}
{"id": "C08", "title": "A rejected setting change has no effect", "statement": "When config.set(name=value) raises, no setting has changed because of the rejected item: the item keeps its previous value and its side effect (engine reload, logging filter, ...) is not run.", "quantifier": "every reachable settings state, every setting name and every value", "why_tests_cant": "Covers every setting, every value and every earlier history, including the interplay of validators, converters and conflict rules.", "anchors": ["polog/core/stores/settings/setting_point.py:SettingPoint.set", "polog/core/stores/settings/settings_store.py:SettingsStore.__setitem__", "polog/config.py:config.set"]}
{"id": "C09", "title": "Settings are always valid", "statement": "In every reachable state every setting holds a value accepted by its own documented constraint (pool_size and max_queue_size non-negative integers, levels non-negative integers, time_quant positive, service_name an identifier or None, ...).", "quantifier": "every finite history of accepted and rejected settings changes", "why_tests_cant": "An invariant over unbounded histories; converters and conflict checks run after validation.", "anchors": ["polog/core/stores/settings/setting_point.py:SettingPoint.prove_value", "polog/core/stores/settings/settings_store.py:SettingsStore.points"]}
{"id": "C10", "title": "Documented impossible combinations of settings never occur", "statement": "In every reachable state and under every interleaving of concurrent config.set calls: pool_size=0 implies max_queue_size=0, and integration_with_logging=False implies logging_off=False.", "quantifier": "every finite history and every thread schedule of concurrent config.set calls", "why_tests_cant": "It is a two-variable invariant whose preservation under concurrency depends on both settings sharing one lock; schedules cannot be enumerated by tests.", "anchors": ["polog/core/stores/settings/setting_point.py:SettingPoint.prove_conflicts", "polog/core/stores/settings/setting_point.py:SettingPoint.share_lock_object", "polog/core/stores/settings/settings_store.py:SettingsStore.points"]}
{"id": "C11", "title": "config.set applies its arguments in order up to the first rejected one", "statement": "config.set(a=..., b=..., c=...) behaves exactly as the consecutive single calls up to the first one that raises; that exception propagates and later items are not applied. The engine is reloaded exactly once for every applied item of pool_size/max_queue_size whose value really changed, and not otherwise.", "quantifier": "every list of keyword arguments, every starting state", "why_tests_cant": "Quantifies over all argument lists and all states; partial application is a property of the failing position.", "anchors": ["polog/config.py:config.set", "polog/core/stores/settings/actions/decorator.py:is_action", "polog/core/stores/settings/actions/reload_engine.py:reload_engine"]}
{"id": "C12", "title": "A log object cannot be modified by handlers through the dictionary interface", "statement": "No sequence of reads, item assignments and item deletions performed by handlers on a log object changes any field; every assignment and deletion raises.", "quantifier": "every log content and every sequence of dictionary-style operations", "why_tests_cant": "All sequences of operations.", "anchors": ["polog/core/log_item.py:LogItem.__setitem__", "polog/core/log_item.py:LogItem.__delitem__", "polog/core/log_item.py:LogItem.__getitem__", "polog/core/log_item.py:LogItem.get"]}
{"id": "C13", "title": "Logs compare as their times", "statement": "For logs that carry a time: <, <=, >, >=, ==, != agree with comparing the times, so exactly one of <, ==, > holds, == is an equivalence compatible with hash, and sorting logs orders them by time. Comparing with something that is not a comparable log: == is False, != is True, ordering raises.", "quantifier": "all pairs and triples of logs with arbitrary fields", "why_tests_cant": "Order laws are universally quantified over triples.", "anchors": ["polog/core/log_item.py:LogItem.__eq__", "polog/core/log_item.py:LogItem.__lt__", "polog/core/log_item.py:LogItem.compare", "polog/core/log_item.py:LogItem.compare_or_raise", "polog/core/log_item.py:LogItem.__hash__"]}
{"id": "C14", "title": "Every handler of a log is called exactly once, whatever the other handlers do", "statement": "When the engine processes a log, each handler in the log's handler namespace is called exactly once with that log, in namespace order, even if any subset of the handlers raises; no exception leaves the processing.", "quantifier": "every namespace of handlers, every assignment of outcomes (return / raise) to them", "why_tests_cant": "All subsets of failing handlers.", "anchors": ["polog/core/log_item.py:LogItem.__call__", "polog/core/log_item.py:LogItem.call_handlers", "polog/core/log_item.py:LogItem.call_one_handler", "polog/core/utils/exception_escaping.py:exception_escaping"]}
{"id": "C15", "title": "Extractable fields: independent, isolated and not overwriting", "statement": "After extraction a log holds, for each configured field name that was absent before, the value its extractor produced if it did not raise; a raising extractor leaves the log without that field and does not affect the other fields; a field already present is kept unless fields_intersection is on, in which case the extracted value replaces it. No exception leaves extraction.", "quantifier": "every log content, every ordered set of fields, every extractor outcome, both values of fields_intersection", "why_tests_cant": "Extractors see the partially filled log, so outcome depends on order and on all outcomes.", "anchors": ["polog/core/log_item.py:LogItem.extract_extra_fields_from", "polog/core/log_item.py:LogItem.extract_extra_fields"]}
{"id": "C16", "title": "Local fields replace or extend the global ones as documented", "statement": "@log(extra_fields=d) uses exactly d; extra_fields=[d1, d2, ...dn] uses their union (a name given by two of them is rejected when the decorator is applied); adding an Ellipsis additionally includes every global field that is not overridden locally, and tracks later changes of the global fields; without extra_fields exactly the global fields are used.", "quantifier": "every combination of local dictionaries, position of the Ellipsis, and every later change of the global fields", "why_tests_cant": "Live view plus overriding over all dictionaries and histories.", "anchors": ["polog/loggers/auto/function_logger.py:FunctionLogger.get_extra_fields", "polog/data_structures/wrappers/fields_container/container.py:FieldsContainer"]}
{"id": "C17", "title": "No log is lost or duplicated when the engine is reloaded", "statement": "For every schedule of threads writing logs and threads changing pool_size / max_queue_size, every written log is processed by the handlers exactly once.", "quantifier": "every number of writers, workers, reloads and every interleaving of their atomic steps", "why_tests_cant": "The races are between fetching the engine and putting into its queue; they need particular schedules.", "anchors": ["polog/core/engine/engine.py:Engine.write", "polog/core/engine/engine.py:Engine.reload", "polog/core/engine/engine.py:Engine.block", "polog/core/engine/engine.py:Engine.stop", "polog/core/engine/engine.py:Engine.load", "polog/core/engine/real_engines/multithreaded/pool.py:ThreadPool.stop", "polog/core/engine/real_engines/multithreaded/worker.py:Worker.run"]}
{"id": "C18", "title": "Logging and reconfiguring cannot deadlock", "statement": "In every reachable state in which some thread is inside a log write or config.set, some thread can take a step.", "quantifier": "every interleaving of a first log write and settings changes", "why_tests_cant": "Lock-order cycles appear only under particular schedules.", "anchors": ["polog/core/engine/engine.py:Engine.write", "polog/core/engine/engine.py:Engine.__init__", "polog/core/engine/engine.py:Engine.__second_init__", "polog/core/stores/settings/setting_point.py:SettingPoint.set", "polog/core/stores/settings/actions/reload_engine.py:reload_engine"]}
{"id": "C19", "title": "The asynchronous engine processes every accepted log exactly once before it stops", "statement": "A pool with n>=1 workers: whatever the schedule and whichever handlers raise, every log put into the queue before stop is handed to its handlers exactly once by exactly one worker, the queue never holds more than max_queue_size logs (if that is non-zero), and stop returns only when all of them have been handed over and finished.", "quantifier": "every number of workers, every queue limit, every list of logs and every interleaving", "why_tests_cant": "Schedules are unbounded; the termination protocol uses a timeout-and-flag race.", "anchors": ["polog/core/engine/real_engines/multithreaded/pool.py:ThreadPool.stop", "polog/core/engine/real_engines/multithreaded/pool.py:ThreadPool.put", "polog/core/engine/real_engines/multithreaded/worker.py:Worker.run", "polog/core/engine/real_engines/multithreaded/worker.py:Worker.set_stop_flag"]}
{"id": "C20", "title": "Handing logs over preserves order where promised", "statement": "The synchronous engine has called all handlers of a log before log() returns, so one thread's logs are handled in program order; with one worker the handlers see the logs in the order they entered the queue.", "quantifier": "every list of logs and every schedule with one worker", "why_tests_cant": "Order is a property of the complete schedule.", "anchors": ["polog/core/engine/real_engines/singlethreaded/engine.py:SingleThreadedRealEngine.write", "polog/core/engine/real_engines/multithreaded/pool.py:ThreadPool.put", "polog/core/engine/real_engines/multithreaded/worker.py:Worker.run"]}
{"id": "C21", "title": "The engine is started exactly once", "statement": "Whatever number of threads write their first log at the same time, the engine is loaded and the exit hook registered exactly once, and none of the logs is written before it is loaded.", "quantifier": "every number of threads and every interleaving of their first writes", "why_tests_cant": "Double-checked initialisation race.", "anchors": ["polog/core/engine/engine.py:Engine.write", "polog/core/engine/engine.py:Engine.__second_init__", "polog/core/engine/engine.py:Engine._new_write"]}
{"id": "C22", "title": "A manual log is recorded exactly when its level passes the threshold", "statement": "log(...) with valid arguments delivers exactly one record if its level is at least the global level and logging is not switched off by @unlog around it, and none otherwise; the recorded level is the passed one, or default_error_level if an exception was passed or success=False (and no level), or default_level.", "quantifier": "every combination of arguments, level table and settings", "why_tests_cant": "All level values and all argument combinations.", "anchors": ["polog/loggers/handle/handle_log.py:BaseLogger._push", "polog/loggers/handle/handle_log.py:BaseLogger._defaults", "polog/loggers/handle/abstract.py:AbstractHandleLogger.__call__"]}
{"id": "C23", "title": "Strict mode rejects wrong manual-log arguments without recording; loyal mode never raises", "statement": "With silent_internal_exceptions=False a call of log with a wrong argument (wrong type, two positional arguments, unknown field when forbidden) raises and records nothing. With silent_internal_exceptions=True no call of log with wrong arguments raises, and the correct arguments are still recorded.", "quantifier": "every list of positional and keyword arguments", "why_tests_cant": "All argument combinations, including aliases given together.", "anchors": ["polog/loggers/handle/abstract.py:AbstractHandleLogger._kwargs_to_dict", "polog/loggers/handle/abstract.py:AbstractHandleLogger._position_args_to_dict", "polog/loggers/handle/abstract.py:AbstractHandleLogger._maybe_raise"]}
{"id": "C24", "title": "The log decorator is transparent", "statement": "Calling a decorated function has the same outcome as calling the original: it returns the same value or raises the same exception, for functions whose logging arguments are valid, whatever happens inside handlers, fields and nested decorated calls.", "quantifier": "every program built from nested decorated, unlogged and plain calls, of any depth, every handler/field outcome", "why_tests_cant": "Quantifies over all call trees and outcomes.", "anchors": ["polog/loggers/auto/function_logger.py:FunctionLogger.__call__"]}
{"id": "C25", "title": "One call of a decorated function produces exactly one record", "statement": "Each call of a decorated function whose level passes and which is not inside an unlogged call produces exactly one automatic record, marked success=True with the result if the function returned and success=False with the exception otherwise (apart from the deduplication of already recorded exceptions); records appear in order of completion of the calls.", "quantifier": "every call tree of decorated functions of any depth", "why_tests_cant": "Induction over call trees.", "anchors": ["polog/loggers/auto/function_logger.py:FunctionLogger.log_normal_info", "polog/loggers/auto/function_logger.py:FunctionLogger.log_exception_info"]}
{"id": "C26", "title": "Level of an automatic record", "statement": "A successful call is recorded with the decorator's level, or default_level if none was given. A failing call is recorded with error_level if given; otherwise with the maximum of default_error_level, default_level and the decorator's level.", "quantifier": "every level table, settings and decorator arguments", "why_tests_cant": "All combinations of names, numbers and absent arguments.", "anchors": ["polog/core/utils/get_errors_level.py:get_errors_level", "polog/loggers/auto/function_logger.py:FunctionLogger.resolve_normal_level"]}
{"id": "C27", "title": "An exception passing through several decorators is recorded exactly once", "statement": "With deduplicate_errors on, an exception instance that propagates through any number of decorated calls gives exactly one error record, written by the innermost decorator (whose level passes).", "quantifier": "every chain/tree of decorated calls, all levels and thresholds", "why_tests_cant": "All nestings and all combinations of levels with the threshold.", "anchors": ["polog/loggers/auto/function_logger.py:FunctionLogger.log_exception_info"]}
{"id": "C28", "title": "message() edits the record of the decorated call it is made in, and no other", "statement": "Fields given by message(...) inside a decorated call appear in that call's own record and in no other record; the last message in the call wins.", "quantifier": "every call tree with message() calls anywhere", "why_tests_cant": "Context variables are shared by nested calls; leakage depends on the shape of the call tree.", "anchors": ["polog/loggers/handle/message.py:Message._push", "polog/loggers/handle/message.py:Message._copy_context", "polog/loggers/handle/message.py:Message._clean", "polog/loggers/auto/function_logger.py:FunctionLogger.__call__"]}
{"id": "C29", "title": "Nothing is recorded in the dynamic extent of an unlogged call", "statement": "While a call of a function marked @unlog(full=True) is in progress, no decorator and no manual log in the code it calls records anything, at any depth; after it returns or raises, logging works as before.", "quantifier": "every call tree, every nesting of unlogged, logged and plain calls and manual logs, normal and exceptional exits", "why_tests_cant": "Security-relevant and about all call trees; a nested unlogged call may restore the wrong state.", "anchors": ["polog/unlog.py:unlog.set_unlogged", "polog/unlog.py:unlog.get_unlog_status", "polog/unlog.py:unlog.unlog_function", "polog/loggers/handle/handle_log.py:BaseLogger._push", "polog/loggers/auto/function_logger.py:FunctionLogger.create_log_item"]}
{"id": "C30", "title": "Of several stacked log decorators only the outermost works, and @unlog wins anywhere in the stack", "statement": "For any stack of @log(...) decorators applied directly one on another, a call is recorded once, with the arguments of the outermost one. If @unlog occurs anywhere in the stack, no decorator of the stack records. A method's own @log is kept when its class is decorated.", "quantifier": "every finite stack of @log and @unlog in any order and length", "why_tests_cant": "All sequences of decorators.", "anchors": ["polog/core/stores/registering_functions.py:RegisteringFunctions", "polog/loggers/auto/function_logger.py:FunctionLogger.__call__", "polog/unlog.py:unlog.unlog_function", "polog/loggers/auto/class_logger.py:ClassLogger"]}
{"id": "C31", "title": "The context manager records once and suppresses exactly what was asked", "statement": "A `with log(...)` block produces exactly one attempt to record on exit, with success telling whether the block raised; the exception is swallowed iff suppress() was called without arguments, or it matches a class given to suppress(...) (exact class or subclass according to suppress_exception_subclasses), or suppress was not called and suppress_by_default is on. Otherwise it propagates unchanged.", "quantifier": "every block outcome, suppress arguments and settings", "why_tests_cant": "All class hierarchies and argument lists.", "anchors": ["polog/loggers/finalizer.py:LoggerRouteFinalizer.__exit__", "polog/loggers/finalizer.py:LoggerRouteFinalizer.suppress", "polog/core/utils/exception_is_suppressed.py:exception_is_suppressed"]}
{"id": "C32", "title": "Nested `with log` blocks without brackets pair up correctly", "statement": "For properly nested `with log` blocks in one thread (any depth, normal or exceptional exits), each exit records the block that was entered by the matching enter and edits made through its context object.", "quantifier": "every properly nested sequence of enters and exits", "why_tests_cant": "Stack discipline over unbounded nesting.", "anchors": ["polog/loggers/router.py:Router.__enter__", "polog/loggers/router.py:Router.__exit__"]}
{"id": "C33", "title": "log.<level> is the same as level=<level>", "statement": "For each registered level name n, log.n(...), @log.n(...) and with log.n(...) record exactly what log(..., level=n) etc. would; an explicitly passed level argument has priority.", "quantifier": "every argument list and every level name", "why_tests_cant": "All argument lists.", "anchors": ["polog/loggers/partial.py:RouterPartial.__call__", "polog/loggers/router.py:Router.__getattribute__"]}
{"id": "C34", "title": "ass() is an assert while debugging and a log otherwise", "statement": "ass(expr, msg): if expr is true nothing happens at all; if false and debugging, AssertionError is raised (and one record is written when smart_assert_politic='all'); if false and not debugging, exactly one record is written and nothing is raised.", "quantifier": "every expression value, message, politic and debug mode", "why_tests_cant": "Complete table over settings, argument shapes.", "anchors": ["polog/loggers/handle/smart_assert.py:SmartAssert.__call__", "polog/loggers/handle/smart_assert.py:SmartAssert.get_message", "polog/core/stores/settings/settings_store.py:SettingsStore.points"]}
{"id": "C35", "title": "Filters and the fallback of standard handlers", "statement": "A handler built on BaseHandler writes a log iff (only_errors is off or the log is not successful) and (there is no filter or it returns True); whenever it does not write, because of filters or because writing raised, alt (if given) is called exactly once with the log.", "quantifier": "every log, every filter/alt/writer behaviour", "why_tests_cant": "All combinations of outcomes.", "anchors": ["polog/handlers/abstract/base.py:BaseHandler.__call__", "polog/handlers/abstract/base.py:BaseHandler.to_do_or_not_to_do", "polog/handlers/abstract/base.py:BaseHandler.run_alt"]}
{"id": "C36", "title": "Rotation never loses or reorders lines", "statement": "For any sequence of logs written by the file handler with any rotation rule, the rotated files in order of rotation followed by the current file contain exactly the written lines in order (each once), provided rotated files get distinct names; also when a rotation attempt fails.", "quantifier": "every sequence of writes, every outcome of file operations, every rule", "why_tests_cant": "All histories, all failure points inside rotation.", "anchors": ["polog/handlers/file/writer.py:file_writer.do", "polog/handlers/file/rotation/rotator.py:Rotator", "polog/handlers/file/file_dependency_wrapper.py:FileDependencyWrapper.move_file"]}
{"id": "C37", "title": "The file is rotated exactly when a rule fires", "statement": "Before a line is written the file is rotated iff its size is at least one of the limits; limit = number * 1024^k bytes for the unit; so (if every line is shorter than L) the file never exceeds max limit by a full line, and with no rotation rule it is never moved.", "quantifier": "every file size, every rule set", "why_tests_cant": "All sizes and numbers.", "anchors": ["polog/handlers/file/rotation/rules/rules/file_size_rule.py:FileSizeRule", "polog/handlers/file/rotation/rules/rules/tokenization/tokens/size_token.py:SizeToken", "polog/handlers/file/rotation/rotator.py:Rotator.to_do"]}
{"id": "C38", "title": "Which rotation conditions are accepted", "statement": "A rotation condition is accepted iff it is exactly one positive integer and one size unit separated by white space; a rotation string consists of conditions separated by ',' or ';', optionally followed by one '>>' and a directory; everything else raises when the handler is created.", "quantifier": "every string", "why_tests_cant": "All strings.", "anchors": ["polog/handlers/file/rotation/parser.py:Parser", "polog/handlers/file/rotation/rules/rules/tokenization/tokenizator.py:Tokenizator", "polog/handlers/file/rotation/rotator.py:Rotator.extract_rules_string"]}
{"id": "C39", "title": "Token patterns match as documented", "statement": "check_regexp(pattern) on a group of tokens succeeds iff the token sequence is in the language of the pattern, where a letter matches one token of that type (optionally of a given content), '.' any one token and '*' any number of tokens.", "quantifier": "every pattern and every token sequence", "why_tests_cant": "Backtracking-free matching loop: correctness needs all patterns and all sequences.", "anchors": ["polog/handlers/file/rotation/rules/rules/tokenization/tokens/tokens_group.py:TokensGroup"]}
{"id": "C40", "title": "With lock_type='thread' decisions about rotation and writes never interleave", "statement": "In every schedule of threads of one process, at most one thread is inside the protected section of the file handler.", "quantifier": "every number of threads, every schedule", "why_tests_cant": "Schedules.", "anchors": ["polog/handlers/file/locks/double_lock.py:DoubleLock", "polog/handlers/file/locks/thread_lock.py:ThreadLock"]}
{"id": "C41", "title": "With lock_type='thread+file' processes never interleave", "statement": "In every schedule of the threads of several processes, at most one thread of all processes is inside the protected section of handlers for the same file.", "quantifier": "every number of processes and threads, every schedule", "why_tests_cant": "Release order of the two locks matters only under particular schedules.", "anchors": ["polog/handlers/file/locks/double_lock.py:DoubleLock.release", "polog/handlers/file/locks/file_lock.py:FileLock"]}
{"id": "C42", "title": "Structure of a text line", "statement": "The text of a log is the non-empty fields joined with ' | ' in the documented order followed by the separator; each extra field that is not a standard one appears exactly once as 'name: value'; a failing field extractor drops only its own field.", "quantifier": "every log content", "why_tests_cant": "All logs.", "anchors": ["polog/handlers/file/base_formatter.py:BaseFormatter"]}
{"id": "C43", "title": "Padding of columns", "statement": "Width/alignment padding: a column shorter than the width is padded to exactly the width, one at least as long is unchanged, and stripping the padding gives back the text.", "quantifier": "every text and width", "why_tests_cant": "All strings.", "anchors": ["polog/handlers/file/base_formatter.py:BaseFormatter.width_and_align"]}
{"id": "C44", "title": "The duration shown in a line is the measured duration", "statement": "The text 'time of work' denotes the measured number rounded to 8 decimals.", "quantifier": "every duration", "why_tests_cant": "All numbers.", "anchors": ["polog/handlers/file/base_formatter_fields_extractors.py:time_of_work"]}
{"id": "C45", "title": "Logged arguments keep value and type", "statement": "The json of input variables holds one entry per positional and per keyword argument, in order, with the value itself for bool/int/float/str and its text otherwise, and always the type name; it is absent exactly when there are no arguments.", "quantifier": "every list of arguments", "why_tests_cant": "All argument lists.", "anchors": ["polog/utils/json_vars.py:json_vars", "polog/utils/json_vars.py:get_item"]}
{"id": "C46", "title": "Automatically generated handler names are distinct and valid", "statement": "The names given to handlers registered without a name are pairwise distinct and valid node names, for any number of registrations and any shuffling.", "quantifier": "every number of generated names, every permutation chosen by the shuffle", "why_tests_cant": "Unbounded sequence and all permutations.", "anchors": ["polog/core/utils/pony_names_generator.py:PonyNamesGenerator", "polog/config.py:config.add_handlers"]}
{"id": "C47", "title": "Roman numerals", "statement": "The generated numeral of n is the Roman numeral of n: evaluating it gives n back, hence distinct numbers get distinct numerals.", "quantifier": "every n in range", "why_tests_cant": "All n.", "anchors": ["polog/core/utils/pony_names_generator.py:PonyNamesGenerator.roman_numerals"]}
{"id": "C48", "title": "Singletons are single", "statement": "All constructor calls of a read-only singleton class (the settings store, the engine, memory_saver) in all threads return one and the same object.", "quantifier": "every number of threads, every interleaving of first constructions", "why_tests_cant": "Race in first construction.", "anchors": ["polog/core/utils/read_only_singleton.py:ReadOnlySingleton"]}
{"id": "C49", "title": "A handler accepted at registration can be called with one argument", "statement": "Every callable accepted by add_handlers can be called with a single positional argument, and every plain function that can be called so is accepted.", "quantifier": "every function signature", "why_tests_cant": "All signatures.", "anchors": ["polog/core/utils/signature_matcher.py:SignatureMatcher", "polog/core/stores/handlers.py:global_handlers"]}
{"id": "C50", "title": "User level and field names never shadow the API", "statement": "A name accepted by config.levels is an identifier without a leading underscore that is not an attribute of log/message; a name accepted by add_fields is never one of the built-in fields. So built-in fields and methods keep their meaning in every reachable state.", "quantifier": "every name and history", "why_tests_cant": "All strings, all histories.", "anchors": ["polog/core/utils/name_manager.py:NameManager", "polog/config.py:config.levels", "polog/config.py:config.add_fields"]}
{"id": "C51", "title": "Interception of logging", "statement": "While integration_with_logging is on, each record that passes the root logger gives exactly one Polog record with the same message and level, success=False iff its level is >= WARNING, and the record goes on to logging's own handlers iff logging_off is False; while off none are intercepted.", "quantifier": "every sequence of settings changes and logging calls", "why_tests_cant": "All histories of switching on and off.", "anchors": ["polog/core/stores/settings/actions/integration_with_logging.py:integration_with_logging", "polog/core/stores/settings/actions/integration_with_logging.py:from_logging_filter_to_polog"]}
{"id": "C52", "title": "Time-limited exit", "statement": "The exit hook waits for the queue no longer than max_delay_before_exit (up to one polling interval) and returns as soon as the queue has been handled.", "quantifier": "every duration of work, limit and polling interval", "why_tests_cant": "All timings.", "anchors": ["polog/core/utils/time_limit.py:time_limit", "polog/core/engine/engine.py:Engine.atexit_register"]}
{"id": "C53", "title": "How log decides what it is used as", "statement": "log(x) for a function, class, string/other: one and only one of decorating a function, decorating a class, a manual record is done; brackets without arguments decorate like no brackets.", "quantifier": "every argument", "why_tests_cant": "All argument shapes.", "anchors": ["polog/loggers/router.py:Router.__call__", "polog/loggers/finalizer.py:LoggerRouteFinalizer.__call__"]}
{"id": "C54", "title": "Extractable fields registry", "statement": "add_fields / delete_fields / get_*_fields behave as a map from names; get_all_fields(name) gives the extractor whose value the record will finally hold when fields_intersection is on.", "quantifier": "every history", "why_tests_cant": "All histories.", "anchors": ["polog/config.py:config.add_fields", "polog/config.py:config.get_all_fields", "polog/core/stores/fields.py"]}
{"id": "C55", "title": "Everything accepted is handled before the program ends", "statement": "When the exit hook has ended, every log whose log() call had returned has been handled exactly once; calls made after that point never return.", "quantifier": "every number of writers and workers, every interleaving of the writes with the exit hook and with reloads", "why_tests_cant": "The hook races with the workers and with the writers.", "anchors": ["polog/core/engine/engine.py:Engine.atexit_register", "polog/core/engine/engine.py:Engine.block", "polog/core/engine/engine.py:Engine.stop"]}
{"id": "C56", "title": "Which lock types are accepted", "statement": "The lock_type of a file handler is accepted iff it is None or a '+'-joined list of distinct names from {file, thread} (white space around names does not matter); exactly the named locks are then used.", "quantifier": "every value given as lock_type", "why_tests_cant": "All strings.", "anchors": ["polog/handlers/file/locks/double_lock.py:DoubleLock.__init__", "polog/handlers/file/locks/abstract_single_lock.py"]}
{"id": "C57", "title": "One record is one line of the file", "statement": "A record written to a file with the default separator occupies exactly one line: the file splits at its line breaks into exactly the records that were written, in their order, and nothing a logged message or value contains can look like a further record.", "quantifier": "every record, every message, argument and extra field, every sequence of records", "why_tests_cant": "The tests write a few harmless messages; the claim is about every text a user may log, including texts with line breaks that come from outside.", "anchors": ["polog/handlers/file/base_formatter.py: BaseFormatter.format", "polog/handlers/file/base_formatter_fields_extractors.py: BaseFormatterFieldsExtractors.message", "polog/handlers/file/writer.py: file_writer.do"]}
{"id": "C58", "title": "memory_saver holds exactly the records given to it", "statement": "Whenever no call of a memory_saver is in progress, its attribute all is the list of the records given to it since the last clean(), in the order of the calls, and last is the last of them, or None if there is none; this holds for any number of threads that save, clean and construct.", "quantifier": "every number of threads and every interleaving of saves, cleanings and constructor calls", "why_tests_cant": "Races between threads; a test sees a few schedules.", "anchors": ["polog/handlers/memory/saver.py:memory_saver"]}
{"id": "C59", "title": "Handling a log while handlers are being registered", "statement": "If handlers are registered or removed while a log is being handled, every handler that stays registered during the whole handling is called exactly once for this log, only handlers that were registered at some moment are called, and the handling ends and raises nothing.", "quantifier": "every tree of handlers, every interleaving of the walk over it with registrations and removals by other threads", "why_tests_cant": "Needs all interleavings of two threads over one shared structure.", "anchors": ["polog/data_structures/trees/named_tree/walker.py", "polog/data_structures/trees/named_tree/tree.py:NamedTree", "polog/core/log_item.py:LogItem.__call__", "polog/config.py:config.add_handlers"]}
{"id": "C62", "title": "What the constructors of the standard handlers accept", "statement": "SMTP_sender(...) and file_writer(...) are created exactly when each argument is of its documented kind and raise ValueError otherwise; what is accepted then works as asked for (file, locks, rotation). A handler class written by the user is checked by its own table and by the standard one.", "quantifier": "every combination of arguments", "why_tests_cant": "The tests try a few wrong values for a few arguments; the claim is about every combination.", "anchors": ["polog/handlers/abstract/base.py:BaseHandler.do_input_proves", "polog/handlers/smtp/sender.py:SMTP_sender.__init__", "polog/handlers/file/writer.py:file_writer.__init__", "polog/handlers/file/file_dependency_wrapper.py:FileDependencyWrapper.get_file_object"]}
{"id": "C63", "title": "The class field", "statement": "field(extractor, converter) is created exactly when both are functions of one argument (the converter may be absent) and raises ValueError otherwise. The field of the record then holds converter(extractor(log)), or extractor(log) without a converter; if one of them raises, the field is absent.", "quantifier": "every extractor and converter, every record", "why_tests_cant": "All functions and records.", "anchors": ["polog/field.py:field", "polog/core/log_item.py:LogItem.extract_extra_fields_from"]}
{"id": "C60", "title": "What a letter says", "statement": "A log that passes the filters is sent as exactly one letter from and to the configured addresses; its subject tells whether the event succeeded, failed or is neutral; its text lists exactly the fields of the log, or is what the user functions return. The representation of the handler does not depend on the password.", "quantifier": "every log, every configuration of SMTP_sender", "why_tests_cant": "All field values, including texts that come from outside of the program.", "anchors": ["polog/handlers/smtp/sender.py:SMTP_sender.get_content", "polog/handlers/smtp/sender.py:SMTP_sender.get_standart_text", "polog/handlers/smtp/sender.py:SMTP_sender.get_standart_subject", "polog/handlers/smtp/sender.py:SMTP_sender.__repr__"]}
{"id": "C61", "title": "Letters sent by several workers", "statement": "With a working mail server every letter is delivered exactly once and every connection is closed afterwards, whichever worker sends which letter; in any case a letter is delivered once or its log goes to alt, never both.", "quantifier": "every number of workers, every interleaving of their calls of the mail library, every pattern of failures of the server", "why_tests_cant": "Races on the connection object that the workers share.", "anchors": ["polog/handlers/smtp/smtp_dependency_wrapper.py:SMTPDependencyWrapper.send", "polog/handlers/smtp/sender.py:SMTP_sender.do"]}
{"id": "C64", "title": "The weak dictionary of registered functions", "statement": "The weak dictionary behaves as a dictionary restricted to the pairs both of whose objects are alive: after any history of assignments, removals, pops and deaths of objects, looking up a living key gives the living value last assigned to it and not removed since, keys and values list exactly those pairs, items gives the pairs, and get of any object never raises.", "quantifier": "every history of dictionary operations and of deaths of keys and values, every equality of keys", "why_tests_cant": "The callbacks of dying objects run at arbitrary moments between the operations.", "anchors": ["polog/data_structures/wrappers/weak_linked/dictionary.py:LockedWeakKeyValueDictionary", "polog/core/stores/registering_functions.py:RegisteringFunctions"]}
{"id": "C65", "title": "The text of a namespace", "statement": "str of a namespace shows every node exactly once, below its parent and indented by its depth, so that the text tells which names exist; a namespace without handlers is shown as empty.", "quantifier": "every tree reachable by assignments and deletions, of any depth and width", "why_tests_cant": "Texts of all trees must be distinct; the position of every line must match the depth of its node.", "anchors": ["polog/data_structures/trees/named_tree/printer.py:TreePrinter.get_indented_representation", "polog/data_structures/trees/named_tree/walker.py:TreeWalker.dfs", "polog/data_structures/trees/named_tree/tree.py:NamedTree.get_full_name"]}
{"id": "C66", "title": "The engine runs as configured", "statement": "Whenever no accepted config.set(pool_size=...) or config.set(max_queue_size=...) is still being executed, the engine that handles the logs is the one these settings describe: the synchronous engine for pool_size 0, otherwise a pool with exactly pool_size workers and a queue limited by max_queue_size. A change is refused exactly if it would give a limited queue without workers, and an accepted one has its value until the call returns.", "quantifier": "every number of threads writing logs and changing settings, every interleaving, including the creation of the engine by the first log", "why_tests_cant": "The first log reads the settings one after another while other threads change them.", "anchors": ["polog/core/engine/engine.py:Engine.load", "polog/core/engine/engine.py:Engine.reload", "polog/core/engine/real_engines/fabric.py:real_engine_fabric", "polog/core/engine/real_engines/multithreaded/pool.py:ThreadPool.create_workers", "polog/core/stores/settings/setting_point.py:SettingPoint.set"]}
{"id": "C67", "title": "Settings that act outside of the store", "statement": "Whenever no change of the setting is in progress: log is a built-in exactly if log_is_built_in is True, records of logging are intercepted exactly if integration_with_logging is True, and logs use the configured value of fields_intersection.", "quantifier": "every number of threads changing settings and creating logs, every interleaving", "why_tests_cant": "The callbacks and the copy of a setting inside the class of logs race with the changes.", "anchors": ["polog/core/stores/settings/actions/set_log_as_built_in.py:set_log_as_built_in", "polog/core/stores/settings/actions/integration_with_logging.py:integration_with_logging", "polog/core/stores/settings/actions/fields_intersection.py:fields_intersection_action", "polog/core/log_item.py:LogItem.__new__", "polog/core/stores/settings/actions/decorator.py:is_action"]}
{"id": "C68", "title": "Deleting handlers frees exactly what was named", "statement": "config.delete_handlers(*args) takes its arguments one after another. A registered name is freed, an unregistered one raises KeyError. A registered handler object is unregistered from one name, an unregistered one raises ValueError. Every other registration is kept, and when an argument is refused the earlier ones stay deleted and the later ones stay registered.", "quantifier": "every history of add_handlers, delete_handlers and get_handlers calls, every registry it leads to, every list of names and objects", "why_tests_cant": "tests delete one or two handlers from a small registry; the claim is about every registry, including deep names, several names for one object, and emptied branches", "anchors": ["polog/config.py: config.delete_handlers", "polog/data_structures/trees/named_tree/tree.py: NamedTree.__delitem__"]}
{"id": "C69", "title": "A handler object is not registered twice", "statement": "config.add_handlers(h) with an object that is already registered raises ValueError and changes nothing; with an object that is not registered it is never refused as a duplicate.", "quantifier": "every history of API calls and every handler object", "why_tests_cant": "tests register the same object twice in a row; the claim is about every history, including deletions and nested names in between", "anchors": ["polog/config.py: config.add_handlers"]}
{"id": "C70", "title": "Rotated files never replace each other", "statement": "The name given to a rotated file is made of the time and the process. Two rotations at different microseconds or in different processes get different names, and the file is put directly into the given directory.", "quantifier": "all moments a datetime can hold (with and without microseconds), all process ids, all directories, any number of rotations", "why_tests_cant": "tests look at one or two names; collisions depend on particular moments such as a full second", "anchors": ["polog/handlers/file/rotation/rotator.py: Rotator.new_filename, Rotator.do"]}
{"id": "C71", "title": "Several processes may log to one file", "statement": "When several processes log to one file with lock_type containing 'file', every line for which the handler finished without an exception ends up whole and exactly once in the log or in a rotated file, whatever process rotates the file and when, and whenever processes start or die.", "quantifier": "any number of processes, every interleaving, every crash point, any rotation rules, any lines", "why_tests_cant": "tests run one process; losses depend on who has the moved file open and where a process stops", "anchors": ["polog/handlers/file/file_dependency_wrapper.py: FileDependencyWrapper.write, flush, move_file, reopen", "polog/handlers/file/writer.py: file_writer.do", "polog/handlers/file/rotation/rotator.py: Rotator.maybe_do"]}
{"id": "C72", "title": "Tracebacks are those of the program", "statement": "With traceback_cutting on, the exception that leaves a decorated function has the traceback it would have without decorators. The traceback in the record of a failed call leads from the decorated function to the place of the error and the local variables in the record are those of that call; log(..., exception=e) records the traceback of e.", "quantifier": "every program of nested decorated and undecorated calls, handlers that swallow, re-raise or replace exceptions and log by hand, with any suppression, deduplication and level filtering", "why_tests_cant": "The effect of a decorator depends on the whole chain of frames above and below it; tests use chains of one or two calls.", "anchors": ["polog/core/utils/cut_traceback.py", "polog/core/utils/get_traceback.py", "polog/loggers/auto/function_logger.py:wrapper,log_exception_info", "polog/loggers/handle/abstract.py:_extract_exception"]}
{"id": "C73", "title": "What was logged is in the file", "statement": "For every program that logs through decorated functions, with blocks, messages and manual calls, when it has run, the log file together with its rotated predecessors contains what was there before and then exactly one line for each event that had to be recorded, in the order of the events (in some order when several workers write), with the fields of that event, and nothing else; when no logged text contains line breaks, reading the file line by line gives exactly these lines back.", "quantifier": "every program (nesting of decorated, unlogged, plain calls, blocks, messages, manual logs), every table of levels and settings, every extractor of fields, every rotation behaviour of a working file system, every schedule of the threads that call the handler, every interleaving of partial buffer writes", "why_tests_cant": "a test runs one program with one rotation; the property joins the decorators, the extraction of fields, the formatter, the rotation and the buffering over all programs and schedules", "anchors": ["polog/loggers/auto/function_logger.py:FunctionLogger", "polog/loggers/handle/handle_log.py:BaseLogger", "polog/core/log_item.py:LogItem.__call__", "polog/core/engine/real_engines/singlethreaded/engine.py:SingleThreadedRealEngine.write", "polog/handlers/abstract/base.py:BaseHandler.__call__", "polog/handlers/file/base_formatter.py:BaseFormatter", "polog/handlers/file/writer.py:file_writer", "polog/handlers/file/file_dependency_wrapper.py:FileDependencyWrapper"]}
{"id": "C74", "title": "A crash loses at most the record in work", "statement": "With the synchronous engine and the default file handler, stopping the program at any moment (a kill or a power cut, also in the middle of a rotation, also repeatedly with restarts in between) loses at most the one record that was being written: everything that was in the files before and the line of every finished logging operation is on the disk, whole and in order.", "quantifier": "every sequence of records, every moment of stopping (including each place inside a rotation to the same or another file system), any number of stops and restarts, every split of the output between buffer and system", "why_tests_cant": "A test can kill the program at a few places; the claim is about every place and every history.", "anchors": ["polog/handlers/file/writer.py: file_writer.do", "polog/handlers/file/file_dependency_wrapper.py: FileDependencyWrapper.move_file, reopen, write, flush", "polog/core/engine/real_engines/singlethreaded/engine.py: SingleThreadedRealEngine.write"]}
{"id": "C75", "title": "Every record has a cause", "statement": "Whatever a program does (wrong arguments, values that cannot be printed, nested @unlog, messages anywhere), every record it produces belongs to a decorated call that ended, a manual log or a with block of this program, and its fields are those of that one call, with the fields of at most one message of the program. No record is made up, and no two calls are mixed in one record.", "quantifier": "every program built from decorated, unlogged and plain calls, with blocks, messages and manual logs, with any outcomes and arguments, valid or not; all settings", "why_tests_cant": "Programs are unbounded trees of calls; tests look at few shapes.", "anchors": ["polog/loggers/auto/function_logger.py: FunctionLogger.log_normal_info, log_exception_info", "polog/loggers/handle/abstract.py: AbstractHandleLogger.__call__", "polog/loggers/finalizer.py: LoggerRouteFinalizer.__exit__", "polog/loggers/handle/message.py: Message"]}
{"id": "C76", "title": "Mandatory fields", "statement": "Every record has the fields level, auto and time, whatever else it contains, and auto is True exactly if the record was made by a decorator; the user cannot control auto.", "quantifier": "every program, all messages, all extractable fields, all settings", "why_tests_cant": "Any combination of message fields and extractors must be tried, for any program.", "anchors": ["polog/loggers/auto/function_logger.py: FunctionLogger.get_base_args_dict", "polog/loggers/handle/handle_log.py: BaseLogger._specific_processing", "polog/loggers/handle/message.py: Message._copy_context", "polog/core/log_item.py: LogItem.extract_extra_fields_from"]}
{"id": "C77", "title": "Nothing below the threshold is recorded", "statement": "No record with a level lower than the setting level is ever handed to the engine, by any kind of logging.", "quantifier": "every program with any nesting of decorated calls, blocks, messages and manual logs, all levels and settings", "why_tests_cant": "The level of a record can come from five places; all combinations in all programs are meant.", "anchors": ["polog/loggers/auto/function_logger.py: FunctionLogger.log_normal_info, log_exception_info", "polog/loggers/handle/handle_log.py: BaseLogger._push", "polog/loggers/handle/message.py: Message._copy_context"]}
{"id": "C78", "title": "Threads do not disturb each other", "statement": "Threads or asyncio tasks that log at the same time produce, each of them, exactly the records it would produce alone, in the same order, and their functions end as they would alone: no message, @unlog, with block or exception of one thread acts on the records of another. Logging in one thread never makes another one wait.", "quantifier": "any number of threads, any programs in them, every interleaving of their steps, all settings", "why_tests_cant": "The interleavings are unlimited and a test sees a few of them.", "anchors": ["polog/loggers/handle/message.py: context", "polog/unlog.py: context", "polog/loggers/auto/function_logger.py: FunctionLogger.__call__, log_exception_info, log_normal_info"]}
{"id": "C79", "title": "Whole system: every event of every thread is in the file", "statement": "When several threads of a program use decorated functions, messages, with blocks and manual logging, and the logs go through the engine (synchronous or with a pool of workers, reloaded at will) to a file_writer with rotation: at every moment when the handler is at rest, the rotated files and the file hold what was there before plus whole lines, each for an event one of the threads had to record, no event twice and nothing else; and when everything has ended, there is exactly one line for every event to record.", "quantifier": "any number of threads, any programs in them, any interleaving of threads, workers, reloads and rotations, any settings, any refusals of the system (safety part)", "why_tests_cant": "The whole path has unlimited interleavings; a test sees a few schedules.", "anchors": ["polog/loggers/auto/function_logger.py: FunctionLogger", "polog/core/engine/engine.py: Engine.write, Engine.reload", "polog/core/engine/real_engines/multithreaded/engine.py: MultiThreadedRealEngine", "polog/core/log_item.py: LogItem.__call__", "polog/handlers/file/writer.py: file_writer.do"]}
{"id": "C80", "title": "The file is an interleaving of the logs of the threads", "statement": "With the default engine (pool_size=0) the lines of every thread appear in the file in the order in which the thread logged, none lost, doubled or torn, whatever the other threads do; when a call of a logger has returned its line is in the file.", "quantifier": "any number of threads, any programs in them, every interleaving, any rotation rules", "why_tests_cant": "The interleavings are unlimited and a test sees a few of them.", "anchors": ["polog/core/engine/real_engines/singlethreaded/engine.py: SingleThreadedRealEngine.write", "polog/handlers/file/writer.py: file_writer.do", "polog/handlers/file/rotation/rotator.py: Rotator.maybe_do", "polog/loggers/auto/function_logger.py: FunctionLogger"]}
{"id": "C81", "title": "A stop of a program with several threads loses at most the record in work of each thread", "statement": "With the default engine and a file_writer with the default forced_flush: if the program is killed at any moment, the rotated files and the file together hold what was there before, whole lines for the first events of every thread in their order, and possibly a beginning of the lines that were being written just then. Of the records a thread has logged at most the last one is missing, and none if the call of the logger has returned.", "quantifier": "any number of threads, any programs in them, every interleaving, any moment of the stop, any rotation rules", "why_tests_cant": "A test can stop the program at a few moments and in a few schedules only.", "anchors": ["polog/handlers/file/writer.py: file_writer.do", "polog/handlers/file/file_dependency_wrapper.py: FileDependencyWrapper.write, FileDependencyWrapper.flush", "polog/core/engine/real_engines/singlethreaded/engine.py: SingleThreadedRealEngine.write", "polog/loggers/auto/function_logger.py: FunctionLogger"]}
{"id": "C82", "title": "An interrupt leaves logging usable", "statement": "If the main thread gets KeyboardInterrupt (Ctrl-C) while it is inside polog, at whatever moment, the program is told of it; at most the log of the interrupted call is lost; all other logs are handled exactly once, and log calls and config.set of all threads go on working afterwards.", "quantifier": "every place of a log call, of config.set and of the exit hook at which the interrupt comes, any number of interrupts, any threads, workers, logs and changes of settings, every interleaving", "why_tests_cant": "An interrupt can come between any two instructions; a test can place it in a few of them only.", "anchors": ["polog/core/utils/exception_escaping.py: exception_escaping", "polog/core/engine/engine.py: Engine.write, Engine.reload, Engine.block, Engine.load, Engine.stop, Engine.unlock", "polog/core/stores/settings/setting_point.py: SettingPoint.set, SettingPoint.do_action", "polog/core/log_item.py: LogItem.call_one_handler, LogItem.extract_extra_fields_from"]}
{"id": "C83", "title": "A kill of the program loses a limited number of logs", "statement": "When the program is killed at any moment (so that the exit hook does not run) while the asynchronous engine works with a limited queue, at most max_queue_size + pool_size logs are lost whose log calls had returned; with the synchronous engine none.", "quantifier": "every execution: any number of threads, any interleaving of log calls, workers, changes of settings and reloads, and every moment of the kill at which no setting is being changed", "why_tests_cant": "The moment of the kill and the schedule of threads and workers are unbounded; a test sees a few of them.", "anchors": ["polog/core/engine/real_engines/multithreaded/pool.py: ThreadPool", "polog/core/engine/real_engines/multithreaded/worker.py: Worker.run", "polog/core/engine/engine.py: Engine", "polog/core/stores/settings/settings_store.py: max_queue_size, pool_size"]}
{"id": "C84", "title": "Results, local variables and tracebacks in a line", "statement": "The line of a record of a decorated call shows the returned value with its type; after an exception it shows all local variables of the call and, entry by entry, the traceback from this function to the place of the error: the line of code, the file, the line number and the function.", "quantifier": "every value, every set of local variables, every traceback of any depth, every program of nested decorated and other calls", "why_tests_cant": "The texts are re-parsed by splitting at white space; tests use a few short tracebacks with simple paths.", "anchors": ["polog/handlers/file/base_formatter_fields_extractors.py: result, local_variables, traceback, json_variable_to_human_readable_text, json_variables_to_text", "polog/core/utils/get_traceback.py: get_traceback, get_locals_from_traceback", "polog/utils/json_vars.py: json_vars, json_one_variable"]}
{"id": "C85", "title": "Every class of tokens has a letter of its own", "statement": "Whatever classes of tokens are defined, each of them (the abstract one excepted) has a letter of one character with no meaning of its own in patterns, no two have the same letter, and a definition that breaks this is refused with AttributeError and leaves no trace. So a letter in a pattern, or in group[letter], stands for the tokens of exactly one class.", "quantifier": "every sequence of class definitions, accepted and refused; every group of tokens and key", "why_tests_cant": "Tests define a handful of classes with particular letters, in one order.", "anchors": ["polog/handlers/file/rotation/rules/rules/tokenization/tokens/abstractions/meta_token.py: MetaToken", "polog/handlers/file/rotation/rules/rules/tokenization/tokens/tokens_group.py: TokensGroup.__getitem__"]}
{"id": "C86", "title": "A killed program: whole lines in the file, a limited number missing", "statement": "When a program whose threads log into a file through the asynchronous engine with a limited queue is killed at any moment, the file and its rotated files hold what they held before, then whole lines, each the line of a different event that the threads had to log, and after them at most a beginning of the lines in work. Missing are at most max_queue_size + pool_size of the records made, one more for each thread inside a log call and for each thread inside the file handler.", "quantifier": "every program of several threads, every interleaving of the threads, the engine with its workers and the file handler with rotation, and every moment of the kill at which no setting is being changed", "why_tests_cant": "The programs, schedules and moments of the kill are unbounded, and a test sees only a few of them.", "anchors": ["polog/core/engine/real_engines/multithreaded/pool.py: ThreadPool", "polog/core/engine/real_engines/multithreaded/worker.py: Worker.run", "polog/handlers/file/writer.py: file_writer.do", "polog/handlers/file/file_dependency_wrapper.py: FileDependencyWrapper", "polog/loggers/auto/function_logger.py: FunctionLogger"]}
{"id": "C87", "title": "A program that logs ends, and what is left to log at its end is recorded", "statement": "A program that has logged ends when its main thread is done: the callbacks that run at the exit of the interpreter return. Objects of log(...) that are alive and unused at that moment, and callbacks of the program that log, have their logs written, and every log whose call has returned is handled before the process ends.", "quantifier": "every program: every order in which objects of log(...) are made, used and dropped, callbacks are registered and the first log is written, with the synchronous and the asynchronous engine, every schedule of its threads and workers", "why_tests_cant": "The exit of the interpreter cannot be repeated inside a test process, and the orders of registrations and schedules are unbounded.", "anchors": ["polog/core/engine/engine.py: Engine.atexit_register", "polog/core/engine/engine.py: Engine.block", "polog/loggers/finalizer.py: LoggerRouteFinalizer.__init__", "polog/loggers/finalizer.py: LoggerRouteFinalizer.create_finalizer"]}
{"id": "C88", "title": "A decorated class still calls its methods with the same arguments", "statement": "After @log (with or without methods=) or @unlog on a class, a call of any of its attributes through the class, a derived class or an instance runs the same function of the user with the same arguments as before the decoration.", "quantifier": "all class hierarchies, all kinds of attributes (functions, static methods, class methods, nested classes), all names, all selections of methods, all ways to call and all arguments", "why_tests_cant": "the decorator goes through all attributes of any class with any bases; tests try a handful of classes with plain methods", "anchors": ["polog/loggers/auto/class_logger.py: ClassLogger.__call__, make_originals, get_logging_methods", "polog/unlog.py: UnlogDecorator.__call__"]}
{"id": "C89", "title": "A log reads as a dictionary", "statement": "Whatever a log was given (fields set by the logger, or nothing at all), all ways of reading it agree with one dictionary: iteration, keys(), items(), values(), len(), the operator in, log[name], get(name) and get(name, default). A missing field raises KeyError for log[name] and gives None or the default for get. No handler can change the answers.", "quantifier": "every content of a log, every field name, every default, every sequence of operations and handlers before the read", "why_tests_cant": "Ten methods each treat a log without data separately; agreement is over all contents and names.", "anchors": ["polog/core/log_item.py:LogItem.__getitem__", "polog/core/log_item.py:LogItem.__contains__", "polog/core/log_item.py:LogItem.get", "polog/core/log_item.py:LogItem.items", "polog/core/log_item.py:LogItem.__len__", "polog/core/log_item.py:LogItem.__iter__"]}
{"id": "C90", "title": "The record of a call tells its arguments", "statement": "The log of a call of a decorated function holds references to exactly the positional and keyword arguments of this call, also for nested calls, and a manual log holds None. The field input_variables shows exactly these arguments, in order, as they were when the function was called; there is no such field when there are no arguments.", "quantifier": "every program, call structure, number of arguments, way in which calls end, and every change the program makes to its objects", "why_tests_cant": "Arguments are shared with the program, which may change them at any point of any nested call; a test fixes one function.", "anchors": ["polog/loggers/auto/function_logger.py:FunctionLogger.log_normal_info", "polog/loggers/auto/function_logger.py:FunctionLogger.log_exception_info", "polog/loggers/auto/function_logger.py:FunctionLogger.create_log_item", "polog/core/log_item.py:LogItem.function_input_data", "polog/utils/json_vars.py:json_vars"]}
{"id": "C91", "title": "Handlers may write logs", "statement": "When a handler (or a function that makes a field) writes logs itself, every log, also those written by handlers, is handled exactly once and every call returns: the synchronous engine finishes the logs of the handlers before the log being handled, the pool puts them into its queue. This is so as long as the settings are not changed, the program does not end and max_queue_size is not set. Otherwise one handler that writes one log can stop the whole program for ever.", "quantifier": "all numbers of client threads and workers, all sizes of the queue, all finite trees of logs written by handlers, all schedules, all moments of changes of the settings and of the exit", "why_tests_cant": "A deadlock needs a handler to write its log in a window between two steps of another thread; a test sees a few schedules, and the guarantee is about all of them and about trees of any depth.", "anchors": ["polog/core/engine/engine.py:Engine.write", "polog/core/engine/engine.py:Engine._blocked_write", "polog/core/engine/engine.py:Engine.reload", "polog/core/engine/real_engines/multithreaded/pool.py:ThreadPool.stop", "polog/core/engine/real_engines/multithreaded/worker.py:Worker.run", "polog/core/engine/real_engines/singlethreaded/engine.py:SingleThreadedRealEngine.write"]}
{"id": "C92", "title": "message() changes exactly the fields it is given", "statement": "A correct call of message(...) in a decorated function never raises, and the record of the call has, for every field, the value given to message (short names resolved, level names as numbers, classes by name, an exception replaced by its type, text, traceback and local variables without touching success and level), and the automatic value for every field not given. In strict mode message(...) raises exactly when the call is wrong, and then changes nothing; in loyal mode it does what the call without the wrong arguments does.", "quantifier": "all settings, all positional and keyword arguments, all decorated functions", "why_tests_cant": "Arguments, settings and their combinations are unbounded; tests try a few fields one at a time.", "anchors": ["polog/loggers/handle/message.py:Message._specific_processing", "polog/loggers/handle/message.py:Message._push", "polog/loggers/handle/message.py:Message._copy_context", "polog/loggers/handle/abstract.py:AbstractHandleLogger._kwargs_to_dict", "polog/loggers/handle/abstract.py:AbstractHandleLogger._extract_exception"]}
{"id": "C93", "title": "Settings changed by handlers", "statement": "A handler may call config.set(pool_size=...) or config.set(max_queue_size=...): the call returns, the new settings are used from then on, the handler goes on where it was, and no log is lost or handled twice; in particular the program does not stop.", "quantifier": "every number of threads and workers, every moment at which handlers change the settings, every schedule", "why_tests_cant": "The call is made by a thread of the very pool that is being stopped; whether it returns depends on what all other threads do at that moment.", "anchors": ["polog/core/engine/engine.py:Engine.reload", "polog/core/engine/real_engines/multithreaded/pool.py:ThreadPool.stop", "polog/core/engine/real_engines/multithreaded/worker.py:Worker.stop", "polog/core/stores/settings/actions/reload_engine.py"]}
{"id": "C94", "title": "A failure to create an engine does not lose logs", "statement": "Creating an engine can fail: no more threads can be started, or the class given in the setting `engine` raises. However often that happens, no log call raises because of it, every written log is handled exactly once or is on its way, every log call and every `config.set(...)` can still return, and a change of a setting that returned normally is in force.", "quantifier": "every interleaving of any number of threads that write logs and change `pool_size` and `max_queue_size`, every set of moments at which the creation of an engine fails", "why_tests_cant": "A test makes one creation fail at one moment; which logs were in flight, which engine was being replaced and what is called afterwards are all free.", "anchors": ["polog/core/engine/engine.py: Engine.load, Engine.stop, Engine.reload, Engine.write, Engine.__second_init__", "polog/core/utils/exception_escaping.py: exception_escaping", "polog/core/engine/real_engines/multithreaded/pool.py: ThreadPool.stop, ThreadPool.create_workers", "polog/core/stores/settings/settings_store.py: the setting engine"]}
{"id": "C95", "title": "Fields registered and deleted while the program logs", "statement": "If extra fields are registered, replaced or deleted (by other threads or by the fields themselves) while a record is being made, the log call raises nothing, the record gets every field that stays registered during the whole call, and only fields that were registered under their name at some moment; what the record held already stays, unless fields_intersection is on; and the call ends.", "quantifier": "every dictionary of registered fields, every record, every local set of fields, every interleaving of the extraction with registrations and deletions", "why_tests_cant": "Needs all interleavings of the iteration over a shared dictionary with its changes.", "anchors": ["polog/core/log_item.py:LogItem.extract_extra_fields_from", "polog/core/stores/fields.py", "polog/config.py:config.add_fields", "polog/config.py:config.delete_fields", "polog/data_structures/wrappers/fields_container/container.py:FieldsContainer.items"]}
{"id": "C96", "title": "Log files that others rename, replace or remove", "statement": "If other programs rename, replace, remove or create files while the file handler works, no line is lost, doubled or reordered: every file holds what it held before and then exactly the lines that were given to it while the handler had it open; as long as others only rename and create files every written line can be found in a file that has a name; a log file that was renamed keeps receiving the lines until the handler rotates, and a rotation brings the handler back to its name.", "quantifier": "every sequence of lines by any number of threads, every rotation rule, every interleaving with renames, removals, replacements and creations of files", "why_tests_cant": "Needs all interleavings of the handler with changes of the file system by others.", "anchors": ["polog/handlers/file/writer.py:file_writer.do", "polog/handlers/file/file_dependency_wrapper.py:FileDependencyWrapper.get_size", "polog/handlers/file/file_dependency_wrapper.py:FileDependencyWrapper.move_file", "polog/handlers/file/rotation/rotator.py:Rotator.maybe_do"]}
{"id": "C97", "title": "A failure to take the lock of a log file costs one record", "statement": "If the system call that locks the log file fails, or is interrupted while it waits for another process, this costs only the record in question: no thread and no process gets into a handler while another is there, and later records can be written through the same handler.", "quantifier": "every lock type, every number of threads, processes and handlers, every schedule and every place of the failures", "why_tests_cant": "Needs all schedules, all places of the failure and all continuations; a failing system call is not met in tests.", "anchors": ["polog/handlers/file/locks/double_lock.py:DoubleLock.__enter__", "polog/handlers/file/locks/file_lock.py:FileLock.acquire", "polog/handlers/file/file_dependency_wrapper.py:FileDependencyWrapper.write"]}
{"id": "C98", "title": "What a decorated function swallows is fixed when it is decorated", "statement": "A function or class decorated with log(...) swallows exactly what .suppress(...) was asked for before it was decorated; whatever is done later with that object, with other objects or with other functions does not change it. A bare @log swallows nothing.", "quantifier": "every history of log(...) calls, .suppress(...) calls, uses as decorators and as context managers, before and after decorating, every exception and every setting at the time of the call", "why_tests_cant": "Needs all histories of several objects, before and after decorating.", "anchors": ["polog/loggers/finalizer.py:LoggerRouteFinalizer.__call__", "polog/loggers/finalizer.py:LoggerRouteFinalizer.suppress", "polog/loggers/auto/function_logger.py:FunctionLogger.__call__", "polog/core/utils/exception_is_suppressed.py:exception_is_suppressed"]}
{"id": "C99", "title": "A full disk costs only records that are handed to alt", "statement": "If the system refuses to take data for a while (a full disk, a quota), nothing is written twice, reordered or mixed; every record is either whole in the log files or handed to alt; and logging goes on as soon as the system takes data again.", "quantifier": "every sequence of calls by any number of threads, every place and length of the refusals (during writing, flushing, and closing at a rotation), every size of lines and buffers", "why_tests_cant": "A full disk at every possible moment and all continuations after it.", "anchors": ["polog/handlers/file/writer.py:file_writer.do", "polog/handlers/file/file_dependency_wrapper.py:FileDependencyWrapper.write", "polog/handlers/file/file_dependency_wrapper.py:FileDependencyWrapper.flush", "polog/handlers/file/file_dependency_wrapper.py:FileDependencyWrapper.move_file", "polog/handlers/abstract/base.py:BaseHandler.__call__"]}
{"id": "C100", "title": "A printed log shows its fields", "statement": "print(log) in a handler shows every field of the log once, in its order, with its name and value, and two logs that look the same have the same fields; the same for the text of the settings and of the object that log(...) returns; showing them raises only if str() of one of the values raises.", "quantifier": "every log, every set of fields, names and values", "why_tests_cant": "All texts of values; whether the text is ambiguous depends on what the values contain.", "anchors": ["polog/core/log_item.py:LogItem.__str__", "polog/core/log_item.py:LogItem.__repr__", "polog/core/stores/settings/settings_store.py:SettingsStore.__str__", "polog/loggers/finalizer.py:LoggerRouteFinalizer.__repr__", "polog/loggers/finalizer.py:LoggerRouteFinalizer.__str__"]}
{"id": "C101", "title": "Logs written by destructors", "statement": "A log may be written by a destructor that the garbage collector runs in the middle of another log call or of config.set in the same thread: it is handled at most once, nothing else is lost, and both the destructor and the call that it interrupted end.", "quantifier": "every schedule of threads, workers and collector runs, every depth of destructors in destructors, every kind of engine", "why_tests_cant": "The collector runs at moments that a test does not choose; a wait for a lock of the own thread shows only if it runs in one of a few short windows.", "anchors": ["polog/loggers/finalizer.py:LoggerRouteFinalizer.create_finalizer", "polog/core/engine/engine.py:Engine.write", "polog/core/engine/engine.py:Engine.reload", "polog/core/engine/real_engines/multithreaded/pool.py:ThreadPool.put"]}
{"id": "C102", "title": "The complete log of a program is read off its code", "statement": "For every program that uses decorated and unlogged functions, with blocks, messages and manual logs as documented, the log is determined by the code: exactly one record for each decorated call, manual log and block that is due one (by level, exceptions met before, unlog), in the order in which they happen, each with exactly the documented fields; and the program ends as it would without logging, apart from the exceptions it asked to be swallowed. The same holds for each of several threads, and for the lines of the file.", "quantifier": "every program (any nesting of calls, blocks, messages, manual logs, exceptions), all settings, every interleaving of threads", "why_tests_cant": "The ways in which calls, blocks, messages, exceptions and unlog can be nested are endless, and each test shows one of them.", "anchors": ["polog/loggers/auto/function_logger.py:FunctionLogger.__call__", "polog/loggers/finalizer.py:LoggerRouteFinalizer", "polog/loggers/handle/handle_log.py:BaseLogger", "polog/loggers/handle/message.py:Message", "polog/unlog.py:UnlogDecorator"]}
{"id": "C103", "title": "The arguments of a decorator are checked when it is applied", "statement": "`@log(...)` on a function takes exactly the documented arguments (message: text; level and errors_level: text or number; is_method: flag; handlers: a list or tuple of handlers and paths; extra_fields and extra_engine_fields: dictionaries of fields, lists of these and `...`), with which the function is decorated and the arguments take effect; any other argument raises at once, whatever the settings, and nothing is decorated. `@log(...)` on a class takes methods, message, level and errors_level; a wrong argument raises, and a class that raises is left as it was.", "quantifier": "every set of named arguments and values, every function, every class with any bases and attributes, every list of methods, all settings", "why_tests_cant": "There are endlessly many combinations of wrong and right arguments, and classes of any shape; a test shows one of them.", "anchors": ["polog/loggers/auto/function_logger.py:FunctionLogger.__call__", "polog/loggers/auto/function_logger.py:FunctionLogger.get_handlers", "polog/loggers/auto/function_logger.py:FunctionLogger.get_extra_fields", "polog/loggers/auto/class_logger.py:ClassLogger.__call__", "polog/loggers/finalizer.py:LoggerRouteFinalizer.__call__"]}
{"id": "C104", "title": "What can be given to unlog", "statement": "`unlog` takes one class or one callable, directly or through `unlog()` / `unlog(full=...)`, with the same effect; anything else, or more than one object, raises IncorrectUseOfTheDecoratorError and changes nothing. A function becomes a wrapper of its original. A class is returned itself, with every method whose name does not begin with two underscores unlogged and every other attribute as it was; other classes are not affected, and if `@unlog` raises, nothing was changed.", "quantifier": "every list of objects given to unlog, both values of full and none, every class with any bases and attributes, every order of dir, every state of the registry", "why_tests_cant": "Classes have any number of attributes of any kind and any bases, and the registry any history; a test looks at a few classes.", "anchors": ["polog/unlog.py:UnlogDecorator.__call__", "polog/unlog.py:UnlogDecorator.unlog_function", "polog/core/stores/registering_functions.py:RegisteringFunctions.forbid"]}
{"id": "C105", "title": "Logs written in a child process", "statement": "When a program calls os.fork() (at any moment, from a thread outside polog), no log written before the fork is handled by the child, and no log is handled by both processes; every log written in the child is handled there at most once and does not disappear. Without workers, and if no other thread was inside polog, the child behaves exactly as the parent would. With workers, the child must change pool_size or max_queue_size before its first log: then the call returns, new workers are started and the logs are handled.", "quantifier": "every execution of the parent, every moment of the fork, every execution of the child afterwards (any number of threads, changes of settings, exit hooks)", "why_tests_cant": "The moment of the fork and the interleavings before and after it cannot be enumerated; a test forks a process that is doing nothing.", "anchors": ["polog/core/engine/engine.py:Engine", "polog/core/engine/real_engines/multithreaded/pool.py:ThreadPool", "polog/core/engine/real_engines/multithreaded/worker.py:Worker", "polog/core/stores/settings/actions/reload_engine.py:reload_engine"]}
{"id": "C106", "title": "The log file in forked processes", "statement": "When a program that logs to a file calls os.fork(), every line whose log call has finished, in the parent or in a child, ends up in the log or in a rotated file whole and exactly once; the child can go on logging with the handlers it inherited; and processes that use the file lock exclude each other, and wait only for a process that is inside, whoever forks or dies.", "quantifier": "any number of processes and threads, every interleaving, every moment of the forks, every crash point, any rotation rules, any lines", "why_tests_cant": "The moment of the fork relative to the calls of other threads decides; a test forks a process that is doing nothing.", "anchors": ["polog/handlers/file/writer.py:file_writer.do", "polog/handlers/file/file_dependency_wrapper.py:FileDependencyWrapper.write, flush, move_file", "polog/handlers/file/locks/file_lock.py:FileLock", "polog/handlers/file/locks/thread_lock.py:ThreadLock", "polog/handlers/file/rotation/rotator.py:Rotator.maybe_do"]}
{"id": "C107", "title": "Interrupts while a line is written to a file", "statement": "When Ctrl-C reaches the main thread while it is inside a file handler (synchronous engine), no line that was already written is lost, doubled or torn, at most one line is lost per interrupt, and the handler goes on: later calls of all threads end, their lines are written, and the log file is there.", "quantifier": "any number of threads and of interrupts, every moment at which an interrupt comes, every interleaving, any lines, any rotation rules", "why_tests_cant": "An interrupt can come between any two actions of the handler; a test can send a signal at a moment or two, not between taking a lock and entering the block.", "anchors": ["polog/handlers/file/writer.py:file_writer.do, maybe_rotation", "polog/handlers/file/file_dependency_wrapper.py:FileDependencyWrapper.write, flush, move_file, reopen", "polog/handlers/file/locks/double_lock.py:DoubleLock.__enter__, __exit__", "polog/handlers/file/rotation/rotator.py:Rotator.maybe_do", "polog/core/utils/exception_escaping.py:exception_escaping"]}
{"id": "C108", "title": "Exceptions of any class", "statement": "Whatever the class of an exception, also one with its own __getattr__ or __setattr__ (e.g. a frozen dataclass), a decorated function that ends with it passes it on unchanged or swallows it as it was told to, and with deduplicate_errors it is recorded exactly once on its way.", "quantifier": "all programs of decorated, unlogged and plain calls, blocks and messages, all settings, all behaviours of the classes of the exceptions that the program raises when an attribute is asked for or set", "why_tests_cant": "A test raises exceptions of a few ordinary classes.", "anchors": ["polog/loggers/auto/function_logger.py:FunctionLogger.log_exception_info, __call__", "polog/core/utils/exception_to_dict.py:exception_to_dict"]}
{"id": "C109", "title": "Logs written in the middle of writing a line", "statement": "A log may be written by a destructor or a signal handler at any moment, also while its thread is inside a file handler (with the default, synchronous engine): both lines are written whole and once, nothing is lost, and both calls return.", "quantifier": "all schedules of any number of threads, all moments at which destructors or signal handlers run and call the handler, nested to any depth, all rotation rules, all failures of the system", "why_tests_cant": "A test cannot make the garbage collector or a signal hit every place between taking and releasing a lock.", "anchors": ["polog/handlers/file/file_dependency_wrapper.py:FileDependencyWrapper.write, flush, move_file", "polog/handlers/file/rotation/rotator.py:Rotator.maybe_do", "polog/handlers/file/locks/thread_lock.py:ThreadLock", "polog/loggers/finalizer.py:LoggerRouteFinalizer"]}
{"id": "C110", "title": "An automatic record names its function, module and class", "statement": "The record of a call of a decorated function has the name of the function, its module, and the class in whose body it is defined; a function that is not defined immediately in a class gets no class. Only messages and extractable fields can change that.", "quantifier": "all functions at all places of the source code (classes in functions in classes, to any depth), all programs of decorated calls, messages, blocks and manual logs", "why_tests_cant": "The class is found by cutting a text (the qualified name) at dots; a test covers a few nestings.", "anchors": ["polog/loggers/auto/function_logger.py:FunctionLogger.get_class_name, get_arg, get_base_args_dict", "polog/core/utils/not_none_to_dict.py:not_none_to_dict"]}
{"id": "C111", "title": "Log files that others copy and empty", "statement": "When others copy and empty log files while the program logs (logrotate with copytruncate, a shell), every file holds what was not removed by emptying it and all lines given to it since, whole, in order and once; copying and emptying loses nothing that was logged, and leaves only whole lines.", "quantifier": "all interleavings of any number of logging threads with renaming, removing, creating, copying and emptying of files by others, all rotation rules, all moments between the parts of a line", "why_tests_cant": "A test cannot place the actions of another program at every point between the actions of the handler.", "anchors": ["polog/handlers/file/file_dependency_wrapper.py:FileDependencyWrapper.open, write, flush, move_file", "polog/handlers/file/writer.py:file_writer.do", "polog/handlers/file/rotation/rotator.py:Rotator.maybe_do"]}
{"id": "C112", "title": "Cleaning the memory handler when records hold objects with destructors", "statement": "memory_saver works when destructors write logs in the middle of its calls: its contents are right, and clean() returns exactly when no record it forgets is the last to hold an object whose destructor logs.", "quantifier": "all interleavings of any number of threads, all contents of records, all logs written by destructors and by garbage collection at any moment", "why_tests_cant": "When and where destructors run depends on what else holds the objects and on the garbage collector; a hanging call cannot be told from a slow one by a test.", "anchors": ["polog/handlers/memory/saver.py:memory_saver.__call__, clean", "polog/core/log_item.py:LogItem.set_function_input_data", "polog/core/engine/real_engines/singlethreaded/engine.py:SingleThreadedRealEngine.write"]}
{"id": "C113", "title": "Calls ended by interrupts and cancellation", "statement": "An exception that is not an instance of Exception (KeyboardInterrupt, SystemExit, asyncio.CancelledError, GeneratorExit) passes through any number of decorated functions unchanged, whatever they were told to suppress; no decorator makes a record of such a call.", "quantifier": "all programs built from decorated, unlogged and plain calls, blocks, messages and manual logs; all settings; all chains of decorators", "why_tests_cant": "Interrupts and cancellations may come in any call of any nesting.", "anchors": ["polog/loggers/auto/function_logger.py:FunctionLogger.__call__", "polog/loggers/finalizer.py:LoggerRouteFinalizer.__exit__", "polog/loggers/handle/message.py:Message._copy_context"]}
