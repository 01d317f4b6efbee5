# Formal model of pomponchik/polog: design

## Approach

The model is written in Lean 4. Every source file of `polog/` that carries logic gets a small, total, executable
model that mirrors the Python function branch by branch; Python exceptions are values. Concurrent parts (engine,
locks, settings, singletons, file writers, mail connections) are labelled transition systems whose steps are the
atomic actions of the code, and the theorems quantify over all finite schedules.

For each area `X` there are up to four kinds of files under `lean/Verif/`:

* `X/Model*.lean` – the model; every definition cites the file and lines it models and says where it simplifies;
* `X/Spec*.lean` – a short specification written without the model's helpers;
* `X/Lemmas*.lean` – helper lemmas (no claims);
* `X/Props*.lean` – the property theorems, `Cnn_…`, each accompanied by an `example` (or used by a theorem with a
  concrete witness) showing that a non-trivial case meets its hypotheses.

`Py.lean`, `Dict.lean` hold what is needed of Python itself (exceptions, insertion-ordered dictionaries).

Where the code does not have the documented property, the negation is proved with a concrete witness
(`Cnn_…_fails`) and the strongest part that holds is proved as `Cnn_…_partial`; the doc comment of the theorem says
what is missing.

## Trusted base

* Lean 4.33.0's kernel.
* Axioms: at most `propext`, `Classical.choice` and `Quot.sound`; the table at the end of this file lists them
  theorem by theorem. No axioms of our own, no `sorry`, no `native_decide`, no `bv_decide`.
* The reading of the Python source: the model is tied to `/repo` only by citations and by eye.
* Python semantics used everywhere: `dict` keeps insertion order and assignment to an existing key keeps its
  position; `str.split`, `str.strip`, `str.join` as written next to the models; attribute reads and writes and
  single dictionary operations are atomic (GIL); `threading.Lock` is a mutex, `RLock` is reentrant; `queue.Queue` is
  an atomic bounded FIFO; `fcntl.flock` is an exclusive lock per open file description.
* Facts about Python that are parameters of the theorems (so nothing is assumed about them): which strings are
  identifiers (`isId`), which characters are white space (`isSpace`), `int()` of a text, `str()`/`repr()` of user
  objects, which class is a subclass of which, `json.dumps` of a text, results and exceptions of user functions.

## What each area models

| area | files of /repo/polog cited | properties |
|---|---|---|
| `Actions` | core/log_item.py, core/stores/settings/actions/fields_intersection.py, core/stores/settings/actions/integration_with_logging.py, core/stores/settings/actions/set_log_as_built_in.py, core/stores/settings/setting_point.py, core/stores/settings/settings_store.py | C67 |
| `Args` | core/log_item.py, loggers/auto/function_logger.py, loggers/handle/handle_log.py | C90 |
| `Assert` | core/stores/settings/settings_store.py, loggers/handle/smart_assert.py | C34 |
| `Base` | handlers/abstract/base.py | C35 |
| `Calls` | core/engine/engine.py, core/engine/real_engines/abstract.py, core/engine/real_engines/multithreaded/engine.py, core/engine/real_engines/singlethreaded/engine.py, core/stores/levels.py, core/stores/settings/settings_store.py, core/utils/exception_is_suppressed.py, core/utils/exception_to_dict.py, core/utils/get_errors_level.py, loggers/auto/function_logger.py, loggers/finalizer.py, loggers/handle/abstract.py, loggers/handle/handle_log.py, loggers/handle/message.py, unlog.py, utils/json_vars.py | C102, C108, C110, C113, C24, C25, C26, C27, C28, C29, C50, C75, C76, C77, C78, C92 |
| `Ctor` | core/utils/signature_matcher.py, field.py, handlers/abstract/base.py, handlers/file/file_dependency_wrapper.py, handlers/file/locks/double_lock.py, handlers/file/locks/file_lock.py, handlers/file/writer.py, handlers/smtp/sender.py | C62, C63 |
| `Decorate` | core/stores/registering_functions.py, data_structures/trees/named_tree/projector.py, data_structures/wrappers/weak_linked/dictionary.py, loggers/auto/class_logger.py, loggers/auto/function_logger.py, loggers/finalizer.py, loggers/partial.py, loggers/router.py, unlog.py | C103, C104 |
| `EndToEnd` | core/engine/engine.py, core/engine/real_engines/multithreaded/engine.py, core/engine/real_engines/singlethreaded/engine.py, core/log_item.py, handlers/abstract/base.py, handlers/file/base_formatter.py, handlers/file/writer.py, loggers/auto/function_logger.py, loggers/handle/handle_log.py | C102, C73, C74, C79, C80, C81, C86 |
| `Engine` | config.py, core/engine/engine.py, core/engine/real_engines/abstract.py, core/engine/real_engines/fabric.py, core/engine/real_engines/multithreaded/engine.py, core/engine/real_engines/multithreaded/pool.py, core/engine/real_engines/multithreaded/worker.py, core/engine/real_engines/singlethreaded/engine.py, core/log_item.py, core/stores/settings/actions/decorator.py, core/stores/settings/actions/reload_engine.py, core/stores/settings/setting_point.py, core/stores/settings/settings_store.py, core/utils/exception_escaping.py, core/utils/time_limit.py, loggers/finalizer.py, loggers/handle/abstract.py | C101, C105, C17, C18, C19, C20, C21, C55, C66, C82, C83, C87, C94 |
| `File` | core/engine/real_engines/singlethreaded/engine.py, core/log_item.py, core/utils/exception_escaping.py, handlers/abstract/base.py, handlers/file/file_dependency_wrapper.py, handlers/file/locks/double_lock.py, handlers/file/locks/thread_lock.py, handlers/file/rotation/rotator.py, handlers/file/writer.py, loggers/finalizer.py | C106, C107, C109, C111, C36, C37, C71, C74, C96, C99 |
| `Format` | core/log_item.py, handlers/file/base_formatter.py, handlers/file/base_formatter_fields_extractors.py, utils/json_vars.py | C42, C43, C44, C45, C57, C84 |
| `Handle` | core/engine/real_engines/abstract.py, core/stores/levels.py, core/utils/exception_to_dict.py, core/utils/get_traceback.py, core/utils/not_none_to_dict.py, loggers/finalizer.py, loggers/handle/abstract.py, loggers/handle/handle_log.py, loggers/handle/message.py, loggers/router.py, unlog.py | C22, C23, C92 |
| `Handlers` | config.py, core/stores/handlers.py, core/stores/settings/settings_store.py, data_structures/trees/named_tree/projector.py, data_structures/trees/named_tree/tree.py | C03, C68, C69 |
| `Levels` | config.py, core/engine/real_engines/abstract.py, core/stores/levels.py, core/utils/name_manager.py, loggers/auto/function_logger.py, loggers/handle/abstract.py, loggers/handle/handle_log.py, loggers/handle/message.py, loggers/router.py | C06, C07, C50 |
| `Live` | config.py, core/log_item.py, core/stores/fields.py, data_structures/wrappers/fields_container/container.py, loggers/auto/function_logger.py, loggers/handle/handle_log.py | C95 |
| `Locks` | handlers/file/file_dependency_wrapper.py, handlers/file/locks/abstract_single_lock.py, handlers/file/locks/double_lock.py, handlers/file/locks/file_lock.py, handlers/file/locks/thread_lock.py | C106, C40, C41, C56, C97 |
| `LogItem` | config.py, core/log_item.py, core/stores/fields.py, core/utils/exception_escaping.py, core/utils/name_manager.py, data_structures/wrappers/fields_container/container.py, field.py, loggers/auto/function_logger.py | C12, C13, C14, C15, C16, C50, C54, C82, C89 |
| `Logging` | core/stores/settings/actions/integration_with_logging.py, core/stores/settings/setting_point.py, core/stores/settings/settings_store.py | C51 |
| `Memory` | core/engine/real_engines/singlethreaded/engine.py, core/log_item.py, core/utils/read_only_singleton.py, handlers/memory/saver.py, loggers/auto/function_logger.py, loggers/finalizer.py | C112, C58 |
| `Nested` | core/engine/engine.py, core/engine/real_engines/abstract.py, core/engine/real_engines/fabric.py, core/engine/real_engines/multithreaded/engine.py, core/engine/real_engines/multithreaded/pool.py, core/engine/real_engines/multithreaded/worker.py, core/engine/real_engines/singlethreaded/engine.py, core/log_item.py, loggers/handle/abstract.py | C91, C93 |
| `Ponies` | config.py, core/utils/pony_names_generator.py, loggers/auto/function_logger.py | C46, C47 |
| `Printer` | data_structures/trees/named_tree/printer.py, data_structures/trees/named_tree/tree.py, data_structures/trees/named_tree/walker.py | C65 |
| `Projection` | config.py, core/stores/handlers.py, data_structures/trees/named_tree/projector.py, data_structures/trees/named_tree/tree.py, data_structures/trees/named_tree/walker.py, loggers/auto/function_logger.py | C05 |
| `Registry` | core/stores/registering_functions.py, loggers/auto/class_logger.py, loggers/auto/function_logger.py, unlog.py | C30, C88 |
| `Rotation` | handlers/file/rotation/parser.py, handlers/file/rotation/rotator.py, handlers/file/rotation/rules/rules/abstract_rule.py, handlers/file/rotation/rules/rules/file_size_rule.py, handlers/file/rotation/rules/rules/tokenization/tokenizator.py, handlers/file/rotation/rules/rules/tokenization/tokens/abstractions/abstract_token.py, handlers/file/rotation/rules/rules/tokenization/tokens/dot_token.py, handlers/file/rotation/rules/rules/tokenization/tokens/number_token.py, handlers/file/rotation/rules/rules/tokenization/tokens/size_token.py, handlers/file/rotation/rules/rules/tokenization/tokens/tokens_group.py, handlers/file/rotation/rules/rules_elector.py | C37, C38, C70 |
| `Router` | loggers/auto/function_logger.py, loggers/finalizer.py, loggers/partial.py, loggers/router.py | C31, C32, C33, C53, C98 |
| `Settings` | config.py, core/stores/settings/actions/decorator.py, core/stores/settings/setting_point.py, core/stores/settings/settings_store.py | C08, C09, C10, C11 |
| `Signature` | core/utils/signature_matcher.py | C49 |
| `Singleton` | core/utils/read_only_singleton.py | C48 |
| `Smtp` | handlers/smtp/sender.py, handlers/smtp/smtp_dependency_wrapper.py | C60, C61 |
| `Texts` | core/log_item.py, core/stores/settings/settings_store.py, loggers/finalizer.py | C100 |
| `TimeLimit` | core/engine/engine.py, core/engine/real_engines/multithreaded/engine.py, core/engine/real_engines/multithreaded/pool.py, core/engine/real_engines/singlethreaded/engine.py, core/stores/settings/settings_store.py, core/utils/time_limit.py | C52 |
| `Tokens` | handlers/file/rotation/rules/rules/tokenization/tokens/abstractions/abstract_token.py, handlers/file/rotation/rules/rules/tokenization/tokens/abstractions/meta_token.py, handlers/file/rotation/rules/rules/tokenization/tokens/tokens_group.py | C39, C85 |
| `Trace` | core/engine/real_engines/abstract.py, core/utils/cut_traceback.py, core/utils/get_traceback.py, loggers/auto/function_logger.py, loggers/handle/abstract.py | C72 |
| `Tree` | data_structures/trees/named_tree/projector.py, data_structures/trees/named_tree/tree.py, data_structures/trees/named_tree/walker.py | C01, C02, C04 |
| `Walk` | core/log_item.py, data_structures/trees/named_tree/tree.py, data_structures/trees/named_tree/walker.py | C59 |
| `Weak` | core/stores/registering_functions.py, data_structures/wrappers/weak_linked/dictionary.py | C64 |

Each definition has the exact file and lines.

## Not modelled

* How `traceback.format_tb` finds the line of code of a frame; `Trace` models which frames it lists, `Format` (C84) the shape of an
  entry (Python 3.8).
* `core/utils/is_json.py` (unused), `handlers/file/rotation/rules/rules/{number,period,date_time}_rule.py` (stubs that
  never match), `actions/__init__.py` and other files with imports only.
* Engines supplied by the user (`config.set(engine=…)`), the version of Python, `RecursionError`, `MemoryError`,
  asynchronous exceptions other than those of the time limit, and `KeyboardInterrupt` anywhere but in the engine and in the
  processing of one log and in a file handler (`Engine/Interrupt`, `LogItem/Interrupt`, `File/Cut`).
* Real time: clocks are counters or parameters; `time_of_work` is a given number (the code takes it from
  `time.time()`, which may go backwards).
* Floating point: durations and levels are exact numbers.

## Assumptions by area

* **Calls**: one thread or task; settings do not change during the call tree; the internal exceptions of polog are not
  distinguished by kind. Coroutines behave as functions (no interleaving inside one context).
* **Calls/Threads**: the same programs in any number of threads or tasks; a step is one action of a logger, except that the test
  and the setting of the mark on an exception are two steps; building a record and handing it to the engine is one step (the
  engine has its own model with small steps); asyncio tasks may start with any context; settings do not change.
* **EndToEnd/System**: the models of threads, engine and file run side by side; what connects them are the fields `logs` and
  `handler` of `SystemRun` and `SyncSystemRun` (a record handed over is a log of the engine; a handled log is a call of the
  handler); the formatter and the extraction of engine fields are one step of the call.
* **Registry/Binding**: Python's rules for attributes: the first class in the order of resolution that has the name; functions are bound
  to the instance, `classmethod` to the class it is read through, `staticmethod` and other objects not at all.
* **Engine/Exit**: `atexit` runs its callbacks newest first and does not run callbacks registered while it runs them (CPython up to
  3.13); `weakref.finalize` registers one callback when its first object is made; the limit of time of the exit hook is not reached
  (`TimeLimit` models it).
* **Engine/Fork**: what CPython does at `os.fork()`: the child has a copy of the memory and one thread, which is outside polog; locks stay as they are;
  `threading` marks the other threads as ended, so `join` returns. A fork inside a method of a queue or of a handler is left out.
* **Decorate**: the kinds of objects given to a decorator are given by the program (a list, a tuple, a dictionary, `...`, anything else; other
  iterables are not distinguished); which objects are handlers is a parameter (C49 models the check). Attributes of classes are functions, callables without weak
  references and values without weak references; that methods of built-in types have none is a fact of CPython.
* **Registry**: `staticmethod`, `classmethod` and nested classes are not in `Registry/Model` (they are in `Registry/Binding`); the order of `dir` is a parameter.
* **Router**: the callback of a weak reference runs when the object is dropped; all blocks last `env.elapsed`; the dunder
  attributes are summed up as "begins with `__`".
* **Format**: floats are finite; levels that are floats are not looked up; `json.loads` and nested texts are parameters.
* **Logging**: semantics of filters of the standard library as documented; child loggers have no filters of their own;
  the root logger is not disabled.
* **Signature**: the default value used as "empty" mark is not equal to user objects with a strange `__eq__`.
* **Memory**: saves start only after some constructor call has finished.
* **TimeLimit**: the timer fires exactly at its delay; `sleep`, `acquire` and `join` are not interruptible; the timer does
  not fire between the end of the body and `cancel`.
* **Projection**: operations are atomic; changes made through a local tree are not modelled.
* **Walk**: the position of a dictionary iterator is approximated when the size is unchanged; the deletions inside one parent are
  one step.
* **Nested**: after the first log; logs written by the handlers of a log are a finite tree given with the log; handlers may
  call `config.set` at any moment, which takes the engine lock but not that of the setting; the stop flags of the workers are set in one step.
* **Args**: the steps of a program change its objects arbitrarily; what `repr` and the type of an object are is a parameter.
* **Smtp**: each call of `smtplib` is atomic (answers may be lost); MIME encoding is not modelled.
* **Ctor**: opening the file succeeds.
* **Weak**: operations are atomic; callbacks run at the death of the object.
* **Printer**: the recursion limit is not reached.
* **Actions**: nobody else touches `builtins.log`.
* **Engine**: a handler is one step that ends (possibly with an exception); `join` of a thread that never ends is a thread that
  never moves on.
* **File/Multi**: one thread per process, `forced_flush` on, names of rotated files are fresh; a process may die at any step.
* **File**: the file system is a map from names to files; a rename inside one file system keeps the open file, a move to another
  one copies the content that has reached the file and deletes the original; every call may fail.
* **Locks/Fork**, **Locks/ForkDeath**: one thread per process; `flock` belongs to the open file and ends with its last descriptor.
* **File/Procs**: lock types with `thread`; the file lock is left out (more schedules); rotated files stay on the file system of the log; what waits in a buffer
  fits into it; `flush` is one system call; a fork is made by a thread outside the handler.
* **Calls/Marks**: `hasattr` and the assignment at function_logger.py:174-175 behave the same way every time for one exception, except that an ordinary one is marked
  after the first assignment; such code of a class does not log and does not change settings.
* **File/Cut**: an interrupt comes between two actions of the main thread, not inside `acquire` of a `threading.Lock` used directly in `with`; `file.write` has taken
  the line or not when an interrupt comes; the file lock is left out; rotated files stay on the file system of the log.
* **File/Nest**: as File/Cut, without interrupts; a destructor or signal handler runs between two actions of its thread, not inside `file.write`; what it does is to
  call the same handler (any number of times) or nothing.
* **Calls/FnNames**: the attributes of a function that Polog reads are strings or missing; `__qualname__` is what Python gives at the definition (a definition under
  `global` counts as one of the module, and programs that assign to `__qualname__` are outside the theorem about places).
* **File/Emptied**: as File/Outside; the system appends to the end the file has at the moment of writing (`O_APPEND`); emptying and copying are single actions.
* **Memory/Freed**: CPython frees objects as soon as nothing refers to them; which logs the destructors of the objects of a record write is a parameter; the program keeps no references to the list or the records of its own; destructors log to this handler only, with the synchronous engine.

## Property by property

How each property is expressed and proved; `partial` means that the full statement is false of the code or that a part is missing.

| id | property | how modelled and proved | status and what is missing |
|---|---|---|---|
| C01 | Handler namespace behaves as a map from dotted paths | `NamedTree` set/get/del/prune as a rose tree with ordered children; refinement to `Path → Option V`, induction on histories | proved. Refinement of the tree to a plain map, operation by operation. |
| C02 | Iteration and len report every registered handler exactly once | `bfs`, `bfs_values`, `__len__`; permutation with the list of occupied paths, order of the layers | proved.  |
| C03 | Registering a handler never overwrites, and a free name can be taken | `add_handlers`/`set_handler` incl. `__contains__`; decision theorem and counterexample (empty node) | partial. Never overwrites: proved. A free name can always be taken: false of the code (names above a registered one, names read before through get_handlers); proved for the rest. |
| C04 | The namespace keeps no dead branches | pruning; invariant "every child subtree has a value" by induction on histories | partial. Proved for histories without branch selection; selecting a branch creates empty nodes, so the full statement fails. |
| C05 | A local handler namespace is a live view of the selected branches | heap of nodes with identities, `TreeProjector.on`, `put_node`; simulation along histories, counterexample after deletion | partial. False as stated: a selected branch that is empty at some deletion is cut off and stays invisible for good (C05_selected_branch_fails, C05_selected_early_fails, C05_emptied_branch_lost). Proved: live view while every deletion leaves a handler in the branch; for every history live or lost; nothing else is ever visible. C05_global_exceptions: which registrations and deletions raise, and what. |
| C06 | Level names and numbers are interchangeable | `Levels`, two dictionaries; refinement to last-write-wins | proved.  |
| C07 | A level is displayed under one of its current names | the reverse dictionary; invariant, counterexample for a stale name | partial. Proved when no name is moved to another number; false otherwise (stale reverse name). |
| C08 | A rejected setting change has no effect | `SettingPoint.set` with all its checks; case analysis for every point of `SettingsStore` | proved.  |
| C09 | Settings are always valid | histories of `config.set`; invariant; lock-level transition system for concurrent calls | proved.  |
| C10 | Documented impossible combinations of settings never occur | the same; invariant over pairs of settings | proved.  |
| C11 | config.set applies its arguments in order up to the first rejected one | loop of `config.set`; induction on the arguments | proved.  |
| C12 | A log object cannot be modified by handlers through the dictionary interface | dictionary interface of `LogItem`; induction on operations | proved.  |
| C13 | Logs compare as their times | rich comparisons; order laws over any linear order of times | proved.  |
| C14 | Every handler of a log is called exactly once, whatever the other handlers do | `call_handlers`; induction on the handler list | proved.  |
| C15 | Extractable fields: independent, isolated and not overwriting | extraction loop; induction on the field list | proved.  |
| C16 | Local fields replace or extend the global ones as documented | `get_extra_fields`, `FieldsContainer`; lookup characterisation, counterexamples | partial. Dictionary and list forms proved; tuple with Ellipsis raises AttributeError and a reused list loses its Ellipsis. |
| C17 | No log is lost or duplicated when the engine is reloaded | `Engine`, reload, pool, workers as one transition system with ghost history; inductive invariant over all schedules, counterexample schedule | partial. Unconditional: nothing is handled twice and nothing vanishes. Exactly once at rest: proved when no reload begins while a direct write is in flight, and for the synchronous engine; false in general (witness: late put into a stopped engine). |
| C18 | Logging and reconfiguring cannot deadlock | the same; for every place in the code an execution that leads the thread out, from an invariant; three deadlock witnesses; the conditions of the deadlocks are themselves invariants, which gives exact conditions | partial. False in general: three witness schedules (lock-order deadlock with the first write; writer stranded at a full stopped queue; engine without workers). Otherwise exact: before the first engine exists all calls can return if and only if the locks are not taken crosswise by the writer of the first log and a change of a setting (C18_before_the_first_engine_iff); after that a call can return if and only if it does not wait for room in a full queue whose workers have all left (C18_after_the_first_engine_iff, for pools with workers and while no exit hook runs; C55 describes what happens after the hook). |
| C19 | The asynchronous engine processes every accepted log exactly once before it stops | pool and workers; inductive invariant | proved.  |
| C20 | Handing logs over preserves order where promised | the same, and the synchronous engine; order of the ghost history | proved.  |
| C21 | The engine is started exactly once | first load with its lock; invariant | partial. Proved for the library itself; false if the user sets the public setting started. |
| C22 | A manual log is recorded exactly when its level passes the threshold | `handle_log` argument conversion and push; decision theorem against `HandleSpec` | proved. Both for handle_log and for log used as a statement. |
| C23 | Strict mode rejects wrong manual-log arguments without recording; loyal mode never raises | the same; characterisation of the calls that raise | partial. handle_log: proved for calls that do not give one field under two names. False parts: log(...) as a statement never raises and ignores unknown_fields_in_handle_logs; two names of one field; unknown level and clashes raise in silent mode. |
| C24 | The log decorator is transparent | calls as a tree-shaped program language interpreted with the context variables of the code; induction on programs | partial. Proved for code whose logging arguments are valid (the condition of the property): transparent_ and same_outcome theorems. The _fails theorems show that an unknown level or an unprintable result makes the decorated function raise. Handlers and engine fields are outside the call (C14, C17); in-place extractors are called through exception-proof code (C13). |
| C25 | One call of a decorated function produces exactly one record | the same, records counted along the tree | partial. Full call trees of any depth. Missing: code that calls an unlogged function from inside a fully unlogged one (C29 shows extra records there) and code with invalid logging arguments (C24). The _fails theorem: a decorated generator function is recorded as a success before its body begins; what the body does is not recorded. |
| C26 | Level of an automatic record | the same, level of one record | proved. For any code and any state; the record of one decorated call. |
| C27 | An exception passing through several decorators is recorded exactly once | the same, exceptions have identities | partial. At most once: proved for all code of one thread without exception, and for all tasks of an event loop together. Exactly once, by the innermost: for chains of any length when the innermost decorator passes the level filter; the first _fails theorem shows that otherwise nobody records it. Two threads that meet one exception object may both record it (second _fails theorem). An exception that Polog raises itself is a new one, and the next decorated function around it records it. |
| C28 | message() edits the record of the decorated call it is made in, and no other | the same, `message` as an instruction | partial. Holds for code that leaves its messages after the decorated functions it calls; the _fails theorems show the ways in which it breaks otherwise (clearing, leaking, a message left by a task that the function awaits). |
| C29 | Nothing is recorded in the dynamic extent of an unlogged call | the same, `unlog` as a kind of function | partial. Holds if the unlogged function calls no further unlogged function; also for the tasks made in it. The _fails theorems show that a nested unlogged call switches logging on again, that a thread started in an unlogged call logs, and that the body of an unlogged generator function logs. |
| C30 | Of several stacked log decorators only the outermost works, and @unlog wins anywhere in the stack | registry of original functions, `log`/`unlog` as a list of decorators, class decorators; induction on the stack and on histories | partial. Stacks: proved in full for every stack and every interleaved history of other functions. Classes: for classes whose methods are separate functions decorated step by step; the _fails theorems show second subclasses, re-decorated objects, methods= and full=False below @log. |
| C31 | The context manager records once and suppresses exactly what was asked | router, partial, finalizer; case analysis against `RouterSpec` | partial. Proved for every block with correct arguments (known levels, printable exceptions), every sequence of suppress calls and edits, every outcome and state; also for blocks without brackets. The _fails theorems show the two ways in which the exit itself raises. |
| C32 | Nested `with log` blocks without brackets pair up correctly | the stack in the context variable for any number of tasks; invariant over operations | partial. Proved for any interleaving of any number of tasks, any nesting, edits and suppress calls through the context objects. Missing: tasks created inside a block share its stack, and a with log.suppress(...) that raises while beginning leaves its object on the stack; both are shown by _fails theorems. |
| C33 | log.<level> is the same as level=<level> | `__getattribute__`; equality of the two uses | partial. log.n(...) is log(..., level=n) for every argument list and every registered level (no registered name is an attribute of the logger); records and blocks have the registered level. The _fails theorem shows that an explicit level does not have priority. |
| C34 | ass() is an assert while debugging and a log otherwise | `SmartAssert`; complete case analysis | partial. True and non-debug cases proved. False of the code: when debugging, if_debug writes one record and all writes two; an expression whose truth value raises is lost when not debugging. |
| C35 | Filters and the fallback of standard handlers | `BaseHandler.__call__`; case analysis over outcomes, induction over chains of `alt` | partial. Proved for filters that answer with a bool; a raising filter bypasses alt, a non-bool answer counts as True. |
| C36 | Rotation never loses or reorders lines | file system as name → file with buffers, writer and rotator, any schedule of threads; inductive invariant; a decreasing measure and progress for the calls | partial. Any schedule on one file system, and one thread with forced_flush on any: proved, whatever fails during rotation. False across file systems with forced_flush=False or with two threads (witness runs); a rotation that cannot open the new file stops the handler for good (witness). Calls finish under every schedule: at most five steps of each thread, no deadlock. |
| C37 | The file is rotated exactly when a rule fires | size rules inside the same transition system; invariant | proved. Decision of the rule set for the string, for the checking thread in every schedule, size bound and absence of rules. |
| C38 | Which rotation conditions are accepted | tokenizer, parser; language equivalence | proved.  |
| C39 | Token patterns match as documented | pattern engine; language equivalence by induction | partial. Proved for non-empty patterns and groups (`*` is the last item); an empty pattern accepts everything and an empty group raises IndexError. Every text of a pattern, also those written wrongly, is covered by C39_every_pattern and C39_every_pattern_of_an_empty_group; brackets that are not closed are silently forgotten (C39_unclosed_brackets_fails). |
| C40 | With lock_type='thread' decisions about rotation and writes never interleave | locks as transition system; mutual exclusion invariant | proved.  |
| C41 | With lock_type='thread+file' processes never interleave | two locks, processes with threads, forked processes; invariant, counterexample schedules | partial. Proved with one thread per process; with several threads false: release gives the thread lock back before the file lock (witness). |
| C42 | Structure of a text line | `BaseFormatter`; exact description of the line | partial. The line is characterised exactly (iff) for every record (C42_line), and C42_usual_line says the whole line of a usual record in words of its own (UsualSpec.lean does not refer to the functions that make the texts). Fails for fields whose str() raises: the whole record has no line, not only the field. C42_success_of_other_values: what is shown for values of success that are not flags. |
| C43 | Padding of columns | padding functions; string algebra | proved.  |
| C44 | The duration shown in a line is the measured duration | `%.8f` as exact rounding, `rstrip`; arithmetic | partial. Proved: the text denotes the nearest hundred-millionth exactly when that is not a multiple of ten seconds. Fails for multiples of ten seconds and zero: rstrip removes zeros before the point. |
| C45 | Logged arguments keep value and type | `json_vars`; list algebra, JSON text against a grammar of its own | partial. Proved for values whose class is exactly bool, int, float, str or no subclass of them. Fails for instances of subclasses (IntEnum): the name of the base class is stored. |
| C46 | Automatically generated handler names are distinct and valid | name generator; injectivity over all shuffles | partial. Proved for the first 4999*74 names; the numerals end there, and so do the names (witness). |
| C47 | Roman numerals | numeral generator; evaluation by an independent definition, equality with the textbook numeral | proved.  |
| C48 | Singletons are single | construction as transition system; invariant, counterexample schedule | partial. Proved for every interleaving once the first construction is over, and for all calls ever when the first one ran alone (import). Fails for calls racing with the first construction: the lock is taken but nobody checks again whether the object exists (witness: two objects). |
| C49 | A handler accepted at registration can be called with one argument | signature matcher against a model of the argument binding of Python | partial. Exact characterisation of what is accepted and of which accepted functions can be called. Fails both ways: def h(x, *, y) is accepted and cannot be called; def h(x, y=1), h(*args), h(x, **fields), h(x=None) can be called and are rejected. Also: what a general template matches. |
| C50 | User level and field names never shadow the API | name checks; invariants over histories | partial. Proved for names registered with config.levels, add_fields and add_engine_fields after any history, and for what extraction does to the fields of records. The names of extra_fields of a single decorator are not checked (the _fails theorem). |
| C51 | Interception of logging | filter of `logging`; invariant over histories of switching | partial. Every history of switching, any filters of the program itself, every record logged on the root logger without mistakes; exact characterisation of the calls that raise. Fails for records of child loggers, for exc_info=False / exc_info=True outside except, and for messages that are false values. |
| C52 | Time-limited exit | polling loop in an abstract clock; arithmetic of iterations | partial. Limit and prompt return proved for the polling; the limit does not cover the joins of busy workers, the wait for the engine lock, and the value zero (three witnesses). The decorator itself: exact for positive limits. |
| C53 | How log decides what it is used as | `Router.__call__`, finalizer; decision theorem | proved. C53_wrong_use_loses_the_record shows the limit of the statement: a use that raises (log(text)(5)) also loses the record. |
| C54 | Extractable fields registry | field registry; refinement to a map | partial. Registry proved; get_all_fields ignores fields_intersection. |
| C55 | Everything accepted is handled before the program ends | exit hook in the engine transition system; invariant | partial. Same exception as C17: logs put into the queue of an engine that is being exchanged; C55_exit_hook_drains_fails shows one that is never handled although its call has returned and the hook has ended. |
| C56 | Which lock types are accepted | parser of `lock_type`; equivalence with a specification of the accepted strings | proved.  |
| C57 | One record is one line of the file | formatter and file; splitting at line breaks is the inverse of writing | partial. Proved for records that contain no line break in any text. Fails otherwise: the formatter does not escape, a message can forge a line. |
| C58 | memory_saver holds exactly the records given to it | memory handler as transition system with ghost history; invariant | partial. Without racing first constructions: the object holds exactly what was saved since the last cleaning, in the order of the calls, for every interleaving; every call that has begun can be finished, with racing constructors as well. Two first constructions that race lose saved records. |
| C59 | Handling a log while handlers are being registered | walk over the tree as a state machine interleaved with changes; invariant, counterexample schedule | partial. Walk as a state machine interleaved with elementary changes of the shared nodes. Proved: kept handlers are called (once) when no node is being read at the moment of a change in it; only registered handlers are called in every schedule; the walk ends. Fails without that hypothesis: a registration while the children of a node are read raises RuntimeError (dictionary changed size) and registered handlers miss the log. |
| C60 | What a letter says | text, subject and envelope of a letter; exact description, inverse function | partial. Text proved for values without line breaks (lines of the text = fields; the text determines the fields); fails otherwise: a message can forge a field. Subject, addresses, format, password, number of letters: complete. |
| C61 | Letters sent by several workers | connection wrapper, workers and server as transition system; invariant, counterexample schedules | partial. For all schedules, failures and lost answers: no letter is delivered or reported more often than it was given, at rest every letter was delivered or reported, and every call ends by itself. If no answer of the server is lost, never both (partial). Delivery of every letter and closing of connections only if calls do not overlap or for one worker (partial); with two workers letters of a working server are lost and connections stay open; a lost answer makes a letter both delivered and reported. |
| C62 | What the constructors of the standard handlers accept | tables of checks of the constructors; equivalence with the documented kinds | partial. Exact characterisation for both constructors and for user tables. Fails: an accepted file object without flush makes every record both written and given to alt; lock_type="file" with stdout or a file object is accepted and takes no lock. |
| C63 | The class field | `field`; case analysis, composition with C15 | proved. Complete; composed with the extraction loop of records (C15). |
| C64 | The weak dictionary of registered functions | `WeakDict` over a heap of objects that die; refinement to a map | partial. Proved for keys with identity equality (functions, which is what the program stores). With keys that compare equal pairs get lost; items() calls the value instead of the reference and raises or returns something else; get of an object without weak references raises TypeError. |
| C65 | The text of a namespace | printer of the tree; the text is described line by line and decoded back | proved. Complete for names that are identifiers (no separator, no line break). RecursionError of very deep trees is not modelled. |
| C66 | The engine runs as configured | the engine transition system together with the settings; invariant | proved. Complete for the engine of the settings pool_size and max_queue_size (not for a user engine). |
| C67 | Settings that act outside of the store | actions of settings as transition systems; invariant, counterexample schedule | partial. Built-in log and interception: complete. fields_intersection: proved when the setting is not changed during the creation of the very first log; otherwise the copy stays wrong (LogItem.__new__ reads and copies the setting without a lock). |
| C68 | Deleting handlers frees exactly what was named | `delete_handlers` over the tree; refinement to a relation on the name → handler map | partial. Full behaviour of delete_handlers against a separate specification over the name-to-handler map. Deleting by object only looks at names without dots: C68_delete_by_object_fails. |
| C69 | A handler object is not registered twice | check for duplicates; decision theorem, counterexample | partial. Holds for positional registration and names without dots; explicit names and nested names allow duplicates (C69_same_object_twice_fails). |
| C70 | Rotated files never replace each other | name of a rotated file from time and process id; injectivity by decoding | partial. Names are injective in (time, process id); the exception is two rotations in the same microsecond by one process, which overwrite: C70_same_moment_overwrites_fails. |
| C71 | Several processes may log to one file | several processes with buffers over one file system; invariant over all schedules and crashes | partial. Holds on one file system for lines that fit into the buffer. Fails for rotation to another file system (a process with the deleted file open loses its lines) and for long lines (the lock is released between write and flush). |
| C72 | Tracebacks are those of the program | frames and tracebacks of nested decorated calls as a program language with the rules of Python 3.8; induction on programs against the undecorated meaning | partial. With cutting on the caller sees the traceback it would see without decorators; records show the way from the decorated function to the error; with deduplicate_errors at most one record per exception, made by the innermost decorator. Failures: functions written in C, and exceptions kept from before. |
| C73 | What was logged is in the file | the models of the loggers, the log, the base handler, the formatter and the file composed; composition of C28, C35, C42, C36, C57 | partial. partial: the file system does not refuse to move or open files (C36 describes what happens otherwise), objects whose str() does not raise (C73_unprintable_value_loses_the_line_fails: otherwise the whole line is missing), messages placed where they are not lost (C28), no unlogged call inside an unlogged one (C29); with several threads rotated files stay on one file system. Composition of C25, C28, C35, C36, C42, C57. |
| C74 | A crash loses at most the record in work | one process over the file system with a buffer, every action of a rotation separate, stops and restarts at any place; invariant over all histories, composed with the model of programs | partial. Proved for every history of one process with the synchronous engine, default forced_flush, with the move split into its smallest steps, and for several threads with the move as one step; C74_forced_flush_is_needed shows a loss of finished records without it. For whole programs the theorem is partial in the same way as C73 (several threads: C81). That the operating system keeps what it was given (no fsync in the code) is assumed. |
| C75 | Every record has a cause | induction on programs with no assumptions, with an invariant on what has been recorded and on the pending message | proved. Proved without any hypothesis on the program. |
| C76 | Mandatory fields | from C75: extracting and updating never remove keys | partial. Presence is proved for all programs. Truth of auto is proved if no message gives the field and no extra field of a decorator replaces it (for registered fields this holds always); message(auto=False) forges it. |
| C77 | Nothing below the threshold is recorded | from C75 and the level specification of C26/C22 | partial. Proved if no message gives a level and no extra field of a decorator replaces it (for registered fields this holds always); message(level=...) puts a record with a lower level through the filter. |
| C78 | Threads do not disturb each other | small-step semantics of threads with shared marks and records; a thread is simulated by its solo run (invariant over all interleavings), solo runs are equal to the big-step model of programs | proved. Proved for all interleavings, also for threads and tasks that begin while the program runs, under the condition that each exception object is met by one thread only (marks on exceptions are shared); C27_two_threads_record_one_exception_fails shows what happens otherwise. The engine itself is the subject of C17-C21. |
| C79 | Whole system: every event of every thread is in the file | the models of threads, engine and file connected by what each hands to the next (structure SystemRun); composition of C78, C28, C17, C42 and C36, with multiset reasoning over the records | partial. Safety is proved for all executions. Completeness is partial: no reload begins while a log is being handed over (C17 shows such logs can be lost), the system does not refuse to move and open files, rotated files stay on one file system (C36), messages are left where they are not lost (C28), no unlogged call inside an unlogged call (C29), each exception object is met by one thread only (C27, C78). Values whose str() raises have to be excluded as well: C79_unprintable_field_empties_the_file_fails is a whole program of two threads whose file stays empty. |
| C80 | The file is an interleaving of the logs of the threads | the same with the synchronous engine and traces of the file that know the thread of each call and write (SyncSystemRun); composition of C78, C20 and per-thread order of writes (C36) | partial. Partial for the same reasons as C79, except that reloads of the synchronous engine do no harm. C80_unprintable_field_empties_the_file_fails: false for programs with a field whose str() raises. |
| C81 | A stop of a program with several threads loses at most the record in work of each thread | the executions of C80 stopped anywhere; invariant on which lines are in the buffer (each belongs to a thread about to flush), composed as in C80 | partial. Partial for the same reasons as C80. A move of the file is one step here; C74 splits it, for one thread. C81_unprintable_field_loses_all_records_fails: false for programs with a field whose str() raises. |
| C82 | An interrupt leaves logging usable | a step for the interrupt of the main thread at every place of the model of the engine; the invariants of C17 and C18 are preserved by the interrupts outside an exchange of the engine; reachable witnesses for the others; a second model with a countdown for the processing of one log | partial. Holds for interrupts at all places except while the main thread loads the first engine, replaces the engine or runs the exit hook (C82_interrupts_lose_only_the_interrupted_calls_partial, C82_calls_can_return_after_interrupts_partial). The failures: exception_escaping has a bare except and swallows KeyboardInterrupt (a handler, the callback of a setting, load, stop); block takes the engine lock without with, so an interrupted config.set(pool_size=...) returns normally and leaves the lock taken for ever (C82_interrupted_change_halts_logging_fails). Not modelled: an interrupt between the acquisition of a lock and the entry into with. |
| C83 | A kill of the program loses a limited number of logs | the places of unhandled logs from the invariant of C17, the bound of the queue from the invariant of the pool (C19), the sizes from C66; a family of reachable executions for the unlimited queue | partial. The bound max_queue_size + pool_size is proved for every reachable state at which no setting is being changed; it does not count the logs that C17 loses in an exchange of engines (none in calm executions). With the default max_queue_size=0 there is no bound: C83_kill_loses_a_limited_number_fails shows an execution for every number. |
| C84 | Results, local variables and tracebacks in a line | splitting of a formatted entry into words computed outright for all entries; induction on the entries; composition with the traceback model of C72 | partial. Proved for file names without white space (C84_traceback_is_shown_partial); C84_file_name_with_a_blank_fails shows what becomes of other names. C84_line_shows_the_way_to_the_error_partial joins it with C72. The format of traceback.format_tb (Python 3.8) and that the JSON module reads what it wrote are assumptions stated in the theorems. |
| C85 | Every class of tokens has a letter of its own | invariant over all sequences of class definitions (registered letters = letters of the classes made); composition with the language of patterns of C39 | partial. Fails for the letter ".": it is accepted, although the message of the error says it is not, and it stands for every token in patterns (C85_dot_fails). |
| C86 | A killed program: whole lines in the file, a limited number missing | composition of the run of the threads, of the engine and of the traces of the file: counting records made, handled, written and flushed | partial. Joins C79 (lines of the threads), C83 (what a kill loses in the engine) and C74 (what it loses in the file). Partial: no log reached an engine while it was being exchanged (C17), a system that does not refuse to move and open files, rotated files on the file system of the log, and the limits of C28, C29. |
| C87 | A program that logs ends, and what is left to log at its end is recorded | the callbacks of atexit, newest first, on top of the model of the engine; a state in which something has to be written after the hook took the engine lock is never left; invariant: every callback that is done has written its logs and, after the hook, the pools are drained; conversely, by construction of an execution (progress lemmas of C56 and C19, and an invariant that the logs to be written are new and different), the program can end whenever nothing is left to write after the hook | partial. The code does not have this property: the exit hook of the engine keeps the engine lock for ever, so a program with an object of log(...) that is kept until exit and was made before the first log never ends (C87_log_after_the_engine_has_stopped_hangs, C87_program_ends_fails); if the first log is written at exit with a pool of workers, it is lost (C87_first_log_at_exit_fails). Proved: when a program in which some log has returned ends, all objects and callbacks have logged and everything is handled (except logs put into an engine that was being exchanged, C17). The limit of time of the hook is not part of this model (C52). The order of the callbacks of atexit is that of CPython up to 3.13. C21_hook_is_registered: when any log call has returned, the exit hook is registered once. C87_program_can_end_iff: with the other threads ended and pools that have workers, the program can end exactly if no callback registered before the first log has something to log at exit; C87_silent_program_can_end: a program that logged nothing and has nothing to log can end. |
| C88 | A decorated class still calls its methods with the same arguments | classes with their own attributes and orders of resolution, and the rules of Python for reading an attribute through a class and an instance; invariant of the two loops of the decorator: other classes untouched, ordinary methods stay ordinary methods of the same function, what is read through the class receives the same | partial. The code does not have this property: static methods called through an instance are given the instance as well, also with @unlog and also if methods= does not name them (C88_static_methods_fails); class methods likewise, and through a derived class they are given the decorated class (C88_class_methods_fails); nested classes become functions (C88_nested_classes_fails); inherited methods are copied and hide those of siblings (C88_diamond_fails); a decorator below @classmethod is not seen and the call is recorded twice (C88_decorated_class_method_twice_fails). The number of wrappers that calls go through is exact too: one more, unless the attribute is itself a function made by Polog. Proved: ordinary methods keep everything in all classes whose order of resolution ends with that of the decorated class; and every call through the decorated class itself is as before; for every attribute that is replaced, exactly (iff) which accesses keep their calls (C88_logged_attribute_iff, C88_unlogged_attribute_iff, C88_methods_attribute_iff). |
| C89 | A log reads as a dictionary | the dictionary interface of a log method by method, compared with the answers of one list of items | proved. Full. Values are opaque; subclasses of LogItem and direct use of the attribute fields are outside. |
| C90 | The record of a call tells its arguments | the wrapper over a program whose steps change its objects arbitrarily, by induction over the program against a run without the wrapper that lists the calls; a witness for a changed argument | partial. The code makes JSON of the arguments when the function has ended: an argument that the function changes is shown as it is afterwards (C90_changed_arguments_fails). Proved: the references are always right, unchanged arguments are shown as at the call, and in general they are shown as at the end. Texts of objects do not change the state; subclasses of int, str, ... as in C45. |
| C91 | Handlers may write logs | a small-step model of the engine in which the thread that calls handlers writes further logs (frames); conservation of logs by counting, a weight that every step uses up, an invariant for progress; reachable states without any step for the deadlocks | partial. Never lost or doubled: proved for all executions, with reloads and exit. Everything is handled and no schedule gets stuck: proved without reloads and without max_queue_size (partial). False with max_queue_size (three calls block the program), during config.set(pool_size=...) and at the exit: reachable states in which no thread can make a step. Trees of logs are finite: a handler that writes a log for every log is left out. |
| C92 | message() changes exactly the fields it is given | the arguments of `message` against a table of fields, from the lemmas of C22/C23; the record of the call by composition with C28 | partial. Proved for correct calls, with the record of the call; strict and loyal mode proved for calls that do not give one field under two names (partial). False in loyal mode for unknown level names: message raises in the code of the user. |
| C93 | Settings changed by handlers | the model of C91, in which handlers start a reload at any moment; mutual exclusion of the engine lock by counting its holders, a path to the end of the change from each of its points; reachable states without any step for the deadlocks | partial. Proved: no log is lost or doubled (C91_no_log_is_lost_or_doubled allows changes by handlers at any moment); however far a change has got, it can be completed if all other threads are idle and no log is queued, and then the new engine is in place and the handler goes on. False in general: a log waiting in the queue of the only worker, two handlers that change settings at once, and a handler called under the engine lock each stop the program for ever. |
| C94 | A failure to create an engine does not lose logs | steps for the failure of `load`, for `stop` without an engine and for a second `stop`, on top of the model of the engine; the invariants of C17 and C18 are preserved when the synchronous engine was to be replaced; an invariant for executions without an engine; invariants "for ever" for the witnesses | partial. Proved when the engine that cannot be created was to replace the synchronous one: nothing is lost and calls return. False for the first engine (log calls raise AttributeError) and for a pool (the stopped pool stays in use, logs are lost, the next change hangs); false also that the settings describe the engine. Proved in all cases: calls that have ended hold no lock; once an engine exists no log call raises; config.set can repair a failed start; the exit hook ends without an engine. |
| C95 | Fields registered and deleted while the program logs | the dictionary as a table of entries with empty places and the position, size and remaining length of its iterator; extraction as a small-step relation interleaved with elementary changes of the dictionary; invariant for runs without new names; measure for termination; witnesses for all other runs | partial. Proved for all runs in which no name is added or removed while a record goes through the fields (fields may be replaced under their names); the other theorems are about all runs. False in general: a registration or a deletion at the wrong moment makes the log call raise RuntimeError and lose the record; a field can also be missed silently when CPython rebuilds the table. |
| C96 | Log files that others rename, replace or remove | the model of the file handler (C36) interleaved with renames, removals and creations of files by others, and a history of which file each line was given to; inductive invariant per file; invariants for all continuations after the name is gone; a witness for the removal | partial. Proved for rotations on one file system; others do not change contents of existing files. That every line can be found in a named file is proved when others only rename and create; it is false when they remove or replace the log: the handler does not notice, writes on to the nameless file, reports nothing and never rotates again until a file at its name is large enough (proved for all continuations). |
| C97 | A failure to take the lock of a log file costs one record | the model of the locks (C41) with a step for a failing `flock` and a history of failures; inductive invariant for all lock types; an invariant for all continuations after a failure and a reachable witness | partial. Exclusion is proved for all lock types it belongs to. Going on is proved for the lock types `thread` and `file`; for `thread+file` it is false: the thread lock is not given back when the file lock raises, and every later record through the handler waits for ever (proved for all continuations). Only failures of the system call are modelled, not asynchronous interrupts between lines. |
| C98 | What a decorated function swallows is fixed when it is decorated | the objects of C31/C53 with the list of classes shared between the object and what was decorated with it; induction over the history; the exact set of swallowed classes, and a witness for a later `.suppress(...)` | partial. Proved under the condition that .suppress(...) is not called with classes of the same object after decorating; without the condition it is false, because the decorated function looks into the list of the object at the time of each call. The exact behaviour is proved too. |
| C99 | A full disk costs only records that are handed to alt | a small-step model of the handler over a file object with two buffers and a system that may refuse data at any time; invariant that everything stored is made of beginnings of lines; an invariant for calls that do not overlap; an invariant for all continuations of a closed file; reachable witnesses | partial. That nothing is doubled, reordered or mixed is proved for any number of threads. That every record is whole in the files or handed to alt is proved when calls of the handler do not overlap; with two workers it is false (a failing flush of one drops the line of the other, whose own flush then succeeds). A record may be in the file and handed to alt; a long line may be torn. Logging goes on while the file is open; but a rotation while something waits in the buffer closes the file for ever (proved for all continuations). The behaviour of file objects of Python (text layer, binary layer) is part of the model, see Full.lean; rotations are renames here and forced_flush is on. |
| C100 | A printed log shows its fields | the texts as functions of the fields; a grammar of entries as specification, and a proof that reading from left to right is deterministic for legible fields | partial. The exact text is proved for all logs, settings and objects. That a text determines the fields is proved when strings have no double quotes and other values no commas; it is false otherwise: quotes are not escaped. The text of id() is a parameter. |
| C101 | Logs written by destructors | the engine model with a stack of calls for each thread (each call is a thread of the engine model, only the topmost goes on); safety by projection, progress by a version of C18 for given threads, the deadlocks by invariants | partial. Safety is proved in full (every call of a stack is a thread of the engine model). That the calls end is proved when no interrupted call holds a lock or the mutex of the queue, and without condition for the synchronous engine after its start; it is false otherwise: a destructor that logs while its thread replaces the engine, writes the first log or puts into the queue waits for its own thread for ever. Destructors in worker threads are left out. |
| C102 | The complete log of a program is read off its code | a specification of the whole log by recursion on the code (what happened, what is due, the table of fields), without any function of the model; connected with the events of C25 and C28 by one induction on the code, and with C78, C73 and C79 for threads and files | partial. Proved for programs written as documented (Orderly in Calls/PlainSpec.lean); the other programs are the subject of C23, C24, C28, C29 and their _fails theorems. The specification mentions only the code, the settings and the tables of fields, no function of the model of the library. The versions down to the file have the limits of C73 and C79. |
| C103 | The arguments of a decorator are checked when it is applied | the checks of the decorators as a function of the given arguments, compared with a table of right values; the loop over the methods of a class with the exception that ends it; refinement of the model of C30 when there is none; concrete classes for what is false | partial. Proved for functions, with the kind of every exception (C103_function_exceptions, C103_handlers_exceptions, C103_fields_exceptions). For classes three things are false: a class without methods accepts any message and level, a class with methods of a built-in type (every subclass of Exception or list) is refused with a TypeError, and a name in methods which the class does not have leaves the class half decorated; a text given as methods is read letter by letter. |
| C104 | What can be given to unlog | `unlog(...)` as a function of the given objects; the loop over `dir` with the exception that ends it, by induction over the names for any order; refinement of the model of C30 when no exception is raised; concrete classes for what is false | partial. Proved for functions, for wrong objects and for classes without methods of built-in types. False: a class with methods of a built-in type (every subclass of Exception or list) is refused with a TypeError, after some of its methods may have been replaced; and unlogging a subclass makes the inherited methods impossible to log in the base class. C104_minus_signs: `@(-log)` is `@unlog`. |
| C105 | Logs written in a child process | the engine model continued from the state that `os.fork()` leaves (workers gone, other threads gone, locks and queues kept); the invariants of the engine weakened to allow locks held by nobody; invariants for all continuations of a hung child; an explicit run for the recovery; reachable witnesses | partial. False for programs with workers: a log call of the child returns and its log waits for ever in a queue that nobody reads; config.set(pool_size=...) after it never returns, and the work of the exit hook ends only by its limit of time. False for a fork while another thread writes the first log or exchanges engines: no log call of the child ever returns. polog has no code for child processes; the model of os.fork() is stated in Engine/Fork.lean. |
| C106 | The log file in forked processes | processes with threads, buffers, locks and a `fork` action over one file system; every written line gets a number, and an invariant tells where each number is (on disk, or in the buffer of one process); invariants for all continuations of a child that inherited a taken lock; a second model of `flock` with open files shared by forks and freed by deaths; reachable witnesses | partial. Proved for forced_flush=True and forks during which no other thread is in the handler. False for a fork between write and flush of another thread (the line comes twice), for a fork while another thread holds a lock of the handler (every call of the handler in the child hangs), for forced_flush=False (waiting lines come twice), and for the file lock, which parent and child share: both get inside, and the lock of a killed parent stays taken while its child lives and does not log. |
| C107 | Interrupts while a line is written to a file | threads in one handler, each `with` block split at the places where an interrupt can come, and an `interrupt` action of the main thread; invariants for what is on disk and for who holds the locks; progress by a measure of what is left to do; invariants of the states after a bad interrupt, for all continuations; reachable witnesses | partial. That written lines are kept, each call is accounted for and an interrupt costs at most one line, and that an undisturbed call ends with its line on disk, is proved for all interrupts; that the handler goes on is proved for interrupts outside three places. At those it is false: an interrupt in DoubleLock.__enter__ after the lock was taken or in __exit__ before it is released leaves it taken and every later call of every thread hangs; one between moving the log file and opening the new one leaves no log file for ever, and, if the old one was closed, all later lines fail. |
| C108 | Exceptions of any class | the interpreter of C24–C31 with a kind for every exception of the program (what asking for and setting the mark does); equal to the original interpreter for ordinary exceptions (induction over the code); transparency and an invariant about marks and records for the other kinds; chains of any length for the kinds that break the property | partial. Proved: code that raises ordinary exceptions runs as in C24-C31 whatever other classes there are; code is transparent as long as no exception raises something when an attribute of it is asked for or set; an exception is never recorded twice unless its class ignores the setting of attributes. False otherwise: a class that refuses to set attributes (frozen dataclass) or raises when asked has its exceptions replaced by another one, even under @log.suppress(), without a record; a class that answers to every name is never recorded by decorators; one that ignores the setting of attributes is recorded by every decorator. |
| C109 | Logs written in the middle of writing a line | threads as stacks of calls over the model of C107 (without interrupts), a destructor may start at any moment and only the topmost call of a stack goes on; safety by projection to C107; an invariant about the calls above a call that holds a lock; progress by a measure; the two directions give an equivalence; reachable witnesses | partial. Proved for all executions: the files hold what was written, whole, in order and once, and every finished call has one fate; all calls can be finished if and only if no destructor has called the handler while a call of the same thread that it interrupted holds a lock of the handler. If one has, the two calls never return and no thread that is outside the handler ever gets a line through it again (for all continuations): both locks of the handler are plain, not reentrant. Reachable in the middle of writing a line and while the rules of rotation are checked. |
| C110 | An automatic record names its function, module and class | the attributes of a function object as options; the qualified name by the rule of the language for any list of enclosing scopes; splitting at dots is inverse to joining; connected with every record of every program through C75; concrete functions for what is false | partial. Proved for every nesting of classes and functions and for every program: plain functions, methods, lambdas, methods bound to instances; class methods get the class they were taken from. False for built-in functions (the module they are bound to is recorded as the class) and for methods bound to an object with a __name__ of its own. |
| C111 | Log files that others copy and empty | the file model of C36 with actions of others, each of which may also copy or empty a file; a history of what happens to contents and a function that reads from it what is due in a file; invariant by induction, reusing the steps of C96 from a state in which the files hold what is due; reachable witnesses; if every copy, emptying and write happens between whole lines, every file is made of whole lines (induction) | partial. Proved for all executions: every file holds what is due; a file emptied while no call is in progress holds exactly the later lines; copying and emptying with nothing in between loses nothing, even in the middle of a line. False otherwise: a line written between copying and emptying is in neither file and is not reported; if a file is emptied in the middle of a long line, the rest of the line stays in it. |
| C112 | Cleaning the memory handler when records hold objects with destructors | the model of memory_saver of C58 with a stack of calls per thread and the logs that destructors still have to write during a statement of clean (which records a statement frees follows from what all and last refer to); invariant by induction; what waits for itself waits for ever; otherwise an explicit schedule that finishes everything | partial. Proved for all executions: the contents are those of C58; a log of a destructor inside the handler stops it for ever; a clean that is to free an object whose destructor logs never returns; otherwise everything in progress can be finished; clean returns exactly when nothing it frees logs. Not always: a single record with such an object makes clean hang. |
| C113 | Calls ended by interrupts and cancellation | the model of code with decorated calls and blocks of C24-C31, in which an exception object tells whether it is an instance of Exception; induction over the code and over chains of decorators; concrete programs for what is false | partial. Proved for all programs: decorators neither record nor hold up interrupts. False: with log.suppress() lets Ctrl-C through (it swallows it), and the message of an interrupted call stays out of other records. |

## Disagreements between the documentation and the code

Found while modelling; every line marked with theorem names is proved of the model.

1. `name in tree` is true for empty nodes, so a free name may be refused with `NameError`; the root can never be
   registered (C03, C04).
2. A level number keeps the name of a level that was moved to another number (C07).
3. The first log and a simultaneous `config.set(pool_size=…)` can deadlock; `pool_size=0` set during the first load makes a pool
   without workers (C18).
4. A log written while the engine is being reloaded may be put into a queue nobody reads (C17, C55).
5. The public setting `started` switches off the loading of the engine; logs written after the exit hook block for ever (C21, C55).
6. A log without a time is not equal to itself (C13).
7. Manual logs carry no list of engine fields, so fields added by `add_engine_fields` never appear in them (`LogItem`, `Handle`).
8. Two names of one field in a manual log silently overwrite each other (C23).
9. An unknown level or an unprintable result makes a decorated function raise (C24).
10. A tuple with `...` as `extra_fields` raises; a list with `...` loses it on the first use (C16).
11. A call of an unlogged function inside a fully unlogged one switches logging on again (C29).
12. `log.name(…, level=x)` ignores `x` although the docstring promises the opposite (C33).
13. `ass` with `if_debug`/`all` writes one record too many when debugging (C34).
14. `ThreadLock` is released before `FileLock` in the double lock, so processes with several threads interleave (C41).
15. Simultaneous first constructions of a singleton give two objects (C48, C58).
16. The duration of whole tens of seconds loses its zeros: 10 is shown as 1 (C44).
17. Handlers `def h(x, *, y)` are accepted, `def h(x, y=1)` rejected (C49).
18. Automatic names end after 4999·74 registrations (C46).
19. A raising filter bypasses `alt`; an answer that is not a bool counts as yes (C35).
20. A local namespace loses a branch for good once it is empty at a deletion (C05).
21. `get_all_fields` ignores `fields_intersection` (C54); the copy of that setting in logs may stay wrong (C67).
22. With `forced_flush=False`, or two threads, rotation to another file system loses lines; a rotation that cannot open the new file
    stops the handler (C36).
23. `@log` on a second subclass records inherited methods twice; `methods=` undoes `@unlog` (C30).
24. Tasks created inside `with log:` share the stack of blocks (C32); `with log.suppress(5):` leaves its object on the stack (C32).
25. A decorated function written in C records the local variables of the decorator; `log(exception=x)` outside of the handler of `x`
    records the traceback of another exception (C72).
26. `log('text')(5)` raises and loses the record (C53); `log.suppress(E)('text')` forgets `E` (C31).
27. A field whose `str()` raises loses the whole line (C42); a line break in a message forges a line (C57) and a field of a letter (C60).
28. Arguments whose class is a subclass of `int`, `str`, … are stored with the name of the base class (C45).
29. Child loggers are not intercepted; `exc_info=False`, `exc_info=True` outside `except` and falsy messages (C51).
30. `max_delay_before_exit=0` means "no limit"; the limit does not cover joins and the engine lock (C52).
31. A registration during the handling of a log makes handlers miss that log (C59).
32. SMTP: workers share one connection attribute, letters are lost and connections leak; if the answer of the server is lost, a delivered letter also counts as failed (C61).
33. A file object without `flush` gets every record and gives it to `alt` as well; `lock_type='file'` with stdout takes no lock (C62).
34. `WeakDict`: equal keys lose pairs, `items()` calls the values (C64).
35. `delete_handlers(object)` finds only names without dots (C68); one object can be registered twice (C69).
36. Two rotations in one microsecond overwrite each other (C70).
37. Several processes: lines are lost after a rotation to another file system; long lines are torn, because the lock is released
    between `write` and `flush`; other processes go on writing to the rotated file (C71).
38. After `fork` the lock file is shared and excludes nobody (C41).
39. `message(auto=False)` forges the field `auto`, which the README says the user cannot control (C76).
40. The level filter is applied before the message: `message(level=0)` produces a record below the threshold (C77).
41. With `forced_flush=False` a crash loses finished records, not only the one in work (C74); a crash inside a line leaves a torn
    line to which the next line is appended after a restart (C74).
42. The names of `extra_fields` of a decorator are not checked, unlike those of `add_fields`: with `fields_intersection=True`
    `@log(extra_fields={'level': ...})` replaces the level and goes around the level filter (C50).
43. `deduplicate_errors` tests and sets the mark on an exception in two steps: two threads that meet one exception object may
    both record it (C27).
44. `@unlog` does nothing to the body of a generator function, and `@log` records a generator function as a success before its body
    has begun; its exceptions are not recorded (C29, C25).
45. A thread started in an unlogged call logs (C29); a message left by a task does not reach the record of the function that awaits
    the task (C28).
46. Ctrl-C inside a handler, a field, or the callback of a setting is swallowed by the bare `except:` of `exception_escaping`; if it
    comes while `config.set(pool_size=...)` replaces the engine, the engine lock stays taken for ever and all threads stop logging;
    if it comes while the first log loads the engine, the log calls raise `AttributeError` afterwards (C82).
47. The file formatter takes tracebacks apart at white space: for a file with a blank in its path it shows half of the path, the word
    "line" for the number of the line, and the name of the function among the code (C84).
48. A class of tokens with the letter `.` is accepted although the message of the error says it is not; its pattern matches tokens of
    every class, and `group['.']` skips it (C85).
49. The exit hook of the engine keeps the engine lock for ever. `x = log('a')` and then `log('b')`: the object `x` is finalized at exit,
    after the hook, its log waits for the lock, and the program never ends. With `pool_size > 0` a first log written at exit is lost (C87).
50. One field whose value cannot be turned into text makes the file handler lose the whole record (C73).
51. `@log` and `@unlog` on a class turn static methods, class methods and nested classes into ordinary methods: called through an
    instance they get the instance as an additional argument. `methods=` does it to the methods it does not name as well. Inherited
    methods are copied into the class and hide those of a sibling in a diamond; `@classmethod` over `@log` is recorded twice (C88).
52. `input_variables` is made when the decorated function has ended: a list that the function appends to is shown as it is after the
    call, not as it was passed (C90).
53. A handler that writes a log can stop the program for ever. With `max_queue_size=1` and one worker, three calls are enough: the
    worker waits for room in the queue that only it could make. While `config.set(pool_size=…)` stops the pool, the thread holds the
    engine lock and joins the worker, and the worker waits for the engine lock; the same happens in the exit hook, so the program does
    not end (C91).
54. A handler that calls `config.set(pool_size=…)` can stop the program for ever: if one more log waits in the queue of the only worker,
    if handlers in two workers do it at once, or if the handler was called under the engine lock because its log was written during
    another change (C93). Otherwise the worker joins itself; the `RuntimeError` is swallowed.
55. A failure to create an engine is swallowed (`engine.py:88`). If it was the first engine, every log call raises `AttributeError` from
    then on. If it was to replace a pool, the stopped pool stays in use: logs are accepted and never handled, and the next
    `config.set(pool_size=…)` waits for ever for its queue. In all cases `config.set` returns as if the change had been made (C94).
56. Records go through the dictionary of extra fields without a lock or a copy. `config.add_fields(…)` or `config.delete_fields(…)` in
    another thread, or in a field itself, can make a log call (or a decorated function) raise `RuntimeError: dictionary changed size
    during iteration` and lose the record; a field that stays registered can also be missed silently (C95).
57. The place shown in a line (`where: service.module…`) takes the name of the service from the settings at the moment the line is made,
    not from the record; after a change of `service_name` waiting records are shown under the new name (C42).
58. If the log file is removed or replaced by others the handler goes on writing to the file without a name, without any report, and rotation
    stops: asking for the size raises, which is swallowed, or asks about the new file. With `logrotate` in the mode `create` all lines stay in the
    renamed file and the new file stays empty for ever (C96).
59. With the lock type `thread+file`, one failing or interrupted `flock` blocks the file handler for ever: `DoubleLock.__enter__` has taken the
    thread lock and does not give it back when the file lock raises (C97).
60. `.suppress(E)` called of an object `log(...)` after it was used as a decorator changes the decorated function (it shares the list of
    classes), while `.suppress()` without arguments does not (C98).
61. A full disk: a record whose flush failed is handed to `alt` and stays in the buffer, from which a later call writes it, so it is in both; a line larger
    than the buffer may be torn and joined with the next one; with two workers a record may be lost although its call ended normally; and if the file
    is rotated while something waits in the buffer, `close` raises after the rename, the exception is swallowed and the handler never writes again (C99).
62. The text of a log (`print(log)`) does not escape quotes, so logs with different fields may look the same (C100). The text of the settings was
    meant to show strings in quotes; line 298 of settings_store.py compares (`==`) instead of assigning, so they are shown without.
63. A destructor that logs (the object of `log('text')` itself writes in `__del__`) may be run by the garbage collector in the middle of a call of the same
    thread. If that call replaces the engine, writes the first log or is inside `queue.put`, the destructor waits for a lock which its own
    thread holds: both hang for ever, and with a pool all other threads that log hang, too (C101).
64. `@log` on a class: methods inherited from a built-in type cannot be put into the registry (no weak references), so decorating a subclass of
    `Exception`, `list`, … without `methods` raises `TypeError` after the methods before it (in the order of `dir`) have been replaced. A missing name in `methods`
    raises after the names before it were decorated. A class without methods accepts any message or level. `methods='run'` means the methods
    `r`, `u`, `n` (C103).
65. `@unlog` on a class: a method inherited from a built-in type cannot be put into the set of forbidden functions (no weak references), so `@unlog` on a
    subclass of `Exception`, `list`, … raises `TypeError`, after the methods before it were replaced. And `@unlog` on a subclass forbids the inherited functions
    themselves: `@log` applied to the base class afterwards gives unlogged methods (C104).
66. `os.fork()`: in the child of a program with workers the threads of the workers do not exist, but the queue does. Log calls return and nothing is
    handled; `config.set(pool_size=...)` after the first such log, and the exit hook without a time limit, wait for ever for the queue to become empty. A fork
    while another thread is inside its first log call or inside `config.set(pool_size=...)` leaves `Engine.lock` locked: the first log call of the child hangs. There
    is no `os.register_at_fork` in polog (C105).
67. `os.fork()` and files: the buffer of the open file is copied, so with `forced_flush=False` the lines that wait in it are written by both processes; a fork by
    one thread while another is between `write` and `flush` doubles that line even with `forced_flush=True`. A fork while another thread is inside the handler leaves the
    inherited `threading.Lock` taken: every call of this handler in the child hangs. The lock file is opened when the handler is made, so parent and child share one
    `flock`: it does not exclude them from each other, the first release frees it for both, and if the parent is killed inside, the lock stays taken until the
    child logs or ends, while all other processes wait (C106, C41).
68. Ctrl-C inside a file handler (synchronous engine): `DoubleLock.__enter__` and `__exit__` are Python code, so an interrupt after the lock was taken in `__enter__`, or
    before it is released in `__exit__`, leaves it taken: from then on every call of the handler, in every thread, hangs, and the interrupt itself is swallowed. An interrupt
    between `shutil.move` and the opening of the new file leaves no file of that name, and as `get_size` then raises, no rotation ever makes one: lines go on into
    the rotated file, or, if the old file was already closed, every later line fails (C107).
69. Decorators mark exceptions by setting an attribute of them. If the class of the exception refuses that (`@dataclass(frozen=True) class E(Exception)`), a decorated
    function that raises `E` raises `FrozenInstanceError` instead, nothing is recorded, and `@log.suppress()` does not help; the same if `__getattr__` of the class
    raises something else than `AttributeError`. If `__getattr__` answers to every name, the exception counts as already recorded and is never recorded. If `__setattr__`
    ignores unknown names, every decorator on the way records it (C108).
70. The locks of a file handler (`rotator.py:27`, `thread_lock.py:16`) are not reentrant. With the default engine a log written by a destructor or a
    signal handler goes to the handler at once; if the thread is just writing a line, flushing, rotating or checking whether to rotate, the thread waits
    for itself for ever, and so does every thread that uses this handler later (C109).
71. `get_class_name` (`function_logger.py:139-140`) takes `__self__.__name__` as the name of a class whatever the function is bound to. `log(len)` records the
    class `builtins` (a module), and a method bound to an object with a `__name__` of its own is recorded with this name instead of its class (C110).
72. With `copytruncate` (others copy the log and then empty it) a line that is written between the two is lost and not reported; nothing in Polog (such as a lock
    that others can take) prevents it. A file that is emptied in the middle of a long line keeps the rest of this line (C111).
73. A record holds the arguments of the call it is about, and `memory_saver.clean` (`saver.py:33-40`) frees the records while it holds the semaphore, which is not
    reentrant. If an argument has a destructor that logs (`__del__` with `log(...)`, or an unused `log('text')` kept in an object), `clean()` never returns with the
    synchronous engine, and no record is ever saved again (C112).
74. A decorated call that is ended by something that is not an `Exception` (Ctrl-C, `sys.exit()`, the cancellation of an asyncio task) leaves no record, although it has
    ended with an error; a message it has left gets into the record of the function around it. `with log.suppress():` does the opposite: it records Ctrl-C and
    swallows it (C113).
75. `with log('x').suppress(5):` raises `ValueError` before the block begins, but the object it leaves behind is unused, so the record of a plain `log('x')` is
    written when it is dropped (C53).
76. `log('x')(f, g)` and `log('x')(f, level=3)` silently ignore `g` and the level: the check in `finalizer.py:45` joins its two conditions with `and`. For the same
    reason `log('x')()` is an `IndexError` instead of the error for wrong use (C53).
77. A pattern of tokens with brackets that are not closed (`s*n[5`) is not rejected: the unfinished element is forgotten (`tokens_group.py:149-154`), so it matches
    what `s*` does; `n[5` alone is an `IndexError` when it is compared. `n[5][6]` means two tokens (C39).

## Axioms of each theorem

**propext, Classical.choice, Quot.sound** (508 theorems): `C01_namespace_is_a_map`, `C01_other_keys_unaffected`, `C01_read_back`, `C02_iteration_complete_and_exact`, `C03_add_handlers_never_overwrites`, `C03_occupied_name_rejected`, `C03_free_name_can_be_taken_partial`, `C03_free_name_can_be_taken_fails`, `C03_selected_name_cannot_be_taken`, `C03_root_never_registrable`, `C04_no_dead_branches_partial`, `C04_no_dead_branches_fails`, `C05_namespace_is_made_with_generated_names`, `C05_live_or_lost`, `C05_selected_branch_partial`, `C05_nothing_else_visible`, `C05_emptied_branch_lost`, `C05_global_is_a_map`, `C06_names_and_numbers`, `C06_other_names_unaffected`, `C06_levels_nonnegative`, `C06_levels_raises_iff`, `C06_kind_of_rejection`, `C07_displayed_under_current_name_partial`, `C07_displayed_under_last_given_name`, `C07_displayed_under_current_name_fails`, `C08_rejected_change_has_no_effect`, `C08_accepted_iff_acceptable`, `C08_kind_of_rejection`, `C08_unknown_name_rejected`, `C09_settings_always_valid`, `C09_settings_always_valid_concurrent`, `C09_defaults`, `C10_no_impossible_combination`, `C10_no_impossible_combination_concurrent`, `C11_items_applied_in_order`, `C11_reload_exactly_once_per_change`, `C11_order_matters`, `C13_trichotomy`, `C14_each_registered_key_once`, `C16_reused_list_fails`, `C17_nothing_vanishes_or_duplicates`, `C17_handled_at_most_once`, `C17_exactly_once_unless_late_partial`, `C17_exactly_once_in_calm_executions_partial`, `C17_sync_exactly_once`, `C17_no_log_lost_fails`, `C18_every_call_can_return_partial`, `C18_before_the_first_engine_iff`, `C18_start_without_changes_can_return`, `C18_after_the_first_engine_iff`, `C18_no_deadlock_fails`, `C18_writer_never_stranded_fails`, `C18_reload_always_ends_fails`, `C19_all_handled_exactly_once_when_stopped`, `C20_sync_handled_before_return_in_order`, `C20_sync_at_most_the_last_missing`, `C21_hook_is_registered`, `C21_started_exactly_once`, `C22_handle_log_records_exactly_when_level_passes`, `C22_log_statement_records_exactly_when_level_passes`, `C23_strict_rejects_exactly_wrong_calls_partial`, `C23_log_statement_wrong_calls_record_nothing_partial`, `C23_log_statement_two_messages`, `C23_unknown_fields_rejected_unless_allowed`, `C23_log_statement_raises_fails`, `C23_log_statement_unknown_fields_fails`, `C23_two_names_of_one_field_fails`, `C23_loyal_ignores_only_the_wrong_arguments_partial`, `C23_loyal_never_raises_fails`, `C23_loyal_two_names_fails`, `C23_loyal_log_statement_records_the_rest_fails`, `C24_decorators_are_transparent`, `C24_same_outcome_as_the_original`, `C24_unknown_level_raises_fails`, `C24_unprintable_result_raises_fails`, `C25_failing_generator_is_recorded_as_success_fails`, `C25_record_of_a_generator_is_made_before_its_body`, `C25_one_record_per_call_partial`, `C25_as_many_records_as_calls`, `C26_level_of_the_record`, `C26_level_is_determined`, `C27_exceptions_of_polog_are_new`, `C27_own_exception_is_recorded_by_the_next_partial`, `C27_never_recorded_twice`, `C27_recorded_once_by_the_innermost_partial`, `C27_lost_when_innermost_is_filtered_fails`, `C27_tasks_never_record_an_exception_twice`, `C27_two_threads_record_one_exception_fails`, `C28_record_has_the_last_own_message_partial`, `C28_earlier_messages_do_not_matter`, `C28_inner_call_clears_the_message_fails`, `C28_message_of_a_filtered_call_leaks_fails`, `C28_message_of_a_task_is_lost_fails`, `C29_generator_body_runs_as_without_unlog`, `C29_unlogged_generator_logs_fails`, `C29_nothing_recorded_inside_unlogged_partial`, `C29_nested_unlogged_call_switches_logging_on_fails`, `C29_task_of_an_unlogged_call_records_nothing_partial`, `C29_thread_started_by_an_unlogged_call_logs_fails`, `C30_every_stack_amounts_to_something`, `C30_stack_amounts`, `C30_stack_at_once`, `C30_call_is_that_of_the_topmost`, `C30_unlog_wins`, `C30_decorating_a_class_partial`, `C30_unlogging_a_class`, `C30_methods_argument`, `C30_second_subclass_records_twice_fails`, `C30_methods_argument_removes_unlog_fails`, `C31_block_records_once_partial`, `C31_record_tells_how_it_went`, `C31_correct_blocks_begin`, `C31_unknown_level_fails`, `C31_unprintable_exception_fails`, `C31_block_without_brackets_partial`, `C31_suppress_without_brackets`, `C31_suppress_then_call_fails`, `C31_blocks_inside_calls`, `C32_blocks_pair_up_partial`, `C32_record_of_a_nested_block_partial`, `C32_task_made_inside_a_block_fails`, `C32_block_that_does_not_begin_fails`, `C33_ordinary_attributes`, `C33_attribute_is_the_level_partial`, `C33_level_of_the_record`, `C33_attribute_suppress`, `C33_attribute_block`, `C33_explicit_level_has_priority_fails`, `C33_registered_levels_can_be_used`, `C34_record_of_a_failed_assertion`, `C34_true_expression_does_nothing`, `C34_false_expression_logs_once_when_not_debugging`, `C34_false_expression_raises_when_debugging`, `C34_records_when_debugging_partial`, `C34_message_text`, `C34_if_debug_writes_nothing_when_debugging_fails`, `C34_all_writes_one_record_fails`, `C34_failing_expression_is_recorded_fails`, `C34_never_raises_when_not_debugging`, `C34_more_than_one_message`, `C35_chain_first_able_handler_writes`, `C35_chain_never_raises`, `C36_reliable_system_writes_everything`, `C36_every_schedule_finishes`, `C36_calls_can_be_finished`, `C36_buffered_text_is_lost_fails`, `C36_unflushed_text_of_another_thread_is_lost_fails`, `C36_failed_reopening_stops_the_handler_fails`, `C37_rotation_is_due_iff_some_limit_is_reached`, `C38_accepted_rotation_strings`, `C38_other_strings_raise_value_error`, `C39_unclosed_brackets_fails`, `C39_empty_pattern_fails`, `C42_line`, `C42_no_line_exactly`, `C42_extra_fields_once`, `C42_failing_extractor`, `C42_unprintable_value_fails`, `C42_standard_texts`, `C42_missing_fields`, `C42_place_text`, `C42_service_name_of_another_moment_fails`, `C42_success_of_other_values`, `C42_usual_line`, `C43_columns_line_up`, `C43_level_names_fit`, `C44_time_of_work_partial`, `C44_whole_tens_fails`, `C45_absent_exactly`, `C45_raises_exactly`, `C45_one_entry_each_partial`, `C45_subclass_fails`, `C45_text_lists_all_arguments`, `C46_generated_names_are_distinct_partial`, `C46_generated_names_are_identifiers_partial`, `C46_what_a_generated_name_is`, `C46_names_never_end_fails`, `C46_unnamed_handlers_are_all_registered_partial`, `C47_roman_numeral_denotes_its_number`, `C47_roman_numeral_is_the_usual_one`, `C47_roman_numerals_are_distinct`, `C47_no_numeral_from_5000`, `C48_constructor_exclusive`, `C48_no_deadlock`, `C48_after_first_construction_partial`, `C48_first_call_alone_partial`, `C49_accepted_callable_partial`, `C49_accepted_callable_exactly`, `C49_plain_accepted`, `C49_callable_accepted_exactly`, `C49_not_callable_rejected`, `C49_accepted_not_callable_fails`, `C49_callable_rejected_fails`, `C49_template_matches_exactly`, `C49_double_name_template_fails`, `C49_empty_template_callable_partial`, `C50_registered_fields_keep_automatic_fields`, `C50_registered_fields_keep_manual_fields`, `C50_fields_of_a_decorator_replace_the_level_fails`, `C50_level_names_never_shadow`, `C50_field_names_never_shadow`, `C51_off_untouched`, `C51_on_partial`, `C51_settings`, `C51_raises_exactly`, `C51_child_logger_fails`, `C51_exc_info_fails`, `C51_false_message_fails`, `C52_returns_when_handled`, `C52_time_limit_decorator`, `C52_limit_argument`, `C52_wrong_limit_is_refused`, `C53_one_and_only_one_use`, `C53_right_uses`, `C53_dispatch`, `C53_number_of_arguments`, `C53_plain_call_is_a_manual_record`, `C53_brackets`, `C53_empty_brackets`, `C53_wrong_second_brackets`, `C53_further_arguments_are_ignored_fails`, `C53_refused_block_is_recorded_fails`, `C53_wrong_use_loses_the_record`, `C54_registry_is_a_map`, `C54_same_exceptions`, `C54_get_all_fields_off_fails`, `C55_exit_hook_drains_partial`, `C55_exit_hook_drains_in_calm_executions_partial`, `C55_after_exit_hook_blocked_for_ever`, `C55_exit_hook_drains_fails`, `C56_lock_types`, `C57_one_record_one_line_partial`, `C57_file_splits_into_records_partial`, `C57_forged_line_fails`, `C58_holds_the_saved_records_partial`, `C58_order_of_calls`, `C58_every_call_can_return`, `C59_kept_handlers_are_called_partial`, `C59_kept_handlers_are_called_once_partial`, `C59_only_registered_handlers_are_called`, `C59_calm_walk_never_raises`, `C59_operations_are_changes`, `C59_walk_ends_when_changes_stop`, `C60_text_lists_the_fields_partial`, `C60_text_determines_the_fields_partial`, `C60_text_determines_the_fields_fails`, `C60_subject_tells_the_outcome`, `C60_outcome_from_the_subject`, `C60_letter`, `C60_one_letter_for_a_wanted_log`, `C60_password_is_not_shown`, `C61_every_letter_sent_or_reported_partial`, `C61_no_letter_twice_partial`, `C61_no_letter_is_forgotten`, `C61_sequential_sending_delivers_partial`, `C61_one_worker_delivers_partial`, `C61_sequential_sending_goes_on`, `C61_every_call_ends`, `C62_smtp_accepted_iff_documented`, `C62_smtp_rejected_with_value_error`, `C62_file_accepted_iff_documented`, `C62_file_rejected_with_value_error`, `C62_rotation_needs_a_path`, `C62_subclass_checks`, `C62_accepted_object_serves_fails`, `C62_object_with_flush_serves`, `C62_requested_lock_is_taken_fails`, `C62_locks_for_a_path`, `C63_accepted_iff`, `C63_value`, `C63_value_in_the_record`, `C65_representation_lists_the_nodes`, `C65_representation_determines_the_nodes`, `C66_engine_as_configured`, `C66_limited_queue_has_workers`, `C66_change_takes_effect`, `C67_log_is_built_in_as_configured`, `C67_logging_is_intercepted_as_configured`, `C67_fields_intersection_as_configured_partial`, `C67_first_log_is_created`, `C67_fields_intersection_as_configured_fails`, `C68_delete_handlers_frees_exactly_the_given`, `C68_delete_by_name`, `C68_delete_by_object_partial`, `C68_unknown_object_rejected`, `C68_delete_by_object_fails`, `C69_registered_object_rejected_partial`, `C69_new_object_registered`, `C69_same_object_twice_fails`, `C70_rotated_names_differ`, `C70_rotated_files_are_distinct`, `C70_rotated_file_is_in_the_directory`, `C70_same_moment_overwrites_fails`, `C71_lines_of_all_threads_can_be_found_partial`, `C72_one_record_per_exception`, `C72_outer_decorators_make_no_record`, `C72_function_written_in_C_fails`, `C72_exception_kept_from_before_fails`, `C73_every_event_is_in_the_file_partial`, `C73_file_reads_back_line_by_line_partial`, `C73_every_event_is_in_the_file_with_a_pool_partial`, `C73_unprintable_value_loses_the_line_fails`, `C74_stopped_program_loses_at_most_one_event_partial`, `C74_unprintable_value_loses_finished_records_fails`, `C74_stop_loses_at_most_one_record`, `C74_finished_records_are_on_the_disk`, `C74_forced_flush_is_needed`, `C75_every_record_has_a_cause`, `C76_auto_with_registered_fields_partial`, `C76_mandatory_fields`, `C76_auto_is_true_exactly_for_decorators_partial`, `C76_auto_can_be_forged_fails`, `C77_threshold_with_registered_fields_partial`, `C77_nothing_below_the_threshold_partial`, `C77_message_puts_a_record_below_the_threshold_fails`, `C78_begun_tasks_run_as_alone`, `C78_begun_threads_run_as_alone`, `C78_threads_do_not_disturb_each_other`, `C78_every_thread_can_end`, `C79_only_lines_of_events_no_event_twice`, `C79_every_event_of_every_thread_is_in_the_file_partial`, `C79_unprintable_field_empties_the_file_fails`, `C80_file_is_an_interleaving_of_the_threads_partial`, `C80_unprintable_field_empties_the_file_fails`, `C81_stopped_threads_lose_at_most_one_event_each_partial`, `C81_unprintable_field_loses_all_records_fails`, `C82_after_an_interrupt`, `C82_interrupts_lose_only_the_interrupted_calls_partial`, `C82_calls_can_return_after_interrupts_partial`, `C83_kill_loses_a_limited_number_partial`, `C83_kill_loses_a_limited_number_in_calm_executions_partial`, `C83_kill_loses_with_those_in_calls_partial`, `C83_sync_loses_nothing`, `C83_kill_loses_a_limited_number_fails`, `C84_result_is_shown`, `C84_other_result_is_shown`, `C84_local_variables_are_shown`, `C84_traceback_is_shown_partial`, `C84_line_shows_the_way_to_the_error_partial`, `C84_file_name_with_a_blank_fails`, `C85_letters_are_unique`, `C85_refused_exactly`, `C85_letter_stands_for_one_class_partial`, `C85_dot_fails`, `C85_parts_of_a_group`, `C85_first_of_a_group_partial`, `C86_killed_pool_loses_a_limited_number_partial`, `C87_log_after_the_engine_has_stopped_hangs`, `C87_ended_program_has_recorded_everything_partial`, `C87_used_object_does_not_write_at_exit`, `C87_program_ends_fails`, `C87_orderly_program_can_end`, `C87_program_can_end_iff`, `C87_silent_program_can_end`, `C88_logged_attribute_iff`, `C88_unlogged_attribute_iff`, `C88_methods_attribute_iff`, `C88_number_of_wrappers`, `C88_decorated_class_calls_the_same_partial`, `C88_unlogged_class_calls_the_same_partial`, `C88_calls_through_the_class_itself`, `C88_static_methods_fails`, `C88_class_methods_fails`, `C88_nested_classes_fails`, `C88_diamond_fails`, `C88_decorated_class_method_twice_fails`, `C88_what_unlog_replaces`, `C88_what_log_replaces`, `C88_what_log_with_methods_replaces`, `C88_unnamed_attribute_iff`, `C90_record_shows_the_arguments_partial`, `C90_arguments_are_shown_as_at_the_end`, `C90_changed_arguments_fails`, `C91_no_log_is_lost_or_doubled`, `C91_everything_is_handled_partial`, `C91_rest_is_reached_partial`, `C91_synchronous_order`, `C92_record_has_the_given_fields`, `C92_message_asks_for_what_is_given`, `C92_strict_message_rejects_wrong_calls_partial`, `C92_loyal_message_ignores_wrong_arguments_partial`, `C92_loyal_unknown_level_fails`, `C93_change_completes_partial`, `C93_two_handlers_fails`, `C93_synchronous_fails`, `C94_failures_lose_nothing_partial`, `C94_calls_can_return_after_failures_partial`, `C94_without_an_engine_every_call_raises`, `C95_record_of_a_calm_run_partial`, `C95_kept_field_is_taken_partial`, `C95_extraction_ends`, `C95_calls_are_changes`, `C95_registration_breaks_a_log_call_fails`, `C95_deletion_breaks_a_log_call_fails`, `C96_lines_are_in_the_file_they_were_given_to`, `C96_all_lines_are_in_files_at_rest`, `C96_lines_stay_in_named_files_partial`, `C96_lines_stay_in_named_files_fails`, `C97_failures_let_nobody_in`, `C97_failures_let_no_process_in`, `C97_lock_can_be_taken_again_partial`, `C97_failed_lock_stays_taken`, `C97_thread_and_file_fails`, `C98_what_a_function_swallows`, `C98_fixed_when_decorated_partial`, `C98_bare_decorator_swallows_nothing`, `C98_later_suppress_fails`, `C99_every_line_is_stored_or_handed_to_alt_partial`, `C100_text_lists_the_fields`, `C100_raises_exactly`, `C100_text_determines_the_fields_partial`, `C100_text_of_a_log_is_ambiguous_fails`, `C100_text_of_settings`, `C100_text_of_a_log_object`, `C101_nothing_vanishes_or_duplicates`, `C101_every_call_can_return_partial`, `C101_collected_while_the_engine_is_replaced_fails`, `C101_first_log_collected_fails`, `C101_collected_inside_put_fails`, `C101_synchronous_engine_needs_no_lock`, `C102_log_is_read_off_the_code`, `C102_each_thread_logs_what_its_code_says`, `C102_file_is_read_off_the_code_partial`, `C102_files_of_all_threads_are_read_off_the_code_partial`, `C103_class_names`, `C103_methods_must_be_a_collection`, `C103_class_wrong_argument_partial`, `C103_class_without_methods_fails`, `C103_class_accepts_partial`, `C103_built_in_methods_fails`, `C103_missing_method`, `C103_class_as_in_C30`, `C103_failed_decoration_changes_nothing_fails`, `C103_methods_as_text_fails`, `C103_handlers_exceptions`, `C103_fields_exceptions`, `C103_function_arguments`, `C103_accepted_arguments_take_effect`, `C103_function_exceptions`, `C103_decorator_with_brackets`, `C103_settings_do_not_matter`, `C104_minus_signs`, `C104_what_unlog_refuses`, `C104_with_and_without_brackets`, `C104_functions`, `C104_classes_partial`, `C104_class_as_in_C30`, `C104_built_in_functions_fails`, `C104_built_in_methods_fails`, `C104_failed_unlog_changes_nothing_fails`, `C104_unlogging_a_subclass_forbids_its_base_fails`, `C105_change_of_settings_in_the_child`, `C105_no_log_in_both_processes`, `C105_where_the_logs_of_the_child_are`, `C105_synchronous_child_loses_nothing`, `C105_fork_of_a_calm_synchronous_program`, `C105_logs_for_the_old_pool_are_lost`, `C105_child_of_a_program_with_workers_fails`, `C105_config_set_in_the_child_fails`, `C105_fork_during_the_first_log_fails`, `C106_lines_of_forked_processes_once_partial`, `C106_files_are_what_was_written_partial`, `C106_child_of_a_calm_fork_can_log`, `C106_fork_during_a_call_shuts_the_child_out`, `C106_fork_during_a_check_shuts_the_child_out`, `C106_child_hangs_fails`, `C106_file_lock_excludes_partial`, `C106_nobody_waits_for_the_dead_partial`, `C106_forks_of_others_do_no_harm`, `C106_lock_of_the_dead_is_kept_fails`, `C107_handler_goes_on_after_interrupts_partial`, `C108_ordinary_exceptions_as_described`, `C108_decorators_are_transparent_partial`, `C108_never_recorded_twice_partial`, `C108_answering_exception_is_never_recorded`, `C108_refusing_exception_is_replaced`, `C108_frozen_exception_fails`, `C108_forgetting_exception_fails`, `C108_answering_exception_fails`, `C109_written_lines_are_kept`, `C109_call_inside_a_lock_never_returns`, `C109_call_inside_a_lock_stops_the_handler`, `C109_calls_can_be_finished_iff`, `C109_destructor_while_a_line_is_written_fails`, `C109_destructor_while_rotation_is_checked_fails`, `C110_class_of_a_function`, `C110_class_of_a_class_method`, `C110_record_names_its_function`, `C110_methods_of_different_classes_differ`, `C110_built_in_functions_fails`, `C110_bound_to_a_named_object_fails`, `C111_files_hold_what_is_due`, `C111_an_emptied_file_holds_the_later_lines`, `C111_copy_and_empty_at_once_loses_nothing`, `C111_line_between_copying_and_emptying_is_lost_fails`, `C111_a_line_is_torn_fails`, `C112_holds_the_saved_records`, `C112_log_inside_stops_the_handler`, `C112_clean_of_a_record_with_a_destructor_hangs`, `C112_calls_can_be_finished`, `C112_clean_returns_iff`, `C112_clean_always_returns_fails`, `C112_saving_always_returns_fails`, `C113_interrupted_calls_are_not_recorded`, `C113_interrupts_pass_decorators`, `C113_block_swallows_an_interrupt_fails`, `C113_message_of_an_interrupted_call_leaks_fails`.

**propext, Quot.sound** (118 theorems): `C05_global_exceptions`, `C05_namespace_is_made`, `C12_handlers_cannot_modify`, `C13_compare_as_times`, `C13_eq_equivalence_and_hash`, `C13_sorted_by_time`, `C14_each_handler_exactly_once`, `C15_field_value`, `C15_fields_are_taken_in_order`, `C15_record_exactly`, `C15_other_fields_untouched`, `C15_independent`, `C16_dictionary`, `C16_list`, `C16_list_with_ellipsis`, `C16_tuple`, `C16_tuple_with_ellipsis_fails`, `C16_keys_of_container`, `C19_no_log_lost_or_duplicated`, `C19_handled_at_most_once`, `C19_queue_bounded`, `C19_stop_can_always_complete`, `C20_taken_in_order`, `C20_one_worker_keeps_order`, `C21_user_set_started_fails`, `C30_mode_of_unlog_below_is_forgotten_fails`, `C30_decorating_the_same_object_twice_fails`, `C36_written_as_often_as_called`, `C36_one_thread_writes_in_order`, `C36_all_on_disk_at_rest_partial`, `C36_nothing_lost_on_one_file_system_partial`, `C36_nothing_lost_by_one_thread_partial`, `C36_every_line_written_or_given_to_alt`, `C37_checked_thread_rotates_iff_due`, `C37_size_is_bounded`, `C39_every_pattern`, `C39_every_pattern_of_an_empty_group`, `C39_patterns_match_their_language_partial`, `C39_empty_group_fails`, `C40_one_thread_inside_a_handler`, `C40_no_deadlock`, `C41_one_process_inside_partial`, `C43_padding`, `C48_two_objects_fails`, `C52_limit_partial`, `C52_empty_queue_no_wait`, `C52_long_handler_fails`, `C52_engine_lock_fails`, `C52_zero_waits_for_the_queue`, `C52_bad_limit_no_limit`, `C54_get_all_fields_partial`, `C58_racing_construction_fails`, `C59_concurrent_registration_loses_handlers_fails`, `C64_weak_dictionary_is_a_map_partial`, `C64_keys_and_values_partial`, `C64_items_of_callables_partial`, `C64_no_dead_value`, `C64_pop_with_two_defaults`, `C64_pop_partial`, `C64_del_partial`, `C64_equal_keys_fails`, `C64_items_are_pairs_fails`, `C64_set_accepts_exactly`, `C64_get_of_any_object_fails`, `C64_keys_that_cannot_be_referred_to_weakly`, `C71_lines_of_all_processes_kept_partial`, `C71_finished_line_can_be_found_partial`, `C72_caller_sees_the_original_traceback`, `C72_without_cutting`, `C72_record_of_a_decorated_call_partial`, `C72_record_without_cutting_partial`, `C72_first_decorator_makes_the_record`, `C72_record_by_hand_partial`, `C74_threads_lose_only_lines_in_work`, `C82_every_call_is_accounted_for`, `C82_a_cut_call_raises`, `C82_interrupted_change_halts_logging_fails`, `C82_interrupted_first_log_breaks_logging_fails`, `C82_interrupted_change_takes_no_effect_fails`, `C82_interrupted_change_loses_logs_at_exit_fails`, `C82_interrupt_during_processing`, `C82_cost_of_an_interrupt`, `C87_first_log_at_exit_fails`, `C89_log_reads_as_a_dictionary`, `C91_limited_queue_fails`, `C91_reload_fails`, `C91_exit_fails`, `C93_waiting_log_fails`, `C94_failed_calls_hold_no_lock`, `C94_with_an_engine_no_call_raises`, `C94_config_set_repairs_a_failed_start`, `C94_exit_without_an_engine_ends`, `C94_failed_first_engine_fails`, `C94_failed_replacement_of_a_pool_fails`, `C94_settings_describe_the_engine_fails`, `C95_record_keeps_its_fields`, `C95_only_registered_fields`, `C95_field_that_registers_a_field_fails`, `C96_renamed_file_keeps_receiving_lines`, `C96_replaced_log_is_never_rotated`, `C99_nothing_is_doubled_or_reordered`, `C99_rotation_on_a_full_disk_fails`, `C99_alt_and_file_fails`, `C99_torn_line_fails`, `C99_silent_loss_fails`, `C103_accepted_paths_can_be_selected`, `C105_synchronous_log_of_the_child`, `C105_stop_of_the_old_pool_hangs`, `C105_fork_during_a_change_hangs`, `C106_fork_between_write_and_flush_fails`, `C107_written_lines_are_kept`, `C107_interrupt_in_the_lock_stops_the_handler`, `C107_interrupt_in_a_rotation_ends_the_log_file`, `C107_interrupt_before_the_new_file_loses_all_later_lines`, `C107_undisturbed_call_ends_on_disk`, `C107_interrupt_in_the_lock_fails`, `C107_interrupt_in_a_rotation_fails`, `C111_whole_lines_are_never_torn`.

**propext** (29 theorems): `C13_incomparable`, `C13_ne_is_not_eq`, `C16_rejected`, `C19_late_put_is_lost`, `C35_wanted_log_is_written`, `C35_failed_write_goes_to_alt`, `C35_unwanted_log_goes_to_alt_partial`, `C36_each_thread_writes_in_order`, `C36_no_line_refused_while_open_partial`, `C37_without_rules_never_moved`, `C44_meaning_unique`, `C51_conflict_rejected`, `C61_never_both_fails`, `C61_working_server_gets_every_letter_fails`, `C61_connections_are_closed_fails`, `C71_line_of_another_process_is_lost_fails`, `C71_long_lines_are_torn_fails`, `C71_other_process_keeps_writing_to_the_rotated_file`, `C82_which_interrupts_the_program_gets`, `C82_processing_without_interrupt`, `C82_interrupt_in_a_handler_is_swallowed_fails`, `C82_interrupt_at_every_moment`, `C89_reads_the_same_every_time`, `C95_field_silently_missed_fails`, `C96_missing_name_is_not_noticed`, `C96_lines_after_removal_are_lost`, `C96_rotation_repairs`, `C99_goes_on_when_there_is_room_partial`, `C106_waiting_lines_come_twice_fails`.

**none** (12 theorems): `C05_selected_branch_fails`, `C05_selected_early_fails`, `C12_assignment_and_deletion_raise`, `C15_raising_extractor_is_isolated`, `C16_no_argument`, `C35_raising_filter_goes_to_alt_fails`, `C35_filter_must_return_true_fails`, `C41_separately_opened_lock_files_partial`, `C41_forked_processes_interleave_fails`, `C41_processes_with_threads_never_interleave_fails`, `C52_zero_fails`, `C106_parent_and_child_inside_fails`.

