import Verif.Handle.Model

/-!
Model of what happens when code with decorated, unlogged and plain functions runs:
`polog/loggers/auto/function_logger.py` (the wrapper and the two ways a call is recorded), `polog/unlog.py`
(the wrapper), `polog/loggers/handle/message.py` (the context variable), `polog/loggers/finalizer.py`
(`with log(...)` blocks). The settings and registered levels do not change while the code runs.

The code is a tree: a function's body calls functions, logs, edits the message, and finally returns or
raises; what it does after a call may depend on how the call ended. The model is of one thread (or one
asyncio task): context variables are separate for each. `async` functions have the same wrapper with
`await` (function_logger.py:62-84, unlog.py:101-107).
-/

namespace Polog

/-- Identity of an exception object: made by user code, or made by Polog itself.
Compared through the attribute set at function_logger.py:174-175. -/
inductive ExcId where
  | user (n : Nat)
  | internal (n : Nat)
deriving DecidableEq

/-- An exception object: identity, class (a number), name of the class, `str(e)` (`none`: it raises) and
whether it is an instance of `Exception` (not only of `BaseException`).
exception_to_dict.py:1-6, exception_is_suppressed.py:1-11. -/
structure Exc where
  id : ExcId
  cls : Nat
  name : Str
  text : Option Str
  isException : Bool
deriving DecidableEq

/-- A returned object: identity and its json text (`json_one_variable`, json_vars.py:31-35; `none`: it
raises). -/
structure Val where
  id : Nat
  text : Option Str
deriving DecidableEq

/-- `None`. What function_logger.py:85-105 returns when it suppresses an exception. -/
def Val.none : Val := ⟨0, some "null".toList⟩

/-- How a call ends. function_logger.py:85-105. -/
inductive Outcome where
  | ret (v : Val)
  | raised (e : Exc)
deriving DecidableEq

/-- The arguments of a `@log(...)` decorator that matter at the time of a call (function_logger.py:43):
`level`, `errors_level`, `message`, what `.suppress(...)` was given, and the in-place fields of this
decorator. -/
structure Deco where
  level : Option PyObj
  errLevel : Option PyObj
  message : Option Str
  suppressAll : Bool
  suppressed : List Nat
  inPlace : List (Str × Extractor HVal)

/-- The function and its arguments in one call: `__name__`, `__module__`, the name of the class, and
`json_vars(*args, **kwargs)` (`none`: it raises; `some none`: there are no arguments).
function_logger.py:121-147, json_vars.py:14-29. -/
structure FnInfo where
  name : Option Str
  module : Option Str
  cls : Option Str
  inputs : Option (Option Str)
deriving DecidableEq

/-- The function that is called: an ordinary one, one wrapped by `@log(...)`, one wrapped by
`@unlog(full=...)`. function_logger.py:85-105, unlog.py:95-100. -/
inductive Kind where
  | plain
  | logged (d : Deco) (info : FnInfo)
  | unlogged (full : Option Bool)

/-- `with log(...).suppress(...)`: the arguments as a dict (`self.data`, finalizer.py:33) and what
`.suppress` was given (finalizer.py:150-178). -/
structure BlockOpts where
  data : Dict Str HVal
  suppressAll : Bool
  suppressed : List Nat

/-- Code. `call kind b k`: call a function of this kind with the body `b`, go on with `k` of its outcome.
`block o b k`: a `with log(...)` block with the body `b`, go on with `k` of how it ended (`ret` of anything:
normally). `msg`: `message(...)`, `manual`: `handle_log(...)`; go on with `k` of the exception it raised
(`none`: it raised nothing).
Code of the program; calls of the library in it are function_logger.py:85-105, unlog.py:95-100,
finalizer.py:65-108, message.py:18-35, abstract.py:74-84. -/
inductive Body where
  | ret (v : Val)
  | raise (e : Exc)
  | call (kind : Kind) (b : Body) (k : Outcome → Body)
  | block (o : BlockOpts) (b : Body) (k : Outcome → Body)
  | msg (args : List HVal) (kwargs : Dict Str HVal) (k : Option PyErr → Body)
  | manual (args : List HVal) (kwargs : Dict Str HVal) (k : Option PyErr → Body)

/-- Settings: those of manual loggers; `deduplicate_errors`, `suppress_exception_subclasses`, `full_unlog`,
`suppress_by_default`; which class is a subclass of which; measured durations. settings_store.py:23-239. -/
structure CEnv where
  h : HEnv
  dedup : Bool
  subclasses : Bool
  fullUnlog : Bool
  suppressByDefault : Bool
  isSub : Nat → Nat → Bool
  elapsed : HVal

/-- Who made a record (not visible to handlers; for statements only).
function_logger.py:227-239, handle_log.py:59-70. -/
inductive Origin where
  | auto (info : FnInfo) (o : Outcome)
  | manual
  | block (o : Outcome)
deriving DecidableEq

/-- What engine.py:53-63 gets: the fields of the log and who made it. -/
structure Rec where
  origin : Origin
  data : Dict Str HVal
deriving DecidableEq

/-- The two context variables (message.py:6, unlog.py:12), the exceptions that carry the attribute
`checked_by_polog`, a counter for exceptions made by Polog, and what was handed to the engine. -/
structure CallState where
  msg : Option (Dict Str HVal)
  unlog : Option (Option Bool)
  marked : List ExcId
  next : Nat
  records : List Rec
deriving DecidableEq

/-- `get_unlog_status`, unlog.py:79-91. -/
def unlogStatus (env : CEnv) (s : CallState) : Bool :=
  match s.unlog with
  | none => false
  | some none => env.fullUnlog
  | some (some full) => full

/-- `exception_is_suppressed`, exception_is_suppressed.py:1-11. -/
def excSuppressed (env : CEnv) (classes : List Nat) (e : Exc) : Bool :=
  if env.subclasses then classes.any fun c => env.isSub e.cls c
  else classes.any fun c => e.cls == c

/-- `resolve_normal_level`, function_logger.py:216-225. -/
def normalLevel (env : CEnv) : Option PyObj → Except PyErr Int
  | some l => env.h.levels.get l
  | none => .ok env.h.defaultLevel

/-- `get_errors_level`, get_errors_level.py:5-29. (`Levels.get` raises nothing but `KeyError`.) -/
def errorsLevel (env : CEnv) (errLevel level : Option PyObj) : Int :=
  let fallback :=
    let two := max env.h.defaultLevel env.h.defaultErrorLevel
    match level with
    | none => two
    | some l =>
      match env.h.levels.get l with
      | .ok n => max two n
      | .error _ => two
  match errLevel with
  | none => fallback
  | some l =>
    match env.h.levels.get l with
    | .ok n => n
    | .error _ => fallback

/-- `data[name] = text`, function_logger.py:121-133. -/
def setStr (key : Str) (s : Option Str) (d : Dict Str HVal) : Dict Str HVal :=
  match s with
  | none => d
  | some s => Dict.set key (.str s) d

/-- `get_base_args_dict`, function_logger.py:121-133, and the time (line 94). -/
def baseArgs (env : CEnv) (d : Deco) (info : FnInfo) : Dict Str HVal :=
  Dict.set "time".toList env.h.now
    (setStr "class".toList info.cls
      (setStr "function".toList info.name
        (setStr "module".toList info.module
          (setStr "message".toList d.message [("auto".toList, .bool true)]))))

/-- `_message._copy_context(args_dict)`, message.py:37-49: fields of the message replace the automatic
ones. -/
def copyContext (s : CallState) (data : Dict Str HVal) : Dict Str HVal :=
  match s.msg with
  | none => data
  | some fields => Dict.update data fields

/-- An exception made by Polog. E.g. levels.py:26-40, json_vars.py:14-29. -/
def internalExc (n : Nat) : Exc := ⟨.internal n, 0, "KeyError".toList, some [], true⟩

/-- `log_normal_info`, function_logger.py:194-214. `none` as the first component: it returned. -/
def logNormal (env : CEnv) (d : Deco) (info : FnInfo) (v : Val) (s : CallState) : Option Exc × CallState :=
  if unlogStatus env s then (none, s)
  else
    match normalLevel env d.level with
    | .error _ => (some (internalExc s.next), { s with next := s.next + 1 })
    | .ok level =>
      if env.h.threshold ≤ level then
        match v.text with
        | none => (some (internalExc s.next), { s with next := s.next + 1 })
        | some text =>
          let data := Dict.set "level".toList (.int level)
            (Dict.set "time_of_work".toList env.elapsed
              (Dict.set "result".toList (.str text)
                (Dict.set "success".toList (.bool true) (baseArgs env d info))))
          let data := setStr "service_name".toList env.h.serviceName data
          let data := copyContext s data
          match info.inputs with
          | none => (some (internalExc s.next), { s with msg := none, next := s.next + 1 })
          | some inputs =>
            let data := setStr "input_variables".toList inputs data
            (none, { s with
              msg := none
              records := s.records ++ [⟨.auto info (.ret v), extractFrom env.h.fieldsIntersection d.inPlace data⟩] })
      else (none, s)

/-- `log_exception_info`, function_logger.py:168-192. -/
def logException (env : CEnv) (d : Deco) (info : FnInfo) (e : Exc) (s : CallState) : Option Exc × CallState :=
  if unlogStatus env s then (none, s)
  else if e.id ∉ s.marked ∨ env.dedup = false then
    let s := { s with marked := e.id :: s.marked }
    let level := errorsLevel env d.errLevel d.level
    if env.h.threshold ≤ level then
      match e.text, info.inputs with
      | some text, some inputs =>
        let data := Dict.set "exception_type".toList (.str e.name)
          (Dict.set "exception_message".toList (.str text) (baseArgs env d info))
        let data := Dict.set "level".toList (.int level)
          (Dict.set "time_of_work".toList env.elapsed
            (Dict.set "local_variables".toList (.str env.h.localsText)
              (Dict.set "traceback".toList (.str env.h.traceback)
                (Dict.set "success".toList (.bool false) data))))
        let data := setStr "service_name".toList env.h.serviceName data
        let data := setStr "input_variables".toList inputs (copyContext s data)
        (none, { s with
          msg := none
          records := s.records ++ [⟨.auto info (.raised e), extractFrom env.h.fieldsIntersection d.inPlace data⟩] })
      | _, _ => (some (internalExc s.next), { s with next := s.next + 1 })
    else (none, s)
  else (none, s)

/-- How a call of a decorated function ends, given how the original function ended: function_logger.py:92-105.
Exceptions that are not instances of `Exception` are not caught. -/
def loggedEnd (env : CEnv) (d : Deco) (info : FnInfo) (o : Outcome) (s : CallState) : Outcome × CallState :=
  match o with
  | .ret v =>
    match logNormal env d info v s with
    | (none, s) => (.ret v, s)
    | (some e, s) => (.raised e, s)
  | .raised e =>
    if e.isException then
      match logException env d info e s with
      | (some e', s) => (.raised e', s)
      | (none, s) =>
        if d.suppressAll then (.ret .none, s)
        else if excSuppressed env d.suppressed e then (.ret .none, s)
        else (.raised e, s)
    else (.raised e, s)

/-- The arguments with which `__exit__` calls the logger, finalizer.py:80, 90-100. (`str(e)` of the exception
and the traceback are texts.) -/
def blockData (env : CEnv) (o : BlockOpts) (out : Outcome) : Dict Str HVal :=
  let data := Dict.set "time".toList env.h.now o.data
  let data :=
    match out with
    | .ret _ => Dict.set "success".toList (.bool true) data
    | .raised e =>
      Dict.set "traceback".toList (.str env.h.traceback)
        (Dict.set "success".toList (.bool false)
          (Dict.set "exception_message".toList (.str (e.text.getD []))
            (Dict.set "exception_type".toList (.str e.name) data)))
  Dict.set "time_of_work".toList env.elapsed data

/-- Is the exception swallowed: finalizer.py:102-108. -/
def blockSwallows (env : CEnv) (o : BlockOpts) (e : Exc) : Bool :=
  if o.suppressAll then true
  else if o.suppressed ≠ [] then excSuppressed env o.suppressed e
  else env.suppressByDefault

/-- `str(e)` of the exception that left the block does not raise (finalizer.py:92). -/
def Outcome.printable : Outcome → Bool
  | .ret _ => true
  | .raised e => e.text.isSome

/-- `__exit__`, finalizer.py:84-108. An exception whose text cannot be made is replaced by another one. -/
def blockEnd (env : CEnv) (o : BlockOpts) (out : Outcome) (s : CallState) : Outcome × CallState :=
  if out.printable then
    let h := baseCall simpleLogger { env.h with unlogged := unlogStatus env s } [] (blockData env o out)
    let s := { s with records := s.records ++ h.records.map fun data => ⟨.block out, data⟩ }
    match h.raised with
    | some _ => (.raised (internalExc s.next), { s with next := s.next + 1 })
    | none =>
      match out with
      | .ret v => (.ret v, s)
      | .raised e => if blockSwallows env o e then (.ret .none, s) else (.raised e, s)
  else (.raised (internalExc s.next), { s with next := s.next + 1 })

/-- Running code.
function_logger.py:85-105, unlog.py:95-100, finalizer.py:65-108, message.py:18-35, abstract.py:74-84. -/
def Body.run (env : CEnv) : Body → CallState → Outcome × CallState
  | .ret v, s => (.ret v, s)
  | .raise e, s => (.raised e, s)
  | .call .plain b k, s =>
    match b.run env s with
    | (o, s) => (k o).run env s
  -- function_logger.py:85-105: `_clean_context`, the function, the record
  | .call (.logged d info) b k, s =>
    match b.run env { s with msg := none } with
    | (o, s) =>
      match loggedEnd env d info o s with
      | (o, s) => (k o).run env s
  -- unlog.py:94-100
  | .call (.unlogged full) b k, s =>
    match b.run env { s with unlog := some full } with
    | (o, s) => (k o).run env { s with unlog := none }
  | .block o b k, s =>
    match b.run env s with
    | (out, s) =>
      match blockEnd env o out s with
      | (out, s) => (k out).run env s
  -- message.py:18-25: nothing is stored when there are no fields
  | .msg args kwargs k, s =>
    match messageCall env.h args kwargs with
    | .error e => (k (some e)).run env s
    | .ok none => (k none).run env s
    | .ok (some fields) => (k none).run env { s with msg := some fields }
  | .manual args kwargs k, s =>
    let h := handleLog { env.h with unlogged := unlogStatus env s } args kwargs
    (k h.raised).run env { s with records := s.records ++ h.records.map fun data => ⟨.manual, data⟩ }

/-- A fresh thread. message.py:6, unlog.py:17-18. -/
def CallState.init : CallState := ⟨none, none, [], 0, []⟩

end Polog
