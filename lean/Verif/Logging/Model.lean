import Verif.Handle.Model

/-!
Model of the interception of the standard `logging` module:
`polog/core/stores/settings/actions/integration_with_logging.py`, the two settings that drive it
(`polog/core/stores/settings/settings_store.py:206-231`) and the part of `logging` the interception
hangs on: the filters of the root logger (`logging.Filterer.addFilter/removeFilter/filter`,
`logging.Logger.handle`).
-/

namespace Polog

/-- `record.exc_info` as `logging.Logger._log` leaves it. Read at integration_with_logging.py:8-42. -/
inductive ExcInfo where
  /-- `None`: nothing was given -/
  | none
  /-- `False` was given: `_log` only replaces true values, `False` stays -/
  | false
  /-- `(None, None, None)`: `exc_info=True` outside an `except` block -/
  | noneTriple
  /-- `(class, object, traceback)`: the name of the class, `str()` of the object, the text
  `json_module.dumps(traceback.format_tb(...))` -/
  | triple (typeName message traceback : Str)
deriving DecidableEq

/-- `logging.LogRecord`: what the filter reads.  Simplification: `str()` of the exception and the
JSON dump do not raise. integration_with_logging.py:8-42. -/
structure LogRec where
  /-- `datetime.fromtimestamp(record.created)` -/
  time : HVal
  /-- `bool(record.msg)` -/
  msgTrue : Bool
  /-- `record.getMessage()`: raises when the arguments do not fit the format -/
  getMessage : Except PyErr Str
  /-- `record.levelno` -/
  levelno : Int
  module : Str
  lineno : Int
  funcName : Str
  /-- `record.funcName.isidentifier()` -/
  funcIsId : Bool
  pathname : Str
  excInfo : ExcInfo
  /-- `f'{record.threadName} ({record.thread})'` -/
  thread : Str
  /-- `f'{record.processName} ({record.process})'` -/
  process : Str

/-- Lines 20-22 of `integration_with_logging.py`: the field `message`, if it is set. -/
def recMessage (r : LogRec) : Except PyErr (List (Str × HVal)) :=
  if r.msgTrue then
    match r.getMessage with
    | .ok s => .ok [("message".toList, .str s)]
    | .error e => .error e
  else .ok []

/-- Lines 32-35 of `integration_with_logging.py`: the fields of the exception, if they are set. -/
def recException (r : LogRec) : Except PyErr (List (Str × HVal)) :=
  match r.excInfo with
  | .none => .ok []
  | .false => .error .typeError
  | .noneTriple => .error .attributeError
  | .triple t m tb => .ok [("exception_type".toList, .str t), ("traceback".toList, .str tb),
      ("exception_message".toList, .str m)]

/-- Lines 18-39 of `integration_with_logging.py`: the dictionary `data`, in the order of the
assignments (no key is assigned twice). -/
def recData (r : LogRec) : Except PyErr (Dict Str HVal) :=
  match recMessage r with
  | .error e => .error e
  | .ok message =>
    match recException r with
    | .error e => .error e
    | .ok exception =>
      .ok ([("time".toList, r.time)] ++ message ++
        [("level".toList, .int r.levelno),
         ("success".toList, .bool (if r.levelno ≥ 30 then false else true)),
         ("module".toList, .str r.module), ("line_number".toList, .int r.lineno)] ++
        (if r.funcIsId then [("function".toList, .str r.funcName)] else []) ++
        [("path_to_code".toList, .str r.pathname)] ++ exception ++
        [("thread".toList, .str r.thread), ("process".toList, .str r.process),
         ("from_logging".toList, .bool true)])

/-- What the treatment of a record does. integration_with_logging.py:8-42. -/
structure LogOut where
  /-- the Polog records handed to the engine -/
  polog : List (Dict Str HVal)
  /-- the record reached the handlers of the root logger -/
  passed : Bool
  /-- the exception that came out of the logging call -/
  raised : Option PyErr

/-- `from_logging_filter_to_polog`, `integration_with_logging.py:8-42`: the records, and either the
exception or the verdict of the filter. -/
def pologFilter (env : HEnv) (loggingOff : Bool) (r : LogRec) :
    List (Dict Str HVal) × Except PyErr Bool :=
  match recData r with
  | .error e => ([], .error e)
  | .ok data =>
    let out := baseCall simpleLogger env [] data
    match out.raised with
    | some e => (out.records, .error e)
    | none => (out.records, .ok (!loggingOff))

/-- A filter of the root logger: Polog's one, or one of the user's (told apart by a number).
integration_with_logging.py:45-55. -/
inductive RootFilter where
  | polog
  | user (id : Nat)
deriving DecidableEq

/-- The state: the filters of the root logger and the two settings. integration_with_logging.py:45-55. -/
structure LogState where
  filters : List RootFilter
  /-- setting `integration_with_logging` -/
  integration : Bool
  /-- setting `logging_off` -/
  loggingOff : Bool

/-- `logging.Filterer.addFilter`: only if it is not there. Called at integration_with_logging.py:45-55. -/
def addFilter (f : RootFilter) (l : List RootFilter) : List RootFilter :=
  if f ∈ l then l else l ++ [f]

/-- `logging.Filterer.removeFilter`: the first occurrence. Called at integration_with_logging.py:45-55. -/
def removeFilter (f : RootFilter) (l : List RootFilter) : List RootFilter := l.erase f

/-- The action `integration_with_logging`, `integration_with_logging.py:44-55`. -/
def integrationAction (new : Bool) (l : List RootFilter) : List RootFilter :=
  if new then addFilter .polog l else removeFilter .polog l

/-- `config.set(integration_with_logging=new)` with a boolean: the conflict of
`settings_store.py:213-215`, then value and action (`setting_point.py:66-79`). -/
def setIntegration (new : Bool) (s : LogState) : Except PyErr LogState :=
  if new = false ∧ s.loggingOff = true then .error .valueError
  else .ok { s with integration := new, filters := integrationAction new s.filters }

/-- `config.set(logging_off=new)` with a boolean: the conflict of `settings_store.py:225-227`. -/
def setLoggingOff (new : Bool) (s : LogState) : Except PyErr LogState :=
  if new = true ∧ s.integration = false then .error .valueError
  else .ok { s with loggingOff := new }

/-- `logging.Filterer.filter` over the filters of the root logger: they are asked in turn, the first
refusal or exception ends the loop. `verdict id r`: what the user's filter number `id` says.
The standard library; it calls integration_with_logging.py:8-42. -/
def runFilters (env : HEnv) (loggingOff : Bool) (verdict : Nat → LogRec → Bool) (r : LogRec) :
    List RootFilter → LogOut
  | [] => ⟨[], true, none⟩
  | .user id :: rest =>
    if verdict id r then runFilters env loggingOff verdict r rest else ⟨[], false, none⟩
  | .polog :: rest =>
    match pologFilter env loggingOff r with
    | (recs, .error e) => ⟨recs, false, some e⟩
    | (recs, .ok false) => ⟨recs, false, none⟩
    | (recs, .ok true) =>
      let out := runFilters env loggingOff verdict r rest
      ⟨recs ++ out.polog, out.passed, out.raised⟩

/-- `logging.Logger.handle` of the root logger for a record logged on the root logger itself
(the root logger is not disabled). The standard library; it calls integration_with_logging.py:8-42. -/
def rootHandle (env : HEnv) (verdict : Nat → LogRec → Bool) (r : LogRec) (s : LogState) : LogOut :=
  runFilters env s.loggingOff verdict r s.filters

/-- A record logged on a child logger (`logging.getLogger('name')`, without filters of its own):
`Logger.handle` asks the filters of *that* logger, `callHandlers` then calls the handlers of the
root logger without asking the root logger's filters.
The standard library; integration_with_logging.py:8-42 is not called. -/
def childHandle (_env : HEnv) (_verdict : Nat → LogRec → Bool) (_r : LogRec) (_s : LogState) : LogOut :=
  ⟨[], true, none⟩

/-- What the program does between two records. integration_with_logging.py:45-55. -/
inductive LoggingOp where
  | setIntegration (b : Bool)
  | setLoggingOff (b : Bool)
  | addUserFilter (id : Nat)
  | removeUserFilter (id : Nat)

/-- One operation; a rejected change of a setting leaves everything as it is. integration_with_logging.py:45-55. -/
def LoggingOp.run (op : LoggingOp) (s : LogState) : LogState :=
  match op with
  | .setIntegration b => match Polog.setIntegration b s with | .ok s' => s' | .error _ => s
  | .setLoggingOff b => match Polog.setLoggingOff b s with | .ok s' => s' | .error _ => s
  | .addUserFilter id => { s with filters := addFilter (.user id) s.filters }
  | .removeUserFilter id => { s with filters := removeFilter (.user id) s.filters }

/-- A history of operations. integration_with_logging.py:45-55. -/
def runLogOps : List LoggingOp → LogState → LogState
  | [], s => s
  | op :: ops, s => runLogOps ops (op.run s)

/-- The state after Polog was imported: both settings are true (`settings_store.py:206-220`), the
action runs once at the start (`do_action_first_time`, `settings_store.py:257-259`).  `users` are the
filters the program had put on the root logger before. -/
def logInit (users : List Nat) : LogState :=
  ⟨integrationAction true (users.map .user), true, true⟩

end Polog
