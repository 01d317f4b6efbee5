import Verif.Levels.Model
import Verif.LogItem.Model

/-!
Model of the manual loggers: `polog/loggers/handle/abstract.py` (`AbstractHandleLogger`),
`polog/loggers/handle/handle_log.py` (`BaseLogger`) and the preparation of `message(...)`
(`polog/loggers/handle/message.py`), together with the way `log(...)` reaches them as a plain call
(`polog/loggers/router.py:75-88`, `polog/loggers/finalizer.py:25-34, 124-140, 180-187`).
-/

namespace Polog

/-- Python objects passed to a manual logger: only these distinctions are made by the code. abstract.py:74-204. -/
inductive HVal where
  | none
  | bool (b : Bool)
  | int (n : Int)
  | str (s : Str)
  /-- an instance of `Exception`: its identity, the name of its class, `str(e)` (simplification:
  `str(e)` does not raise) -/
  | exc (id : Nat) (typeName : Str) (message : Str)
  /-- a class: identity, `__name__`, `__module__` -/
  | cls (id : Nat) (name : Str) (module : Str)
  /-- a callable that is not a class: identity, `__name__` and `__module__` if present, `str()` -/
  | fn (id : Nat) (name : Option Str) (module : Option Str) (text : Str)
  | other (id : Nat)
deriving DecidableEq, Repr

/-- Python's `==`: numbers and bools are compared as numbers, everything else by value/identity.
Simplification: no user defined `__eq__`. Used at abstract.py:117-154. -/
def HVal.pyEq : HVal → HVal → Bool
  | .bool a, .int b => boolInt a == b
  | .int a, .bool b => a == boolInt b
  | a, b => a == b

/-- `isinstance(x, str)`, abstract.py:117-204. -/
def HVal.isStr : HVal → Bool | .str _ => true | _ => false
/-- `isinstance(x, int)`, abstract.py:117-204. -/
def HVal.isInt : HVal → Bool | .int _ => true | _ => false
/-- `isinstance(x, bool)`, abstract.py:117-204. -/
def HVal.isBool : HVal → Bool | .bool _ => true | _ => false
/-- `inspect.isclass(x)`, abstract.py:177-204. -/
def HVal.isCls : HVal → Bool | .cls _ _ _ => true | _ => false
/-- `isinstance(x, Exception)`, abstract.py:177-204. -/
def HVal.isExc : HVal → Bool | .exc _ _ _ => true | _ => false
/-- `callable(x)`, handle_log.py:41-57. -/
def HVal.callable : HVal → Bool | .cls _ _ _ => true | .fn _ _ _ _ => true | _ => false

/-- `_allowed_types`, `abstract.py:26-36`: the check for a field name, if there is one. -/
def allowedType (key : Str) : Option (HVal → Bool) :=
  if key = "function".toList then some fun x => x.isStr || x.callable
  else if key = "module".toList then some HVal.isStr
  else if key = "class".toList then some fun x => x.isStr || x.isCls
  else if key = "message".toList then some HVal.isStr
  else if key = "exception".toList then some fun x => x.isStr || x.isExc
  else if key = "vars".toList then some HVal.isStr
  else if key = "success".toList then some HVal.isBool
  else if key = "level".toList then some fun x => x.isStr || x.isInt
  else if key = "local_variables".toList then some HVal.isStr
  else none

/-- `_convert_keys`, `abstract.py:43-48` with `.get(key, key)` of line 128. -/
def convertKey (key : Str) : Str :=
  if key = "vars".toList then "local_variables".toList
  else if key = "locals".toList then "local_variables".toList
  else if key = "e".toList then "exception".toList
  else if key = "class_".toList then "class".toList
  else key

/-- The level argument as `Levels.get` sees it. abstract.py:117-154, levels.py:26-40. -/
def HVal.toPyObj : HVal → PyObj
  | .none => .none
  | .bool b => .bool b
  | .int n => .int n
  | .str s => .str s
  | _ => .other

/-- `_convert_values`, `abstract.py:38-41`, applied as at lines 146-147. -/
def convertValue (levels : Levels) (key : Str) (value : HVal) : Except PyErr HVal :=
  if key = "level".toList then (levels.get value.toPyObj).map HVal.int
  else if key = "class".toList then
    match value with
    | .str s => .ok (.str s)
    | .cls _ name _ => .ok (.str name)
    | .fn _ (some name) _ _ => .ok (.str name)
    | _ => .error .attributeError
  else .ok value

/-- What a manual logger reads from the rest of the program. abstract.py:58-63, handle_log.py:12-21. -/
structure HEnv where
  levels : Levels
  /-- setting `level` -/
  threshold : Int
  defaultLevel : Int
  defaultErrorLevel : Int
  serviceName : Option Str
  /-- setting `silent_internal_exceptions` -/
  silent : Bool
  /-- setting `unknown_fields_in_handle_logs` -/
  unknownAllowed : Bool
  fieldsIntersection : Bool
  inPlace : Dict Str (Extractor HVal)
  engineNames : List Str
  /-- `unlog.get_unlog_status()`, `unlog.py:79-91` -/
  unlogged : Bool
  /-- `get_traceback()` and `get_locals_from_traceback()` (`get_traceback.py`): texts -/
  traceback : Str
  localsText : Str
  /-- `datetime.datetime.fromtimestamp(time.time())` -/
  now : HVal

/-- The class attributes and constructor arguments in which the manual loggers differ:
`_forbidden_fields` (`abstract.py:56`, `message.py:14-16`), `all_fields_allowed`
(`abstract.py:58-63`). -/
structure HLogger where
  forbidden : List Str
  allFields : Bool

/-- `handle_log`, `handle_log.py:73`. -/
def handleLogger : HLogger := ⟨[], false⟩
/-- `simple_handle_log`, `handle_log.py:74`; this is what `log(...)` uses. -/
def simpleLogger : HLogger := ⟨[], true⟩
/-- `message`, `message.py:65`. -/
def messageLogger : HLogger := ⟨["function".toList], false⟩

/-- `_maybe_raise`, `abstract.py:206-219`, followed by `continue` with state `d`. -/
def maybeRaise {α : Type} (env : HEnv) (e : PyErr) (d : α) : Except PyErr α :=
  if env.silent then .ok d else .error e

/-- `not_none_to_dict`, `core/utils/not_none_to_dict.py:1-6`. -/
def notNoneToDict (d : Dict Str HVal) (key : Str) (value : HVal) : Dict Str HVal :=
  if value = .none then d else Dict.set key value d

/-- The check of lines 130-144 of `abstract.py`: the exception to raise, if any. -/
def argCheck (lg : HLogger) (env : HEnv) (key : Str) (value : HVal) : Option PyErr :=
  if key ∈ lg.forbidden then some .keyError
  else match allowedType key with
    | some prove => if prove value then none else some .valueError
    | none =>
      if Dict.has key env.inPlace || env.engineNames.contains key then none
      else if !lg.allFields && !env.unknownAllowed then some .keyError else none

/-- One iteration of the loop of `_kwargs_to_dict`, `abstract.py:126-154` (`raise_if_collision` is
always true).  `kwargs` is the whole original dictionary (used at line 150). -/
def kwStep (lg : HLogger) (env : HEnv) (kwargs : Dict Str HVal) (dest : Dict Str HVal)
    (item : Str × HVal) : Except PyErr (Dict Str HVal) :=
  let key := convertKey item.1
  match argCheck lg env key item.2 with
  | some e => maybeRaise env e dest
  | none =>
    match convertValue env.levels key item.2 with
    | .error e => .error e
    | .ok value =>
      match Dict.get? key dest with
      | none => .ok (notNoneToDict dest key value)
      | some old =>
        match Dict.get? key kwargs with
        | none => .error .keyError
        | some given =>
          if !(old.pyEq given) then maybeRaise env .valueError dest
          else .ok (notNoneToDict dest key value)

/-- `_kwargs_to_dict`, `abstract.py:117-154`. -/
def kwargsToDict (lg : HLogger) (env : HEnv) (kwargs : Dict Str HVal) :
    List (Str × HVal) → Dict Str HVal → Except PyErr (Dict Str HVal)
  | [], dest => .ok dest
  | item :: rest, dest =>
    match kwStep lg env kwargs dest item with
    | .error e => .error e
    | .ok dest' => kwargsToDict lg env kwargs rest dest'

/-- `_position_args_to_dict`, `abstract.py:156-175`, with the only used channel table
`{0: 'message'}` (line 51) and the default flags. -/
def positionArgs (lg : HLogger) (env : HEnv) (args : List HVal) : Except PyErr (Dict Str HVal) :=
  match (if args.length > 1 then maybeRaise env .valueError () else .ok ()) with
  | .error e => .error e
  | .ok () =>
    match (if "message".toList ∈ lg.forbidden then maybeRaise env .keyError () else .ok ()) with
    | .error e => .error e
    | .ok () =>
      match args with
      | [] => .ok []
      | a :: _ => .ok [("message".toList, a)]

/-- `_prepare_data`, `abstract.py:105-115`. -/
def prepareData (lg : HLogger) (env : HEnv) (args : List HVal) (kwargs : Dict Str HVal) :
    Except PyErr (Dict Str HVal) :=
  match positionArgs lg env args with
  | .error e => .error e
  | .ok dest => kwargsToDict lg env kwargs kwargs dest

/-- Lines 192-199 of `_extract_exception`, `abstract.py`, with `exception_to_dict`
(`core/utils/exception_to_dict.py:1-6`): the fields taken from the object given as `exception`. -/
def exceptionInfo (env : HEnv) (v : HVal) (fields : Dict Str HVal) : Dict Str HVal :=
  match v with
  | .exc _ tname msg =>
    let f1 := Dict.set "exception_message".toList (.str msg) fields
    let f2 := Dict.set "exception_type".toList (.str tname) f1
    let f3 := Dict.set "traceback".toList (.str env.traceback) f2
    if env.localsText = [] then f3
    else Dict.set "local_variables".toList (.str env.localsText) f3
  | .str s => Dict.set "exception_type".toList (.str s) fields
  | _ => fields

/-- `_extract_exception`, `abstract.py:177-204`. -/
def extractException (env : HEnv) (changeSuccess changeLevel : Bool) (fields : Dict Str HVal) :
    Dict Str HVal :=
  match Dict.get? "exception".toList fields with
  | none => fields
  | some v =>
    let fields := Dict.erase "exception".toList (exceptionInfo env v fields)
    let fields := if changeSuccess then Dict.set "success".toList (.bool false) fields else fields
    if changeLevel && !(Dict.has "level".toList fields) then
      Dict.set "level".toList (.int env.defaultErrorLevel) fields
    else fields

/-- `_extract_function_data`, `handle_log.py:41-57`. -/
def extractFunctionData (fields : Dict Str HVal) : Dict Str HVal :=
  match Dict.get? "function".toList fields with
  | some (.cls _ name module) =>
    Dict.set "module".toList (.str module) (Dict.set "function".toList (.str name) fields)
  | some (.fn _ name module text) =>
    let fields := Dict.set "function".toList (.str (name.getD text)) fields
    match module with
    | some m => Dict.set "module".toList (.str m) fields
    | none => fields
  | _ => fields

/-- `fields.get('success', True)` as a condition. abstract.py:74-115, handle_log.py:32-39. -/
def successOf (fields : Dict Str HVal) : Bool :=
  match Dict.get? "success".toList fields with
  | some (.bool b) => b
  | _ => true

/-- `_defaults_to_dict` with `_default_values`, `handle_log.py:18-21, 32-39`. -/
def defaultsToDict (env : HEnv) (fields : Dict Str HVal) : Dict Str HVal :=
  let fields :=
    if Dict.has "level".toList fields then fields
    else Dict.set "level".toList
      (.int (if successOf fields then env.defaultLevel else env.defaultErrorLevel)) fields
  if Dict.has "time".toList fields then fields else Dict.set "time".toList env.now fields

/-- Lines 24-27 of `BaseLogger._specific_processing`, `handle_log.py`. -/
def markManual (env : HEnv) (fields : Dict Str HVal) : Dict Str HVal :=
  let fields := Dict.set "auto".toList (.bool false) fields
  match env.serviceName with
  | some s => Dict.set "service_name".toList (.str s) fields
  | none => fields

/-- `BaseLogger._specific_processing`, `handle_log.py:23-30`. -/
def specificProcessing (env : HEnv) (fields : Dict Str HVal) : Dict Str HVal :=
  defaultsToDict env (extractFunctionData (extractException env true true (markManual env fields)))

/-- What a call does: the records handed to the engine, and the exception it ended with. abstract.py:74-93. -/
structure HOut where
  records : List (Dict Str HVal)
  raised : Option PyErr
deriving DecidableEq

/-- `BaseLogger._push`, `handle_log.py:59-70`.  A `level` that is not a number would make the
comparison raise `TypeError`. -/
def basePush (env : HEnv) (fields : Dict Str HVal) : HOut :=
  match Dict.get? "level".toList fields with
  | some (.int n) =>
    if env.threshold ≤ n then
      if env.unlogged then ⟨[], none⟩
      else ⟨[extractFrom env.fieldsIntersection env.inPlace fields], none⟩
    else ⟨[], none⟩
  | _ => ⟨[], some .typeError⟩

/-- `AbstractHandleLogger.__call__` of a `BaseLogger`, `abstract.py:74-84`. -/
def baseCall (lg : HLogger) (env : HEnv) (args : List HVal) (kwargs : Dict Str HVal) : HOut :=
  match prepareData lg env args kwargs with
  | .error e => ⟨[], some e⟩
  | .ok fields => basePush env (specificProcessing env fields)

/-- `handle_log(*args, **kwargs)`. abstract.py:74-84 with handle_log.py:23-70. -/
def handleLog (env : HEnv) (args : List HVal) (kwargs : Dict Str HVal) : HOut :=
  baseCall handleLogger env args kwargs

/-- The fields `message(*args, **kwargs)` stores for the surrounding decorated call
(`none`: it stores nothing), `abstract.py:74-84` with `message.py:18-35`. -/
def messageCall (env : HEnv) (args : List HVal) (kwargs : Dict Str HVal) :
    Except PyErr (Option (Dict Str HVal)) :=
  match prepareData messageLogger env args kwargs with
  | .error e => .error e
  | .ok fields =>
    let fields := extractException env false false fields
    .ok (if fields = [] then none else some fields)

/-- `log(*args, **kwargs)` used as a plain call with a string or nothing as positional argument: the
router makes a finalizer (`router.py:75-88`), whose constructor checks the message
(`finalizer.py:124-140`); the object is dropped at once and its weak-reference callback calls
`simple_handle_log` (`finalizer.py:34, 180-187`).  An exception in such a callback is reported on
stderr by the interpreter and not raised.  Other first arguments: see the router model. -/
def logStatement (env : HEnv) (args : List HVal) (kwargs : Dict Str HVal) : HOut :=
  match args with
  | [] => ⟨(baseCall simpleLogger env [] kwargs).records, none⟩
  | [.str s] =>
    match (match Dict.get? "message".toList kwargs with
      | some v => if !((HVal.str s).pyEq v) then maybeRaise env .incorrectUse () else .ok ()
      | none => Except.ok ()) with
    | .error e => ⟨[], some e⟩
    | .ok () => ⟨(baseCall simpleLogger env [.str s] kwargs).records, none⟩
  | _ => ⟨[], some .incorrectUse⟩

end Polog
