import Verif.Tree.Model
import Verif.Dict

/-!
Model of `polog/core/log_item.py` (`LogItem`), of `FieldsContainer`
(`polog/data_structures/wrappers/fields_container/container.py`), of
`FunctionLogger.get_extra_fields` (`polog/loggers/auto/function_logger.py:286-326`) and of the
registry of extractable fields in `polog/config.py:146-228`.
-/

namespace Polog

/-! ### The log object -/

/-- A `LogItem`, `log_item.py:20`: the dictionary `fields` (`none` before `set_data`).  The values of
fields are of an arbitrary type `V`; a field holding Python's `None` is represented by `V`'s own
element if one is wanted. -/
structure LogItem (V : Type) where
  fields : Option (Dict Str V)
deriving DecidableEq

/-- The dictionary behind the log; `{}` when `set_data` was not called. log_item.py:280-287. -/
def LogItem.dict {V : Type} (l : LogItem V) : Dict Str V := l.fields.getD []

/-- Operations of the dictionary interface of a log, `log_item.py:36-106, 234-278`. -/
inductive LogOp (V : Type) where
  | getitem (k : Str)
  | setitem (k : Str) (v : V)
  | delitem (k : Str)
  | contains (k : Str)
  | len
  | iter
  | items
  | keys
  | values
  | get (k : Str)
  | getOr (k : Str) (default : V)

/-- Results of such operations. log_item.py:36-106, 234-278. -/
inductive LogRes (V : Type) where
  | value (v : V)
  | noneValue
  | bool (b : Bool)
  | nat (n : Nat)
  | names (l : List Str)
  | pairs (l : List (Str × V))
  | vals (l : List V)
  | raised (e : PyErr)

variable {V : Type}

/-- The dictionary interface of log_item.py, method by method: `__getitem__` 36-43, `__setitem__` 45-51,
`__delitem__` 53-57, `__contains__` 89-97, `__len__` 99-106, `__iter__` 80-87, `items` 234-241,
`keys` 243-250, `values` 252-259, `get` 271-278 (without and with a default).  The first component is the log
afterwards. -/
def LogItem.op (l : LogItem V) : LogOp V → LogItem V × LogRes V
  | .getitem k => match l.fields with
    | none => (l, .raised .keyError)
    | some d => match Dict.get? k d with
      | none => (l, .raised .keyError)
      | some v => (l, .value v)
  | .setitem _ _ => (l, .raised .rewritingLog)
  | .delitem _ => (l, .raised .rewritingLog)
  | .contains k => match l.fields with
    | none => (l, .bool false)
    | some d => (l, .bool (Dict.has k d))
  | .len => match l.fields with
    | none => (l, .nat 0)
    | some d => (l, .nat d.length)
  | .iter => match l.fields with
    | none => (l, .names [])
    | some d => (l, .names (Dict.keys d))
  | .items => match l.fields with
    | none => (l, .pairs [])
    | some d => (l, .pairs d)
  | .keys => match l.fields with
    | none => (l, .names [])
    | some d => (l, .names (Dict.keys d))
  | .values => match l.fields with
    | none => (l, .vals [])
    | some d => (l, .vals (d.map Prod.snd))
  | .get k => match l.fields with
    | none => (l, .noneValue)
    | some d => match Dict.get? k d with
      | none => (l, .noneValue)
      | some v => (l, .value v)
  | .getOr k default => match l.fields with
    | none => (l, .value default)
    | some d => (l, .value ((Dict.get? k d).getD default))

/-! ### Handlers and the processing of a log -/

/-- An arbitrary (terminating) handler body: it may use the dictionary interface of the log it gets,
decide on the results, produce external effects `e : E` and finish normally or with an exception.
What log_item.py:167-171 calls. -/
inductive Prog (V E : Type) where
  | ret
  | throw
  | op (o : LogOp V) (k : LogRes V → Prog V E)
  | emit (e : E) (k : Prog V E)

/-- How a piece of Python code ended. exception_escaping.py:12-16 tells them apart. -/
inductive Ending where
  | returned
  | raised
deriving DecidableEq, Repr

/-- Executing a handler body on a log: the log afterwards, the effects, the ending.
Called at log_item.py:167-171. -/
def Prog.run {E : Type} : Prog V E → LogItem V → LogItem V × List E × Ending
  | .ret, l => (l, [], .returned)
  | .throw, l => (l, [], .raised)
  | .op o k, l => let r := l.op o; (k r.2).run r.1
  | .emit e k, l => let r := k.run l; (r.1, e :: r.2.1, r.2.2)

/-- `exception_escaping`, `polog/core/utils/exception_escaping.py:11-16`: a bare `except`. -/
def escaping : Ending → Ending
  | .returned => .returned
  | .raised => .returned

/-- `call_one_handler`, `log_item.py:166-171`. -/
def callOneHandler {E : Type} (h : Prog V E) (l : LogItem V) : LogItem V × List E × Ending :=
  let r := h.run l
  (r.1, r.2.1, escaping r.2.2)

/-- One entry of the journal of a processing: which handler was called, with which log, what it did.
log_item.py:159-171. -/
structure CallRecord (H V E : Type) where
  handler : H
  log : LogItem V
  effects : List E
deriving DecidableEq

/-- `call_handlers`, `log_item.py:159-164`: the log afterwards, the journal of calls, the ending.
An exception leaving `call_one_handler` would stop the loop. -/
def callHandlers {H E : Type} (body : H → Prog V E) :
    List H → LogItem V → LogItem V × List (CallRecord H V E) × Ending
  | [], l => (l, [], .returned)
  | h :: hs, l =>
    match callOneHandler (body h) l with
    | (l', effects, .raised) => (l', [⟨h, l, effects⟩], .raised)
    | (l', effects, .returned) =>
      let r := callHandlers body hs l'
      (r.1, ⟨h, l, effects⟩ :: r.2.1, r.2.2)

/-! ### Extraction of extra fields -/

/-- A field object: `get_data(log)` either returns a value or raises; it may look at the log.
(`polog/field.py:30-36`.) -/
abbrev Extractor (V : Type) := Dict Str V → Except Unit V

/-- `extract_extra_fields_from`, `log_item.py:179-194`; `inter` is `_fields_intersection`. -/
def extractFrom (inter : Bool) : List (Str × Extractor V) → Dict Str V → Dict Str V
  | [], data => data
  | (name, field) :: rest, data =>
    if !(Dict.has name data) || inter then
      match field data with
      | .ok value => extractFrom inter rest (Dict.set name value data)
      | .error _ => extractFrom inter rest data
    else extractFrom inter rest data

/-- `LogItem.__call__`, `log_item.py:151-157`: engine fields, then handlers. -/
def processLog {H E : Type} (inter : Bool) (engineFields : List (Str × Extractor V))
    (body : H → Prog V E) (handlers : List H) (l : LogItem V) :
    LogItem V × List (CallRecord H V E) × Ending :=
  let l' : LogItem V := ⟨some (extractFrom inter engineFields l.dict)⟩
  callHandlers body handlers l'

/-! ### Which extra fields a decorator uses -/

/-- `FieldsContainer.items()`, `container.py:30-41`: local ones, then defaults not overridden. -/
def containerItems {F : Type} (fields defaults : Dict Str F) : List (Str × F) :=
  fields ++ defaults.filter fun x => !(Dict.has x.1 fields)

/-- `FieldsContainer.__iter__`, `container.py:17-28`. -/
def containerKeys {F : Type} (fields defaults : Dict Str F) : List Str :=
  Dict.keys fields ++ (Dict.keys defaults).filter fun k => !(Dict.has k fields)

/-- An item of the collection passed as `extra_fields`: a dictionary whose keys may be non-strings
(`none`) and whose values may be non-fields (`none`), or `...`. function_logger.py:286-326. -/
inductive FieldsItem (F : Type) where
  | dict (d : List (Option Str × Option F))
  | ellipsis

/-- The `extra_fields` argument of a decorator. function_logger.py:286-326. -/
inductive FieldsArg (F : Type) where
  | none
  | dict (d : List (Option Str × Option F))
  | list (items : List (FieldsItem F))
  | tuple (items : List (FieldsItem F))
  | other

/-- What `get_extra_fields` returns: the default dictionary itself or a container over a local
dictionary and possibly the default dictionary (both by reference).
function_logger.py:286-326, container.py:13-15. -/
inductive FieldsSource (F : Type) where
  | defaults
  | container (own : Dict Str F) (withDefaults : Bool)

/-- The loop over one dictionary, `function_logger.py:313-321`. -/
def mergeDict {F : Type} : List (Option Str × Option F) → Dict Str F → Except PyErr (Dict Str F)
  | [], acc => .ok acc
  | (name, field) :: rest, acc =>
    match name with
    | Option.none => .error .valueError
    | some n =>
      match field with
      | Option.none => .error .valueError
      | some f => if Dict.has n acc then .error .valueError else mergeDict rest (Dict.set n f acc)

/-- The loop over all dictionaries, `function_logger.py:312-321`; an `...` left in the collection
has no `.items` (`AttributeError`). -/
def mergeDicts {F : Type} : List (FieldsItem F) → Dict Str F → Except PyErr (Dict Str F)
  | [], acc => .ok acc
  | .ellipsis :: _, _ => .error .attributeError
  | .dict d :: rest, acc =>
    match mergeDict d acc with
    | .error e => .error e
    | .ok acc' => mergeDicts rest acc'

/-- `item is ...`, function_logger.py:286-326. -/
def FieldsItem.isEllipsis {F : Type} : FieldsItem F → Bool
  | .ellipsis => true
  | .dict _ => false

/-- `FunctionLogger.get_extra_fields`, `function_logger.py:286-326`.  The second component is the
user's list object afterwards (the `...` are popped out of it in place, lines 300-305; a tuple has
no `pop`, so a tuple with `...` ends in `AttributeError`). -/
def getExtraFields {F : Type} : FieldsArg F → Except PyErr (FieldsSource F) × FieldsArg F
  | .none => (.ok .defaults, .none)
  | .other => (.error .valueError, .other)
  | .dict d =>
    (match mergeDicts [.dict d] [] with
     | .error e => .error e
     | .ok own => .ok (.container own false), .dict d)
  | .list items =>
    let isEllipsis := items.any FieldsItem.isEllipsis
    let rest := items.filter fun x => !x.isEllipsis
    (match mergeDicts rest [] with
     | .error e => .error e
     | .ok own => .ok (.container own isEllipsis), .list rest)
  | .tuple items =>
    if items.any FieldsItem.isEllipsis then (.error .attributeError, .tuple items)
    else
      (match mergeDicts items [] with
       | .error e => .error e
       | .ok own => .ok (.container own false), .tuple items)

/-- The items a record will go through: `fields.items()` at `log_item.py:188`, for the *current*
content of the default dictionary. -/
def FieldsSource.items {F : Type} (s : FieldsSource F) (defaults : Dict Str F) : List (Str × F) :=
  match s with
  | .defaults => defaults
  | .container own true => containerItems own defaults
  | .container own false => containerItems own []

/-! ### The registry of extractable fields -/

/-- `polog/core/stores/fields.py`. -/
structure FieldStore (F : Type) where
  inPlace : Dict Str F
  engine : Dict Str F

/-- Before any registration, config.py:147-176. -/
def FieldStore.empty {F : Type} : FieldStore F := ⟨[], []⟩

/-- The names of `name_manager.py:63-80`. -/
def builtInFields : List Str :=
  ["level", "auto", "time", "service_name", "success", "function", "class", "module", "message",
   "exception_type", "exception_message", "traceback", "input_variables", "local_variables",
   "result", "time_of_work"].map String.toList

/-- `NameManager.is_possible_extra_field_name(name).possibility`, `name_manager.py:45-87`. -/
def isPossibleFieldName (isId : Str → Bool) (name : Str) : Bool :=
  if !isId name then false
  else if name.head? = some '_' then false
  else if name ∈ builtInFields then false
  else true

/-- The loop of `add_fields` / `add_engine_fields`, `config.py:158-164, 171-177`; an object without
a suitable `get_data` is `none`. -/
def addFieldsTo {F : Type} (isId : Str → Bool) : Dict Str F → List (Str × Option F) →
    Dict Str F × Option PyErr
  | d, [] => (d, none)
  | d, (name, value) :: rest =>
    match value with
    | none => (d, some .valueError)
    | some f =>
      if !isPossibleFieldName isId name then (d, some .nameError)
      else addFieldsTo isId (Dict.set name f d) rest

/-- The loop of `delete_fields` / `delete_engine_fields`, `config.py:179-199`. -/
def deleteFieldsFrom {F : Type} : Dict Str F → List Key → Dict Str F × Option PyErr
  | d, [] => (d, none)
  | d, .other :: _ => (d, some .keyError)
  | d, .str name :: rest =>
    if Dict.has name d then deleteFieldsFrom (Dict.erase name d) rest else (d, some .keyError)

/-- One step of the dictionary comprehension `config.py:209, 219`:
`{name: d.get(name) for name in names if d.get(name) is not None}`. -/
def addPresent {F : Type} (d : Dict Str F) (acc : Dict Str F) (n : Str) : Dict Str F :=
  match Dict.get? n d with
  | none => acc
  | some f => Dict.set n f acc

/-- `get_in_place_fields(*names)` / `get_engine_fields(*names)`, `config.py:201-219`. -/
def selectFields {F : Type} (d : Dict Str F) (names : List Str) : Dict Str F :=
  if names = [] then d
  else names.foldl (addPresent d) []

/-- `get_all_fields(*names)`, `config.py:221-229`. -/
def getAllFields {F : Type} (s : FieldStore F) (names : List Str) : Dict Str F :=
  Dict.update (selectFields s.inPlace names) (selectFields s.engine names)

/-- API calls on the registry. config.py:147-198. -/
inductive FieldCall (F : Type) where
  | addFields (kwargs : List (Str × Option F))
  | addEngineFields (kwargs : List (Str × Option F))
  | deleteFields (names : List Key)
  | deleteEngineFields (names : List Key)

/-- config.py:147-198. -/
def FieldStore.call {F : Type} (isId : Str → Bool) (s : FieldStore F) :
    FieldCall F → FieldStore F × Option PyErr
  | .addFields kw => let r := addFieldsTo isId s.inPlace kw; (⟨r.1, s.engine⟩, r.2)
  | .addEngineFields kw => let r := addFieldsTo isId s.engine kw; (⟨s.inPlace, r.1⟩, r.2)
  | .deleteFields ns => let r := deleteFieldsFrom s.inPlace ns; (⟨r.1, s.engine⟩, r.2)
  | .deleteEngineFields ns => let r := deleteFieldsFrom s.engine ns; (⟨s.inPlace, r.1⟩, r.2)

/-- config.py:147-198, one call after another. -/
def FieldStore.calls {F : Type} (isId : Str → Bool) : FieldStore F → List (FieldCall F) → FieldStore F
  | s, [] => s
  | s, c :: cs => ((s.call isId c).1).calls isId cs

/-! ### Comparison of logs -/

/-- An object a log is compared with: another log with its `time` (naive datetimes, modelled by
their integer timestamp; `none` when the field is absent or `None`), or something else. log_item.py:196-232. -/
inductive CmpObj where
  | log (time : Option Int)
  | other
deriving DecidableEq

/-- `compare`, `log_item.py:196-212`. -/
def logCompare (self : Option Int) (that : CmpObj) (operation : Int → Int → Bool) (ifNot : Bool) : Bool :=
  match that with
  | .log ts2 =>
    match self, ts2 with
    | some a, some b => operation a b
    | _, _ => ifNot
  | .other => ifNot

/-- `compare_or_raise`, `log_item.py:214-232`. -/
def logCompareOrRaise (self : Option Int) (that : CmpObj) (operation : Int → Int → Bool) :
    Except PyErr Bool :=
  match that with
  | .log ts2 =>
    match self with
    | none => .error .typeError
    | some a =>
      match ts2 with
      | none => .error .typeError
      | some b => .ok (operation a b)
  | .other => .error .typeError

/-- `__eq__`, `log_item.py:108-112`. -/
def logEq (self : Option Int) (that : CmpObj) : Bool := logCompare self that (fun a b => a == b) false
/-- `__ne__`, `log_item.py:114-118`. -/
def logNe (self : Option Int) (that : CmpObj) : Bool := logCompare self that (fun a b => a != b) true
/-- `__lt__`, `log_item.py:120-124`. -/
def logLt (self : Option Int) (that : CmpObj) : Except PyErr Bool :=
  logCompareOrRaise self that fun a b => decide (a < b)
/-- `__gt__`, `log_item.py:126-130`. -/
def logGt (self : Option Int) (that : CmpObj) : Except PyErr Bool :=
  logCompareOrRaise self that fun a b => decide (b < a)
/-- `__le__`, `log_item.py:132-136`. -/
def logLe (self : Option Int) (that : CmpObj) : Except PyErr Bool :=
  logCompareOrRaise self that fun a b => decide (a ≤ b)
/-- `__ge__`, `log_item.py:138-142`. -/
def logGe (self : Option Int) (that : CmpObj) : Except PyErr Bool :=
  logCompareOrRaise self that fun a b => decide (b ≤ a)
/-- `__hash__`, `log_item.py:144-149`; `hash` is any hash function on times and `None`. -/
def logHash (hash : Option Int → Nat) (self : Option Int) : Nat := hash self

end Polog
