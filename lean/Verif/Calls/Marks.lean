import Verif.Calls.Model

/-! Model of decorated calls that end with exceptions of unusual classes. `log_exception_info`
(function_logger.py:168-192) asks the exception for the attribute `checked_by_polog` (line 174) and sets it (line 175).
Both are code of the class of the exception: it may have its own `__getattr__`, `__getattribute__` and `__setattr__`; e.g.
a class made with `@dataclass(frozen=True)` refuses to set attributes. `Calls/Model.lean` is about ordinary exceptions;
here the same code runs with exceptions of any kind. -/

namespace Polog

/-- What `hasattr(exc, 'checked_by_polog')` (function_logger.py:174) does: tells whether the attribute was set; is always
true, because `__getattr__` answers to any name; raises, because `__getattr__` raises something else than
`AttributeError`. -/
inductive LookKind where
  | ordinary
  | answers
  | raises
deriving DecidableEq

/-- What `exc.checked_by_polog = True` (function_logger.py:175) does: sets the attribute; nothing; raises. -/
inductive MarkKind where
  | stores
  | forgets
  | refuses
deriving DecidableEq

/-- How an exception object behaves at function_logger.py:174-175. -/
structure AttrKind where
  look : LookKind
  mark : MarkKind
deriving DecidableEq

/-- Exceptions made by Polog and by Python itself are ordinary. function_logger.py:174-175. -/
def AttrKind.ordinary : AttrKind := ⟨.ordinary, .stores⟩

/-- The kind of an exception; `kinds` tells it for the exceptions of the program. function_logger.py:174-175. -/
def kindOf (kinds : Nat → AttrKind) : ExcId → AttrKind
  | .user n => kinds n
  | .internal _ => .ordinary

/-- The body of the inner `if` of `log_exception_info`, function_logger.py:176-192. -/
def recordException (env : CEnv) (d : Deco) (info : FnInfo) (e : Exc) (s : CallState) : Option Exc × CallState :=
  let level := errorsLevel env d.errLevel d.level
  if env.h.threshold ≤ level then
    match e.text, info.inputs with
    | some text, some inputs =>
      let data := Dict.set "exception_type".toList (.str e.name)
        (Dict.set "exception_message".toList (.str text) (baseArgs env d info))
      let data := Dict.set "level".toList (.int level)
        (Dict.set "time_of_work".toList env.elapsed
          (Dict.set "local_variables".toList (.str env.h.localsText)
            (Dict.set "traceback".toList (.str env.h.traceback)
              (Dict.set "success".toList (.bool false) data))))
      let data := setStr "service_name".toList env.h.serviceName data
      let data := setStr "input_variables".toList inputs (copyContext s data)
      (none, { s with
        msg := none
        records := s.records ++ [⟨.auto info (.raised e), extractFrom env.h.fieldsIntersection d.inPlace data⟩] })
    | _, _ => (some (internalExc s.next), { s with next := s.next + 1 })
  else (none, s)

/-- `log_exception_info`, function_logger.py:168-192, for an exception of any kind. -/
def logExceptionK (kinds : Nat → AttrKind) (env : CEnv) (d : Deco) (info : FnInfo) (e : Exc) (s : CallState) :
    Option Exc × CallState :=
  if unlogStatus env s then (none, s)
  else if (kindOf kinds e.id).look = .raises then (some (internalExc s.next), { s with next := s.next + 1 })
  else if ((kindOf kinds e.id).look ≠ .answers ∧ e.id ∉ s.marked) ∨ env.dedup = false then
    match (kindOf kinds e.id).mark with
    | .refuses => (some (internalExc s.next), { s with next := s.next + 1 })
    | .forgets => recordException env d info e s
    | .stores => recordException env d info e { s with marked := e.id :: s.marked }
  else (none, s)

/-- How a call of a decorated function ends, function_logger.py:92-105. What `log_exception_info` raises, leaves the
`except` block before the question whether the exception is to be suppressed. -/
def loggedEndK (kinds : Nat → AttrKind) (env : CEnv) (d : Deco) (info : FnInfo) (o : Outcome) (s : CallState) :
    Outcome × CallState :=
  match o with
  | .ret v =>
    match logNormal env d info v s with
    | (none, s) => (.ret v, s)
    | (some e, s) => (.raised e, s)
  | .raised e =>
    if e.isException then
      match logExceptionK kinds env d info e s with
      | (some e', s) => (.raised e', s)
      | (none, s) =>
        if d.suppressAll then (.ret .none, s)
        else if excSuppressed env d.suppressed e then (.ret .none, s)
        else (.raised e, s)
    else (.raised e, s)

/-- Running code with exceptions of any kind. `with log(...)` does not ask for the attribute (finalizer.py:84-108).
function_logger.py:85-105, unlog.py:95-100, finalizer.py:65-108, message.py:18-35, abstract.py:74-84. -/
def Body.runK (kinds : Nat → AttrKind) (env : CEnv) : Body → CallState → Outcome × CallState
  | .ret v, s => (.ret v, s)
  | .raise e, s => (.raised e, s)
  | .call .plain b k, s =>
    match b.runK kinds env s with
    | (o, s) => (k o).runK kinds env s
  | .call (.logged d info) b k, s =>
    match b.runK kinds env { s with msg := none } with
    | (o, s) =>
      match loggedEndK kinds env d info o s with
      | (o, s) => (k o).runK kinds env s
  | .call (.unlogged full) b k, s =>
    match b.runK kinds env { s with unlog := some full } with
    | (o, s) => (k o).runK kinds env { s with unlog := none }
  | .block o b k, s =>
    match b.runK kinds env s with
    | (out, s) =>
      match blockEnd env o out s with
      | (out, s) => (k out).runK kinds env s
  | .msg args kwargs k, s =>
    match messageCall env.h args kwargs with
    | .error e => (k (some e)).runK kinds env s
    | .ok none => (k none).runK kinds env s
    | .ok (some fields) => (k none).runK kinds env { s with msg := some fields }
  | .manual args kwargs k, s =>
    let h := handleLog { env.h with unlogged := unlogStatus env s } args kwargs
    (k h.raised).runK kinds env { s with records := s.records ++ h.records.map fun data => ⟨.manual, data⟩ }

end Polog
