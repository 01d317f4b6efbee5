import Verif.Router.Model
import Verif.Registry.Model
import Verif.Projection.Model

/-!
Model of what `@log(...)` does with its arguments at the time of decoration: the checks of
`FunctionLogger.__call__` (`polog/loggers/auto/function_logger.py:43-119`), of `get_handlers` (256-270) and
`get_extra_fields` (286-326), and `ClassLogger.__call__` (`polog/loggers/auto/class_logger.py:13-42`) with the
exceptions that can end it half-way.
-/

namespace Polog

/-- What kind of object is behind `HVal.other`: only these distinctions are made for the arguments `handlers`,
`extra_fields`, `extra_engine_fields` and `methods`. The keys of a dictionary may be non-strings (`none`), its
values non-fields (`none`). Simplification: other iterables (sets, generators) are `plain`.
function_logger.py:256-270, 293-321, class_logger.py:21. -/
inductive DObj where
  | list (items : List HVal)
  | tuple (items : List HVal)
  | dict (items : List (Option Str × Option (Extractor HVal)))
  | ellipsis
  | plain

/-- The objects of the program, which of them `SignatureMatcher.is_handler` takes for handlers (modelled in
`Signature/Model.lean`), `str.isidentifier`, and the global in-place fields. function_logger.py:241-326. -/
structure DEnv where
  obj : Nat → DObj
  isHandler : HVal → Bool
  isId : Str → Bool
  inPlace : Dict Str (Extractor HVal)

/-- function_logger.py:256-270, 293-321, class_logger.py:21. -/
def DEnv.kind (env : DEnv) : HVal → DObj
  | .other i => env.obj i
  | _ => .plain

/-- The named arguments of `FunctionLogger.__call__`, function_logger.py:43. -/
def flogNames : List Str :=
  ["message", "level", "errors_level", "is_method", "handlers", "extra_fields", "extra_engine_fields"].map
    String.toList

/-- The named arguments of `ClassLogger.__call__`, class_logger.py:13. -/
def clogNames : List Str := ["methods", "message", "level", "errors_level"].map String.toList

/-- A named argument with the default value `default`. function_logger.py:43, class_logger.py:13. -/
def argOr (name : String) (default : HVal) (kwargs : Dict Str HVal) : HVal :=
  (Dict.get? name.toList kwargs).getD default

/-- `x is not None and not isinstance(x, int) and not isinstance(x, str)`, function_logger.py:49, 51 (a bool is an
int). -/
def wrongLevel (v : HVal) : Bool := v != .none && !(v.isInt || v.isBool) && !v.isStr

/-- The four checks of `FunctionLogger.__call__`, function_logger.py:47-54. -/
def checkFlog (message level errorsLevel isMethod : HVal) : Option PyErr :=
  if message != .none && !message.isStr then some .valueError
  else if wrongLevel level then some .valueError
  else if wrongLevel errorsLevel then some .valueError
  else if !isMethod.isBool then some .valueError
  else none

/-- The loop over the collection of handlers, function_logger.py:264-270: the paths, or the exception
(`HandlerNotFoundError`, a subclass of `ValueError`). -/
def sortHandlers (env : DEnv) : List HVal → Except PyErr (List Str)
  | [] => .ok []
  | .str p :: rest => (sortHandlers env rest).map (p :: ·)
  | x :: rest => if env.isHandler x then sortHandlers env rest else .error .valueError

/-- The exception of `projector.on(paths)`, projector.py:26-32 (the nodes it makes are in
`Projection/Model.lean`). -/
def pathsError (isId : Str → Bool) : List Str → Option PyErr
  | [] => none
  | p :: ps =>
    if p = [sep] then some .valueError
    else
      match convKeys isId (.str p) with
      | .error e => some e
      | .ok _ => pathsError isId ps

/-- The exception of `get_handlers`, function_logger.py:256-274. (The names of lines 276-282 are always fit for
the tree: `Ponies/`.) -/
def handlersError (env : DEnv) (v : HVal) : Option PyErr :=
  if v = .none then none
  else
    match env.kind v with
    | .list items | .tuple items =>
      match sortHandlers env items with
      | .error e => some e
      | .ok paths => pathsError env.isId paths
    | _ => some .valueError

/-- `item is ...`, function_logger.py:300-304. -/
def DEnv.isEllipsis (env : DEnv) (v : HVal) : Bool :=
  match env.kind v with
  | .ellipsis => true
  | _ => false

/-- What the loop of function_logger.py:312-313 makes of an item: only a dictionary has `.items()`; everything
else ends in `AttributeError`, as `...` does in `mergeDicts`. -/
def DEnv.fieldsItem (env : DEnv) (v : HVal) : FieldsItem (Extractor HVal) :=
  match env.kind v with
  | .dict d => .dict d
  | _ => .ellipsis

/-- function_logger.py:310-326. -/
def fieldsMerged (env : DEnv) (items : List HVal) (withDefaults : Bool) :
    Except PyErr (FieldsSource (Extractor HVal)) :=
  match mergeDicts (items.map env.fieldsItem) [] with
  | .error e => .error e
  | .ok own => .ok (.container own withDefaults)

/-- `get_extra_fields` of any object, function_logger.py:286-326. (For collections of dictionaries and `...` it is
`getExtraFields` of `LogItem/Model.lean`; that the list is changed is there.) -/
def fieldsOf (env : DEnv) (v : HVal) : Except PyErr (FieldsSource (Extractor HVal)) :=
  if v = .none then .ok .defaults
  else
    match env.kind v with
    | .dict _ => fieldsMerged env [v] false
    | .list items => fieldsMerged env (items.filter fun x => !env.isEllipsis x) (items.any env.isEllipsis)
    | .tuple items => if items.any env.isEllipsis then .error .attributeError else fieldsMerged env items false
    | _ => .error .valueError

/-- The level of a decorator at the time of a call, function_logger.py:56-113; `none`: not given. -/
def levelArg (v : HVal) : Option PyObj := if v = .none then none else some v.toPyObj

/-- The message of a decorator. function_logger.py:121-147. -/
def messageArg : HVal → Option Str
  | .str s => some s
  | _ => none

/-- What the decorator remembers for the calls. function_logger.py:56-113. Simplification: the global fields are
those at the time of the decoration (that they are looked up later is in `Live/`). -/
def decoOf (env : DEnv) (suppressAll : Bool) (suppressed : List Nat) (fields : FieldsSource (Extractor HVal))
    (kwargs : Dict Str HVal) : Deco where
  level := levelArg (argOr "level" .none kwargs)
  errLevel := levelArg (argOr "errors_level" .none kwargs)
  message := messageArg (argOr "message" .none kwargs)
  suppressAll := suppressAll
  suppressed := suppressed
  inPlace := fields.items env.inPlace

/-- `flog(suppress_all, suppressed_exceptions, **kwargs)(f)`: function_logger.py:43-119. A name that is not an
argument is Python's `TypeError`. -/
def decorateFunction (env : DEnv) (r : FRegistry) (suppressAll : Bool) (suppressed : List Nat)
    (kwargs : Dict Str HVal) (f : FObj) : Except PyErr (FObj × FRegistry) :=
  if kwargs.any fun x => decide (x.1 ∉ flogNames) then .error .typeError
  else
    match checkFlog (argOr "message" .none kwargs) (argOr "level" .none kwargs) (argOr "errors_level" .none kwargs)
        (argOr "is_method" (.bool false) kwargs) with
    | some e => .error e
    | none =>
      match handlersError env (argOr "handlers" .none kwargs) with
      | some e => .error e
      | none =>
        match fieldsOf env (argOr "extra_fields" .none kwargs) with
        | .error e => .error e
        | .ok fields =>
          match fieldsOf env (argOr "extra_engine_fields" .none kwargs) with
          | .error e => .error e
          | .ok _ =>
            .ok (r.logFn (decoOf env suppressAll suppressed fields kwargs)
              (decide (argOr "is_method" (.bool false) kwargs = .bool true)) f)

/-- `log(*args, **kwargs).suppress(...).suppress(...)…(f)`: router.py:23-88, finalizer.py:36-63, 150-178,
function_logger.py:43-119. `sups`: the arguments of every `suppress`, in order; `item` is the function as a value. -/
def logFunction (henv : HEnv) (env : DEnv) (r : FRegistry) (args : List HVal) (kwargs : Dict Str HVal)
    (sups : List (List SuppressArg)) (item : HVal) (f : FObj) : Except PyErr (FObj × FRegistry) :=
  match routerCall henv args kwargs with
  | .raised e => .error e
  | .used _ => .error .typeError
  | .finalizer fin =>
    match fin.suppresses henv sups with
    | .error e => .error e
    | .ok fin =>
      match fin.call henv [item] [] with
      | (_, some e, _) => .error e
      | (_, none, some (.decorateFn _ sa sup kw)) => decorateFunction env r sa sup kw f
      | (_, none, _) => .error .typeError

/-! ### Classes -/

/-- An attribute of a class: a function; a callable without weak references, as the methods of built-in types are
(`list.append`, `Exception.with_traceback`); a value that is not callable and has no weak references either
(numbers, texts, lists, `None`). What class_logger.py:22-36 reads and writes. -/
inductive DAttr where
  | func (f : FObj)
  | builtin
  | value

/-- The registry and the attributes of every class. What class_logger.py:19-37 works on. -/
structure DWorld where
  reg : FRegistry
  own : Nat → Dict Str DAttr

namespace DWorld

/-- `getattr(Class, name)`, class_logger.py:23. -/
def getattr (w : DWorld) (name : Str) : List Nat → Option DAttr
  | [] => none
  | c :: mro => (Dict.get? name (w.own c)).or (w.getattr name mro)

/-- `setattr(Class, name, ...)`, class_logger.py:28, 36. -/
def setattr (w : DWorld) (c : Nat) (name : Str) (a : DAttr) : DWorld :=
  { w with own := fun i => if i = c then Dict.set name a (w.own c) else w.own i }

/-- The names in `dir(Class)`, every one once. class_logger.py:69. -/
def dir (w : DWorld) : List Nat → List Str
  | [] => []
  | c :: mro => (w.dir mro).filter (fun n => decide (n ∉ Dict.keys (w.own c))) ++ Dict.keys (w.own c)

/-- The condition of class_logger.py:69. -/
def isLoggable (w : DWorld) (mro : List Nat) (n : Str) : Bool :=
  match w.getattr n mro with
  | some (.func _) | some .builtin => !startsDunder n && !endsDunder n
  | _ => false

/-- `get_logging_methods(Class)`, class_logger.py:69. `order`: `dir` sorts the names (any order will do). -/
def loggable (order : List Str → List Str) (w : DWorld) (mro : List Nat) : List Str :=
  (order (w.dir mro)).filter (w.isLoggable mro)

/-- One step of the first loop, class_logger.py:22-28: `getattr` of a missing name and of a name that is no text,
the checks of the arguments, and the entry in the registry, which needs a weak reference
(registering_functions.py:19-25, dictionary.py:22-29). -/
def decorateMethod (c : Nat) (mro : List Nat) (wrongArgs : Option PyErr) (d : Deco) (w : DWorld) :
    HVal → DWorld × Option PyErr
  | .str n =>
    match w.getattr n mro with
    | none => (w, some .attributeError)
    | some a =>
      match wrongArgs with
      | some e => (w, some e)
      | none =>
        match a with
        | .func f => ({ w with reg := (w.reg.logFn d true f).2 }.setattr c n (.func (w.reg.logFn d true f).1), none)
        | _ => (w, some .typeError)
  | _ => (w, some .typeError)

/-- The first loop, class_logger.py:22-28: an exception ends it. -/
def decorateMethods (c : Nat) (mro : List Nat) (wrongArgs : Option PyErr) (d : Deco) :
    List HVal → DWorld → DWorld × Option PyErr
  | [], w => (w, none)
  | n :: ns, w =>
    match decorateMethod c mro wrongArgs d w n with
    | (w, some e) => (w, some e)
    | (w, none) => decorateMethods c mro wrongArgs d ns w

/-- One step of the second loop, class_logger.py:33-36. -/
def restoreMethod (c : Nat) (mro : List Nat) (w : DWorld) (n : Str) : DWorld :=
  match w.getattr n mro with
  | some (.func f) => w.setattr c n (.func (w.reg.original f))
  | some a => w.setattr c n a
  | none => w

/-- `*methods`, class_logger.py:21: a text gives its characters, a dictionary its keys. -/
def methodsOf (env : DEnv) (v : HVal) : Except PyErr (List HVal) :=
  match v with
  | .str s => .ok (s.map fun ch => .str [ch])
  | v =>
    match env.kind v with
    | .list items | .tuple items => .ok items
    | .dict d => .ok (d.map fun x => (x.1.map HVal.str).getD .none)
    | _ => .error .typeError

/-- `not len(methods) or (len(methods) == 1 and inspect.isclass(methods[0]))`, class_logger.py:68. -/
def wholeClass : List HVal → Bool
  | [] => true
  | [x] => x.isCls
  | _ => false

/-- The items of the argument `methods`, by default none. class_logger.py:13, 21. -/
def givenMethods (env : DEnv) (kwargs : Dict Str HVal) : Except PyErr (List HVal) :=
  match Dict.get? "methods".toList kwargs with
  | none => .ok []
  | some v => methodsOf env v

/-- The decorator of a class, class_logger.py:13-37: the classes afterwards and the exception, if any. `kwargs`:
the named arguments. -/
def decorateClass (env : DEnv) (order : List Str → List Str) (w : DWorld) (c : Nat) (bases : List Nat)
    (suppressAll : Bool) (suppressed : List Nat) (kwargs : Dict Str HVal) : DWorld × Option PyErr :=
  if kwargs.any fun x => decide (x.1 ∉ clogNames) then (w, some .typeError)
  else
    match givenMethods env kwargs with
    | .error e => (w, some e)
    | .ok methods =>
      let names := if wholeClass methods then (w.loggable order (c :: bases)).map HVal.str else methods
      match decorateMethods c (c :: bases)
          (checkFlog (argOr "message" .none kwargs) (argOr "level" .none kwargs)
            (argOr "errors_level" .none kwargs) (.bool true))
          (decoOf env suppressAll suppressed .defaults kwargs) names w with
      | (w, some e) => (w, some e)
      | (w, none) =>
        if methods = [] then (w, none)
        else
          (((w.loggable order (c :: bases)).filter fun n => decide (HVal.str n ∉ methods)).foldl
            (restoreMethod c (c :: bases)) w, none)

end DWorld

end Polog
