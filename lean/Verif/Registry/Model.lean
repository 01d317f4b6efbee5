import Verif.Calls.Model

/-!
Model of the registry of decorated functions: `polog/core/stores/registering_functions.py`, of the part of
`polog/loggers/auto/function_logger.py` and `polog/unlog.py` that decides what a decorator returns, and of
`polog/loggers/auto/class_logger.py`.

A function object is its identity together with what it calls. The weak dictionaries and sets are modelled as
dictionaries and sets keyed by identity: a wrapper keeps its original alive (its closure refers to it), so an
entry lives as long as its key, and the key of a lookup is alive.
-/

namespace Polog

/-- A function object: written by the user (`orig`), made by `@log(...)` (`wrapper`, function_logger.py:84-105),
made by `@unlog(full=...)` (`wrapper`, unlog.py:93-110), or made by a decorator that is not Polog's. The last
component of the other three is the function it calls. -/
inductive FObj where
  | orig (id : Nat)
  | logged (id : Nat) (d : Deco) (f : FObj)
  | unlogged (id : Nat) (full : Option Bool) (f : FObj)
  | other (id : Nat) (f : FObj)

/-- `id(function)`. The key of the collections of registering_functions.py:11-17. -/
def FObj.id : FObj → Nat
  | .orig i => i
  | .logged i _ _ => i
  | .unlogged i _ _ => i
  | .other i _ => i

/-- The end of a wrapper: pass the result or the exception on. function_logger.py:85-105, unlog.py:95-100. -/
def passOn : Outcome → Body
  | .ret v => .ret v
  | .raised e => .raise e

/-- A call of the function object, given what the user's function does: every wrapper calls what it wraps
(function_logger.py:94, unlog.py:98; a foreign decorator is taken to pass the call through). The wrappers carry
the name and the module of the function (`functools.wraps`). -/
def FObj.callBody (info : FnInfo) (b : Body) : FObj → Body
  | .orig _ => b
  | .logged _ d f => .call (.logged d info) (f.callBody info b) passOn
  | .unlogged _ full f => .call (.unlogged full) (f.callBody info b) passOn
  | .other _ f => .call .plain (f.callBody info b) passOn

/-- The four collections, registering_functions.py:11-17, and the next unused identity. -/
structure FRegistry where
  decorated : Dict Nat FObj
  unlogged : Dict Nat FObj
  forbidden : List Nat
  methods : List Nat
  next : Nat

namespace FRegistry

/-- At the start of the program. registering_functions.py:11-17. -/
def empty : FRegistry := ⟨[], [], [], [], 0⟩

/-- `get_original`, registering_functions.py:108-121. -/
def original (r : FRegistry) (f : FObj) : FObj :=
  match Dict.get? f.id r.decorated with
  | some o => o
  | none =>
    match Dict.get? f.id r.unlogged with
    | some o => o
    | none => f

/-- `is_forbidden`, registering_functions.py:82-88. -/
def isForbidden (r : FRegistry) (f : FObj) : Bool := decide ((r.original f).id ∈ r.forbidden)

/-- `is_decorator`, registering_functions.py:90-98. -/
def isDecorator (r : FRegistry) (f : FObj) : Bool := f.id != (r.original f).id

/-- `is_method`, registering_functions.py:100-106. -/
def isMethod (r : FRegistry) (f : FObj) : Bool := decide ((r.original f).id ∈ r.methods)

/-- `add`, registering_functions.py:19-25. -/
def add (r : FRegistry) (wrapper orig : FObj) (isMethod : Bool) : FRegistry :=
  { r with
    decorated := Dict.set wrapper.id orig r.decorated
    methods := if isMethod then orig.id :: r.methods else r.methods }

/-- `add_unlogged`, registering_functions.py:27-33. -/
def addUnlogged (r : FRegistry) (wrapper orig : FObj) : FRegistry :=
  { r with unlogged := Dict.set wrapper.id orig r.unlogged }

/-- `remove`, registering_functions.py:35-43. -/
def remove (r : FRegistry) (f : FObj) : FRegistry :=
  if r.isDecorator f then
    { r with
      decorated := Dict.erase f.id r.decorated
      methods := r.methods.filter fun i => i != (r.original f).id }
  else r

/-- `forbid`, registering_functions.py:45-52. -/
def forbid (r : FRegistry) (f : FObj) : FRegistry :=
  if r.isForbidden (r.original f) then r
  else { r with forbidden := (r.original f).id :: r.forbidden }

/-- `unlog_function`, unlog.py:59-77. -/
def unlogFn (r : FRegistry) (full : Option Bool) (f : FObj) : FObj × FRegistry :=
  let step : FObj × FRegistry :=
    if r.isDecorator f then
      let o := r.original f
      (o, (r.remove f).forbid o)
    else (f, r.forbid f)
  let wrapped := FObj.unlogged step.2.next full step.1
  (wrapped, { step.2 with next := step.2.next + 1 }.addUnlogged wrapped step.1)

/-- `get_function_or_wrapper`, registering_functions.py:54-80. -/
def choose (r : FRegistry) (func before wrapper : FObj) (isMethod : Bool) : FObj × FRegistry :=
  if r.isForbidden func then r.unlogFn none func
  else if r.isDecorator before then
    if r.isMethod before then (wrapper, (r.remove before).add wrapper func isMethod)
    else if isMethod then (before, r)
    else (wrapper, (r.remove before).add wrapper func isMethod)
  else (wrapper, (r.remove func).add wrapper func isMethod)

/-- `error_logger`, function_logger.py:56-113: what `@log(...)` makes of a function. -/
def logFn (r : FRegistry) (d : Deco) (isMethod : Bool) (before : FObj) : FObj × FRegistry :=
  let func := r.original before
  let wrapper := FObj.logged r.next d func
  { r with next := r.next + 1 }.choose func before wrapper isMethod

/-- A decorator that is not Polog's: a new function object, unknown to the registry.
Code of the program, not of the repository; it matters for registering_functions.py:108-121. -/
def otherFn (r : FRegistry) (f : FObj) : FObj × FRegistry :=
  (.other r.next f, { r with next := r.next + 1 })

/-- The `def` statement. Code of the program, not of the repository. -/
def defFn (r : FRegistry) : FObj × FRegistry := (.orig r.next, { r with next := r.next + 1 })

end FRegistry

/-- One line of a stack of decorators: `@log(...)`, the decorator of the class (`is_method=True`,
class_logger.py:25), `@unlog(full=...)`, a foreign decorator. -/
inductive Layer where
  | log (d : Deco)
  | cls (d : Deco)
  | unlog (full : Option Bool)
  | other

/-- Applying one decorator. function_logger.py:56-113, class_logger.py:22-28, unlog.py:59-77. -/
def Layer.apply (l : Layer) (f : FObj) (r : FRegistry) : FObj × FRegistry :=
  match l with
  | .log d => r.logFn d false f
  | .cls d => r.logFn d true f
  | .unlog full => r.unlogFn full f
  | .other => r.otherFn f

/-- A stack of decorators, written from the top line down: the lowest is applied first.
Python's own rule for decorators; each is function_logger.py:56-113 or unlog.py:59-77. -/
def applyStack : List Layer → FObj → FRegistry → FObj × FRegistry
  | [], f, r => (f, r)
  | l :: ls, f, r => l.apply (applyStack ls f r).1 (applyStack ls f r).2

/-! ### Classes -/

/-- An attribute of a class: a function or something that cannot be called. (`staticmethod`, `classmethod` and
nested classes are not modelled.) What class_logger.py:22-36 reads and writes. -/
inductive ClsAttr where
  | func (f : FObj)
  | value

/-- The registry and the attributes of every class (`cls.__dict__`).
What class_logger.py:19-37 and unlog.py:30-37 work on. -/
structure ClassWorld where
  reg : FRegistry
  own : Nat → Dict Str ClsAttr

/-- `getattr(Class, name)`: the first class in the order of resolution that has the name.
class_logger.py:23, unlog.py:34. -/
def ClassWorld.getattr (w : ClassWorld) (name : Str) : List Nat → Option ClsAttr
  | [] => none
  | c :: mro => (Dict.get? name (w.own c)).or (w.getattr name mro)

/-- `setattr(Class, name, ...)`. class_logger.py:28, unlog.py:36. -/
def ClassWorld.setattr (w : ClassWorld) (c : Nat) (name : Str) (a : ClsAttr) : ClassWorld :=
  { w with own := fun i => if i = c then Dict.set name a (w.own c) else w.own i }

/-- `dir(Class)`: every name once (the order is irrelevant here). class_logger.py:69, unlog.py:32. -/
def ClassWorld.dir (w : ClassWorld) : List Nat → List Str
  | [] => []
  | c :: mro => (w.dir mro).filter (fun n => decide (n ∉ Dict.keys (w.own c))) ++ Dict.keys (w.own c)

/-- `name.startswith('__')`. class_logger.py:69, unlog.py:33. -/
def startsDunder (n : Str) : Bool := "__".toList.isPrefixOf n

/-- `name.endswith('__')`. class_logger.py:69. -/
def endsDunder (n : Str) : Bool := "__".toList.isSuffixOf n

/-- The condition in `get_logging_methods`, class_logger.py:69. -/
def ClassWorld.isLoggable (w : ClassWorld) (mro : List Nat) (n : Str) : Bool :=
  match w.getattr n mro with
  | some (.func _) => !startsDunder n && !endsDunder n
  | _ => false

/-- `get_logging_methods`, class_logger.py:58-72. -/
def ClassWorld.loggingMethods (w : ClassWorld) (mro : List Nat) (methods : List Str) : List Str :=
  if methods = [] then (w.dir mro).filter (w.isLoggable mro) else methods

/-- `make_originals`, class_logger.py:44-56. -/
def ClassWorld.unselected (w : ClassWorld) (mro : List Nat) (methods : List Str) : List Str :=
  if methods = [] then [] else (w.loggingMethods mro []).filter fun n => decide (n ∉ methods)

/-- One step of the first loop, class_logger.py:22-28. (A name in `methods` without a function raises in the
code; here it is skipped.) -/
def ClassWorld.decorateMethod (c : Nat) (mro : List Nat) (d : Deco) (w : ClassWorld) (n : Str) : ClassWorld :=
  match w.getattr n mro with
  | some (.func f) =>
    { w with reg := (w.reg.logFn d true f).2 }.setattr c n (.func (w.reg.logFn d true f).1)
  | _ => w

/-- One step of the second loop, class_logger.py:33-36. -/
def ClassWorld.restoreMethod (c : Nat) (mro : List Nat) (w : ClassWorld) (n : Str) : ClassWorld :=
  match w.getattr n mro with
  | some (.func f) => w.setattr c n (.func (w.reg.original f))
  | _ => w

/-- The decorator of a class, class_logger.py:19-37. `mro`: the class itself (`c`) and its bases in the order of
resolution. -/
def ClassWorld.decorateClass (w : ClassWorld) (c : Nat) (bases : List Nat) (methods : List Str) (d : Deco) :
    ClassWorld :=
  let w := (w.loggingMethods (c :: bases) methods).foldl (ClassWorld.decorateMethod c (c :: bases) d) w
  (w.unselected (c :: bases) methods).foldl (ClassWorld.restoreMethod c (c :: bases)) w

/-- One step of the loop of `@unlog` on a class, unlog.py:32-36. -/
def ClassWorld.unlogMethod (c : Nat) (mro : List Nat) (full : Option Bool) (w : ClassWorld) (n : Str) :
    ClassWorld :=
  if startsDunder n then w
  else
    match w.getattr n mro with
    | some (.func f) =>
      { w with reg := (w.reg.unlogFn full f).2 }.setattr c n (.func (w.reg.unlogFn full f).1)
    | _ => w

/-- `@unlog` on a class, unlog.py:30-37. -/
def ClassWorld.unlogClass (w : ClassWorld) (c : Nat) (bases : List Nat) (full : Option Bool) : ClassWorld :=
  (w.dir (c :: bases)).foldl (ClassWorld.unlogMethod c (c :: bases) full) w

end Polog
