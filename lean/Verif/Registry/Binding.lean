import Verif.Registry.Model

/-!
Model of what a decorated class does to the calls of its methods: `polog/loggers/auto/class_logger.py:19-37, 44-72` and
`polog/unlog.py:30-37`, together with Python's rules for reading an attribute of a class and of an instance.

Both decorators read every method with `getattr(Class, name)` and write a plain function back with `setattr`. What that does
to static methods, class methods and other callables is the subject here; which wrapper is chosen is that of `Registry/Model`.
Simplification: instances have no attributes of their own; metaclasses, `__slots__` and descriptors other than functions,
`staticmethod` and `classmethod` are left out.
-/

namespace Polog

/-- What a call passes: an instance, a class, or any other value.
What a wrapper passes on: function_logger.py:63-105, unlog.py:93-110. -/
inductive Actual where
  | inst (i : Nat)
  | cls (c : Nat)
  | arg (n : Nat)
deriving DecidableEq

/-- An object that can be called: a function of the user; a bound method; another object of the user that can be called and is
no function (a nested class, a `functools.partial`); a function made by `@log` or `@unlog` (function_logger.py:84-105,
unlog.py:93-110). -/
inductive CallObj where
  | fn (id : Nat)
  | bound (f : CallObj) (self : Actual)
  | object (id : Nat)
  | wrapper (f : CallObj)
deriving DecidableEq

/-- What of the user's is run by a call with these arguments, and what it is given: a bound method puts its object first, a
wrapper passes on what it is given (function_logger.py:94, unlog.py:98). -/
def CallObj.receives : CallObj → List Actual → Nat × List Actual
  | .fn id, as => (id, as)
  | .bound f s, as => f.receives (s :: as)
  | .object id, as => (id, as)
  | .wrapper f, as => f.receives as

/-- Is it a function, in Python's sense: an attribute of a class that gets the instance as first argument.
Python's own rule; it decides what class_logger.py:22-36 and unlog.py:32-36 do to an attribute. -/
def CallObj.isFunction : CallObj → Bool
  | .fn _ => true
  | .wrapper _ => true
  | _ => false

/-- How many wrappers of Polog a call goes through. For statements: wrappers of function_logger.py:63-105. -/
def CallObj.layers : CallObj → Nat
  | .fn _ => 0
  | .bound f _ => f.layers
  | .object _ => 0
  | .wrapper f => f.layers + 1

/-- `get_original`, registering_functions.py:108-121. -/
def CallObj.unwrapped : CallObj → CallObj
  | .wrapper f => f
  | o => o

/-- What stands in `Class.__dict__` under a name: an object that can be called, `staticmethod(o)`, `classmethod(o)`, or
something that cannot be called. What class_logger.py:22-36 and unlog.py:32-36 read and write. -/
inductive MethodAttr where
  | plain (o : CallObj)
  | static (o : CallObj)
  | clsm (o : CallObj)
  | value
deriving DecidableEq

/-- The classes of a program: what each of them defines itself, and its order of resolution (itself first).
The classes given to class_logger.py:19-37 and unlog.py:30-37. -/
structure MClasses where
  own : Nat → Dict Str MethodAttr
  mro : Nat → List Nat

namespace MClasses

/-- The first class of the list that has the name.
Python's own rule; used by `getattr` at class_logger.py:23 and unlog.py:34. -/
def lookup (w : MClasses) (name : Str) : List Nat → Option MethodAttr
  | [] => none
  | c :: cs => (Dict.get? name (w.own c)).or (w.lookup name cs)

/-- `getattr(Class, name)`, if it can be called. class_logger.py:23, unlog.py:34. -/
def readClass (w : MClasses) (c : Nat) (name : Str) : Option CallObj :=
  match w.lookup name (w.mro c) with
  | some (.plain o) => some o
  | some (.static o) => some o
  | some (.clsm o) => some (.bound o (.cls c))
  | _ => none

/-- `getattr(instance, name)`, if it can be called; the instance `i` is of class `c`.
Python's own rule: what a call of a method in the program reads. -/
def readInst (w : MClasses) (c i : Nat) (name : Str) : Option CallObj :=
  match w.lookup name (w.mro c) with
  | some (.plain o) => some (if o.isFunction then .bound o (.inst i) else o)
  | some (.static o) => some o
  | some (.clsm o) => some (.bound o (.cls c))
  | _ => none

/-- `setattr(Class, name, ...)`. class_logger.py:28, unlog.py:36. -/
def write (w : MClasses) (c : Nat) (name : Str) (a : MethodAttr) : MClasses :=
  { w with own := fun i => if i = c then Dict.set name a (w.own c) else w.own i }

/-- `dir(Class)`. class_logger.py:69, unlog.py:32. -/
def names (w : MClasses) : List Nat → List Str
  | [] => []
  | c :: cs => (w.names cs).filter (fun n => decide (n ∉ Dict.keys (w.own c))) ++ Dict.keys (w.own c)

/-- `get_logging_methods`, class_logger.py:58-72. -/
def toLog (w : MClasses) (c : Nat) (methods : List Str) : List Str :=
  if methods = [] then
    (w.names (w.mro c)).filter fun n => (w.readClass c n).isSome && !startsDunder n && !endsDunder n
  else methods

/-- One step of the first loop, class_logger.py:22-28. (A name in `methods` that cannot be called raises in the code; here it is
skipped.) -/
def logOne (c : Nat) (w : MClasses) (n : Str) : MClasses :=
  match w.readClass c n with
  | some o => w.write c n (.plain (.wrapper o.unwrapped))
  | none => w

/-- One step of the second loop, class_logger.py:33-36. -/
def restoreOne (c : Nat) (w : MClasses) (n : Str) : MClasses :=
  match w.readClass c n with
  | some o => w.write c n (.plain o.unwrapped)
  | none => w

/-- `make_originals`, class_logger.py:44-56. -/
def toRestore (w : MClasses) (c : Nat) (methods : List Str) : List Str :=
  if methods = [] then [] else (w.toLog c []).filter fun n => decide (n ∉ methods)

/-- The decorator `log` of a class, class_logger.py:19-37. -/
def logClass (w : MClasses) (c : Nat) (methods : List Str) : MClasses :=
  let w := (w.toLog c methods).foldl (logOne c) w
  (w.toRestore c methods).foldl (restoreOne c) w

/-- The decorator `unlog` of a class, unlog.py:30-37. -/
def unlogClass (w : MClasses) (c : Nat) : MClasses :=
  ((w.names (w.mro c)).filter fun n => !startsDunder n).foldl (logOne c) w

end MClasses
end Polog
