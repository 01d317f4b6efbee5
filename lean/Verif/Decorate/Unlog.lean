import Verif.Decorate.Model

/-!
Model of `UnlogDecorator.__call__`, `polog/unlog.py:21-50`: what can be given to `unlog`, and `@unlog` on classes with
the exceptions that can end it half-way.
-/

namespace Polog

/-- What is given to `unlog`: a class with its bases in the order of resolution, a function, a callable without weak
references (`list.append`), something that cannot be called. unlog.py:30-41. -/
inductive UArg where
  | cls (c : Nat) (bases : List Nat)
  | fn (f : FObj)
  | builtin
  | other

/-- What `unlog(...)` returns: the inner function `decorator` (with its `full`), the class it was given, a function.
unlog.py:37-45. -/
inductive URes where
  | decorator (full : Option Bool)
  | cls (c : Nat)
  | fn (f : FObj)

namespace DWorld

/-- One step of the loop over the names of a class, unlog.py:32-36. A callable without weak references cannot be put
into the set `forbidden_to_decorate` (registering_functions.py:52): a `TypeError`. -/
def unlogMethod (c : Nat) (mro : List Nat) (full : Option Bool) (w : DWorld) (n : Str) : DWorld × Option PyErr :=
  if startsDunder n then (w, none)
  else
    match w.getattr n mro with
    | some (.func f) => ({ w with reg := (w.reg.unlogFn full f).2 }.setattr c n (.func (w.reg.unlogFn full f).1), none)
    | some .builtin => (w, some .typeError)
    | _ => (w, none)

/-- The loop over the names of a class, unlog.py:32-36: an exception ends it. -/
def unlogMethods (c : Nat) (mro : List Nat) (full : Option Bool) : List Str → DWorld → DWorld × Option PyErr
  | [], w => (w, none)
  | n :: ns, w =>
    match unlogMethod c mro full w n with
    | (w, some e) => (w, some e)
    | (w, none) => unlogMethods c mro full ns w

/-- The inner function `decorator`, unlog.py:30-41. `order`: `dir` sorts the names (any order will do). -/
def unlogDecorator (order : List Str → List Str) (full : Option Bool) (w : DWorld) : UArg → DWorld × Except PyErr URes
  | .cls c bases =>
    match unlogMethods c (c :: bases) full (order (w.dir (c :: bases))) w with
    | (w, some e) => (w, .error e)
    | (w, none) => (w, .ok (.cls c))
  | .fn f => ({ w with reg := (w.reg.unlogFn full f).2 }, .ok (.fn (w.reg.unlogFn full f).1))
  | .builtin => (w, .error .typeError)
  | .other => (w, .error .incorrectUse)

/-- `unlog(*args, full=full)`, unlog.py:21-50. -/
def unlogCall (order : List Str → List Str) (args : List UArg) (full : Option Bool) (w : DWorld) :
    DWorld × Except PyErr URes :=
  match args with
  | [] => (w, .ok (.decorator full))
  | [obj] => unlogDecorator order full w obj
  | _ => (w, .error .incorrectUse)

/-- Calling what `unlog(...)` returned with `obj`: only the inner function `decorator` is of interest.
unlog.py:30-45. -/
def useDecorator (order : List Str → List Str) (obj : UArg) (r : DWorld × Except PyErr URes) :
    DWorld × Except PyErr URes :=
  match r with
  | (w, .ok (.decorator full)) => unlogDecorator order full w obj
  | (w, .error e) => (w, .error e)
  | (w, _) => (w, .error .typeError)

end DWorld

end Polog
