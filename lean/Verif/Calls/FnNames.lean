import Verif.Calls.Model

/-! What a decorated function says about itself: its name, its module and its class. -/

namespace Polog

/-- The attributes of a function object which Polog reads. `self`: `__self__` (`none`: the object has no such attribute, as
every plain function; `some none`: it has, and what it is bound to has no `__name__`, as most instances; `some (some s)`: it is
bound to something with this `__name__`). `qualname`, `name`, `module`: `__qualname__`, `__name__`, `__module__` (`none`:
there is no such attribute or it is `None`; simplification: they are strings otherwise, and reading them raises nothing but
`AttributeError`). function_logger.py:129-145, 162. -/
structure FnObject where
  self : Option (Option Str)
  qualname : Option Str
  name : Option Str
  module : Option Str

/-- `maybe_class_name = qualname.split('.')[-2]`, `none` for `IndexError`; `None` is returned for a name that is not an
identifier. `isId`: `str.isidentifier`. function_logger.py:142-147. -/
def secondLast (isId : Str → Bool) (qualname : Str) : Option Str :=
  match (splitChar '.' qualname).reverse with
  | _ :: s :: _ => if isId s then some s else none
  | _ => none

/-- `get_class_name`, function_logger.py:135-147. -/
def getClassName (isId : Str → Bool) (f : FnObject) : Option Str :=
  match f.self with
  | some (some s) => some s
  | _ => f.qualname.bind (secondLast isId)

/-- What `get_base_args_dict` reads from a function (function_logger.py:129-132, 149-164), with the text of the arguments of
one call. -/
def fnInfoOf (isId : Str → Bool) (f : FnObject) (inputs : Option (Option Str)) : FnInfo :=
  ⟨f.name, f.module, getClassName isId f, inputs⟩

end Polog
