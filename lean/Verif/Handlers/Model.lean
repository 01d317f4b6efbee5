import Verif.Tree.Model

/-!
Model of the handler registry part of `polog/config.py` (`add_handlers`, `set_handler`,
`delete_handlers`, `get_handlers`, lines 71-144) over the modelled global `NamedTree`
(`polog/core/stores/handlers.py`).
-/

namespace Polog

variable {V : Type}

/-- The state `config` works on: `global_handlers` and how many names were taken from
`config.pony_names_generator` (`config.py:23`). -/
structure Registry (V : Type) where
  tree : Tree V
  ponies : Nat

/-- The parameters of the registry: which names are identifiers, which objects pass
`SignatureMatcher.is_handler` (`stores/handlers.py:5-7`), and the n-th generated name with spaces
replaced by underscores (`config.py:96`), if the generator still yields. -/
structure RegEnv (V : Type) where
  isId : Str → Bool
  isHandler : V → Bool
  pony : Nat → Except PyErr Str

/-- A positional argument of `add_handlers`: a dictionary or anything else (`none` = Python `None`).
config.py:72-99. -/
inductive AddArg (V : Type) where
  | dict (items : List (Key × Option V))
  | obj (v : Option V)

/-- An argument of `delete_handlers`. config.py:127-144. -/
inductive DelArg (V : Type) where
  | name (s : Str)
  | obj (v : Option V)

/-- `config.set_handler`, `config.py:101-108`: returns the new state and the exception, if any. -/
def Registry.setHandler (env : RegEnv V) (r : Registry V) (name : Key) (h : Option V) :
    Registry V × Option PyErr :=
  match r.tree.contains env.isId name with
  | .error e => (r, some e)
  | .ok true => (r, some .nameError)
  | .ok false =>
    match r.tree.setitem env.isId env.isHandler name h with
    | .error e => (r, some e)
    | .ok t => ({ r with tree := t }, none)

/-- Values of the top-level nodes, `{id(node.value) for node in global_handlers.childs.values()}`
(`config.py:94`); identity of handler objects is equality of `V`. -/
def topValues (f : Forest V) : List (Option V) := f.trees.map Tree.value

/-- The dictionary items of one dict argument, `config.py:89-92`. -/
def Registry.addItems (env : RegEnv V) : Registry V → List (Key × Option V) → Registry V × Option PyErr
  | r, [] => (r, none)
  | r, (k, v) :: rest =>
    match k with
    | .other => (r, some .keyError)
    | .str _ =>
      match r.setHandler env k v with
      | (r', some e) => (r', some e)
      | (r', none) => r'.addItems env rest

/-- One positional argument, `config.py:88-97`. -/
def Registry.addArg [DecidableEq V] (env : RegEnv V) (r : Registry V) :
    AddArg V → Registry V × Option PyErr
  | .dict items => r.addItems env items
  | .obj h =>
    if h ∈ topValues r.tree.childs then (r, some .valueError)
    else
      match env.pony r.ponies with
      | .error e => (r, some e)
      | .ok name => Registry.setHandler env { r with ponies := r.ponies + 1 } (.str name) h

/-- `for handler in args`, `config.py:87-97`. -/
def Registry.addArgs [DecidableEq V] (env : RegEnv V) :
    Registry V → List (AddArg V) → Registry V × Option PyErr
  | r, [] => (r, none)
  | r, a :: rest =>
    match r.addArg env a with
    | (r', some e) => (r', some e)
    | (r', none) => r'.addArgs env rest

/-- `config.add_handlers(*args, **kwargs)`, `config.py:71-99`. -/
def Registry.addHandlers [DecidableEq V] (env : RegEnv V) (r : Registry V)
    (args : List (AddArg V)) (kwargs : List (Str × Option V)) : Registry V × Option PyErr :=
  match r.addArgs env args with
  | (r', some e) => (r', some e)
  | (r', none) => r'.addItems env (kwargs.map fun x => (.str x.1, x.2))

/-- `{id(node.value): node.name for node in global_handlers.childs.values()}[id(handler)]`,
`config.py:140-143`: the last top-level node with that value wins. -/
def Forest.nameOf [DecidableEq V] (h : Option V) : Forest V → Option Str
  | .nil => none
  | .cons n v _ r =>
    match r.nameOf h with
    | some m => some m
    | none => if v = h then some n else none

/-- One argument of `delete_handlers`, `config.py:136-144`. -/
def Registry.delOne [DecidableEq V] (env : RegEnv V) (r : Registry V) : DelArg V → Registry V × Option PyErr
  | .name s =>
    match r.tree.delitem env.isId (.str s) with
    | .error e => (r, some e)
    | .ok t => ({ r with tree := t }, none)
  | .obj h =>
    match r.tree.childs.nameOf h with
    | none => (r, some .valueError)
    | some n =>
      match r.tree.delitem env.isId (.str n) with
      | .error e => (r, some e)
      | .ok t => ({ r with tree := t }, none)

/-- `config.delete_handlers(*names)`, `config.py:126-144`. -/
def Registry.deleteHandlers [DecidableEq V] (env : RegEnv V) :
    Registry V → List (DelArg V) → Registry V × Option PyErr
  | r, [] => (r, none)
  | r, a :: rest =>
    match r.delOne env a with
    | (r', some e) => (r', some e)
    | (r', none) => r'.deleteHandlers env rest

/-- `config.get_handlers(*names)`, `config.py:110-124`: the effect on the global tree
(`TreeProjector.on`, `projector.py:17-32`). -/
def Registry.getHandlers (env : RegEnv V) : Registry V → List Key → Registry V × Option PyErr
  | r, [] => (r, none)
  | r, k :: rest =>
    match r.tree.touch env.isId k with
    | .error e => (r, some e)
    | .ok t => Registry.getHandlers env { r with tree := t } rest

/-- Calls of the public API. config.py:72-144. -/
inductive ApiCall (V : Type) where
  | add (args : List (AddArg V)) (kwargs : List (Str × Option V))
  | delete (args : List (DelArg V))
  | select (names : List Key)

/-- config.py:72-144. -/
def Registry.call [DecidableEq V] (env : RegEnv V) (r : Registry V) : ApiCall V → Registry V × Option PyErr
  | .add args kwargs => r.addHandlers env args kwargs
  | .delete args => r.deleteHandlers env args
  | .select names => r.getHandlers env names

/-- The state after a history of API calls (exceptions are caught by the user between calls). config.py:72-144. -/
def Registry.calls [DecidableEq V] (env : RegEnv V) : Registry V → List (ApiCall V) → Registry V
  | r, [] => r
  | r, c :: cs => ((r.call env c).1).calls env cs

/-- The registry at import time. settings_store.py:23-239 (the point `handlers`), tree.py:49-60. -/
def Registry.init : Registry V := ⟨Tree.empty, 0⟩

/-- What is registered under a name: `config.get_handlers()[name]`. config.py:111-124, tree.py:62-73. -/
def Registry.lookup (env : RegEnv V) (r : Registry V) (name : Str) : Option V :=
  match r.tree.getitem env.isId (.str name) with
  | .ok v => some v
  | .error _ => none

end Polog
