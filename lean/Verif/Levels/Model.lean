import Verif.Py
import Verif.Dict

/-!
Model of `polog/core/stores/levels.py`, of `config.levels` / `config.standard_levels`
(`polog/config.py:41-69`) and of `NameManager` (`polog/core/utils/name_manager.py`).
-/

namespace Polog

/-- A Python object where a level is expected: only these distinctions are made by the code
(`isinstance(key, str)`, `type(key) is int`, `isinstance(value, int)` — true for `bool` too).
levels.py:14-55, config.py:42-58. -/
inductive PyObj where
  | none
  | str (s : Str)
  | int (n : Int)
  | bool (b : Bool)
  | other
deriving DecidableEq, Repr

/-- `int(b)`: the number a bool is equal to. Python's own; it matters for the dictionaries of levels.py:9-11. -/
def boolInt (b : Bool) : Int := if b then 1 else 0

/-- The class attributes of `Levels`, `levels.py:8-11`.  Simplification: a stored `True`/`False` is
stored as the number `1`/`0` it is equal to. -/
structure Levels where
  byName : Dict Str Int
  byNumber : Dict Int Str
deriving DecidableEq, Repr

/-- levels.py:9-11. -/
def Levels.empty : Levels := ⟨[], []⟩

/-- `Levels.set(name, value)` for a string name and an integer value, `levels.py:13-23`. -/
def Levels.set (l : Levels) (name : Str) (value : Int) : Levels :=
  ⟨Dict.set name value l.byName, Dict.set value name l.byNumber⟩

/-- `Levels.get(key)`, `levels.py:25-40`. -/
def Levels.get (l : Levels) : PyObj → Except PyErr Int
  | .str s => match Dict.get? s l.byName with
    | none => .error .keyError
    | some n => .ok n
  | .int n => if n < 0 then .error .keyError else .ok n
  | .bool _ => .error .keyError
  | .none => .error .keyError
  | .other => .error .keyError

/-- `str(n)` of a Python int. levels.py:43-55. -/
def decimal (n : Int) : Str := (toString n).toList

/-- `Levels.get_level_name(number)`, `levels.py:42-55`. -/
def Levels.getLevelName (l : Levels) : Option Int → Option Str
  | none => none
  | some n => match Dict.get? n l.byNumber with
    | none => some (decimal n)
    | some name => some name

/-- `Levels.get_all_names()`, `levels.py:57-65`. -/
def Levels.allNames (l : Levels) : List Str := Dict.keys l.byName

/-- The public (not underscored) attributes of `flog`, `handle_log`, `log`, `message`:
`function_logger.py:31-326`, `router.py:98,104`; the attributes of the hand loggers are all
underscored (`abstract.py`, `handle_log.py`, `message.py`).  This is the part of
`forbidden_names` (`name_manager.py:36`) that is not already excluded by the underscore rule. -/
def publicApiNames : List Str :=
  ["settings", "engine", "global_handlers", "in_place_fields", "engine_fields",
   "get_base_args_dict", "get_class_name", "get_arg", "log_exception_info", "log_normal_info",
   "resolve_normal_level", "create_log_item", "get_handlers", "get_extra_fields",
   "message", "suppress"].map String.toList

/-- `NameManager.is_possible_level_name(name).possibility`, `name_manager.py:18-43`; `isId` is
`str.isidentifier`. -/
def isPossibleLevelName (isId : Str → Bool) (name : Str) : Bool :=
  if !isId name then false
  else if name.head? = some '_' then false
  else if name ∈ publicApiNames then false
  else true

/-- One keyword argument of `config.levels`, `config.py:50-58`. -/
def Levels.setOne (isId : Str → Bool) (l : Levels) (name : Str) (value : PyObj) : Except PyErr Levels :=
  match (match value with | .int n => some n | .bool b => some (boolInt b) | _ => Option.none) with
  | Option.none => .error .typeError
  | some n =>
    if n < 0 then .error .valueError
    else if !isPossibleLevelName isId name then .error .nameError
    else .ok (l.set name n)

/-- `config.levels(**kwargs)`, `config.py:41-58`: the state afterwards and the exception, if any. -/
def Levels.configLevels (isId : Str → Bool) : Levels → List (Str × PyObj) → Levels × Option PyErr
  | l, [] => (l, none)
  | l, (name, value) :: rest =>
    match l.setOne isId name value with
    | .error e => (l, some e)
    | .ok l' => l'.configLevels isId rest

/-- The dictionary at `config.py:66`. -/
def standardTable : List (Str × Str × Int) :=
  [("NOTSET", "notset", 0), ("DEBUG", "debug", 10), ("INFO", "info", 20), ("WARNING", "warning", 30),
   ("ERROR", "error", 40), ("CRITICAL", "critical", 50)].map fun x => (x.1.toList, x.2.1.toList, x.2.2)

/-- `config.standard_levels()`, `config.py:60-69`. -/
def Levels.standard (l : Levels) : Levels :=
  standardTable.foldl (fun acc x => (acc.set x.1 x.2.2).set x.2.1 x.2.2) l

/-- The calls that change the level names. config.py:42-69. -/
inductive LevelsCall where
  | levels (kwargs : List (Str × PyObj))
  | standardLevels

/-- config.py:42-69. -/
def Levels.call (isId : Str → Bool) (l : Levels) : LevelsCall → Levels
  | .levels kwargs => (l.configLevels isId kwargs).1
  | .standardLevels => l.standard

/-- The state after a history of calls. config.py:42-69, one call after another. -/
def Levels.calls (isId : Str → Bool) : Levels → List LevelsCall → Levels
  | l, [] => l
  | l, c :: cs => (l.call isId c).calls isId cs

end Polog
