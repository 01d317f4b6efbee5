import Verif.Levels.Model

/-! What the user relies on about level names. -/

namespace Polog
namespace LevelsSpec

/-- The names of the public attributes of `log`, `flog`, `handle_log` and `message`, which a level must not hide. -/
def attributesOfLoggers : List Str :=
  ["settings", "engine", "global_handlers", "in_place_fields", "engine_fields", "get_base_args_dict",
   "get_class_name", "get_arg", "log_exception_info", "log_normal_info", "resolve_normal_level", "create_log_item",
   "get_handlers", "get_extra_fields", "message", "suppress"].map String.toList

/-- A documented acceptable item of `config.levels(name=value)`: a non-negative integer (bools are
integers in Python) and a name that is an identifier, not underscored and not used by the API. -/
def accepted (isId : Str → Bool) (item : Str × PyObj) : Option (Str × Int) :=
  let number? := match item.2 with
    | .int n => some n
    | .bool b => some (boolInt b)
    | _ => Option.none
  match number? with
  | some n =>
    if 0 ≤ n ∧ isId item.1 ∧ item.1.head? ≠ some '_' ∧ item.1 ∉ attributesOfLoggers then some (item.1, n)
    else none
  | Option.none => none

/-- The assignments one `config.levels(...)` performs: the items before the first unacceptable one. -/
def assignedBy (isId : Str → Bool) : List (Str × PyObj) → List (Str × Int)
  | [] => []
  | item :: rest =>
    match accepted isId item with
    | some a => a :: assignedBy isId rest
    | none => []

/-- The twelve names of the standard scheme. -/
def standardAssignments : List (Str × Int) :=
  [("NOTSET", 0), ("notset", 0), ("DEBUG", 10), ("debug", 10), ("INFO", 20), ("info", 20),
   ("WARNING", 30), ("warning", 30), ("ERROR", 40), ("error", 40), ("CRITICAL", 50),
   ("critical", 50)].map fun x => (x.1.toList, x.2)

def assignedByCall (isId : Str → Bool) : LevelsCall → List (Str × Int)
  | .levels kwargs => assignedBy isId kwargs
  | .standardLevels => standardAssignments

/-- All assignments of a history, oldest first. -/
def assignments (isId : Str → Bool) (history : List LevelsCall) : List (Str × Int) :=
  history.flatMap (assignedByCall isId)

/-- The number most recently assigned to a name. -/
def numberOf (as : List (Str × Int)) (name : Str) : Option Int :=
  (as.reverse.find? fun a => a.1 = name).map Prod.snd

/-- The name most recently given to a number. -/
def lastNameOf (as : List (Str × Int)) (n : Int) : Option Str :=
  (as.reverse.find? fun a => a.2 = n).map Prod.fst

end LevelsSpec
end Polog
