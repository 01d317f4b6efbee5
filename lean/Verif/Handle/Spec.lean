import Verif.Handle.Model

/-! What the documentation promises about `log(...)` / `handle_log(...)`. -/

namespace Polog
namespace HandleSpec

/-- The documented short forms of argument names. -/
def fullName (name : Str) : Str :=
  if name = "vars".toList ∨ name = "locals".toList then "local_variables".toList
  else if name = "e".toList then "exception".toList
  else if name = "class_".toList then "class".toList
  else name

/-- The level a `level=` argument stands for. -/
inductive LevelIs (levels : Levels) : HVal → Int → Prop
  | number (n : Int) : 0 ≤ n → LevelIs levels (.int n) n
  | name (s : Str) (n : Int) : Dict.get? s levels.byName = some n → LevelIs levels (.str s) n

/-- Fields with a fixed meaning, and the values they accept. -/
inductive Accepts : Str → HVal → Prop
  | functionName (s : Str) : Accepts "function".toList (.str s)
  | function (i n m t) : Accepts "function".toList (.fn i n m t)
  | functionClass (i n m) : Accepts "function".toList (.cls i n m)
  | module (s : Str) : Accepts "module".toList (.str s)
  | className (s : Str) : Accepts "class".toList (.str s)
  | class_ (i n m) : Accepts "class".toList (.cls i n m)
  | message (s : Str) : Accepts "message".toList (.str s)
  | exceptionName (s : Str) : Accepts "exception".toList (.str s)
  | exception (i n m) : Accepts "exception".toList (.exc i n m)
  | success (b : Bool) : Accepts "success".toList (.bool b)
  | levelName (s : Str) : Accepts "level".toList (.str s)
  | level (n : Int) : Accepts "level".toList (.int n)
  | localVariables (s : Str) : Accepts "local_variables".toList (.str s)

def standardNames : List Str :=
  ["function", "module", "class", "message", "exception", "success", "level", "local_variables"].map
    String.toList

/-- Whether unknown field names are allowed for this logger. -/
def unknownOk (lg : HLogger) (env : HEnv) : Prop := lg.allFields = true ∨ env.unknownAllowed = true

/-- A correct keyword argument (up to the level being known). -/
def RightArg (lg : HLogger) (env : HEnv) (name : Str) (value : HVal) : Prop :=
  fullName name ∉ lg.forbidden ∧
  (Accepts (fullName name) value ∨
    fullName name ∉ standardNames ∧
      (fullName name ∈ Dict.keys env.inPlace ∨ fullName name ∈ env.engineNames ∨ unknownOk lg env))

/-- Every level given is a known one. -/
def LevelKnown (env : HEnv) (kwargs : Dict Str HVal) : Prop :=
  ∀ v, ("level".toList, v) ∈ kwargs → ((∃ s, v = .str s) ∨ ∃ n, v = .int n) → ∃ n, LevelIs env.levels v n

/-- No field is given twice under two names. -/
def NoAliases (kwargs : Dict Str HVal) : Prop := (kwargs.map fun x => fullName x.1).Nodup

/-- A call without any mistake. -/
structure ValidCall (lg : HLogger) (env : HEnv) (args : List HVal) (kwargs : Dict Str HVal) : Prop where
  positional : args.length ≤ 1
  aliases : NoAliases kwargs
  right : ∀ k v, (k, v) ∈ kwargs → RightArg lg env k v
  level : LevelKnown env kwargs
  message : ∀ m v, args = [m] → ("message".toList, v) ∈ kwargs → v = m

/-- The value stored for an argument: level names become numbers, classes their names. -/
def stored (levels : Levels) (name : Str) (v : HVal) : HVal :=
  if name = "level".toList then
    match v with
    | .str s => match Dict.get? s levels.byName with | some n => .int n | none => v
    | _ => v
  else if name = "class".toList then
    match v with
    | .cls _ n _ => .str n
    | _ => v
  else v

/-- The argument given for a field under one of its names; `None` counts as not given. -/
def given (levels : Levels) (args : List HVal) (kwargs : Dict Str HVal) (name : Str) : Option HVal :=
  match kwargs.find? fun x => fullName x.1 = name && x.2 ≠ .none with
  | some x => some (stored levels name x.2)
  | none => if name = "message".toList then args.head? else none

/-- The level of the record: the given one; else `default_error_level` when an exception or
`success=False` was given; else `default_level`.  `g` tells what was given for a field. -/
def levelOf (env : HEnv) (g : Str → Option HVal) : HVal :=
  match g "level".toList with
  | some v => v
  | none =>
    if (g "exception".toList).isSome ∨ g "success".toList = some (.bool false)
    then .int env.defaultErrorLevel else .int env.defaultLevel

/-- The table of all fields of a manual record (before extractable fields are added). -/
def field (env : HEnv) (g : Str → Option HVal) (name : Str) : Option HVal :=
  if name = "auto".toList then some (.bool false)
  else if name = "service_name".toList then
    match env.serviceName with | some s => some (.str s) | none => g name
  else if name = "exception".toList then none
  else if name = "exception_type".toList then
    match g "exception".toList with
    | some (.exc _ t _) => some (.str t)
    | some (.str s) => some (.str s)
    | _ => g name
  else if name = "exception_message".toList then
    match g "exception".toList with
    | some (.exc _ _ m) => some (.str m)
    | _ => g name
  else if name = "traceback".toList then
    match g "exception".toList with
    | some (.exc _ _ _) => some (.str env.traceback)
    | _ => g name
  else if name = "local_variables".toList then
    match g "exception".toList with
    | some (.exc _ _ _) => if env.localsText = [] then g name else some (.str env.localsText)
    | _ => g name
  else if name = "success".toList then
    if (g "exception".toList).isSome then some (.bool false) else g name
  else if name = "level".toList then some (levelOf env g)
  else if name = "function".toList then
    match g name with
    | some (.fn _ n _ text) => some (.str (n.getD text))
    | some (.cls _ n _) => some (.str n)
    | v => v
  else if name = "module".toList then
    match g "function".toList with
    | some (.fn _ _ (some m) _) => some (.str m)
    | some (.cls _ _ m) => some (.str m)
    | _ => g name
  else if name = "time".toList then
    match g name with | some v => some v | none => some env.now
  else g name

end HandleSpec
end Polog
