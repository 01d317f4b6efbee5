import Verif.Py
import Verif.Dict
import Verif.Format.Model

/-!
The texts of objects that a program may print: a log (`print(log)` in a handler, README.md:502), the settings, and the object
returned by `log(...)`.
-/

namespace Polog

/-- A value as far as it can be shown: a string, or another object with its `str()` (`none`: `str()` raises).
What log_item.py:66-69 and finalizer.py:114 look at. -/
inductive TextVal where
  | str (s : Str)
  | other (text : Option Str)
deriving DecidableEq

/-- How a value is shown: a string in double quotes. log_item.py:67-69, finalizer.py:114. -/
def TextVal.quoted : TextVal → Option Str
  | .str s => some ('"' :: s ++ ['"'])
  | .other t => t

/-- `f'{value}'`, settings_store.py:299. -/
def TextVal.plainText : TextVal → Option Str
  | .str s => some s
  | .other t => t

/-- The loop over the fields; `none`: the exception of one of the values. log_item.py:66-70, settings_store.py:299,
finalizer.py:114-115. -/
def textItems (shown : TextVal → Option Str) (sep : Str) : Dict Str TextVal → Option (List Str)
  | [] => some []
  | (name, value) :: rest =>
    match shown value with
    | none => none
    | some v => (textItems shown sep rest).map fun items => (name ++ sep ++ v) :: items

/-- `LogItem.__str__` and `LogItem.__repr__`, log_item.py:59-78; `id` is the text of `id(self)`, `none` in place of the fields: the log was
given none. -/
def logText (id : Str) (fields : Option (Dict Str TextVal)) : Option Str :=
  match fields with
  | none => some ("<log item #".toList ++ id ++ " (empty)>".toList)
  | some [] => some ("<log item #".toList ++ id ++ " (empty)>".toList)
  | some d =>
    (textItems TextVal.quoted " = ".toList d).map fun items =>
      "<log item #".toList ++ id ++ " with content: ".toList ++ joinStr ", ".toList items ++ ">".toList

/-- `SettingsStore.__str__`, settings_store.py:291-301. The loop of lines 297-298 compares and changes nothing. -/
def settingsText (points : Dict Str TextVal) : Option Str :=
  (textItems TextVal.plainText " = ".toList points).map fun items =>
    "<SettingStore object with data: ".toList ++ joinStr ", ".toList items ++ ">".toList

/-- `LoggerRouteFinalizer.__repr__`, finalizer.py:110-116. -/
def finRepr (data : Dict Str TextVal) : Option Str :=
  (textItems TextVal.quoted "=".toList data).map fun items =>
    "LoggerRouteFinalizer(".toList ++ joinStr ", ".toList items ++ ")".toList

/-- `LoggerRouteFinalizer.__str__`, finalizer.py:118-122. -/
def finText (data : Dict Str TextVal) : Option Str :=
  (finRepr data).map fun r => "<A ".toList ++ r ++ " object, don't use it!>".toList

end Polog
