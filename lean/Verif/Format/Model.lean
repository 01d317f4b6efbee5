import Verif.Levels.Model
import Verif.Rotation.Model

/-!
Model of the text formatter of the file handler: `polog/handlers/file/base_formatter.py` and
`polog/handlers/file/base_formatter_fields_extractors.py`; and of `polog/utils/json_vars.py`.
-/

namespace Polog

/-- A JSON document, as made by `json.loads`. Simplification: numbers that are not integers are their texts.
base_formatter_fields_extractors.py:101-205. -/
inductive J where
  | null
  | bool (b : Bool)
  | int (n : Int)
  | float (text : Str)
  | str (s : Str)
  | arr (l : List J)
  | obj (l : List (Str × J))

/-- A value of a field of a record, as far as the formatter distinguishes them. `float`: sign and fraction
`num / den`, and its text; finite numbers only. `other`: `str(x)` (`none`: it raises), `bool(x)`, `str(type(x))`.
base_formatter_fields_extractors.py:18-256. -/
inductive FVal where
  | none
  | bool (b : Bool)
  | int (n : Int)
  | str (s : Str)
  | float (neg : Bool) (num den : Nat) (text : Str)
  | other (text : Option Str) (truthy : Bool) (type : Str)
deriving DecidableEq

/-- `str(b)`; used at base_formatter_fields_extractors.py:52-73. -/
def boolText (b : Bool) : Str := if b then "True".toList else "False".toList

/-- `f'{v}'` and `str(v)`; `none`: it raises. Used at base_formatter.py:128-146. -/
def FVal.text : FVal → Option Str
  | .none => some "None".toList
  | .bool b => some (boolText b)
  | .int n => some (decimal n)
  | .str s => some s
  | .float _ _ _ t => some t
  | .other t _ _ => t

/-- `str(v)` with its exception, base_formatter.py:128-146. -/
def FVal.textE (v : FVal) : Except PyErr Str :=
  match v.text with
  | some t => .ok t
  | Option.none => .error .typeError

/-- `bool(v)`. Used at base_formatter_fields_extractors.py:41-49. -/
def FVal.truthy : FVal → Bool
  | .none => false
  | .bool b => b
  | .int n => n ≠ 0
  | .str s => s ≠ []
  | .float _ num _ _ => num ≠ 0
  | .other _ b _ => b

/-- `str(type(v))`. Used at base_formatter_fields_extractors.py:101-120. -/
def FVal.typeText : FVal → Str
  | .none => "<class 'NoneType'>".toList
  | .bool _ => "<class 'bool'>".toList
  | .int _ => "<class 'int'>".toList
  | .str _ => "<class 'str'>".toList
  | .float _ _ _ _ => "<class 'float'>".toList
  | .other _ _ t => t

/-- `v == True`. Used at base_formatter_fields_extractors.py:52-65. -/
def FVal.isTrue : FVal → Bool
  | .bool b => b
  | .int n => n == 1
  | .float neg num den _ => !neg && num == den
  | _ => false

/-- What the formatter reads: the registered levels, the setting `service_name`, `json_module.loads`, the texts of
nested JSON values and which characters are white space. base_formatter.py:32-38. -/
structure FmtEnv where
  levels : Levels
  service : Option Str
  loads : Str → Except PyErr J
  nested : J → Str
  isSpace : Char → Bool

/-- The fields of a log as base_formatter.py:50-63 reads them. -/
abbrev FLog := Dict Str FVal

/-- `log.get(name)`: a missing field reads as `None`. log_item.py:271-278. -/
def fget (log : FLog) (name : String) : FVal := (Dict.get? name.toList log).getD .none

/-- `sep.join(parts)`. Used at base_formatter.py:141-146. -/
def joinStr (sep : Str) : List Str → Str
  | [] => []
  | [p] => p
  | p :: q :: ps => p ++ sep ++ joinStr sep (q :: ps)

/-! ### the extractors -/

/-- A function of the table base_formatter.py:65-85. -/
abbrev FExtractor := FmtEnv → FLog → Except PyErr (Option Str)

/-- `time`, base_formatter_fields_extractors.py:17-25. -/
def exTime : FExtractor := fun _ log =>
  match fget log "time" with
  | .none => .ok (some "[----time not specified----]".toList)
  | v => v.textE.map fun t => some ('[' :: t ++ "]".toList)

/-- `level`, base_formatter_fields_extractors.py:27-38 (`Levels.get_level_name`: what is not a registered number gives its own text). Simplification: a
float equal to a registered number has the name of that number in Python; the loggers take no such levels. -/
def exLevel : FExtractor := fun env log =>
  match fget log "level" with
  | .none => .ok (some "UNKNOWN".toList)
  | .int n => .ok (env.levels.getLevelName (some n))
  | .bool b =>
    match Dict.get? (boolInt b) env.levels.byNumber with
    | some name => .ok (some name)
    | none => .ok (some (boolText b))
  | v => v.textE.map some

/-- `message`, base_formatter_fields_extractors.py:40-49. -/
def exMessage : FExtractor := fun _ log =>
  match fget log "message" with
  | .none => .ok none
  | v => v.textE.map fun t => some ('"' :: t ++ "\"".toList)

/-- `success`, base_formatter_fields_extractors.py:51-65. -/
def exSuccess : FExtractor := fun _ log =>
  match fget log "success" with
  | .none => .ok (some "UNKNOWN".toList)
  | v => .ok (some (if v.isTrue then "SUCCESS".toList else "ERROR".toList))

/-- `auto`, base_formatter_fields_extractors.py:67-73. -/
def exAuto : FExtractor := fun _ log =>
  .ok (some (if (fget log "auto").truthy then "AUTO".toList else "MANUAL".toList))

/-- The list comprehensions of lines 92, 95: what is not `None`; joining raises if something is not a string.
base_formatter_fields_extractors.py:92-95. -/
def placeParts : List FVal → Except PyErr (List Str)
  | [] => .ok []
  | .none :: rest => placeParts rest
  | .str s :: rest => (placeParts rest).map fun l => s :: l
  | _ :: _ => .error .typeError

/-- A string or `None`, base_formatter_fields_extractors.py:76-98. -/
def optStr : Option Str → FVal
  | none => .none
  | some s => .str s

/-- `function`, base_formatter_fields_extractors.py:75-98. -/
def exFunction : FExtractor := fun env log =>
  let function := fget log "function"
  if function ≠ .none then
    (placeParts [optStr env.service, fget log "module", fget log "class", function]).map fun parts =>
      some ("where: ".toList ++ joinStr ".".toList parts ++ "()".toList)
  else
    (placeParts [optStr env.service, fget log "module", fget log "class"]).map fun parts =>
      let result := joinStr ".".toList parts
      if result ≠ [] then some ("where: ".toList ++ result ++ ".?".toList) else some "where: ?".toList

/-- `f'{value}'` of a JSON value. Used at base_formatter_fields_extractors.py:123-141. -/
def J.text (env : FmtEnv) : J → Str
  | .null => "None".toList
  | .bool b => boolText b
  | .int n => decimal n
  | .float t => t
  | .str s => s
  | j => env.nested j

/-- `json_dict.get(key)`: only dictionaries have it. base_formatter_fields_extractors.py:123-174. -/
def J.get (j : J) (key : String) : Except PyErr J :=
  match j with
  | .obj l => .ok ((Dict.get? key.toList l).getD .null)
  | _ => .error .attributeError

/-- `type == 'str'`, base_formatter_fields_extractors.py:123-141. -/
def J.isStrType : J → Bool
  | .str s => s == "str".toList
  | _ => false

/-- `json_variable_to_human_readable_text`, base_formatter_fields_extractors.py:122-141. -/
def humanReadable (env : FmtEnv) (j : J) : Except PyErr Str :=
  match j.get "value" with
  | .error e => .error e
  | .ok value =>
    match j.get "type" with
    | .error e => .error e
    | .ok type =>
      let value := if type.isStrType then '"' :: value.text env ++ "\"".toList else value.text env
      .ok (value ++ " (".toList ++ type.text env ++ ")".toList)

/-- A list comprehension whose function may raise, base_formatter_fields_extractors.py:167-171. -/
def mapExcept {A B : Type} (f : A → Except PyErr B) : List A → Except PyErr (List B)
  | [] => .ok []
  | a :: rest =>
    match f a with
    | .error e => .error e
    | .ok b =>
      match mapExcept f rest with
      | .error e => .error e
      | .ok l => .ok (b :: l)

/-- What `for x in args` goes through (line 168). base_formatter_fields_extractors.py:168. -/
def J.items : J → Except PyErr (List J)
  | .arr l => .ok l
  | .str s => .ok (s.map fun c => .str [c])
  | .obj l => .ok (l.map fun x => .str x.1)
  | _ => .error .typeError

/-- `kwargs.items()` (line 171). base_formatter_fields_extractors.py:171. -/
def J.pairs : J → Except PyErr (List (Str × J))
  | .obj l => .ok l
  | _ => .error .attributeError

/-- `value is None`, base_formatter_fields_extractors.py:123-174. -/
def J.isNull : J → Bool
  | .null => true
  | _ => false

/-- One keyword argument, line 171. base_formatter_fields_extractors.py:171. -/
def humanPair (env : FmtEnv) (x : Str × J) : Except PyErr Str :=
  (humanReadable env x.2).map fun t => x.1 ++ " = ".toList ++ t

/-- `json_variables_to_text`, base_formatter_fields_extractors.py:167-169: what is appended for `args`. -/
def argsPart (env : FmtEnv) (args : J) : Except PyErr (List Str) :=
  if args.isNull then .ok []
  else
    match args.items with
    | .error e => .error e
    | .ok items => (mapExcept (humanReadable env) items).map fun texts => [joinStr ", ".toList texts]

/-- base_formatter_fields_extractors.py:170-172: what is appended for `kwargs`. -/
def kwargsPart (env : FmtEnv) (kwargs : J) : Except PyErr (List Str) :=
  if kwargs.isNull then .ok []
  else
    match kwargs.pairs with
    | .error e => .error e
    | .ok pairs => (mapExcept (humanPair env) pairs).map fun texts => [joinStr ", ".toList texts]

/-- `json_variables_to_text`, base_formatter_fields_extractors.py:161-174. -/
def variablesText (env : FmtEnv) (j : J) : Except PyErr (Option Str) :=
  match j.get "args" with
  | .error e => .error e
  | .ok args =>
    match j.get "kwargs" with
    | .error e => .error e
    | .ok kwargs =>
      if args.isNull && kwargs.isNull then .ok none
      else
        match argsPart env args with
        | .error e => .error e
        | .ok first =>
          match kwargsPart env kwargs with
          | .error e => .error e
          | .ok second => .ok (some (joinStr ", ".toList (first ++ second)))

/-- `json.loads(v)`. base_formatter_fields_extractors.py:101-205. -/
def loadsV (env : FmtEnv) : FVal → Except PyErr J
  | .str s => env.loads s
  | _ => .error .typeError

/-- `json_variables_to_text`, base_formatter_fields_extractors.py:143-174. -/
def jsonVariablesToText (env : FmtEnv) (v : FVal) : Except PyErr (Option Str) :=
  if v.truthy then
    match loadsV env v with
    | .error e => .error e
    | .ok j => variablesText env j
  else .ok none

/-- `input_variables`, base_formatter_fields_extractors.py:176-186. -/
def exInput : FExtractor := fun env log =>
  (jsonVariablesToText env (fget log "input_variables")).map fun t => t.map fun s => "input variables: ".toList ++ s

/-- `local_variables`, base_formatter_fields_extractors.py:188-205. -/
def exLocal : FExtractor := fun env log =>
  match fget log "local_variables" with
  | .none => .ok none
  | v =>
    match jsonVariablesToText env v with
    | .ok t => .ok (t.map fun s => "local variables: ".toList ++ s)
    | .error _ => v.textE.map fun s => some ("local variables: ".toList ++ s)

/-- `result`, base_formatter_fields_extractors.py:100-120. -/
def exResult : FExtractor := fun env log =>
  match Dict.get? "result".toList log with
  | none => .ok none
  | some v =>
    let raw := v.textE.map fun t => some ("result: ".toList ++ t ++ " (".toList ++ v.typeText ++ ")".toList)
    match v with
    | .str s =>
      match env.loads s with
      | .error .valueError => raw
      | .error e => .error e
      | .ok j => (humanReadable env j).map fun t => some ("result: ".toList ++ t)
    | _ => raw

/-- `exception`, base_formatter_fields_extractors.py:221-231. -/
def exException : FExtractor := fun _ log =>
  match fget log "exception_type" with
  | .none => .ok none
  | type =>
    match type.textE with
    | .error e => .error e
    | .ok t =>
      match fget log "exception_message" with
      | .none => .ok (some ("exception: ".toList ++ t ++ "()".toList))
      | m => m.textE.map fun m => some ("exception: ".toList ++ t ++ "(\"".toList ++ m ++ "\")".toList)

/-- `bool(traceback)` of a JSON value. base_formatter_fields_extractors.py:234-256. -/
def J.truthy : J → Bool
  | .null => false
  | .bool b => b
  | .int n => n ≠ 0
  | .float t => t ≠ "0.0".toList ∧ t ≠ "-0.0".toList
  | .str s => s ≠ []
  | .arr l => !l.isEmpty
  | .obj l => !l.isEmpty

/-- One line of a traceback, base_formatter_fields_extractors.py:248-253. -/
def tracebackLine (env : FmtEnv) (j : J) : Except PyErr Str :=
  match j with
  | .str s =>
    let words := splitWords env.isSpace s
    match words[1]?, words[3]?, words[5]? with
    | some path, some line, some place =>
      .ok (joinStr " ".toList (words.drop 6) ++ " (".toList ++ path ++ " line ".toList ++ line ++ " in ".toList ++
        place ++ ")".toList)
    | _, _, _ => .error .indexError
  | _ => .error .attributeError

/-- `traceback`, base_formatter_fields_extractors.py:233-256. -/
def exTraceback : FExtractor := fun env log =>
  match fget log "traceback" with
  | .none => .ok none
  | v =>
    if v.truthy then
      match loadsV env v with
      | .error e => .error e
      | .ok j =>
        if j.truthy then
          match j.items with
          | .error e => .error e
          | .ok lines =>
            (mapExcept (tracebackLine env) lines).map fun l => some ("traceback: ".toList ++ joinStr "; ".toList l)
        else .ok (some "no traceback".toList)
    else .ok (some "no traceback".toList)

/-! ### the duration -/

/-- Round `num / den` to the nearest integer, halves to the even one (`den > 0`).
Python's own rule of `format`; used at base_formatter_fields_extractors.py:208-219. -/
def roundHalfEven (num den : Nat) : Nat :=
  let q := num / den
  let r := num % den
  if 2 * r < den then q
  else if den < 2 * r then q + 1
  else if q % 2 = 0 then q else q + 1

/-- The digits of a number, at least `width` of them.
Python's own; used at base_formatter_fields_extractors.py:208-219. -/
def digitsPad (width : Nat) (n : Nat) : Str :=
  List.replicate (width - (Nat.toDigits 10 n).length) '0' ++ Nat.toDigits 10 n

/-- `f'{x:.8f}'` for `x` = `n` hundred-millionths. base_formatter_fields_extractors.py:208-219. -/
def fixed8 (neg : Bool) (n : Nat) : Str :=
  (if neg then ['-'] else []) ++ Nat.toDigits 10 (n / 10 ^ 8) ++ '.' :: digitsPad 8 (n % 10 ^ 8)

/-- `s.rstrip('0.')`. base_formatter_fields_extractors.py:208-219. -/
def rstripZeros (s : Str) : Str := (s.reverse.dropWhile fun c => c == '0' || c == '.').reverse

/-- `f'{var:.8f}'`; what is not a number raises. Simplification: Python first rounds an integer beyond 2^53 to a
float. base_formatter_fields_extractors.py:208-219. -/
def FVal.format8 : FVal → Except PyErr Str
  | .bool b => .ok (fixed8 false ((if b then 1 else 0) * 10 ^ 8))
  | .int n => .ok (fixed8 (n < 0) (n.natAbs * 10 ^ 8))
  | .float neg num den _ => .ok (fixed8 neg (roundHalfEven (num * 10 ^ 8) den))
  | _ => .error .valueError

/-- `time_of_work`, base_formatter_fields_extractors.py:207-219. -/
def exTimeOfWork : FExtractor := fun _ log =>
  match fget log "time_of_work" with
  | .none => .ok none
  | v => v.format8.map fun number => some ("time of work: ".toList ++ rstripZeros number ++ " sec.".toList)

/-! ### the formatter -/

/-- `get_base_field_handlers`, base_formatter.py:65-85. -/
def fieldHandlers : List (Str × FExtractor) :=
  [("time".toList, exTime), ("level".toList, exLevel), ("success".toList, exSuccess), ("auto".toList, exAuto),
   ("message".toList, exMessage), ("function".toList, exFunction), ("time_of_work".toList, exTimeOfWork),
   ("input_variables".toList, exInput), ("local_variables".toList, exLocal), ("result".toList, exResult),
   ("exception".toList, exException), ("traceback".toList, exTraceback)]

/-- `FORBIDDEN_EXTRA_FIELDS`, base_formatter.py:12-18. -/
def hiddenFields : List Str :=
  ["module", "service_name", "exception_type", "exception_message", "class"].map String.toList

/-- `f'{item:^{width}}'`. base_formatter.py:148-159. -/
def center (width : Nat) (s : Str) : Str :=
  let pad := width - s.length
  List.replicate (pad / 2) ' ' ++ s ++ List.replicate (pad - pad / 2) ' '

/-- `get_align_norms`, base_formatter.py:87-100. (All are centred.) -/
def alignNorms (levels : Levels) : List (Str × Nat) :=
  [("level".toList, max ((levels.allNames.map List.length).max?.getD 2) "UNKNOWN".length), ("success".toList, 7),
   ("auto".toList, 6)]

/-- `add_base_fields`, base_formatter.py:118-124: the text of a field, from its extractor or else from its value. -/
def baseText (env : FmtEnv) (log : FLog) (h : Str × FExtractor) : Option Str :=
  match h.2 env log with
  | .ok t => t
  | .error _ =>
    match Dict.get? h.1 log with
    | some v => v.text
    | none => none

/-- `add_base_fields`, base_formatter.py:112-126. -/
def addBaseFields (env : FmtEnv) (log : FLog) : List (Str × FExtractor) → Dict Str Str → Dict Str Str
  | [], base => base
  | h :: rest, base =>
    match baseText env log h with
    | some t => addBaseFields env log rest (Dict.set h.1 t base)
    | none => addBaseFields env log rest base

/-- The text of an extra field, base_formatter.py:135-139; `none`: making it raises. -/
def extraText (name : Str) (v : FVal) : Option Str :=
  match v with
  | .str s => some (name ++ ": \"".toList ++ s ++ "\"".toList)
  | v => v.text.map fun t => name ++ ": ".toList ++ t

/-- `add_extra_fields`, base_formatter.py:128-139. -/
def addExtraFields (hidden : List Str) : FLog → Dict Str Str → Except PyErr (Dict Str Str)
  | [], base => .ok base
  | (name, v) :: rest, base =>
    if Dict.has name base then addExtraFields hidden rest base
    else if name ∈ hidden then addExtraFields hidden rest base
    else if v = .none then addExtraFields hidden rest base
    else
      match extraText name v with
      | none => .error .typeError
      | some t => addExtraFields hidden rest (Dict.set name t base)

/-- `width_and_align`, base_formatter.py:148-159. -/
def widthAndAlign : List (Str × Nat) → Dict Str Str → Dict Str Str
  | [], data => data
  | (name, width) :: rest, data =>
    match Dict.get? name data with
    | some item => widthAndAlign rest (Dict.set name (center width item) data)
    | none => widthAndAlign rest data

/-- `_get_formatted_string`, base_formatter.py:50-63, with `get_dict` 102-110 and `format` 141-146, for a table of
extractors, names of hidden fields, widths and a separator. -/
def formatWith (env : FmtEnv) (handlers : List (Str × FExtractor)) (hidden : List Str) (norms : List (Str × Nat))
    (separator : Str) (log : FLog) : Except PyErr Str :=
  match addExtraFields hidden log (addBaseFields env log handlers []) with
  | .error e => .error e
  | .ok data => .ok (joinStr " | ".toList ((widthAndAlign norms data).map Prod.snd) ++ separator)

/-- The formatter of the file handler; `first`: the levels at the time of the first record (`__init_on_run__`, base_formatter.py:32-38),
`env.levels`: now. -/
def formatLine (env : FmtEnv) (first : Levels) (separator : Str) (log : FLog) : Except PyErr Str :=
  formatWith env fieldHandlers hiddenFields (alignNorms first) separator log

/-! ### json_vars -/

/-- An argument of a call. `prim`: an instance of `bool`, `int`, `float` or `str` (`base` is the first of them it is an
instance of), its value as JSON and the name of its own class. `other`: `str(x)` (`none`: it raises) and the name of
its class. json_vars.py:8-35. -/
inductive ArgVal where
  | prim (base : Str) (value : J) (type : Str)
  | other (text : Option Str) (type : Str)

/-- `get_item`, json_vars.py:8-12. -/
def getItem : ArgVal → Except PyErr J
  | .prim base value _ => .ok (.obj [("value".toList, value), ("type".toList, .str base)])
  | .other (some text) type => .ok (.obj [("value".toList, .str text), ("type".toList, .str type)])
  | .other none _ => .error .typeError

/-- One keyword argument, json_vars.py:14-29. -/
def getItemPair (x : Str × ArgVal) : Except PyErr (Str × J) := (getItem x.2).map fun j => (x.1, j)

/-- `json_vars`, json_vars.py:14-29, before `json.dumps`. -/
def jsonVars (args : List ArgVal) (kwargs : Dict Str ArgVal) : Except PyErr (Option J) :=
  if args.length + kwargs.length = 0 then .ok none
  else
    match mapExcept getItem args with
    | .error e => .error e
    | .ok args =>
      match mapExcept getItemPair kwargs with
      | .error e => .error e
      | .ok kwargs =>
        .ok (some (.obj ((if args.length ≠ 0 then [("args".toList, .arr args)] else []) ++
          (if kwargs.length ≠ 0 then [("kwargs".toList, .obj kwargs)] else []))))

end Polog
