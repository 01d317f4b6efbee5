import Verif.Format.Spec

/-!
The whole line of a usual record, field by field, as the documentation describes it (C42): nothing here refers to the functions that
make the texts.
-/

namespace Polog.FormatSpec

/-- The value of a field; a field that the record does not have counts as `None`. -/
def valueOf (log : FLog) (name : String) : FVal := (Dict.get? name.toList log).getD .none

/-- An entry `{"value": …, "type": …}` of the JSON: `5 (int)`, `"text" (str)`. -/
def EntryText (env : FmtEnv) (j : J) (t : Str) : Prop :=
  ∃ value type, Holds j value type ∧
    t = (if type = "str".toList then ['"'] ++ value.text env ++ ['"'] else value.text env) ++ " (".toList ++ type ++ ")".toList

/-- The same with the name of the variable: `x = 5 (int)`. -/
def NamedEntryText (env : FmtEnv) (x : Str × J) (t : Str) : Prop := ∃ s, EntryText env x.2 s ∧ t = x.1 ++ " = ".toList ++ s

/-- The JSON of some variables, `{"args": […], "kwargs": {…}}` with at least one of the two, and its text: those without a name first. -/
def VariablesText (env : FmtEnv) (j : J) (t : Str) : Prop :=
  ∃ args kwargs texts ktexts, (args ≠ [] ∨ kwargs ≠ []) ∧
    j = .obj ((if args = [] then [] else [("args".toList, .arr args)]) ++
      (if kwargs = [] then [] else [("kwargs".toList, .obj kwargs)])) ∧
    List.Forall₂ (EntryText env) args texts ∧ List.Forall₂ (NamedEntryText env) kwargs ktexts ∧
    t = List.intercalate ", ".toList (texts ++ ktexts)

/-- Python's `str` or `None`. -/
def StrOrNone (v : FVal) : Prop := v = .none ∨ ∃ s, v = .str s

/-- Those of the texts that are there, joined with dots. -/
def dotted (l : List FVal) : Str :=
  List.intercalate ".".toList (l.filterMap fun v => match v with | .str s => some s | _ => none)

/-- The name of the service as a value. -/
def serviceOf (env : FmtEnv) : FVal := match env.service with | none => .none | some s => .str s

/-- What the line says about a standard field (`none`: nothing). -/
inductive Says (env : FmtEnv) (log : FLog) : Str → Option Str → Prop
  | time (v : FVal) (t : Str) : valueOf log "time" = v → v ≠ .none → v.text = some t →
      Says env log "time".toList (some ("[".toList ++ t ++ "]".toList))
  | noTime : valueOf log "time" = .none → Says env log "time".toList (some "[----time not specified----]".toList)
  | levelName (n : Int) (name : Str) : valueOf log "level" = .int n → Dict.get? n env.levels.byNumber = some name →
      Says env log "level".toList (some name)
  | levelNumber (n : Int) : valueOf log "level" = .int n → Dict.get? n env.levels.byNumber = none →
      Says env log "level".toList (some (decimal n))
  | noLevel : valueOf log "level" = .none → Says env log "level".toList (some "UNKNOWN".toList)
  | success : valueOf log "success" = .bool true → Says env log "success".toList (some "SUCCESS".toList)
  | error : valueOf log "success" = .bool false → Says env log "success".toList (some "ERROR".toList)
  | noSuccess : valueOf log "success" = .none → Says env log "success".toList (some "UNKNOWN".toList)
  | auto : valueOf log "auto" = .bool true → Says env log "auto".toList (some "AUTO".toList)
  | manual (v : FVal) : valueOf log "auto" = v → v = .bool false ∨ v = .none → Says env log "auto".toList (some "MANUAL".toList)
  | message (m : Str) : valueOf log "message" = .str m → Says env log "message".toList (some ("\"".toList ++ m ++ "\"".toList))
  | noMessage : valueOf log "message" = .none → Says env log "message".toList none
  | place (f : Str) : valueOf log "function" = .str f →
      Says env log "function".toList (some ("where: ".toList ++
        dotted [serviceOf env, valueOf log "module", valueOf log "class", .str f] ++ "()".toList))
  | placeOfNoFunction (p : Str) : valueOf log "function" = .none → dotted [serviceOf env, valueOf log "module", valueOf log "class"] = p →
      Says env log "function".toList (some ("where: ".toList ++ (if p = [] then "?".toList else p ++ ".?".toList)))
  | timeOfWork (v : FVal) (neg : Bool) (n : Nat) (number : Str) : valueOf log "time_of_work" = v → Measured v neg n →
      (n % (10 * 10 ^ 8) ≠ 0 → Denotes number neg n) →
      Says env log "time_of_work".toList (some ("time of work: ".toList ++ number ++ " sec.".toList))
  | noTimeOfWork : valueOf log "time_of_work" = .none → Says env log "time_of_work".toList none
  | input (dumped : Str) (j : J) (t : Str) : valueOf log "input_variables" = .str dumped → env.loads dumped = .ok j →
      VariablesText env j t → Says env log "input_variables".toList (some ("input variables: ".toList ++ t))
  | noInput : valueOf log "input_variables" = .none → Says env log "input_variables".toList none
  | locals (dumped : Str) (j : J) (t : Str) : valueOf log "local_variables" = .str dumped → env.loads dumped = .ok j →
      VariablesText env j t → Says env log "local_variables".toList (some ("local variables: ".toList ++ t))
  | localsAsGiven (s : Str) (e : PyErr) : valueOf log "local_variables" = .str s → env.loads s = .error e →
      Says env log "local_variables".toList (some ("local variables: ".toList ++ s))
  | noLocals : valueOf log "local_variables" = .none → Says env log "local_variables".toList none
  | result (dumped : Str) (j : J) (t : Str) : Dict.get? "result".toList log = some (.str dumped) → env.loads dumped = .ok j →
      EntryText env j t → Says env log "result".toList (some ("result: ".toList ++ t))
  | otherResult (v : FVal) (t : Str) : Dict.get? "result".toList log = some v →
      (∀ s, v = .str s → env.loads s = .error .valueError) → ShownWithType v t →
      Says env log "result".toList (some ("result: ".toList ++ t))
  | noResult : Dict.get? "result".toList log = none → Says env log "result".toList none
  | exception (type m : Str) : valueOf log "exception_type" = .str type → valueOf log "exception_message" = .str m →
      Says env log "exception".toList (some ("exception: ".toList ++ type ++ "(\"".toList ++ m ++ "\")".toList))
  | exceptionWithoutText (type : Str) : valueOf log "exception_type" = .str type → valueOf log "exception_message" = .none →
      Says env log "exception".toList (some ("exception: ".toList ++ type ++ "()".toList))
  | noException : valueOf log "exception_type" = .none → Says env log "exception".toList none
  | traceback (dumped : Str) (entries : List TbEntry) (texts : List Str) : valueOf log "traceback" = .str dumped →
      env.loads dumped = .ok (.arr (entries.map fun e => .str e.text)) → entries ≠ [] →
      List.Forall₂ (EntryShown env.isSpace) entries texts →
      Says env log "traceback".toList (some ("traceback: ".toList ++ List.intercalate "; ".toList texts))
  | emptyTraceback (dumped : Str) : valueOf log "traceback" = .str dumped → env.loads dumped = .ok (.arr []) →
      Says env log "traceback".toList (some "no traceback".toList)
  | noTraceback : valueOf log "traceback" = .none → Says env log "traceback".toList none

/-- Entries of a traceback whose files and functions have names without white space. -/
def PlainEntries (env : FmtEnv) (entries : List TbEntry) : Prop :=
  ∀ e ∈ entries, (∀ c ∈ e.file, env.isSpace c = false) ∧ (∀ c ∈ e.fn, env.isSpace c = false) ∧ e.fn ≠ []

/-- A record whose standard fields have values of the kinds that the loggers put there, and no other field is unprintable. -/
structure Usual (env : FmtEnv) (log : FLog) : Prop where
  spaces : SpaceLike env.isSpace
  once : (log.map Prod.fst).Nodup
  printable : ∀ x ∈ log, x.2.text ≠ none
  level : valueOf log "level" = .none ∨ ∃ n, valueOf log "level" = .int n
  success : valueOf log "success" = .none ∨ ∃ b, valueOf log "success" = .bool b
  auto : valueOf log "auto" = .none ∨ ∃ b, valueOf log "auto" = .bool b
  message : StrOrNone (valueOf log "message")
  function : StrOrNone (valueOf log "function")
  module : StrOrNone (valueOf log "module")
  cls : StrOrNone (valueOf log "class")
  timeOfWork : valueOf log "time_of_work" = .none ∨ (∃ n, valueOf log "time_of_work" = .int n) ∨
    ∃ neg num den text, valueOf log "time_of_work" = .float neg num den text ∧ 0 < den
  input : valueOf log "input_variables" = .none ∨
    ∃ dumped j t, valueOf log "input_variables" = .str dumped ∧ dumped ≠ [] ∧ env.loads dumped = .ok j ∧ VariablesText env j t
  locals : valueOf log "local_variables" = .none ∨
    (∃ dumped j t, valueOf log "local_variables" = .str dumped ∧ dumped ≠ [] ∧ env.loads dumped = .ok j ∧ VariablesText env j t) ∨
    ∃ s e, valueOf log "local_variables" = .str s ∧ s ≠ [] ∧ env.loads s = .error e
  result : Dict.get? "result".toList log = none ∨
    (∃ dumped j t, Dict.get? "result".toList log = some (.str dumped) ∧ env.loads dumped = .ok j ∧ EntryText env j t) ∨
    ∃ v t, Dict.get? "result".toList log = some v ∧ (∀ s, v = .str s → env.loads s = .error .valueError) ∧ ShownWithType v t
  /-- there are fields for the class and the text of an exception, but not for the exception itself -/
  exception : Dict.get? "exception".toList log = none
  exceptionType : StrOrNone (valueOf log "exception_type")
  exceptionMessage : StrOrNone (valueOf log "exception_message")
  traceback : valueOf log "traceback" = .none ∨
    ∃ dumped entries, valueOf log "traceback" = .str dumped ∧ dumped ≠ [] ∧ PlainEntries env entries ∧
      env.loads dumped = .ok (.arr (entries.map fun e => .str e.text))

/-- The fields that the line shows under their own names. -/
def otherFields (log : FLog) : FLog :=
  log.filter fun x => !(standardOrder.contains x.1) && !(neverAlone.contains x.1) && x.2 ≠ .none

/-- The standard fields that have a text. -/
def spoken (texts : List (Option Str)) : List (Str × Str) :=
  (standardOrder.zip texts).filterMap fun x => x.2.map fun t => (x.1, t)

end Polog.FormatSpec
