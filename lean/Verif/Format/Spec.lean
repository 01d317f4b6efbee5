import Verif.Format.Model
import Mathlib.Data.List.Forall2

/-! What the user relies on about the lines of a log file and about the JSON of the arguments. -/

namespace Polog
namespace FormatSpec

/-! ### C42: what stands in a line -/

/-- The standard fields in the documented order. -/
def standardOrder : List Str :=
  ["time", "level", "success", "auto", "message", "function", "time_of_work", "input_variables", "local_variables",
   "result", "exception", "traceback"].map String.toList

/-- The fields that are shown as parts of others. -/
def neverAlone : List Str :=
  ["class", "exception_message", "exception_type", "module", "service_name"].map String.toList

/-- The extractor of a standard field gives this. -/
def Extracts (env : FmtEnv) (log : FLog) (name : Str) (r : Except PyErr (Option Str)) : Prop :=
  ∃ h, (name, h) ∈ fieldHandlers ∧ h env log = r

/-- What a standard field is shown as (`none`: not shown): what its extractor says; if that raises, the text of its
value; if there is none, it is not shown. -/
inductive Cell (env : FmtEnv) (log : FLog) (name : Str) : Option Str → Prop
  | own (t : Option Str) : Extracts env log name (.ok t) → Cell env log name t
  | value (e : PyErr) (v : FVal) (t : Str) : Extracts env log name (.error e) → Dict.get? name log = some v →
      v.text = some t → Cell env log name (some t)
  | dropped (e : PyErr) : Extracts env log name (.error e) → (∀ v, Dict.get? name log = some v → v.text = none) →
      Cell env log name none

/-- `t` is `s` with spaces around it, in a column of that width, in the middle. -/
def Padded (width : Nat) (s t : Str) : Prop :=
  ∃ l r, t = List.replicate l ' ' ++ s ++ List.replicate r ' ' ∧ t.length = max width s.length ∧ l ≤ r ∧ r ≤ l + 1

/-- The width of the longest name of a level, at least that of `UNKNOWN`. -/
def LevelWidth (levels : Levels) (width : Nat) : Prop :=
  7 ≤ width ∧ (∀ name ∈ levels.allNames, name.length ≤ width) ∧
    (width = 7 ∨ ∃ name ∈ levels.allNames, name.length = width)

/-- How a shown field is written: some of them are columns. -/
def Written (first : Levels) (name s t : Str) : Prop :=
  if name = "level".toList then ∃ w, LevelWidth first w ∧ Padded w s t
  else if name = "success".toList then Padded 7 s t
  else if name = "auto".toList then Padded 6 s t
  else t = s

/-- The standard fields of these names, as written. -/
inductive Cells (env : FmtEnv) (first : Levels) (log : FLog) : List Str → List Str → Prop
  | nil : Cells env first log [] []
  | shown (name s t : Str) (names ts : List Str) : Cell env log name (some s) → Written first name s t →
      Cells env first log names ts → Cells env first log (name :: names) (t :: ts)
  | absent (name : Str) (names ts : List Str) : Cell env log name none →
      Cells env first log names ts → Cells env first log (name :: names) ts

/-- A field of a record that is written on its own although it has no standard text. -/
def Extra (env : FmtEnv) (log : FLog) (name : Str) (v : FVal) : Prop :=
  v ≠ .none ∧ name ∉ neverAlone ∧ ∀ s, ¬ Cell env log name (some s)

/-- `name: value`, strings in quotes. -/
def Named (name : Str) (v : FVal) (t : Str) : Prop :=
  match v with
  | .str s => t = name ++ ": \"".toList ++ s ++ ['"']
  | v => ∃ s, v.text = some s ∧ t = name ++ ": ".toList ++ s

/-- The other fields, in the order of the record. -/
inductive Extras (env : FmtEnv) (log : FLog) : FLog → List Str → Prop
  | nil : Extras env log [] []
  | shown (name : Str) (v : FVal) (t : Str) (rest : FLog) (ts : List Str) : Extra env log name v → Named name v t →
      Extras env log rest ts → Extras env log ((name, v) :: rest) (t :: ts)
  | absent (name : Str) (v : FVal) (rest : FLog) (ts : List Str) : ¬ Extra env log name v →
      Extras env log rest ts → Extras env log ((name, v) :: rest) ts

/-- The line of a record. -/
def LineOf (env : FmtEnv) (first : Levels) (separator : Str) (log : FLog) (line : Str) : Prop :=
  ∃ base extra, Cells env first log standardOrder base ∧ Extras env log log extra ∧
    line = List.intercalate " | ".toList (base ++ extra) ++ separator

/-! ### C44: decimal numbers -/

/-- The text is a decimal number: `units` hundred-millionths, with that sign. -/
def Denotes (s : Str) (neg : Bool) (units : Nat) : Prop :=
  ∃ whole frac : Str, whole ≠ [] ∧ (∀ c ∈ whole, c.isDigit) ∧ (∀ c ∈ frac, c.isDigit) ∧ frac.length ≤ 8 ∧
    s = (if neg then ['-'] else []) ++ whole ++ (if frac = [] then [] else '.' :: frac) ∧
    units = Nat.ofDigitChars 10 whole 0 * 10 ^ 8 + Nat.ofDigitChars 10 frac 0 * 10 ^ (8 - frac.length)

/-- `n` is a nearest integer to `num / den`; of two nearest ones, it is the even one. -/
def Nearest (num den n : Nat) : Prop :=
  2 * num ≤ (2 * n + 1) * den ∧ (2 * n) * den ≤ 2 * num + den ∧
  ((2 * num = (2 * n + 1) * den ∨ (2 * n) * den = 2 * num + den) → n % 2 = 0)

/-- The measured time: sign, and hundred-millionths of a second. -/
inductive Measured : FVal → Bool → Nat → Prop
  | bool (b : Bool) : Measured (.bool b) false (if b then 100000000 else 0)
  | int (n : Int) : Measured (.int n) (decide (n < 0)) (n.natAbs * 10 ^ 8)
  | float (neg : Bool) (num den n : Nat) (text : Str) : Nearest (num * 10 ^ 8) den n →
      Measured (.float neg num den text) neg n

/-! ### C45: JSON of the arguments -/

/-- The entry holds this value and this name of a type. -/
def Holds (j : J) (value : J) (type : Str) : Prop :=
  j = .obj [("value".toList, value), ("type".toList, .str type)]

/-- The entry of an argument: a number or string itself or else its text, and the name of its class. -/
def EntryOf : ArgVal → J → Prop
  | .prim _ value type, j => Holds j value type
  | .other (some text) type, j => Holds j (.str text) type
  | .other none _, _ => False

/-- The values of exactly the classes `bool`, `int`, `float` and `str`, and values of classes of other kinds. -/
def Exact : ArgVal → Prop
  | .prim base _ type => base = type
  | .other _ _ => True

/-- `str(x)` works (nothing else is turned into a text). -/
def Printable : ArgVal → Prop
  | .prim _ _ _ => True
  | .other text _ => text ≠ none

/-- An argument in the text of a line: strings in quotes. -/
def ArgText (env : FmtEnv) : ArgVal → Str → Prop
  | .prim base value _, t =>
    t = (if base = "str".toList then ['"'] ++ value.text env ++ ['"'] else value.text env) ++ " (".toList ++ base ++ ")".toList
  | .other (some text) type, t =>
    t = (if type = "str".toList then ['"'] ++ text ++ ['"'] else text) ++ " (".toList ++ type ++ ")".toList
  | .other none _, _ => False

def KwargText (env : FmtEnv) (x : Str × ArgVal) (t : Str) : Prop :=
  ∃ s, ArgText env x.2 s ∧ t = x.1 ++ " = ".toList ++ s

/-! ### C84: tracebacks -/

/-- The words of a text. -/
inductive Words (isSpace : Char → Bool) : Str → List Str → Prop
  | nil : Words isSpace [] []
  | space {c s ws} : isSpace c = true → Words isSpace s ws → Words isSpace (c :: s) ws
  | last {w} : w ≠ [] → (∀ c ∈ w, isSpace c = false) → Words isSpace w [w]
  | word {w c s ws} : w ≠ [] → (∀ c ∈ w, isSpace c = false) → isSpace c = true → Words isSpace s ws →
      Words isSpace (w ++ c :: s) (w :: ws)

/-- An entry of a traceback: the file, the number of the line, the name of the function, and the text of the line. -/
structure TbEntry where
  file : Str
  line : Nat
  fn : Str
  code : Str

/-- What `traceback.format_tb` of Python makes of an entry. -/
def TbEntry.text (e : TbEntry) : Str :=
  "  File \"".toList ++ e.file ++ "\", line ".toList ++ Nat.toDigits 10 e.line ++ ", in ".toList ++ e.fn ++ "\n".toList ++ e.code

/-- An entry in a line of the log: `code ("file", line 10, in function)`, the words of the code separated by single spaces. -/
def EntryShown (isSpace : Char → Bool) (e : TbEntry) (t : Str) : Prop :=
  ∃ ws, Words isSpace e.code ws ∧
    t = List.intercalate " ".toList ws ++ " (\"".toList ++ e.file ++ "\", line ".toList ++ Nat.toDigits 10 e.line ++
      ", in ".toList ++ e.fn ++ ")".toList

/-- What is white space in every Unicode version: the blank and the line break are; letters and digits of ASCII, quotes and commas
are not. -/
def SpaceLike (isSpace : Char → Bool) : Prop :=
  isSpace ' ' = true ∧ isSpace '\n' = true ∧ ∀ c : Char, c.isAlphanum = true ∨ c = '"' ∨ c = ',' → isSpace c = false

/-! ### C57: one record, one line -/

/-- No string in the JSON value contains the character, in keys neither. -/
inductive Free (env : FmtEnv) (c : Char) : J → Prop
  | null : Free env c .null
  | bool (b : Bool) : Free env c (.bool b)
  | int (n : Int) : Free env c (.int n)
  | float (t : Str) : c ∉ t → Free env c (.float t)
  | str (s : Str) : c ∉ s → Free env c (.str s)
  | arr (l : List J) : (∀ j ∈ l, Free env c j) → c ∉ env.nested (.arr l) → Free env c (.arr l)
  | obj (l : List (Str × J)) : (∀ x ∈ l, c ∉ x.1) → (∀ x ∈ l, Free env c x.2) → c ∉ env.nested (.obj l) →
      Free env c (.obj l)

/-- Nothing the record says has the character in it: not the names and values of its fields, not what is stored in
them as JSON, not the names of the levels and of the service. -/
structure RecordFree (env : FmtEnv) (c : Char) (log : FLog) : Prop where
  names : ∀ x ∈ log, c ∉ x.1
  values : ∀ x ∈ log, ∀ t, x.2.text = some t → c ∉ t
  types : ∀ x ∈ log, c ∉ x.2.typeText
  json : ∀ x ∈ log, ∀ s j, x.2 = .str s → env.loads s = .ok j → Free env c j
  levels : ∀ x ∈ env.levels.byNumber, c ∉ x.2
  service : ∀ s, env.service = some s → c ∉ s

end FormatSpec
end Polog

namespace Polog
open FormatSpec

/-- Remove spaces on both sides. -/
def FormatSpec.stripSpaces (s : Str) : Str :=
  ((s.dropWhile (· == ' ')).reverse.dropWhile (· == ' ')).reverse

/-- What Python shows for a value and for its type. -/
inductive ShownWithType : FVal → Str → Prop where
  | none : ShownWithType .none "None (<class 'NoneType'>)".toList
  | true : ShownWithType (.bool true) "True (<class 'bool'>)".toList
  | false : ShownWithType (.bool false) "False (<class 'bool'>)".toList
  | int (n : Int) : ShownWithType (.int n) (decimal n ++ " (<class 'int'>)".toList)
  | str (s : Str) : ShownWithType (.str s) (s ++ " (<class 'str'>)".toList)
  | float (neg : Bool) (num den : Nat) (t : Str) : ShownWithType (.float neg num den t) (t ++ " (<class 'float'>)".toList)
  | other (t : Str) (b : Bool) (type : Str) : ShownWithType (.other (some t) b type) (t ++ " (".toList ++ type ++ ")".toList)

end Polog
