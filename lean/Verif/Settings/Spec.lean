import Verif.Settings.Model

/-! What the user relies on about settings, independent of how the store checks it. -/

namespace Polog
namespace SettingsSpec

/-- A number (int, bool or float) that is `≥ 0`. -/
def nonNegativeNumber : SVal → Prop
  | .int n => 0 ≤ n
  | .bool _ => True
  | .float (.finite m _) => 0 ≤ m
  | .float (.inf neg) => neg = false
  | _ => False

/-- A number that is `> 0`. -/
def positiveNumber : SVal → Prop
  | .int n => 0 < n
  | .bool b => b = true
  | .float (.finite m _) => 0 < m
  | .float (.inf neg) => neg = false
  | _ => False

/-- An integer (Python counts bools as integers) `≥ 0`. -/
def nonNegativeInteger : SVal → Prop
  | .int n => 0 ≤ n
  | .bool _ => True
  | _ => False

/-- The documented constraint on the value of each setting. -/
def valid (isId : Str → Bool) : Setting → SVal → Prop
  | .poolSize, v | .maxQueueSize, v => nonNegativeInteger v
  | .level, v | .defaultLevel, v | .defaultErrorLevel, v => ∃ n : Int, v = .int n ∧ 0 ≤ n
  | .serviceName, v => v = .none ∨ ∃ s, v = .str s ∧ isId s = true
  | .maxDelayBeforeExit, v => nonNegativeNumber v
  | .delayOnExit, v => (∃ n : Int, v = .int n ∧ 0 < n) ∨ v = .bool true
  | .timeQuant, v => positiveNumber v
  | .engine, v => (∃ i, v = .callable i) ∨ ∃ b, v = .politic b
  | .jsonModule, v => ∃ i, v = .module i .isCallable .isCallable
  | .smartAssertPolitic, v => ∃ b, v = .politic b
  | .started, v | .silentInternalExceptions, v | .debugMode, v | .fieldsIntersection, v
  | .unknownFields, v | .deduplicateErrors, v | .logIsBuiltIn, v | .fullUnlog, v
  | .suppressByDefault, v | .suppressExceptionSubclasses, v | .integrationWithLogging, v
  | .loggingOff, v | .tracebackCutting, v => ∃ b, v = .bool b

/-- The values before anything is set. README.md:902-940, and for the settings about which it says nothing, the text
of settings_store.py:23-239 (`debug`: `__debug__`; `time_quant` is the float nearest to 0.01). -/
def documentedDefault (debug : Bool) : Setting → SVal
  | .poolSize | .maxQueueSize | .level => .int 0
  | .defaultLevel => .int 1
  | .defaultErrorLevel => .int 2
  | .serviceName => .none
  | .maxDelayBeforeExit => .float (.finite 1 0)
  | .delayOnExit => .int 10
  | .timeQuant => .float (.finite 5764607523034235 (-59))
  | .engine => .callable 0
  | .jsonModule => .module 0 .isCallable .isCallable
  | .smartAssertPolitic => .politic false
  | .debugMode => .bool debug
  | .unknownFields | .deduplicateErrors | .fullUnlog | .suppressExceptionSubclasses | .integrationWithLogging
  | .loggingOff | .tracebackCutting => .bool true
  | .started | .silentInternalExceptions | .fieldsIntersection | .logIsBuiltIn | .suppressByDefault => .bool false

/-- No call of the history names the setting. -/
def NeverNamed (s : Setting) (history : List SettingsCall) : Prop :=
  ∀ kwargs, .set kwargs ∈ history → ∀ x ∈ kwargs, x.1 ≠ some s

/-- "The value is zero" (`0` or `False`). -/
def isZero (v : SVal) : Prop := v = .int 0 ∨ v = .bool false

/-- The documented impossible combinations do not occur. -/
def compatible (value : Setting → SVal) : Prop :=
  (isZero (value .poolSize) → isZero (value .maxQueueSize)) ∧
  (value .integrationWithLogging = .bool false → value .loggingOff = .bool false)

/-- The value a user asks for when giving `v` for a setting: a level name stands for its number
(`number`), a politic name for the politic, everything else for itself. -/
def requested (number : Str → Option Int) : Setting → SVal → Option SVal
  | .level, .str name | .defaultLevel, .str name | .defaultErrorLevel, .str name =>
    (number name).map .int
  | .smartAssertPolitic, .str name =>
    if name = "all".toList then some (.politic true)
    else if name = "if_debug".toList then some (.politic false)
    else none
  | .smartAssertPolitic, _ => none
  | _, v => some v

/-- When a change of one setting must be accepted: the requested value satisfies the constraint of
the setting and makes no impossible combination, and `started` goes only from `False` to `True`. -/
def acceptable (isId : Str → Bool) (value : Setting → SVal) (s : Setting) (v : SVal) : Prop :=
  valid isId s v ∧ compatible (setAt value s v) ∧
  (s = .started → v = .bool true ∧ value .started = .bool false)

/-- The integer that a value stands for: `True` is `1`, `False` is `0`. -/
def integer : SVal → Option Int
  | .int n => some n
  | .bool true => some 1
  | .bool false => some 0
  | _ => none

/-- Two values of a setting are the same. -/
def Same (a b : SVal) : Prop := a = b ∨ (integer a = integer b ∧ integer a ≠ none)

instance (a b : SVal) : Decidable (Same a b) := by unfold Same; infer_instance

/-- The reloads caused by changing one setting from `old` to `new`. -/
def reloads (s : Setting) (old new : SVal) : Nat :=
  if (s = .poolSize ∨ s = .maxQueueSize) ∧ ¬ Same old new then 1 else 0

/-- The exception a rejected change raises: `DoubleSettingError` for a second change of `started`; `KeyError` for a
level that is a name nobody registered, or a bool; `ValueError` for everything else. -/
inductive Complaint (value : Setting → SVal) (number : Str → Option Int) (s : Setting) (v : SVal) : PyErr → Prop
  | again : s = .started → value .started = .bool true → Complaint value number s v .doubleSetting
  | level : s ∈ [.level, .defaultLevel, .defaultErrorLevel] →
      ((∃ name, v = .str name ∧ number name = none) ∨ ∃ b, v = .bool b) → Complaint value number s v .keyError
  | value : ¬ (s = .started ∧ value .started = .bool true) →
      ¬ (s ∈ [.level, .defaultLevel, .defaultErrorLevel] ∧
        ((∃ name, v = .str name ∧ number name = none) ∨ ∃ b, v = .bool b)) → Complaint value number s v .valueError

end SettingsSpec
end Polog

namespace Polog
open SettingsSpec

/-- The store after any history of `config.set` and `config.levels` calls since import. -/
def Store.after (isId : Str → Bool) (debug : Bool) (history : List SettingsCall) : Store :=
  (Store.init isId debug).calls isId debug history

/-- The number of engine reloads executed so far. -/
def Store.reloadCount (st : Store) : Nat := (st.journal.filter fun x => x.1 == .reloadEngine).length

/-- A level name as the settings see it. -/
def Levels.number (l : Levels) (name : Str) : Option Int := Dict.get? name l.byName

end Polog
