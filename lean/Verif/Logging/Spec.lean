import Verif.Logging.Model

/-! What the documentation promises about records of the standard `logging` module. -/

namespace Polog
namespace LoggingSpec

/-- A logging call without mistakes: the arguments fit the format (which
is only looked at when the message is a true value), the level is not negative,
`exc_info` was not given or there was an exception to describe. -/
structure Sound (r : LogRec) : Prop where
  message : r.msgTrue = true → ∃ s, r.getMessage = .ok s
  level : 0 ≤ r.levelno
  exc : r.excInfo = .none ∨ ∃ t m tb, r.excInfo = .triple t m tb

/-- The two switches after a history: a change is refused when it would leave `logging_off` on while
the integration is off. -/
def switches : List LoggingOp → Bool × Bool → Bool × Bool
  | [], s => s
  | .setIntegration b :: ops, (on, off) => switches ops (if !b && off then (on, off) else (b, off))
  | .setLoggingOff b :: ops, (on, off) => switches ops (if b && !on then (on, off) else (on, b))
  | _ :: ops, s => switches ops s

/-- The integration is on after the history. -/
def on (ops : List LoggingOp) : Bool := (switches ops (true, true)).1
/-- `logging_off` is on after the history. -/
def off (ops : List LoggingOp) : Bool := (switches ops (true, true)).2

/-- Every filter the program itself put on the root logger lets the record through. -/
def UsersAccept (verdict : Nat → LogRec → Bool) (r : LogRec) (s : LogState) : Prop :=
  ∀ id, RootFilter.user id ∈ s.filters → verdict id r = true

/-- The fields of a Polog record copied from a logging record. -/
structure CopyOf (r : LogRec) (d : Dict Str HVal) : Prop where
  message : ∀ s, r.msgTrue = true → r.getMessage = .ok s → Dict.get? "message".toList d = some (.str s)
  noMessage : r.msgTrue = false → Dict.get? "message".toList d = none
  level : Dict.get? "level".toList d = some (.int r.levelno)
  success : Dict.get? "success".toList d = some (.bool (decide (r.levelno < 30)))
  function : Dict.get? "function".toList d = if r.funcIsId then some (.str r.funcName) else none
  module : Dict.get? "module".toList d = some (.str r.module)
  exception : Dict.get? "exception_type".toList d =
    match r.excInfo with | .triple t _ _ => some (.str t) | _ => none
  exceptionMessage : Dict.get? "exception_message".toList d =
    match r.excInfo with | .triple _ m _ => some (.str m) | _ => none
  traceback : Dict.get? "traceback".toList d =
    match r.excInfo with | .triple _ _ tb => some (.str tb) | _ => none
  manual : Dict.get? "auto".toList d = some (.bool false)

/-- The built-in field names above (an extractable field cannot have such a name, see C50). -/
def builtIn : List Str :=
  ["message", "level", "success", "function", "module", "exception_type", "exception_message",
    "traceback", "auto"].map String.toList

end LoggingSpec
end Polog
