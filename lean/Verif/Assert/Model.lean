import Verif.Handle.Model

/-! Model of `ass(...)`: `polog/loggers/handle/smart_assert.py`, with the two politics of
`polog/core/stores/settings/settings_store.py:150-153`. -/

namespace Polog

/-- A Python object as `ass` uses it: its truth value (`none`: `bool(x)` raises), its characters if
it is a string, the result of `str(x)` (`none`: raises). smart_assert.py:18-65. -/
structure AObj where
  truth : Option Bool
  asStr : Option Str
  text : Option Str
deriving DecidableEq

/-- smart_assert.py:55-56, 59-60: `if not isinstance(x, str): x = str(x)`; `none` if `str` raises. -/
def AObj.strOf (o : AObj) : Option Str :=
  match o.asStr with
  | some s => some s
  | none => o.text

/-- Line 45. smart_assert.py:45. -/
def assDefaultMessage : Str := "It is impossible to extract data for the log.".toList

/-- `SmartAssert.get_message`, `smart_assert.py:34-65`. -/
def assMessage (env : HEnv) (expr : AObj) (msgs : List AObj) : Except PyErr Str :=
  match (if msgs.length > 1 then maybeRaise env .typeError () else .ok ()) with
  | .error e => .error e
  | .ok () =>
    match msgs with
    | [] => .ok (expr.strOf.getD assDefaultMessage)
    | m :: _ =>
      match m.asStr with
      | some s => .ok s
      | none =>
        match m.text with
        | some s => .ok s
        | none => .ok (expr.strOf.getD assDefaultMessage)

/-- `log(message, exception=AssertionError(message))`, `smart_assert.py:26, 31`. -/
def assLog (env : HEnv) (message : Str) : HOut :=
  logStatement env [.str message] [("exception".toList, .exc 0 "AssertionError".toList message)]

/-- `settings['smart_assert_politic'](debug_mode, expression_result)`; `none`: raises. smart_assert.py:18-32. -/
def assPolitic (all debug : Bool) (expr : AObj) : Option Bool :=
  if all then expr.truth.map (!·)
  else if debug then some false else expr.truth.map (!·)

/-- smart_assert.py:29-32: the `except Exception` clause. -/
def assExcept (env : HEnv) (debug : Bool) (message : Str) (done : List (Dict Str HVal)) : HOut :=
  if debug then
    let l := assLog env message
    match l.raised with
    | some e => ⟨done ++ l.records, some e⟩
    | none => ⟨done ++ l.records, some .assertionError⟩
  else ⟨done, none⟩

/-- `SmartAssert.__call__`, `smart_assert.py:18-32`. -/
def assCall (env : HEnv) (all debug : Bool) (expr : AObj) (msgs : List AObj) : HOut :=
  match assMessage env expr msgs with
  | .error e => ⟨[], some e⟩
  | .ok message =>
    match assPolitic all debug expr with
    | none => assExcept env debug message []
    | some toLog =>
      let l := if toLog then assLog env message else ⟨[], none⟩
      match l.raised with
      | some _ => assExcept env debug message l.records
      | none =>
        if debug then
          match expr.truth with
          | none => assExcept env debug message l.records
          | some true => ⟨l.records, none⟩
          | some false => assExcept env debug message l.records
        else ⟨l.records, none⟩

end Polog
