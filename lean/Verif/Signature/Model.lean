import Verif.Py

/-!
Model of `polog/core/utils/signature_matcher.py` (`SignatureMatcher`), which decides what is accepted
as a handler, a filter, a field extractor or a formatter.
-/

namespace Polog

/-- `inspect.Parameter.kind`. Used at signature_matcher.py:32-80. -/
inductive PKind where
  | positionalOnly
  | positionalOrKeyword
  | varPositional
  | keywordOnly
  | varKeyword
deriving DecidableEq, Repr

/-- `inspect.Parameter`.  Simplification: `parameter.default == parameter.empty` means that there is no
default (no default value with a strange `__eq__`). Used at signature_matcher.py:32-80. -/
structure Param where
  kind : PKind
  hasDefault : Bool
  name : Str
deriving DecidableEq

/-- What is passed to the matcher. signature_matcher.py:32-46. -/
inductive SigObj where
  | notCallable
  /-- a callable for which `Signature.from_callable` raises `ValueError` (some built-ins) -/
  | noSignature
  | sig (params : List Param)

/-- The fields of a `SignatureMatcher`, `signature_matcher.py:26-30`. -/
structure Matcher where
  isArgs : Bool
  isKwargs : Bool
  positional : Nat
  named : Nat
  names : List Str

/-- `SignatureMatcher.__init__`, `signature_matcher.py:9-30`; `isId` is `str.isidentifier`. -/
def Matcher.init (isId : Str → Bool) (args : List Str) : Matcher where
  isArgs := args.contains "*".toList
  isKwargs := args.contains "**".toList
  positional := (args.filter fun x => x = ".".toList).length
  named := (args.filter isId).length
  names := (args.filter isId).eraseDups

/-- Counted at signature_matcher.py:60-64. -/
def Param.isPositional (p : Param) : Bool :=
  p.kind = .positionalOnly || p.kind = .positionalOrKeyword

/-- Counted at signature_matcher.py:66-80. -/
def Param.isNamed (p : Param) : Bool :=
  p.kind = .keywordOnly || p.kind = .positionalOrKeyword

/-- `prove_is_args`, `signature_matcher.py:48-52`. -/
def Matcher.proveIsArgs (m : Matcher) (ps : List Param) : Bool :=
  m.isArgs == ((ps.filter fun p => p.kind = .varPositional).length != 0)

/-- `prove_is_kwargs`, `signature_matcher.py:54-58`. -/
def Matcher.proveIsKwargs (m : Matcher) (ps : List Param) : Bool :=
  m.isKwargs == ((ps.filter fun p => p.kind = .varKeyword).length != 0)

/-- `prove_number_of_position_args`, `signature_matcher.py:60-64`. -/
def Matcher.proveNumberPositional (m : Matcher) (ps : List Param) : Bool :=
  m.positional == (ps.filter fun p => p.isPositional && !p.hasDefault).length

/-- `prove_number_of_named_args`, `signature_matcher.py:66-70`. -/
def Matcher.proveNumberNamed (m : Matcher) (ps : List Param) : Bool :=
  m.named == (ps.filter fun p => p.isNamed && p.hasDefault).length

/-- `prove_names_of_named_args`, `signature_matcher.py:72-80`. -/
def Matcher.proveNames (m : Matcher) (ps : List Param) : Bool :=
  let namesOfParameters := (ps.filter fun p => p.isNamed && p.hasDefault).map Param.name
  m.names.all fun name => namesOfParameters.contains name

/-- `SignatureMatcher.match`, `signature_matcher.py:32-46`. -/
def Matcher.matches (m : Matcher) : SigObj → Except PyErr Bool
  | .notCallable => .error .valueError
  | .noSignature => .error .valueError
  | .sig ps => .ok (m.proveIsArgs ps && m.proveIsKwargs ps && m.proveNumberPositional ps &&
      m.proveNumberNamed ps && m.proveNames ps)

/-- `SignatureMatcher.is_handler`, `signature_matcher.py:82-97`. -/
def sigIsHandler (isId : Str → Bool) (raiseException : Bool) (f : SigObj) : Except PyErr Bool :=
  match (Matcher.init isId [".".toList]).matches f with
  | .ok b => .ok b
  | .error e => if raiseException then .error e else .ok false

end Polog
