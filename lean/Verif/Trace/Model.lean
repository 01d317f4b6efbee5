import Verif.Py

/-!
Tracebacks: `polog/core/utils/cut_traceback.py`, `polog/core/utils/get_traceback.py` and the places where they are
used, `function_logger.py:64-103,165-181`, `loggers/handle/abstract.py:190-197`.

A traceback is a list of frames, the outermost first. The rules of Python (3.8, the version of `setup.py`): an exception that
reaches a frame, by `raise` in it or from a call made in it, gets an entry of this frame in front, before a handler of
the frame runs; a bare `raise` goes on with the traceback that `sys.exc_info()` shows and adds nothing; a function written in C has
no frame. The line numbers of the entries are left out.
-/

namespace Polog

/-- A frame: of a function of the program (every call has its own number), or of the `wrapper`/`async_wrapper` which the
decorator put around the call with that number (function_logger.py:64,87). -/
inductive TbFrame where
  | user (n : Nat)
  | wrapper (n : Nat)
  deriving DecidableEq

/-- What is used from outside. `format`: the text of one entry (`traceback.format_tb`). `dumps`: `json.dumps` of a list of texts
with the module of the setting `json_module`. `vars`: `json_vars(**frame.f_locals)`, `none` if it raises or is `None`.
`cutting`: the setting `traceback_cutting`, and `_testcapi` can be imported. `dedup`: `deduplicate_errors`.
get_traceback.py:10-22. -/
structure TbEnv where
  format : TbFrame → Str
  dumps : List Str → Option Str
  vars : TbFrame → Option Str
  cutting : Bool
  dedup : Bool

/-- `get_traceback(cut_string_at_begin)`, get_traceback.py:10-22; `tb` is `sys.exc_info()[2]` (`[]`: `None`, for which
`format_tb` gives an empty list). `none`: `json.dumps([])` in the `except` branch raised. -/
def getTraceback (env : TbEnv) (tb : List TbFrame) (cut : Nat) : Option Str :=
  match env.dumps ((tb.map env.format).drop cut) with
  | some s => some s
  | none => env.dumps []

/-- `get_locals_from_traceback()`, get_traceback.py:24-37. -/
def getLocals (env : TbEnv) (tb : List TbFrame) : Str :=
  match tb with
  | _ :: second :: _ => (env.vars second).getD []
  | [first] => (env.vars first).getD []
  | [] => []

/-- `cut_traceback`, cut_traceback.py:6-12: the traceback of `sys.exc_info()` afterwards. -/
def cutTraceback (env : TbEnv) (tb : List TbFrame) : List TbFrame :=
  if env.cutting then tb.tail else tb

/-- The fields about the exception in a record. `auto`: the number of the call whose decorator made it; `none`: made by hand.
function_logger.py:168-192, abstract.py:177-204. -/
structure TbRecord where
  auto : Option Nat
  exc : Nat
  traceback : Option Str
  locals : Option Str
  deriving DecidableEq

/-- The options of a decorator that matter: does the level of errors pass; is this exception suppressed
(`suppress_all` or `exception_is_suppressed`). function_logger.py:85-105, 168-192. -/
structure TbDeco where
  passes : Bool
  suppresses : Nat → Bool

/-- How a handler `except Exception as e:` ends: the exception is swallowed, `raise`, `raise e`, or `raise Other(...)`.
Code of the program; the exception passes through function_logger.py:85-105. -/
inductive HowEnds where
  | swallow
  | reraise
  | raiseSame
  | raiseOther (e : Nat)

/-- What one run of a piece of code does; exceptions and calls are numbered.
* `raise e`;
* a call of a function written in Python, with or without a decorator, whose body does `body`; then `rest`;
* a call of a function written in C, which raises or not;
* `try: body; except Exception as e: [log(..., exception=x);] …; rest`. Here `x` is the caught exception or (`some x`) another one
  kept from before. Code of the program; decorated calls are function_logger.py:85-105. -/
inductive TbCode where
  | done
  | raise (e : Nat)
  | call (deco : Option TbDeco) (n : Nat) (body rest : TbCode)
  | native (deco : Option TbDeco) (n : Nat) (raises : Option Nat) (rest : TbCode)
  | handler (body : TbCode) (logs : Bool) (other : Option Nat) (ends : HowEnds) (rest : TbCode)

/-- Exceptions with the attribute `checked_by_polog`, and the records. function_logger.py:168-192. -/
structure TbState where
  checked : List Nat
  records : List TbRecord

/-- How a piece of code ended: `none`, or the exception and the traceback it has so far.
function_logger.py:85-105. -/
abbrev TbEnd := Option (Nat × List TbFrame)

/-- `log_exception_info`, function_logger.py:168-192; `tb` is `sys.exc_info()[2]`. The level and everything else of the record is
in `Calls`. -/
def logTbException (env : TbEnv) (d : TbDeco) (n e : Nat) (tb : List TbFrame) (s : TbState) : TbState :=
  if e ∉ s.checked ∨ env.dedup = false then
    if d.passes then
      ⟨e :: s.checked, s.records ++ [⟨some n, e, getTraceback env tb 1, some (getLocals env tb)⟩]⟩
    else ⟨e :: s.checked, s.records⟩
  else s

/-- A call through the decorator, function_logger.py:64-103, when the function itself ended like `r`: what the caller of the wrapper
gets. -/
def throughDecorator (env : TbEnv) (d : TbDeco) (n : Nat) (r : TbEnd) (s : TbState) : TbEnd × TbState :=
  match r with
  | none => (none, s)
  | some (e, tb) =>
    let seen := TbFrame.wrapper n :: tb
    let s := logTbException env d n e seen s
    if d.suppresses e then (none, s) else (some (e, cutTraceback env seen), s)

/-- With or without a decorator. function_logger.py:85-105. -/
def throughAny (env : TbEnv) (deco : Option TbDeco) (n : Nat) (r : TbEnd) (s : TbState) : TbEnd × TbState :=
  match deco with
  | none => (r, s)
  | some d => throughDecorator env d n r s

/-- `log(..., exception=x)` in a handler, abstract.py:190-197. `tb` is `sys.exc_info()[2]`, the traceback of the exception that is
being handled. -/
def logByHand (env : TbEnv) (x : Nat) (tb : List TbFrame) (s : TbState) : TbState :=
  let vars := getLocals env tb
  ⟨s.checked, s.records ++ [⟨none, x, getTraceback env tb 0, if vars = [] then none else some vars⟩]⟩

/-- Running code in the frame `fr`; the traceback of the result begins with `fr`.
function_logger.py:85-105, cut_traceback.py:6-23. -/
def runTb (env : TbEnv) (fr : TbFrame) : TbCode → TbState → TbEnd × TbState
  | .done, s => (none, s)
  | .raise e, s => (some (e, [fr]), s)
  | .call deco n body rest, s =>
    let (r, s) := runTb env (.user n) body s
    match throughAny env deco n r s with
    | (none, s) => runTb env fr rest s
    | (some (e, tb), s) => (some (e, fr :: tb), s)
  | .native deco n raises rest, s =>
    match throughAny env deco n (raises.map fun e => (e, [])) s with
    | (none, s) => runTb env fr rest s
    | (some (e, tb), s) => (some (e, fr :: tb), s)
  | .handler body logs other ends rest, s =>
    match runTb env fr body s with
    | (none, s) => runTb env fr rest s
    | (some (e, tb), s) =>
      let s := if logs then logByHand env (other.getD e) tb s else s
      match ends with
      | .swallow => runTb env fr rest s
      | .reraise => (some (e, tb), s)
      | .raiseSame => (some (e, fr :: tb), s)
      | .raiseOther e2 => (some (e2, [fr]), s)

end Polog
