import Verif.Format.Model

/-!
Model of what a record of a decorated function tells about the arguments of the call: the wrapper, `log_normal_info`,
`log_exception_info` and `create_log_item` in `polog/loggers/auto/function_logger.py`, `json_vars`, and
`LogItem.function_input_data` in `polog/core/log_item.py`.

Arguments are objects (numbers here) that the program can change while it runs. The state `W` of the program is
arbitrary; `look w r` is what `str`, `isinstance` and `type` tell about the object `r` in the state `w`. Simplifications:
these do not change the state; every call is recorded (thresholds, `@unlog`, deduplication and suppressed exceptions are in
`Verif.Calls`); of the fields only `input_variables` and `result` are kept.
-/

namespace Polog

/-- How a call ends: with an object, with an exception of the program, with an exception made by Polog.
function_logger.py:85-105. -/
inductive AOut where
  | ret (v : Nat)
  | raised (e : Nat)
  | internal
deriving DecidableEq

/-- Code: `act`: any step of the program; `call logged args kwargs b k`: a call of a function with the body `b`, decorated
with `@log` if `logged`; `manual`: `log('...')`.
Code of the program; decorated calls are function_logger.py:85-105. -/
inductive ACode (W : Type) where
  | ret (v : Nat)
  | raise (e : Nat)
  | act (f : W → W) (k : W → ACode W)
  | call (logged : Bool) (args : List Nat) (kwargs : Dict Str Nat) (b : ACode W) (k : AOut → ACode W)
  | manual (k : ACode W)

/-- `FunctionInputData`, log_item.py:7-10. -/
structure FnInput where
  args : Option (List Nat)
  kwargs : Option (Dict Str Nat)
deriving DecidableEq

/-- A log: the JSON of `input_variables` and of `result`, `auto`, and the attribute `_function_input_data`
(`none`: not set). log_item.py:262-303, function_logger.py:227-239. -/
structure ARec where
  auto : Bool
  input : Option J
  result : Option J
  setData : Option FnInput

/-- `LogItem.function_input_data`, log_item.py:261-269. -/
def ARec.functionInputData (r : ARec) : FnInput :=
  match r.setData with
  | some d => d
  | none => ⟨none, none⟩

variable {W : Type}

/-- `log_normal_info` and `log_exception_info`, function_logger.py:168-214, with `create_log_item`, 227-239: both are
called when the function has ended, and make JSON of the arguments in the state of that time. -/
def argsRecord (look : W → Nat → ArgVal) (args : List Nat) (kwargs : Dict Str Nat) (o : AOut) (w : W) :
    Except PyErr ARec :=
  let shown := jsonVars (args.map (look w)) (kwargs.map fun x => (x.1, look w x.2))
  match o with
  | .ret v =>
    match getItem (look w v) with
    | .error e => .error e
    | .ok result =>
      match shown with
      | .error e => .error e
      | .ok input => .ok ⟨true, input, some result, some ⟨some args, some kwargs⟩⟩
  | _ =>
    match shown with
    | .error e => .error e
    | .ok input => .ok ⟨true, input, none, some ⟨some args, some kwargs⟩⟩

/-- The wrapper, function_logger.py:85-105, and manual logs (`simple_handle_log` calls no `set_function_input_data`,
handle_log.py): outcome, state afterwards, records. -/
def ACode.run (look : W → Nat → ArgVal) : ACode W → W → AOut × W × List ARec
  | .ret v, w => (.ret v, w, [])
  | .raise e, w => (.raised e, w, [])
  | .act f k, w => (k w).run look (f w)
  | .call logged args kwargs b k, w =>
    match b.run look w with
    | (o, w1, inner) =>
      if logged then
        match argsRecord look args kwargs o w1 with
        | .ok r =>
          match (k o).run look w1 with
          | (o', w2, later) => (o', w2, inner ++ r :: later)
        | .error _ =>
          match (k .internal).run look w1 with
          | (o', w2, later) => (o', w2, inner ++ later)
      else
        match (k o).run look w1 with
        | (o', w2, later) => (o', w2, inner ++ later)
  | .manual k, w =>
    match k.run look w with
    | (o', w2, later) => (o', w2, ⟨false, none, none, none⟩ :: later)

end Polog
