import Verif.Calls.Spec

/-!
Model of several threads (or asyncio tasks) that run code with decorated functions at the same time.

Every thread has its own context variables (message.py:6, unlog.py:12); the attribute `checked_by_polog`
belongs to the exception object (function_logger.py:174-175) and the engine is one for all, so these two are shared.
A step of a thread is one action of `Body.run` (`Calls/Model.lean`): entering a function or a block, leaving it,
`message(...)`, a manual log. The check of the attribute and its setting are two steps. The order in which the
threads make steps is arbitrary.
-/

namespace Polog

/-- What a thread does when the code it runs ends.
function_logger.py:85-105, unlog.py:95-100, finalizer.py:84-108. -/
inductive CtlFrame where
  | plain (k : Outcome → Body)
  | logged (d : Deco) (info : FnInfo) (k : Outcome → Body)
  | unlogged (k : Outcome → Body)
  | block (o : BlockOpts) (k : Outcome → Body)

/-- What a thread is doing: running code; between lines 174 and 175 of function_logger.py; nothing any more. -/
inductive Ctl where
  | code (b : Body)
  | marking (d : Deco) (info : FnInfo) (k : Outcome → Body) (e : Exc)
  | halted (o : Outcome)

/-- A thread: its stack, its two context variables, the number of exceptions made by Polog in it.
message.py:6, unlog.py:93-110. -/
structure ThSt where
  ctl : Ctl
  stack : List CtlFrame
  msg : Option (Dict Str HVal)
  unlog : Option (Option Bool)
  next : Nat

/-- A step of a thread: its new state, exceptions it marked, logs it handed to the engine.
function_logger.py:168-239. -/
structure ThOut where
  th : ThSt
  marks : List ExcId
  recs : List Rec

/-- The thread seen as the state of `Body.run`, without marks and records.
For the comparison with `Body.run`; message.py:6. -/
def ThSt.view (th : ThSt) : CallState := ⟨th.msg, th.unlog, [], th.next, []⟩

/-- What the caller of a decorated function sees: function_logger.py:98-102. -/
def afterException (env : CEnv) (d : Deco) (e : Exc) : Outcome :=
  if d.suppressAll then .ret .none
  else if excSuppressed env d.suppressed e then .ret .none
  else .raised e

/-- The thread goes on after some of Polog's code. function_logger.py:85-105. -/
def ThSt.goOn (_ : ThSt) (b : Body) (stack : List CtlFrame) (s : CallState) (marks : List ExcId) : ThOut :=
  ⟨⟨.code b, stack, s.msg, s.unlog, s.next⟩, marks, s.records⟩

/-- The current code of the thread ended with this outcome.
function_logger.py:85-105, unlog.py:95-100, finalizer.py:84-108. -/
def ThSt.leave (env : CEnv) (seen : ExcId → Bool) (th : ThSt) (o : Outcome) : ThOut :=
  match th.stack with
  | [] => ⟨{ th with ctl := .halted o }, [], []⟩
  | .plain k :: st => th.goOn (k o) st th.view []
  | .logged d info k :: st =>
    match o with
    | .ret v =>
      match logNormal env d info v th.view with
      | (none, s) => th.goOn (k (.ret v)) st s []
      | (some e, s) => th.goOn (k (.raised e)) st s []
    | .raised e =>
      if e.isException then
        -- function_logger.py:173-174
        if unlogStatus env th.view then th.goOn (k (afterException env d e)) st th.view []
        else if seen e.id = false ∨ env.dedup = false then ⟨{ th with ctl := .marking d info k e, stack := st }, [], []⟩
        else th.goOn (k (afterException env d e)) st th.view []
      else th.goOn (k (.raised e)) st th.view []
  | .unlogged k :: st => th.goOn (k o) st { th.view with unlog := none } []
  | .block opts k :: st =>
    match blockEnd env opts o th.view with
    | (o', s) => th.goOn (k o') st s []

/-- One step of a thread; `seen`: which exceptions carry the mark.
function_logger.py:85-105, unlog.py:95-100, finalizer.py:65-108, message.py:18-35. -/
def ThSt.step (env : CEnv) (seen : ExcId → Bool) (th : ThSt) : Option ThOut :=
  match th.ctl with
  | .halted _ => none
  -- function_logger.py:175-192
  | .marking d info k e =>
    match logException env d info e th.view with
    | (none, s) => some (th.goOn (k (afterException env d e)) th.stack s [e.id])
    | (some e', s) => some (th.goOn (k (.raised e')) th.stack s [e.id])
  | .code (.ret v) => some (th.leave env seen (.ret v))
  | .code (.raise e) => some (th.leave env seen (.raised e))
  | .code (.call .plain b k) => some (th.goOn b (.plain k :: th.stack) th.view [])
  | .code (.call (.logged d info) b k) => some (th.goOn b (.logged d info k :: th.stack) { th.view with msg := none } [])
  | .code (.call (.unlogged full) b k) => some (th.goOn b (.unlogged k :: th.stack) { th.view with unlog := some full } [])
  | .code (.block o b k) => some (th.goOn b (.block o k :: th.stack) th.view [])
  | .code (.msg args kwargs k) =>
    match messageCall env.h args kwargs with
    | .error e => some (th.goOn (k (some e)) th.stack th.view [])
    | .ok none => some (th.goOn (k none) th.stack th.view [])
    | .ok (some fields) => some (th.goOn (k none) th.stack { th.view with msg := some fields } [])
  | .code (.manual args kwargs k) =>
    let h := handleLog { env.h with unlogged := unlogStatus env th.view } args kwargs
    some (th.goOn (k h.raised) th.stack { th.view with records := h.records.map fun data => ⟨.manual, data⟩ } [])

/-- Identity of an exception among all threads: those made by Polog in different threads are different.
function_logger.py:174-175. -/
inductive GExc where
  | user (n : Nat)
  | internal (t n : Nat)
deriving DecidableEq

/-- The exception of thread `t`, function_logger.py:174-175. -/
def GExc.of (t : Nat) : ExcId → GExc
  | .user n => .user n
  | .internal n => .internal t n

/-- All threads; the exceptions that carry the attribute `checked_by_polog`; what was handed to the engine, in order, with
the number of the thread. function_logger.py:168-239. -/
structure CWorld where
  threads : Nat → ThSt
  marked : List GExc
  records : List (Nat × Rec)

/-- Thread `t` makes a step. function_logger.py:85-105. -/
inductive CwStep (env : CEnv) (w : CWorld) : CWorld → Prop
  | step (t : Nat) (out : ThOut) : (w.threads t).step env (fun x => decide (GExc.of t x ∈ w.marked)) = some out →
      CwStep env w
        ⟨fun i => if i = t then out.th else w.threads i, out.marks.map (GExc.of t) ++ w.marked,
          w.records ++ out.recs.map fun r => (t, r)⟩

/-- Executions of several threads, function_logger.py:85-105. -/
inductive CwRun (env : CEnv) (w : CWorld) : CWorld → Prop
  | refl : CwRun env w w
  | step {w' w'' : CWorld} : CwRun env w w' → CwStep env w' w'' → CwRun env w w''

/-- A thread begins with empty context variables, an asyncio task with copies of those of the task that made it: each thread
here begins with any. message.py:6. -/
def CWorld.start (progs : Nat → Body) (msg : Nat → Option (Dict Str HVal)) (unlog : Nat → Option (Option Bool)) : CWorld :=
  ⟨fun t => ⟨.code (progs t), [], msg t, unlog t, 0⟩, [], []⟩

end Polog
