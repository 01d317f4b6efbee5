import Verif.Calls.Threads

/-!
Model of threads and asyncio tasks that begin while the program runs.

`asyncio.create_task` (and `gather`, `wait_for`, `asyncio.to_thread`) gives the new task a copy of the context variables of the
task that makes it (`contextvars.copy_context()`): so of the pending message (message.py:6) and of the state of `@unlog`
(unlog.py:13). A new `threading.Thread` begins with empty context variables. Changes that the new one makes never come back to the
maker: a context is copied once.

Simplified: which task makes which one, and when, is arbitrary; what a task awaits is part of its code (`Body` may go on in any way),
so an `await` that gives the result or the exception of another task is one of the things that the code may do.
-/

namespace Polog

/-- The threads and tasks, and which of them have begun. message.py:6, unlog.py:13 are per task. -/
structure TaskWorld where
  w : CWorld
  begun : List Nat

/-- In the beginning there is only number 0. message.py:6. -/
def TaskWorld.start (progs : Nat → Body) : TaskWorld := ⟨.start progs (fun _ => none) (fun _ => none), [0]⟩

/-- Number `u` begins with this context. Python's own rule for context variables (message.py:6). -/
def TaskWorld.begin (progs : Nat → Body) (x : TaskWorld) (u : Nat) (msg : Option (Dict Str HVal)) (unlog : Option (Option Bool)) :
    TaskWorld :=
  ⟨{ x.w with threads := fun i => if i = u then ⟨.code (progs u), [], msg, unlog, 0⟩ else x.w.threads i }, u :: x.begun⟩

/-- Number `t` has made the step `out`. function_logger.py:63-105. -/
def TaskWorld.after (x : TaskWorld) (t : Nat) (out : ThOut) : TaskWorld :=
  ⟨⟨fun i => if i = t then out.th else x.w.threads i, out.marks.map (GExc.of t) ++ x.w.marked,
    x.w.records ++ out.recs.map fun r => (t, r)⟩, x.begun⟩

/-- What happens in a step: `t` goes on, makes the task `u`, or starts the thread `u`.
Python's own; the step itself is function_logger.py:63-105. -/
inductive TkAct where
  | run (t : Nat)
  | task (t u : Nat)
  | thread (t u : Nat)

/-- One step of one thread or task, function_logger.py:63-105. -/
inductive TkStep (env : CEnv) (progs : Nat → Body) (x : TaskWorld) : TkAct → TaskWorld → Prop
  | run (t : Nat) (out : ThOut) : t ∈ x.begun →
      (x.w.threads t).step env (fun e => decide (GExc.of t e ∈ x.w.marked)) = some out → TkStep env progs x (.run t) (x.after t out)
  | task (t u : Nat) : t ∈ x.begun → u ∉ x.begun →
      TkStep env progs x (.task t u) (x.begin progs u (x.w.threads t).msg (x.w.threads t).unlog)
  | thread (t u : Nat) : t ∈ x.begun → u ∉ x.begun → TkStep env progs x (.thread t u) (x.begin progs u none none)

/-- Executions, function_logger.py:63-105. -/
inductive TkRun (env : CEnv) (progs : Nat → Body) (x : TaskWorld) : TaskWorld → Prop
  | refl : TkRun env progs x x
  | step {y z : TaskWorld} {a : TkAct} : TkRun env progs x y → TkStep env progs y a z → TkRun env progs x z

/-- The thread is between lines 174 and 175 of function_logger.py. -/
def ThSt.isMarking (th : ThSt) : Prop := ∃ d info k e, th.ctl = .marking d info k e

/-- Tasks of one event loop: there is no `await` in `log_exception_info` (function_logger.py:168-192), so no other task makes a
step between the check of the mark and its setting; no threads are started. -/
def TkAct.inLoop (y : TaskWorld) : TkAct → Prop
  | .run t => ∀ u, u ≠ t → ¬ (y.w.threads u).isMarking
  | .task _ _ => True
  | .thread _ _ => False

/-- Executions of one event loop. function_logger.py:63-83. -/
inductive AioRun (env : CEnv) (progs : Nat → Body) (x : TaskWorld) : TaskWorld → Prop
  | refl : AioRun env progs x x
  | step {y z : TaskWorld} {a : TkAct} : AioRun env progs x y → TkStep env progs y a z → a.inLoop y → AioRun env progs x z

end Polog
