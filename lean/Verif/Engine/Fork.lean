import Verif.Engine.Model

/-!
Model of a child process made by `os.fork()` (the start method `fork` of `multiprocessing`, servers that fork):
what becomes there of the state of `polog/core/engine/engine.py` and of the pools of workers. polog has no code for
this case; the model is what the interpreter does with the objects of polog.

The child gets a copy of the memory; of the threads only the one that called `fork` goes on, and it is outside polog
at that moment. Locks held by the others stay held. `threading` marks the threads of the workers as ended, so `join`
returns at once. Everything the child does afterwards are the usual steps of `EStep`: by the thread that called
`fork`, by new threads and by workers of pools made in the child.

What is left out: a fork while a worker or another thread is inside a method of the queue or of a handler (their own
locks would stay held), a fork by a handler.
-/

namespace Polog

/-- A pool in the child: its workers do not run, and a `stop` that another thread was executing is abandoned.
pool.py:15-41, worker.py:16-65. -/
def Pool.forked (p : Pool) : Pool :=
  { p with worker := fun _ => .exited, stop := if p.stop = .done then .done else .none }

/-- A real engine in the child. fabric.py:5-13. -/
def Real.forked : Real → Real
  | .single => .single
  | .pool p => .pool p.forked

/-- The state of the child just after `os.fork()`: the settings, the locks, the attribute `write` and the queues are
those of the parent. engine.py:29-51. -/
def Eng.forked (e : Eng) : Eng := ⟨{ e.g with real := fun k => (e.g.real k).forked }, fun _ => .idle⟩

end Polog
