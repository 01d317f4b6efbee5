import Verif.Py

/-!
Model of the thread pool of the asynchronous engine:
`polog/core/engine/real_engines/multithreaded/{pool,worker,engine}.py`.
A labelled transition system; every step is one atomic action of one thread, and the steps of
different threads interleave arbitrarily.
-/

namespace Polog

/-- A log object; every call of a logger creates a new one, so they are told apart by a number.
log_item.py:13-20. -/
abbrev Log := Nat

/-- A function with one value changed; no code. -/
def setFn {β : Type} (f : Nat → β) (a : Nat) (b : β) : Nat → β := fun x => if x = a then b else f x

/-- Where a worker thread is inside `Worker.run`, `worker.py:16-38`. -/
inductive WPC where
  /-- in `self.queue.get(timeout=…)`, line 27 -/
  | waiting
  /-- executing `self.do_anything(log)`, line 35 -/
  | busy (l : Log)
  /-- `Empty` was raised by `get` (the queue was empty at that moment), `self.stopped` not yet
  checked, lines 29-30 -/
  | expired
  /-- the loop was left, line 34 -/
  | exited
deriving DecidableEq, Repr

/-- Where the thread calling `ThreadPool.stop` is, `pool.py:26-41`. -/
inductive StopPC where
  /-- `stop` was not called -/
  | none
  /-- `wait_empty_queue`, lines 43-55 -/
  | polling
  /-- setting the flag of worker `j` next, lines 38-39 -/
  | flagging (j : Nat)
  /-- joining worker `j` next, lines 40-41 -/
  | joining (j : Nat)
  /-- `stop` returned -/
  | done
deriving DecidableEq, Repr

/-- `ThreadPool` with its queue and workers. pool.py:15-18. -/
structure Pool where
  /-- `maxsize` of the queue (`pool.py:17`); 0 means no limit -/
  cap : Nat
  /-- the number of workers (`pool.py:57-65`) -/
  size : Nat
  /-- the queue, oldest first -/
  queue : List Log
  worker : Nat → WPC
  /-- `Worker.stopped` -/
  flag : Nat → Bool
  stop : StopPC

/-- `ThreadPool.__init__`, `pool.py:15-18`. -/
def Pool.init (size cap : Nat) : Pool :=
  { cap := cap, size := size, queue := [], worker := fun _ => .waiting, flag := fun _ => false,
    stop := .none }

/-- The observable actions of a pool. pool.py:20-41, worker.py:16-38. -/
inductive PLabel where
  | put (l : Log)
  | take (i : Nat) (l : Log)
  /-- the handlers of `l` have been called, by worker `i` -/
  | handled (i : Nat) (l : Log)
  | stop
  | internal
deriving DecidableEq, Repr

/-- One atomic step, pool.py:20-55, worker.py:16-38.  The simplifications: `log_item()` is one step of arbitrary duration that ends
(it never raises out of the handlers, see the log model; if it raised, worker.py:37-38 do the same);
`task_done` only counts and is left out, nobody waits for it. -/
inductive PStep : Pool → PLabel → Pool → Prop where
  /-- `self.queue.put(log_item)`, `pool.py:20-24`: possible when the queue is not full. -/
  | put (p : Pool) (l : Log) (room : p.cap = 0 ∨ p.queue.length < p.cap) :
      PStep p (.put l) { p with queue := p.queue ++ [l] }
  /-- `queue.get` returned a log, `worker.py:27`. -/
  | take (p : Pool) (i : Nat) (l : Log) (q : List Log) (hi : i < p.size)
      (hw : p.worker i = .waiting) (hq : p.queue = l :: q) :
      PStep p (.take i l) { p with queue := q, worker := setFn p.worker i (.busy l) }
  /-- `self.do_anything(log)` ended, `worker.py:35-38`. -/
  | handled (p : Pool) (i : Nat) (l : Log) (hi : i < p.size) (hw : p.worker i = .busy l) :
      PStep p (.handled i l) { p with worker := setFn p.worker i .waiting }
  /-- `queue.get` raised `Empty`, `worker.py:29`. -/
  | expire (p : Pool) (i : Nat) (hi : i < p.size) (hw : p.worker i = .waiting) (hq : p.queue = []) :
      PStep p .internal { p with worker := setFn p.worker i .expired }
  /-- `if self.stopped:`, `worker.py:30-34`. -/
  | again (p : Pool) (i : Nat) (hi : i < p.size) (hw : p.worker i = .expired) (hf : p.flag i = false) :
      PStep p .internal { p with worker := setFn p.worker i .waiting }
  | exit (p : Pool) (i : Nat) (hi : i < p.size) (hw : p.worker i = .expired) (hf : p.flag i = true) :
      PStep p .internal { p with worker := setFn p.worker i .exited }
  /-- `stop()` is called, `pool.py:26`. -/
  | stopCall (p : Pool) (hs : p.stop = .none) : PStep p .stop { p with stop := .polling }
  /-- `if self.queue.empty(): break`, `pool.py:53-54`. -/
  | drained (p : Pool) (hs : p.stop = .polling) (hq : p.queue = []) :
      PStep p .internal { p with stop := .flagging 0 }
  /-- `worker.set_stop_flag()`, `pool.py:38-39`, `worker.py:57`. -/
  | setFlag (p : Pool) (j : Nat) (hs : p.stop = .flagging j) (hj : j < p.size) :
      PStep p .internal { p with stop := .flagging (j + 1), flag := setFn p.flag j true }
  | flagged (p : Pool) (hs : p.stop = .flagging p.size) :
      PStep p .internal { p with stop := .joining 0 }
  /-- `worker.stop()` – `thread.join()` returned, `pool.py:40-41`, `worker.py:65`. -/
  | join (p : Pool) (j : Nat) (hs : p.stop = .joining j) (hj : j < p.size)
      (hw : p.worker j = .exited) :
      PStep p .internal { p with stop := .joining (j + 1) }
  | stopped (p : Pool) (hs : p.stop = .joining p.size) :
      PStep p .internal { p with stop := .done }

/-- `stop()` has seen the queue empty and goes on with the flags. pool.py:26-41. -/
def Pool.closed (p : Pool) : Bool :=
  match p.stop with
  | .none | .polling => false
  | _ => true

/-- Executions of a pool: the trace of labels, newest last. pool.py:20-65, worker.py:16-65. -/
inductive PRun (size cap : Nat) : List PLabel → Pool → Prop where
  | init : PRun size cap [] (Pool.init size cap)
  | step {tr : List PLabel} {p p' : Pool} {a : PLabel} :
      PRun size cap tr p → PStep p a p' → PRun size cap (tr ++ [a]) p'

/-- Executions in which nothing is put into the queue after `stop()` saw it empty (the docstring of
`ThreadPool.stop`, `pool.py:30`, demands it of the caller). -/
inductive PRunCareful (size cap : Nat) : List PLabel → Pool → Prop where
  | init : PRunCareful size cap [] (Pool.init size cap)
  | step {tr : List PLabel} {p p' : Pool} {a : PLabel} :
      PRunCareful size cap tr p → PStep p a p' → (p.closed = true → ∀ l, a ≠ .put l) →
      PRunCareful size cap (tr ++ [a]) p'

end Polog
