import Verif.Py

/-!
Model of handlers (and extractors of engine fields) that write logs themselves: the engine wrapper
`polog/core/engine/engine.py`, the two real engines and the pool
(`polog/core/engine/real_engines/{singlethreaded,multithreaded}/`), when the first log has been written.

A log is written by a client thread or, while another log is being handled, by a handler of it, in the thread that calls
the handlers: a worker of the pool, or the writing thread itself with the synchronous engine. Every step is one atomic
action of one thread. The logs that the handlers of one log write are a finite tree given with the log; besides, a handler
may call `config.set(pool_size=…)` at any moment. Simplifications: `config.set` does not take the lock of the setting
(`Verif.Engine.Model` has it; a second `config.set` waits for the engine lock instead); the stop flags of all workers are
set in one step; what handlers do besides is not modelled.
-/

namespace Polog

/-- A sequence of logs, each with the sequence of the logs written by its handlers.
What the handlers called at log_item.py:159-164 write. -/
inductive NLogs where
  | nil
  | cons (id : Nat) (children rest : NLogs)
deriving DecidableEq

/-- A log, with the logs that its handlers write. What the handlers called at log_item.py:159-164 write. -/
structure NLog where
  id : Nat
  children : NLogs
deriving DecidableEq

/-- A log whose handlers are being called by this thread: what they still write, and whether the thread took the engine
lock in `_blocked_write` for it (engine.py:71-73). -/
structure NFrame where
  id : Nat
  todo : NLogs
  locked : Bool
deriving DecidableEq

/-- Where a thread is. Inside engine.py:53-118, pool.py:20-55, worker.py:16-38. -/
inductive NPc where
  /-- in its own code, in a handler, or (a worker without frames) in `queue.get`, worker.py:27 -/
  | rest
  /-- `_blocked_write`: waiting for the engine lock, engine.py:72 -/
  | wait (l : NLog)
  /-- `_new_write`: `self.real_engine` not yet evaluated, engine.py:69 -/
  | fetch (l : NLog) (locked : Bool)
  /-- the real engine number `k` was fetched, its `write` not done -/
  | hand (l : NLog) (k : Nat) (locked : Bool)
  /-- a worker whose `get` raised `Empty`, worker.py:29-30 -/
  | expired
  /-- a worker that has left its loop, worker.py:34 -/
  | exited
  /-- `Engine.reload` (engine.py:75-86), or the exit hook (137-139) if `exit`: at line 110 -/
  | rBlock (exit : Bool)
  /-- line 111 -/
  | rSwap (exit : Bool)
  /-- line 102 -/
  | rStop (exit : Bool)
  /-- `wait_empty_queue`, pool.py:43-55 -/
  | rPoll (exit : Bool) (k : Nat)
  /-- the joins, pool.py:40-41 -/
  | rJoin (exit : Bool) (k : Nat)
  /-- engine.py:93 -/
  | rLoad
  /-- engine.py:117 -/
  | rUnblock
  /-- engine.py:118 -/
  | rRelease
  /-- the exit hook has ended -/
  | ended
deriving DecidableEq

/-- A client thread, or a worker of the real engine number `k`. worker.py:9-14. -/
inductive NKind where
  | client
  | worker (k : Nat)
deriving DecidableEq

/-- A thread: its kind, its place and the logs whose handlers it is executing (log_item.py:151-171). -/
structure NThread where
  kind : NKind
  frames : List NFrame
  pc : NPc
deriving DecidableEq

/-- A real engine: the number of workers (0: the synchronous engine), `maxsize` of the queue (0: no limit), the queue
(oldest first), the stop flag of its workers.
pool.py:15-18, multithreaded/engine.py:25-27, singlethreaded/engine.py:5-13. -/
structure NEng where
  size : Nat
  cap : Nat
  queue : List NLog
  flag : Bool
deriving DecidableEq

/-- The shared state: the engine lock, whether `write` is `_blocked_write`, the real engines (the last is the current one);
and for statements the logs whose handlers have all been called, and the logs written by client threads.
engine.py:29-51. -/
structure NShared where
  lock : Bool
  blocked : Bool
  engines : List NEng
  handled : List Nat
  written : List NLog

/-- engine.py:29-51 and all threads. -/
structure NState where
  sh : NShared
  threads : List NThread

/-- `engine.write(log)`: the attribute `write` is looked up, engine.py:62, 111, 117. -/
def nCall (sh : NShared) (l : NLog) : NPc := if sh.blocked then .wait l else .fetch l false

/-- Leaving `with self.lock:` of `_blocked_write`, engine.py:72. -/
def nRelease (locked : Bool) (sh : NShared) : NShared := { sh with lock := if locked then false else sh.lock }

/-- One step of a thread that writes or handles logs.
engine.py:53-73, pool.py:20-24, worker.py:16-38, log_item.py:151-171. -/
inductive NWork : NShared → NThread → NShared → NThread → Prop where
  /-- a client thread outside Polog writes a log -/
  | call (sh : NShared) (l : NLog) :
      NWork sh ⟨.client, [], .rest⟩ { sh with written := sh.written ++ [l] } ⟨.client, [], nCall sh l⟩
  /-- a handler writes a log -/
  | nested (sh : NShared) (kd : NKind) (f : Nat) (i : Nat) (c r : NLogs) (lk : Bool) (fs : List NFrame) :
      NWork sh ⟨kd, ⟨f, .cons i c r, lk⟩ :: fs, .rest⟩ sh ⟨kd, ⟨f, r, lk⟩ :: fs, nCall sh ⟨i, c⟩⟩
  /-- engine.py:72 -/
  | acquire (sh : NShared) (kd : NKind) (fs : List NFrame) (l : NLog) (h : sh.lock = false) :
      NWork sh ⟨kd, fs, .wait l⟩ { sh with lock := true } ⟨kd, fs, .fetch l true⟩
  /-- engine.py:69 -/
  | fetch (sh : NShared) (kd : NKind) (fs : List NFrame) (l : NLog) (lk : Bool) (k : Nat)
      (h : sh.engines.length = k + 1) :
      NWork sh ⟨kd, fs, .fetch l lk⟩ sh ⟨kd, fs, .hand l k lk⟩
  /-- singlethreaded/engine.py:9-13: the handlers are called -/
  | handSingle (sh : NShared) (kd : NKind) (fs : List NFrame) (l : NLog) (lk : Bool) (k : Nat) (e : NEng)
      (he : sh.engines[k]? = some e) (hs : e.size = 0) :
      NWork sh ⟨kd, fs, .hand l k lk⟩ sh ⟨kd, ⟨l.id, l.children, lk⟩ :: fs, .rest⟩
  /-- multithreaded/engine.py:29-33, pool.py:20-24: possible when the queue is not full -/
  | handPool (sh : NShared) (kd : NKind) (fs : List NFrame) (l : NLog) (lk : Bool) (k : Nat) (e : NEng)
      (he : sh.engines[k]? = some e) (hs : e.size ≠ 0) (room : e.cap = 0 ∨ e.queue.length < e.cap) :
      NWork sh ⟨kd, fs, .hand l k lk⟩
        (nRelease lk { sh with engines := sh.engines.set k { e with queue := e.queue ++ [l] } }) ⟨kd, fs, .rest⟩
  /-- the last handler of a log has returned -/
  | done (sh : NShared) (kd : NKind) (f : Nat) (lk : Bool) (fs : List NFrame) :
      NWork sh ⟨kd, ⟨f, .nil, lk⟩ :: fs, .rest⟩ (nRelease lk { sh with handled := sh.handled ++ [f] }) ⟨kd, fs, .rest⟩
  /-- worker.py:27, 35 -/
  | take (sh : NShared) (k : Nat) (e : NEng) (l : NLog) (q : List NLog) (he : sh.engines[k]? = some e)
      (hq : e.queue = l :: q) :
      NWork sh ⟨.worker k, [], .rest⟩ { sh with engines := sh.engines.set k { e with queue := q } }
        ⟨.worker k, [⟨l.id, l.children, false⟩], .rest⟩
  /-- worker.py:29 -/
  | expire (sh : NShared) (k : Nat) (e : NEng) (he : sh.engines[k]? = some e) (hq : e.queue = []) :
      NWork sh ⟨.worker k, [], .rest⟩ sh ⟨.worker k, [], .expired⟩
  /-- worker.py:30-34 -/
  | again (sh : NShared) (k : Nat) (e : NEng) (he : sh.engines[k]? = some e) (hf : e.flag = false) :
      NWork sh ⟨.worker k, [], .expired⟩ sh ⟨.worker k, [], .rest⟩
  | exit (sh : NShared) (k : Nat) (e : NEng) (he : sh.engines[k]? = some e) (hf : e.flag = true) :
      NWork sh ⟨.worker k, [], .expired⟩ sh ⟨.worker k, [], .exited⟩

/-- One step of a thread in `Engine.reload` or in the exit hook; `pre` and `post` are the threads before and after it, in
the order of their creation. The result also has the workers that were started. `config.set` may be called by client
threads and, at any moment, by handlers; the exit hook is called by a client thread.
engine.py:75-139, pool.py:26-65. -/
inductive NAdmin (pre post : List NThread) : NShared → NThread → NShared → NThread → List NThread → Prop where
  | start (sh : NShared) (kd : NKind) (fs : List NFrame) (exit : Bool) (h : kd = .client ∨ fs ≠ [])
      (hx : exit = true → kd = .client ∧ fs = []) :
      NAdmin pre post sh ⟨kd, fs, .rest⟩ sh ⟨kd, fs, .rBlock exit⟩ []
  /-- engine.py:110 -/
  | lock (sh : NShared) (kd : NKind) (fs : List NFrame) (exit : Bool) (h : sh.lock = false) :
      NAdmin pre post sh ⟨kd, fs, .rBlock exit⟩ { sh with lock := true } ⟨kd, fs, .rSwap exit⟩ []
  /-- engine.py:111 -/
  | swap (sh : NShared) (kd : NKind) (fs : List NFrame) (exit : Bool) :
      NAdmin pre post sh ⟨kd, fs, .rSwap exit⟩ { sh with blocked := true } ⟨kd, fs, .rStop exit⟩ []
  /-- engine.py:97-103; the synchronous engine has no `stop` (abstract.py:30) -/
  | stopSingle (sh : NShared) (kd : NKind) (fs : List NFrame) (exit : Bool) (k : Nat) (e : NEng)
      (hk : sh.engines.length = k + 1) (he : sh.engines[k]? = some e) (hs : e.size = 0) :
      NAdmin pre post sh ⟨kd, fs, .rStop exit⟩ sh ⟨kd, fs, if exit then .ended else .rLoad⟩ []
  | stopPool (sh : NShared) (kd : NKind) (fs : List NFrame) (exit : Bool) (k : Nat) (e : NEng)
      (hk : sh.engines.length = k + 1) (he : sh.engines[k]? = some e) (hs : e.size ≠ 0) :
      NAdmin pre post sh ⟨kd, fs, .rStop exit⟩ sh ⟨kd, fs, .rPoll exit k⟩ []
  /-- pool.py:37-39, 53-54 -/
  | drained (sh : NShared) (kd : NKind) (fs : List NFrame) (exit : Bool) (k : Nat) (e : NEng)
      (he : sh.engines[k]? = some e) (hq : e.queue = []) :
      NAdmin pre post sh ⟨kd, fs, .rPoll exit k⟩ { sh with engines := sh.engines.set k { e with flag := true } }
        ⟨kd, fs, .rJoin exit k⟩ []
  /-- pool.py:40-41: all joins have returned. A worker that joins itself gets `RuntimeError` there, which is swallowed
  (engine.py:97), so it has only waited for the workers before it. -/
  | joined (sh : NShared) (kd : NKind) (fs : List NFrame) (exit : Bool) (k : Nat)
      (h : ∀ w ∈ pre ++ (if kd = .worker k then [] else post), w.kind = .worker k → w.pc = .exited) :
      NAdmin pre post sh ⟨kd, fs, .rJoin exit k⟩ sh ⟨kd, fs, if exit then .ended else .rLoad⟩ []
  /-- engine.py:93, fabric.py:5-13, pool.py:15-18: with the settings of this moment -/
  | load (sh : NShared) (kd : NKind) (fs : List NFrame) (size cap : Nat) :
      NAdmin pre post sh ⟨kd, fs, .rLoad⟩ { sh with engines := sh.engines ++ [⟨size, cap, [], false⟩] }
        ⟨kd, fs, .rUnblock⟩ (List.replicate size ⟨.worker sh.engines.length, [], .rest⟩)
  /-- engine.py:117 -/
  | unblock (sh : NShared) (kd : NKind) (fs : List NFrame) :
      NAdmin pre post sh ⟨kd, fs, .rUnblock⟩ { sh with blocked := false } ⟨kd, fs, .rRelease⟩ []
  /-- engine.py:118 -/
  | release (sh : NShared) (kd : NKind) (fs : List NFrame) :
      NAdmin pre post sh ⟨kd, fs, .rRelease⟩ { sh with lock := false } ⟨kd, fs, .rest⟩ []

/-- One step of the program: `admin` tells whether it is a step of a reload or of the exit hook.
engine.py:53-139. -/
inductive NStep : Bool → NState → NState → Prop where
  | work (pre post : List NThread) (sh sh' : NShared) (a a' : NThread) (h : NWork sh a sh' a') :
      NStep false ⟨sh, pre ++ a :: post⟩ ⟨sh', pre ++ a' :: post⟩
  | admin (pre post new : List NThread) (sh sh' : NShared) (a a' : NThread)
      (h : NAdmin pre post sh a sh' a' new) :
      NStep true ⟨sh, pre ++ a :: post⟩ ⟨sh', pre ++ a' :: (post ++ new)⟩

/-- The first log has been written, nothing is going on: some client threads, and an engine with these settings.
After engine.py:42-69. -/
def NState.start (clients size cap : Nat) : NState :=
  ⟨⟨false, false, [⟨size, cap, [], false⟩], [], []⟩,
    List.replicate clients ⟨.client, [], .rest⟩ ++ List.replicate size ⟨.worker 0, [], .rest⟩⟩

/-- Executions: with reloads and the exit hook if `admin`, otherwise without. engine.py:53-139. -/
inductive NReach (admin : Bool) (s₀ : NState) : NState → Prop where
  | init : NReach admin s₀ s₀
  | step {s s' : NState} (b : Bool) : NReach admin s₀ s → NStep b s s' → (b = true → admin = true) → NReach admin s₀ s'

end Polog
