import Verif.Engine.Pool

/-!
Model of the engine wrapper `polog/core/engine/engine.py`, of the choice of the real engine
(`real_engines/fabric.py`), of `config.set(pool_size=…)` / `config.set(max_queue_size=…)` with the
reload callback (`setting_point.py:66-78`, `actions/reload_engine.py`), and of the exit hook.

Any number of threads write logs and change the two settings; every step below is one atomic action
of one thread.  What is left out: handlers that themselves write logs (`Verif.Nested`) or change settings, engines of
the user (setting `engine`), failures to create an engine (`Engine/Failure.lean`), logs written by
destructors in the middle of a step (`Engine/Collect.lean`), the time limit of the exit hook.
-/

namespace Polog

/-- What the attribute `write` of the engine currently is. engine.py:53-73, 105-118. -/
inductive Mode where
  /-- the method `Engine.write`, `engine.py:53` -/
  | first
  /-- `_new_write`, lines 62 and 117 -/
  | direct
  /-- `_blocked_write`, line 111 -/
  | blocked
deriving DecidableEq, Repr

/-- A real engine. fabric.py:5-13. -/
inductive Real where
  /-- `SingleThreadedRealEngine` -/
  | single
  /-- `MultiThreadedRealEngine` -/
  | pool (p : Pool)

/-- `config.set(pool_size=n)` or `config.set(max_queue_size=n)`. config.py:26-39. -/
inductive Change where
  | poolSize (n : Nat)
  | maxQueue (n : Nat)
deriving DecidableEq, Repr

/-- Where a thread is. engine.py:42-139, setting_point.py:50-78, pool.py:20-55. -/
inductive PC where
  /-- outside polog -/
  | idle
  -- `Engine.write`, engine.py:53-63
  /-- waiting for `Engine.lock`, line 59 -/
  | wFirst (l : Log)
  /-- has the lock, line 60 -/
  | wCheck (l : Log)
  /-- waiting for the lock of the setting `started`, line 49 and setting_point.py:66 -/
  | wStart (l : Log)
  /-- has the lock of the setting, setting_point.py:67-78 -/
  | wStarting (l : Log)
  /-- in `load`, `fabric.py:11` not done -/
  | wLoad (l : Log)
  /-- the multi-threaded engine was chosen; `pool.py:17` not done -/
  | wLoadCap (l : Log)
  /-- the queue was created; `pool.py:62` not done -/
  | wLoadSize (l : Log) (cap : Nat)
  /-- line 51 -/
  | wHook (l : Log)
  /-- line 62 -/
  | wSwap (l : Log)
  -- `Engine._new_write`, engine.py:65-69
  /-- `self.real_engine` not yet evaluated -/
  | wFetch (l : Log)
  /-- the real engine number `k` was fetched, its `write` not done -/
  | wHand (l : Log) (k : Nat)
  /-- `AttributeError`: there is no real engine -/
  | wFailed (l : Log)
  -- `Engine._blocked_write`, engine.py:71-73
  | bLock (l : Log)
  | bFetch (l : Log)
  | bHand (l : Log) (k : Nat)
  | bUnlock
  -- `config.set(...)`, setting_point.py:66-78, and `Engine.reload`, engine.py:75-86
  /-- waiting for the lock shared by `pool_size`, `max_queue_size` and `started` -/
  | cWait (c : Change)
  | cLocked (c : Change)
  /-- value stored; `Engine()` waits for `Engine.lock`, engine.py:34 -/
  | cEngine
  | cEngineIn
  /-- engine.py:82 -/
  | cReload
  /-- engine.py:110 -/
  | cBlock
  /-- engine.py:111 -/
  | cSwap
  /-- engine.py:102 -/
  | cStop
  | cStopping (k : Nat)
  /-- engine.py:93 -/
  | cLoad
  /-- engine.py:117 -/
  | cUnblock
  /-- engine.py:118 -/
  | cRelease
  /-- setting_point.py:78 -/
  | cDone
  -- the exit hook, engine.py:137-139
  | xBlock
  | xSwap
  | xStop
  | xStopping (k : Nat)
  /-- the hook has ended; it does not release the lock -/
  | xEnd
deriving DecidableEq, Repr

/-- The shared state. engine.py:29-51. -/
structure Glob where
  /-- the lock shared by the settings `pool_size`, `max_queue_size`, `started` -/
  setLock : Option Nat
  /-- `Engine.lock` -/
  engLock : Option Nat
  started : Bool
  poolSize : Nat
  maxQueue : Nat
  mode : Mode
  /-- the number of real engines created (`serial_number`); the current one is number `loads - 1` -/
  loads : Nat
  real : Nat → Real
  /-- loads done by the first write -/
  inits : Nat
  /-- registered exit hooks -/
  hooks : Nat
  /-- history: the log calls made, with the calling thread, oldest first -/
  calls : List (Nat × Log)
  /-- history: the logs whose handlers were called, oldest first -/
  seq : List Log
  /-- history: the logs put into a pool after its `stop()` saw the queue empty -/
  late : List Log

/-- The shared state (engine.py:29-51) and the place of every thread. -/
structure Eng where
  g : Glob
  pc : Nat → PC

/-- Just after import, with the two settings at their defaults (`settings_store.py:25, 41`). -/
def Glob.init : Glob :=
  { setLock := none, engLock := none, started := false, poolSize := 0, maxQueue := 0, mode := .first,
    loads := 0, real := fun _ => .single, inits := 0, hooks := 0, calls := [], seq := [], late := [] }

/-- engine.py:29-40. -/
def Eng.init : Eng := ⟨Glob.init, fun _ => .idle⟩

/-- `real_engine_fabric(settings)` when nobody changes the settings meanwhile, `fabric.py:5-13`. -/
def fabric (poolSize maxQueue : Nat) : Real :=
  if poolSize = 0 then .single else .pool (Pool.init poolSize maxQueue)

/-- A new real engine becomes the current one, `engine.py:93-94`. -/
def Glob.load (g : Glob) (r : Real) : Glob :=
  { g with real := setFn g.real g.loads r, loads := g.loads + 1 }

/-- The conflict rules of the two settings, `settings_store.py:31, 47` (see the model of settings). -/
def Change.allowed (g : Glob) : Change → Bool
  | .poolSize n => !(n == 0 && g.maxQueue != 0)
  | .maxQueue n => !(n != 0 && g.poolSize == 0)

/-- The new values of `pool_size` and `max_queue_size`, setting_point.py:66-78. -/
def Change.apply (g : Glob) : Change → Glob
  | .poolSize n => { g with poolSize := n }
  | .maxQueue n => { g with maxQueue := n }

/-- The callback is executed only if the value changed, `actions/decorator.py:27`. -/
def Change.changes (g : Glob) : Change → Bool
  | .poolSize n => n != g.poolSize
  | .maxQueue n => n != g.maxQueue

/-- One atomic step of thread `t`: from its place and the shared state to the next ones.
engine.py:42-139, setting_point.py:50-78, pool.py:20-55. -/
inductive TStep (t : Nat) : Glob → PC → Glob → PC → Prop where
  -- a logger calls `engine.write(log)`: the attribute is looked up
  | callFirst (g) (l : Log) (fresh : ∀ x ∈ g.calls, x.2 ≠ l) (h : g.mode = .first) :
      TStep t g .idle { g with calls := g.calls ++ [(t, l)] } (.wFirst l)
  | callDirect (g) (l : Log) (fresh : ∀ x ∈ g.calls, x.2 ≠ l) (h : g.mode = .direct) :
      TStep t g .idle { g with calls := g.calls ++ [(t, l)] } (.wFetch l)
  | callBlocked (g) (l : Log) (fresh : ∀ x ∈ g.calls, x.2 ≠ l) (h : g.mode = .blocked) :
      TStep t g .idle { g with calls := g.calls ++ [(t, l)] } (.bLock l)
  -- engine.py:59-63
  | wLock (g) (l) (h : g.engLock = none) : TStep t g (.wFirst l) { g with engLock := some t } (.wCheck l)
  | wAlready (g) (l) (h : g.started = true) :
      TStep t g (.wCheck l) { g with engLock := none } (.wFetch l)
  | wNotYet (g) (l) (h : g.started = false) : TStep t g (.wCheck l) g (.wStart l)
  | wSetLock (g) (l) (h : g.setLock = none) :
      TStep t g (.wStart l) { g with setLock := some t } (.wStarting l)
  | wSetStarted (g) (l) :
      TStep t g (.wStarting l) { g with started := true, setLock := none } (.wLoad l)
  | wLoadSingle (g) (l) (h : g.poolSize = 0) :
      TStep t g (.wLoad l) { g.load .single with inits := g.inits + 1 } (.wHook l)
  | wLoadMulti (g) (l) (h : g.poolSize ≠ 0) : TStep t g (.wLoad l) g (.wLoadCap l)
  | wLoadQueue (g) (l) : TStep t g (.wLoadCap l) g (.wLoadSize l g.maxQueue)
  | wLoadWorkers (g) (l) (cap) :
      TStep t g (.wLoadSize l cap)
        { g.load (.pool (Pool.init g.poolSize cap)) with inits := g.inits + 1 } (.wHook l)
  | wRegister (g) (l) : TStep t g (.wHook l) { g with hooks := g.hooks + 1 } (.wSwap l)
  | wDone (g) (l) : TStep t g (.wSwap l) { g with mode := .direct, engLock := none } (.wFetch l)
  -- engine.py:69
  | fetch (g) (l) (k) (h : g.loads = k + 1) : TStep t g (.wFetch l) g (.wHand l k)
  | fetchFails (g) (l) (h : g.loads = 0) : TStep t g (.wFetch l) g (.wFailed l)
  | handSingle (g) (l) (k) (h : g.real k = .single) :
      TStep t g (.wHand l k) { g with seq := g.seq ++ [l] } .idle
  | handPool (g) (l) (k) (p p') (h : g.real k = .pool p) (hp : PStep p (.put l) p') :
      TStep t g (.wHand l k)
        { g with real := setFn g.real k (.pool p'), late := if p.closed then g.late ++ [l] else g.late }
        .idle
  -- engine.py:72-73
  | bAcquire (g) (l) (h : g.engLock = none) : TStep t g (.bLock l) { g with engLock := some t } (.bFetch l)
  | bFetch (g) (l) (k) (h : g.loads = k + 1) : TStep t g (.bFetch l) g (.bHand l k)
  | bHandSingle (g) (l) (k) (h : g.real k = .single) :
      TStep t g (.bHand l k) { g with seq := g.seq ++ [l] } .bUnlock
  | bHandPool (g) (l) (k) (p p') (h : g.real k = .pool p) (hp : PStep p (.put l) p') :
      TStep t g (.bHand l k)
        { g with real := setFn g.real k (.pool p'), late := if p.closed then g.late ++ [l] else g.late }
        .bUnlock
  | bRelease (g) : TStep t g .bUnlock { g with engLock := none } .idle
  -- config.set(...)
  | cCall (g) (c : Change) : TStep t g .idle g (.cWait c)
  | cAcquire (g) (c) (h : g.setLock = none) :
      TStep t g (.cWait c) { g with setLock := some t } (.cLocked c)
  | cReject (g) (c : Change) (h : c.allowed g = false) :
      TStep t g (.cLocked c) { g with setLock := none } .idle
  | cSame (g) (c : Change) (h : c.allowed g = true) (h' : c.changes g = false) :
      TStep t g (.cLocked c) g .cDone
  | cStore (g) (c : Change) (h : c.allowed g = true) (h' : c.changes g = true) :
      TStep t g (.cLocked c) (c.apply g) .cEngine
  | cEngineEnter (g) (h : g.engLock = none) : TStep t g .cEngine { g with engLock := some t } .cEngineIn
  | cEngineLeave (g) : TStep t g .cEngineIn { g with engLock := none } .cReload
  | cNotStarted (g) (h : g.started = false) : TStep t g .cReload g .cDone
  | cStarted (g) (h : g.started = true) : TStep t g .cReload g .cBlock
  | cBlock (g) (h : g.engLock = none) : TStep t g .cBlock { g with engLock := some t } .cSwap
  | cSwap (g) : TStep t g .cSwap { g with mode := .blocked } .cStop
  -- `AbstractRealEngine.stop` raises `NotImplementedError`, which is escaped (abstract.py:30, engine.py:97)
  | cStopSingle (g) (k) (h : g.loads = k + 1) (hr : g.real k = .single) : TStep t g .cStop g .cLoad
  | cStopPool (g) (k) (p p') (h : g.loads = k + 1) (hr : g.real k = .pool p) (hp : PStep p .stop p') :
      TStep t g .cStop { g with real := setFn g.real k (.pool p') } (.cStopping k)
  | cStopped (g) (k) (p) (hr : g.real k = .pool p) (hp : p.stop = .done) :
      TStep t g (.cStopping k) g .cLoad
  | cLoad (g) : TStep t g .cLoad (g.load (fabric g.poolSize g.maxQueue)) .cUnblock
  | cUnblock (g) : TStep t g .cUnblock { g with mode := .direct } .cRelease
  | cRelease (g) : TStep t g .cRelease { g with engLock := none } .cDone
  | cDone (g) : TStep t g .cDone { g with setLock := none } .idle
  -- the exit hook
  | xCall (g) (h : 0 < g.hooks) : TStep t g .idle g .xBlock
  | xLock (g) (h : g.engLock = none) : TStep t g .xBlock { g with engLock := some t } .xSwap
  | xSwap (g) : TStep t g .xSwap { g with mode := .blocked } .xStop
  | xStopSingle (g) (k) (h : g.loads = k + 1) (hr : g.real k = .single) : TStep t g .xStop g .xEnd
  | xStopPool (g) (k) (p p') (h : g.loads = k + 1) (hr : g.real k = .pool p) (hp : PStep p .stop p') :
      TStep t g .xStop { g with real := setFn g.real k (.pool p') } (.xStopping k)
  | xStopped (g) (k) (p) (hr : g.real k = .pool p) (hp : p.stop = .done) :
      TStep t g (.xStopping k) g .xEnd

/-- The log handled by a step of a pool. worker.py:16-38. -/
def PLabel.log? : PLabel → Option Log
  | .handled _ l => some l
  | _ => none

/-- One atomic step of the whole system. engine.py:42-139, worker.py:16-38. -/
inductive EStep : Eng → Eng → Prop where
  | thread (e : Eng) (t : Nat) (g' : Glob) (p' : PC) (h : TStep t e.g (e.pc t) g' p') :
      EStep e ⟨g', setFn e.pc t p'⟩
  /-- a step of a worker, or of the thread inside `ThreadPool.stop`, of the real engine number `k` -/
  | pool (e : Eng) (k : Nat) (p p' : Pool) (a : PLabel) (hk : k < e.g.loads) (hr : e.g.real k = .pool p)
      (hp : PStep p a p') (hput : ∀ l, a ≠ .put l) (hstop : a ≠ .stop) :
      EStep e ⟨{ e.g with real := setFn e.g.real k (.pool p'), seq := e.g.seq ++ a.log?.toList }, e.pc⟩

/-- A state in which the first log has already been written and nothing is going on. After engine.py:42-69. -/
def Eng.warm (poolSize maxQueue : Nat) : Eng :=
  ⟨{ Glob.init with
      started := true, poolSize := poolSize, maxQueue := maxQueue, mode := .direct, loads := 1,
      real := fun _ => fabric poolSize maxQueue, inits := 1, hooks := 1 },
   fun _ => .idle⟩

/-- The states reachable from `e₀` under some schedule. engine.py:42-139. -/
inductive EReach (e₀ : Eng) : Eng → Prop where
  | init : EReach e₀ e₀
  | step {e e' : Eng} : EReach e₀ e → EStep e e' → EReach e₀ e'

end Polog
