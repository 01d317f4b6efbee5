import Verif.Engine.Progress

/-!
Interrupts: the user presses Ctrl-C (or a signal handler raises) while the main thread is somewhere
inside polog.  Python raises `KeyboardInterrupt` in the main thread at the next bytecode, so it can
come at any of the places of the model of the engine.

What follows from it is decided by two things in the code.  `with self.lock:` releases the lock
(`engine.py:34, 59, 72`, `setting_point.py:66`), but `block` takes the lock with a bare `acquire`
(`engine.py:110`).  And `exception_escaping` catches everything (`except:` without a class,
`exception_escaping.py:15, 21`), `KeyboardInterrupt` included: it is around `load` and `stop`
(`engine.py:88, 97`), around the callback of a setting (`setting_point.py:120`) and around the exit
hook (`engine.py:134`).

Left out: an interrupt between the acquisition of a lock and the entry into the `with` block; an
interrupt inside a handler, which `call_one_handler` (`log_item.py:166`) catches, so that the log
call goes on as if nothing had happened (see `LogItem/Interrupt.lean`).
-/

namespace Polog

/-- `ThreadPool.stop` was left by an exception: nobody executes it any more, `pool.py:36-41`. -/
def Real.abandonStop : Real → Real
  | .single => .single
  | .pool p => .pool (if p.stop = .done then p else { p with stop := .none })

/-- What `KeyboardInterrupt` does to the thread at the given place: the shared state, the next place of
the thread, and whether the exception reaches the program.
engine.py:53-139, setting_point.py:50-78, log_item.py:167-171. -/
def onInterrupt (g : Glob) : PC → Glob × PC × Bool
  -- outside polog, or waiting for a lock (`acquire` can be interrupted)
  | .idle => (g, .idle, true)
  | .wFirst _ => (g, .idle, true)
  | .bLock _ => (g, .idle, true)
  | .cWait _ => (g, .idle, true)
  -- inside `with self.lock`, engine.py:59
  | .wCheck _ | .wStart _ | .wHook _ | .wSwap _ => ({ g with engLock := none }, .idle, true)
  -- … and inside `with self.lock`, setting_point.py:66
  | .wStarting _ => ({ g with engLock := none, setLock := none }, .idle, true)
  -- inside `load`: escaped, engine.py:88; `__second_init__` goes on with line 51
  | .wLoad l | .wLoadCap l | .wLoadSize l _ => (g, .wHook l, false)
  -- engine.py:69
  | .wFetch _ | .wHand _ _ | .wFailed _ => (g, .idle, true)
  -- inside `with self.lock`, engine.py:72
  | .bFetch _ | .bHand _ _ | .bUnlock => ({ g with engLock := none }, .idle, true)
  -- inside `with self.lock`, setting_point.py:66, outside the callback
  | .cLocked _ | .cDone => ({ g with setLock := none }, .idle, true)
  -- inside the callback: escaped, setting_point.py:120; `set` goes on with line 78
  | .cEngine | .cReload | .cBlock => (g, .cDone, false)
  -- … and inside `with self.lock`, engine.py:34
  | .cEngineIn => ({ g with engLock := none }, .cDone, false)
  -- … and after the bare `acquire` of engine.py:110, outside `stop` and `load`
  | .cSwap | .cStop | .cUnblock | .cRelease => (g, .cDone, false)
  -- inside `stop`: escaped, engine.py:97; `reload` goes on with `load`
  | .cStopping k => ({ g with real := setFn g.real k (g.real k).abandonStop }, .cLoad, false)
  -- inside `load`: escaped, engine.py:88; `reload` goes on with `unlock`
  | .cLoad => (g, .cUnblock, false)
  -- the exit hook: `time_limit.py:52` makes it a `TimeoutError`, escaped, engine.py:134
  | .xBlock => (g, .idle, false)
  | .xSwap | .xStop => (g, .xEnd, false)
  | .xStopping k => ({ g with real := setFn g.real k (g.real k).abandonStop }, .xEnd, false)
  | .xEnd => (g, .xEnd, false)

/-- The system with interrupts: `cut` is the history of the log calls that an interrupt ended.  They
are not in `e.g.calls` any more. engine.py:29-139. -/
structure IEng where
  e : Eng
  cut : List Log

/-- engine.py:29-40. -/
def IEng.init : IEng := ⟨Eng.init, []⟩

/-- The log calls that remain when the call of `l` was ended by an interrupt.
For statements; a call of engine.py:53-63 ended early. -/
def Glob.forget (g : Glob) : Option Log → Glob
  | none => g
  | some l => { g with calls := g.calls.filter fun x => x.2 ≠ l }

/-- The log that thread `t` loses by the interrupt. engine.py:53-73. -/
def cutLog (e : Eng) (t : Nat) : Option Log :=
  if (onInterrupt e.g (e.pc t)).2.1 = .idle then (e.pc t).log? else none

/-- The state after the main thread (number 0) was interrupted. engine.py:53-139. -/
def IEng.interrupt (s : IEng) : IEng :=
  ⟨⟨(onInterrupt s.e.g (s.e.pc 0)).1.forget (cutLog s.e 0),
    setFn s.e.pc 0 (onInterrupt s.e.g (s.e.pc 0)).2.1⟩,
   s.cut ++ (cutLog s.e 0).toList⟩

/-- One step: of the system, or the interrupt of the main thread.  Log objects are new: a call does
not use the number of a call that was interrupted. engine.py:53-139. -/
inductive IStep : IEng → IEng → Prop where
  | run (s : IEng) (e' : Eng) (h : EStep s.e e')
      (fresh : ∀ l ∈ s.cut, ∀ x ∈ e'.g.calls, x.2 ≠ l) : IStep s ⟨e', s.cut⟩
  | interrupt (s : IEng) : IStep s s.interrupt

/-- The states reachable with interrupts at any moments. engine.py:53-139. -/
inductive IReach (s₀ : IEng) : IEng → Prop where
  | init : IReach s₀ s₀
  | step {s s' : IEng} : IReach s₀ s → IStep s s' → IReach s₀ s'

/-- The places between the moment a thread begins to load the first engine, to replace the engine or
to shut it down, and the end of that. engine.py:42-51, 75-118, 126-139. -/
def PC.exchanging : PC → Bool
  | .wLoad _ | .wLoadCap _ | .wLoadSize _ _ | .wHook _ | .wSwap _ | .cSwap | .cStop | .cStopping _
  | .cLoad | .cUnblock | .cRelease | .xBlock | .xSwap | .xStop | .xStopping _ | .xEnd => true
  | _ => false

/-- The states reachable with interrupts at any moments at which the main thread is not exchanging
the engine. engine.py:53-139. -/
inductive IReachMild (s₀ : IEng) : IEng → Prop where
  | init : IReachMild s₀ s₀
  | run {s : IEng} (e' : Eng) : IReachMild s₀ s → EStep s.e e' →
      (∀ l ∈ s.cut, ∀ x ∈ e'.g.calls, x.2 ≠ l) → IReachMild s₀ ⟨e', s.cut⟩
  | interrupt {s : IEng} : IReachMild s₀ s → (s.e.pc 0).exchanging = false → IReachMild s₀ s.interrupt

end Polog
