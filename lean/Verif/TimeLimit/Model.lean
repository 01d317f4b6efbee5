import Verif.Signature.Model

/-!
Model of `polog/core/utils/time_limit.py` and of the exit hook that uses it
(`polog/core/engine/engine.py:118-139`: `checker`, with `block` 105-111 and `stop` 97-103, and
`polog/core/engine/real_engines/multithreaded/pool.py:26-55`).

Time is counted in ticks of any fineness, from the call of the limited function.  The interpreter
delivers the interrupt of the timer thread (`thread.interrupt_main`, line 47) when the main thread is
back from a blocking operation: `time.sleep`, `Lock.acquire` and `Thread.join` are not cut short by it
(see the warning at lines 18-21 of `time_limit.py`).
-/

namespace Polog

/-- What a limit is given as. time_limit.py:58-77. -/
inductive DelayVal where
  /-- an `int` or `float`, in ticks (bools are integers in Python) -/
  | num (n : Int)
  /-- any other object -/
  | other
deriving DecidableEq

/-- What `time_limit(...)` is called with. time_limit.py:23-30. -/
inductive DelayArg where
  | value (v : DelayVal)
  /-- a callable: its signature, and what its call gives -/
  | fn (sig : SigObj) (result : Except PyErr DelayVal)

/-- The stored `self.delay`: what its call gives. time_limit.py:30, made by time_limit.py:58-77. -/
abbrev DelayFn := Except PyErr DelayVal

/-- `get_delay_function`, `time_limit.py:58-77`. -/
def getDelayFunction (isId : Str → Bool) : DelayArg → Except PyErr DelayFn
  | .fn sig result =>
    match (Matcher.init isId []).matches sig with
    | .ok true => .ok result
    | .ok false => .error .valueError
    | .error e => .error e
  | .value (.num n) => if n > 0 then .ok (.ok (.num n)) else .error .valueError
  | .value .other => .error .valueError

/-- Lines 40-45 of `time_limit.py`: the delay of the timer, `none` if no timer is started. -/
def timerDelay : DelayFn → Option Nat
  | .error _ => none
  | .ok .other => none
  | .ok (.num n) => if n ≤ 0 then none else some n.toNat

/-- How a call ends. time_limit.py:39-55. -/
inductive LimitOut (α : Type) where
  | returned (a : α)
  | raised (e : PyErr)
  /-- `KeyboardInterrupt` from elsewhere (ctrl+c) -/
  | interrupt
  | timeout
deriving DecidableEq

/-- The body of a function without handling of interrupts, as the durations of its uninterruptible
pieces and its outcome; and the moment it ends when a timer fires at `fire`: at the end of the first
piece that ends at or after `fire` the interrupt comes.
The decorated function of time_limit.py:39-55; code of others. -/
def runPieces {α : Type} (fire : Option Nat) (out : LimitOut α) : List Nat → Nat → LimitOut α × Nat
  | [], t => (out, t)
  | d :: rest, t =>
    match fire with
    | some f => if f ≤ t + d then (.interrupt, t + d) else runPieces fire out rest (t + d)
    | none => runPieces fire out rest (t + d)

/-- The wrapper, `time_limit.py:39-55`: an interrupt becomes `TimeoutError` if there is a timer.
Simplification: the timer fires exactly at its delay, and not between the end of the body and
`timer.cancel()`. -/
def limitedCall {α : Type} (delay : DelayFn) (out : LimitOut α) (pieces : List Nat) : LimitOut α × Nat :=
  match timerDelay delay with
  | none => runPieces none out pieces 0
  | some d =>
    match runPieces (some d) out pieces 0 with
    | (.interrupt, t) => (.timeout, t)
    | r => r

/-! ### The exit hook -/

/-- What the exit hook meets: everything the rest of the program does while it runs. engine.py:126-139. -/
structure ExitEnv where
  /-- the moment at which `self.lock.acquire()` of `Engine.block` (`engine.py:109-110`) succeeds -/
  lockAt : Nat
  /-- the interval of polling, `time_quant * delay_on_exit_loop_iteration_in_quants` (`pool.py:51`) -/
  interval : Nat
  /-- `self.queue.empty()` at a moment -/
  empty : Nat → Bool
  /-- the moment at which all joins return (`pool.py:38-41`) if the stop flags are set at a moment -/
  joined : Nat → Nat

/-- How the exit hook ended. engine.py:126-139. -/
structure ExitEnd where
  time : Nat
  /-- the queue was seen empty and the workers were joined -/
  drained : Bool
deriving DecidableEq

/-- The interrupt is pending at this moment.
`interrupt_main` of time_limit.py:46-47 has been called and the exception has not been raised yet. -/
def pending (fire : Option Nat) (t : Nat) : Bool :=
  match fire with
  | some f => f ≤ t
  | none => false

/-- `ThreadPool.stop` (`pool.py:26-41`) from the moment `t`: `wait_empty_queue` (43-55), then the flags
and the joins.  An interrupt inside it is swallowed by `exception_escaping` around `Engine.stop`
(`engine.py:97`), the hook ends there. -/
inductive StopRun (env : ExitEnv) (fire : Option Nat) : Nat → ExitEnd → Prop
  | interrupted {t : Nat} : pending fire t = true → StopRun env fire t ⟨t, false⟩
  | seen {t : Nat} : pending fire t = false → env.empty t = true → StopRun env fire t ⟨env.joined t, true⟩
  | sleep {t : Nat} {r : ExitEnd} : pending fire t = false → env.empty t = false →
      StopRun env fire (t + env.interval) r → StopRun env fire t r

/-- The exit hook `checker`, `engine.py:133-139`, from moment 0 to its end. -/
inductive HookRun (env : ExitEnv) (fire : Option Nat) : ExitEnd → Prop
  /-- the interrupt comes in `block`: `TimeoutError`, swallowed by `exception_escaping` -/
  | inBlock : pending fire env.lockAt = true → HookRun env fire ⟨env.lockAt, false⟩
  | inStop {r : ExitEnd} : pending fire env.lockAt = false → StopRun env fire env.lockAt r →
      HookRun env fire r

/-- The exit hook with the setting `max_delay_before_exit` (a number, checked by
`settings_store.py:106-112`: at least zero). -/
def ExitHook (env : ExitEnv) (maxDelay : Nat) (r : ExitEnd) : Prop :=
  HookRun env (timerDelay (.ok (.num maxDelay))) r

end Polog
