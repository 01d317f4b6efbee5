import Verif.File.Cut
import Mathlib.Data.Nat.Pairing

/-! Logs that are written in the middle of another call of the same file handler in the same thread: by a destructor that the garbage collector
runs (the object made by `log('text')` writes its record when it goes away, `finalizer.py:34`, and a class of the user may log in `__del__`),
or by a signal handler of the user. With the synchronous engine (`pool_size=0`) such a log is handed to the handler at once. The call that
was interrupted goes on when the destructor has ended.

A thread is a stack of calls, of which only the topmost goes on. Each of them is a thread of the model of the handler in `Cut.lean`, which
has both locks (`rotator.py:27`, `thread_lock.py:16`); they are plain locks, and the lock does not know which call of a thread has taken it.

Simplifications: those of `Cut.lean`; a destructor runs between two actions of the handler, not inside `file.write`. There are no interrupts
(`KeyboardInterrupt`) here. -/

namespace Polog

/-- The number of the call at the given depth of the stack of thread `t`; no code of the project. -/
def callNo (t d : Nat) : Nat := Nat.pair t d

/-- The handler, and how many destructors are in progress in every thread, one inside the other. writer.py:24-31. -/
structure NeState where
  f : CuState
  depth : Nat → Nat

/-- The topmost call of the stack of thread `t`; no code of the project. -/
def NeState.top (s : NeState) (t : Nat) : Nat := callNo t (s.depth t)

/-- One action. writer.py:33-65, rotator.py:29-53, file_dependency_wrapper.py:66-134, double_lock.py:19-31, finalizer.py:34. -/
inductive NeStep (c : FConf) : NeState → NeState → Prop
  /-- the topmost call of a thread goes on, or a call begins (in a destructor, if one is in progress) -/
  | go (s : NeState) (t : Nat) (f' : CuState) : CuStep c (s.top t) s.f f' → NeStep c s { s with f := f' }
  /-- a destructor or a signal handler starts in thread `t`, wherever the thread is -/
  | destructor (s : NeState) (t : Nat) : NeStep c s { s with depth := putAt s.depth t (s.depth t + 1) }
  /-- it has ended, and the thread goes on where it was -/
  | finished (s : NeState) (t d : Nat) : s.depth t = d + 1 → s.f.pc (s.top t) = .idle →
      NeStep c s { s with depth := putAt s.depth t d }

/-- Runs. writer.py:33-43. -/
inductive NeRun (c : FConf) (s₀ : NeState) : NeState → Prop
  | init : NeRun c s₀ s₀
  | step {s s' : NeState} : NeRun c s₀ s → NeStep c s s' → NeRun c s₀ s'

/-- A handler that has just been made, writer.py:24-31, and no destructor in progress. -/
structure NeStart (c : FConf) (s : NeState) : Prop where
  start : CuStart c s.f
  depth : ∀ t, s.depth t = 0

end Polog
