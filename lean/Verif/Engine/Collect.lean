import Verif.Engine.Progress
import Mathlib.Data.Nat.Pairing

/-!
Logs written by destructors. The object made by `log('text')` writes its record when it goes away (`finalizer.py:34`), and a class of the user
may log in `__del__`. If the object is part of a cycle it goes away when the garbage collector runs, and the collector runs in any thread at
almost any moment: in the middle of a log call or of `config.set`, too. The call that was interrupted goes on when the destructor has ended.

A thread is a stack of calls, of which only the topmost goes on. In the model of the engine each of them is a thread of its own.

Left out: destructors that run in a worker thread.
-/

namespace Polog

/-- The number of the call at the given depth of the stack of thread `t`; no code of the project. -/
def frameNo (t d : Nat) : Nat := Nat.pair t d

/-- The engine, the depth of the stack of every thread, and the calls that were interrupted inside `queue.put`, where they hold the mutex of
the queue of the given engine. engine.py:29-139, pool.py:20-24; the mutex belongs to `queue.Queue` of Python. -/
structure GcEng where
  e : Eng
  depth : Nat → Nat
  mutex : Nat → Option Nat

/-- engine.py:29-40. -/
def GcEng.init : GcEng := ⟨Eng.init, fun _ => 0, fun _ => none⟩

/-- The topmost call of the stack of thread `t`; no code of the project. -/
def GcEng.top (s : GcEng) (t : Nat) : Nat := frameNo t (s.depth t)

/-- The queue into which a thread at this place puts a log. engine.py:69, 73. -/
def PC.putsInto : PC → Option Nat
  | .wHand _ k => some k
  | .bHand _ k => some k
  | _ => none

/-- The step of a worker, or of `stop`, takes the mutex of the queue: `get` (worker.py:27) or `empty` (pool.py:53). -/
def usesQueue (p p' : Pool) : Prop :=
  p'.queue ≠ p.queue ∨ (∃ i, p.worker i = .waiting ∧ p'.worker i = .expired) ∨ (p.stop = .polling ∧ p'.stop ≠ .polling)

/-- One atomic step. engine.py:42-139, worker.py:16-38, pool.py:20-55, finalizer.py:34. A call that was interrupted inside `put` found room in the
queue (otherwise it waits and gives the mutex back). -/
inductive GcStep : GcEng → GcEng → Prop where
  /-- the topmost call of a thread goes on -/
  | thread (s : GcEng) (t : Nat) (g' : Glob) (p' : PC) (h : TStep (s.top t) s.e.g (s.e.pc (s.top t)) g' p')
      (free : ∀ k, (s.e.pc (s.top t)).putsInto = some k → s.mutex k = none ∨ s.mutex k = some (s.top t)) :
      GcStep s { s with
        e := ⟨g', setFn s.e.pc (s.top t) p'⟩
        mutex := fun k => if s.mutex k = some (s.top t) then none else s.mutex k }
  | pool (s : GcEng) (k : Nat) (p p' : Pool) (a : PLabel) (hk : k < s.e.g.loads) (hr : s.e.g.real k = .pool p)
      (hp : PStep p a p') (hput : ∀ l, a ≠ .put l) (hstop : a ≠ .stop) (free : s.mutex k = none ∨ ¬ usesQueue p p') :
      GcStep s { s with e := ⟨{ s.e.g with real := setFn s.e.g.real k (.pool p'), seq := s.e.g.seq ++ a.log?.toList }, s.e.pc⟩ }
  /-- the garbage collector calls a destructor in thread `t` -/
  | collect (s : GcEng) (t : Nat) : GcStep s { s with depth := setFn s.depth t (s.depth t + 1) }
  /-- … while the thread is inside `queue.put` -/
  | collectInPut (s : GcEng) (t k : Nat) (p : Pool) (hp : (s.e.pc (s.top t)).putsInto = some k) (hr : s.e.g.real k = .pool p)
      (room : p.cap = 0 ∨ p.queue.length < p.cap) (free : s.mutex k = none) :
      GcStep s { s with depth := setFn s.depth t (s.depth t + 1), mutex := setFn s.mutex k (some (s.top t)) }
  /-- the destructor has ended -/
  | finished (s : GcEng) (t d : Nat) (hd : s.depth t = d + 1) (hi : s.e.pc (s.top t) = .idle) :
      GcStep s { s with depth := setFn s.depth t d }

/-- The states reachable from `s₀`. engine.py:42-139. -/
inductive GcReach (s₀ : GcEng) : GcEng → Prop where
  | init : GcReach s₀ s₀
  | step {s s' : GcEng} : GcReach s₀ s → GcStep s s' → GcReach s₀ s'

end Polog
