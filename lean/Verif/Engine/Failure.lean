import Verif.Engine.Progress

/-!
Failures to create an engine.  `Engine.load` (`engine.py:88-95`) calls the setting `engine` — the
factory of polog (`fabric.py:5-13`) or a class of the user (`settings_store.py:127-133`) — and may
get an exception: the factory starts threads (`worker.py:44-46`: `RuntimeError: can't start new
thread`), a class of the user does whatever it does.  `load` and `stop` are under
`exception_escaping` (`engine.py:88, 97`), so the exception goes no further: `self.real_engine` keeps
its old value, or is still missing.

Left out: the workers that a pool had already started when it failed (nothing is ever put into their
queue), and the parts of the engine that `Engine/Model.lean` leaves out.
-/

namespace Polog

/-- The system, with the history of the log calls that raised (oldest first). engine.py:29-139. -/
structure FEng where
  e : Eng
  raised : List Log

/-- engine.py:29-40. -/
def FEng.init : FEng := ⟨Eng.init, []⟩

/-- One step of the system in which engines may fail to be created. engine.py:42-139. -/
inductive FailStep : FEng → FEng → Prop where
  /-- everything that happens when nothing fails -/
  | run (s : FEng) (e' : Eng) (h : EStep s.e e') : FailStep s ⟨e', s.raised⟩
  /-- the first `load` fails: `engine.py:50` is escaped, `__second_init__` goes on with line 51 -/
  | firstFails (s : FEng) (t : Nat) (l : Log)
      (h : s.e.pc t = .wLoad l ∨ s.e.pc t = .wLoadCap l ∨ ∃ c, s.e.pc t = .wLoadSize l c) :
      FailStep s ⟨⟨s.e.g, setFn s.e.pc t (.wHook l)⟩, s.raised⟩
  /-- the `load` of a reload fails, `engine.py:85`; `reload` goes on with `unlock` -/
  | loadFails (s : FEng) (t : Nat) (h : s.e.pc t = .cLoad) :
      FailStep s ⟨⟨s.e.g, setFn s.e.pc t .cUnblock⟩, s.raised⟩
  /-- `stop` without an engine: `AttributeError`, escaped, `engine.py:97-103` -/
  | stopNone (s : FEng) (t : Nat) (h : s.e.pc t = .cStop) (h0 : s.e.g.loads = 0) :
      FailStep s ⟨⟨s.e.g, setFn s.e.pc t .cLoad⟩, s.raised⟩
  | exitNone (s : FEng) (t : Nat) (h : s.e.pc t = .xStop) (h0 : s.e.g.loads = 0) :
      FailStep s ⟨⟨s.e.g, setFn s.e.pc t .xEnd⟩, s.raised⟩
  /-- `stop` of a pool that has been stopped before: it waits for its queue again, `pool.py:36-41` -/
  | stopAgain (s : FEng) (t k : Nat) (p : Pool) (h : s.e.pc t = .cStop) (hl : s.e.g.loads = k + 1)
      (hr : s.e.g.real k = .pool p) (hs : p.stop = .done) :
      FailStep s ⟨⟨{ s.e.g with real := setFn s.e.g.real k (.pool { p with stop := .polling }) },
        setFn s.e.pc t (.cStopping k)⟩, s.raised⟩
  | exitAgain (s : FEng) (t k : Nat) (p : Pool) (h : s.e.pc t = .xStop) (hl : s.e.g.loads = k + 1)
      (hr : s.e.g.real k = .pool p) (hs : p.stop = .done) :
      FailStep s ⟨⟨{ s.e.g with real := setFn s.e.g.real k (.pool { p with stop := .polling }) },
        setFn s.e.pc t (.xStopping k)⟩, s.raised⟩
  /-- `_blocked_write` without an engine: `AttributeError` inside `with self.lock`, `engine.py:72-73` -/
  | blockedNone (s : FEng) (t : Nat) (l : Log) (h : s.e.pc t = .bFetch l) (h0 : s.e.g.loads = 0) :
      FailStep s ⟨⟨{ s.e.g with engLock := none }, setFn s.e.pc t (.wFailed l)⟩, s.raised⟩
  /-- the `AttributeError` of `engine.py:69, 73` leaves the log call -/
  | raise (s : FEng) (t : Nat) (l : Log) (h : s.e.pc t = .wFailed l) :
      FailStep s ⟨⟨s.e.g, setFn s.e.pc t .idle⟩, s.raised ++ [l]⟩

/-- The states reachable from `s₀` when the creation of an engine may fail at any time. engine.py:42-139. -/
inductive FailReach (s₀ : FEng) : FEng → Prop where
  | init : FailReach s₀ s₀
  | step {s s' : FEng} : FailReach s₀ s → FailStep s s' → FailReach s₀ s'

end Polog
