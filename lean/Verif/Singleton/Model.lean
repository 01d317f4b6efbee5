/-!
Model of `polog/core/utils/read_only_singleton.py` (`ReadOnlySingleton.__new__`), the base of the
settings store, the engine wrapper and `memory_saver`, called from any number of threads.

A *call* `Cls()` is numbered; its progress is a program counter.  One step of the model is one of the
interpreter's steps on shared data; between them any other call may move.
-/

namespace Polog

/-- Where a call `Cls()` is. read_only_singleton.py:11-21. -/
inductive NewPc where
  /-- not started -/
  | idle
  /-- `cls.__new__` was looked up and is the original one (line 11); next: take the lock (line 16) -/
  | original
  /-- inside the lock; next: `super().__new__(cls)` (line 19, right side) -/
  | locked
  /-- the object `o` is made; next: `cls.instance = …` (line 19, left side) -/
  | created (o : Nat)
  /-- next: `cls.__new__ = __new__` (line 20) -/
  | assigned
  /-- next: read `cls.instance` (line 21) -/
  | replaced
  /-- the result is read; next: leave the lock and return -/
  | leaving (o : Nat)
  /-- `cls.__new__` was looked up and is the replaced one (line 17); next: read `cls.instance` (line 18) -/
  | quick
  /-- returned the object `o` -/
  | returned (o : Nat)
deriving DecidableEq

/-- Shared data and all calls. read_only_singleton.py:4-21. -/
structure NewState where
  /-- holder of `create_lock` (line 9) -/
  lock : Option Nat
  /-- `cls.instance` -/
  inst : Option Nat
  /-- `cls.__new__` has been replaced (line 20) -/
  quickNew : Bool
  /-- the number of the next object -/
  next : Nat
  pc : Nat → NewPc

/-- A call goes to another place of read_only_singleton.py:11-21. -/
def NewState.move (s : NewState) (c : Nat) (p : NewPc) : Nat → NewPc :=
  fun c' => if c' = c then p else s.pc c'

/-- The program start: nothing constructed, no call started. read_only_singleton.py:4-10. -/
def NewState.init : NewState := ⟨none, none, false, 0, fun _ => .idle⟩

/-- One step of call `c`. read_only_singleton.py:11-21. -/
inductive NewStep (c : Nat) : NewState → NewState → Prop
  | lookOriginal {s : NewState} : s.pc c = .idle → s.quickNew = false →
      NewStep c s { s with pc := s.move c .original }
  | lookQuick {s : NewState} : s.pc c = .idle → s.quickNew = true →
      NewStep c s { s with pc := s.move c .quick }
  | acquire {s : NewState} : s.pc c = .original → s.lock = none →
      NewStep c s { s with lock := some c, pc := s.move c .locked }
  | create {s : NewState} : s.pc c = .locked →
      NewStep c s { s with next := s.next + 1, pc := s.move c (.created s.next) }
  | assign {s : NewState} {o : Nat} : s.pc c = .created o →
      NewStep c s { s with inst := some o, pc := s.move c .assigned }
  | replace {s : NewState} : s.pc c = .assigned →
      NewStep c s { s with quickNew := true, pc := s.move c .replaced }
  | read {s : NewState} {o : Nat} : s.pc c = .replaced → s.inst = some o →
      NewStep c s { s with pc := s.move c (.leaving o) }
  | leave {s : NewState} {o : Nat} : s.pc c = .leaving o →
      NewStep c s { s with lock := none, pc := s.move c (.returned o) }
  | readQuick {s : NewState} {o : Nat} : s.pc c = .quick → s.inst = some o →
      NewStep c s { s with pc := s.move c (.returned o) }

/-- `NewRun s t`: the calls went from `s` to `t` in some interleaving. read_only_singleton.py:11-21. -/
inductive NewRun (s : NewState) : NewState → Prop
  | refl : NewRun s s
  | step {t u : NewState} {c : Nat} : NewRun s t → NewStep c t u → NewRun s u

/-- `SoloRun c s t`: only call `c` moved from `s` to `t`. read_only_singleton.py:11-21. -/
inductive SoloRun (c : Nat) (s : NewState) : NewState → Prop
  | refl : SoloRun c s s
  | step {t u : NewState} : SoloRun c s t → NewStep c t u → SoloRun c s u

end Polog
