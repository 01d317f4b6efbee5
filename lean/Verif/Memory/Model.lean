/-!
Model of `polog/handlers/memory/saver.py` (`memory_saver`), the handler that keeps records in memory,
used from any number of threads.  A *call* (of the constructor, of the handler itself or of `clean`) is
numbered; a step is one operation on shared data.
-/

namespace Polog

/-- The calls a program makes. saver.py:17-40. -/
inductive MemCall (L : Type) where
  /-- `memory_saver()` on the existing object: `__init__`, lines 17-22 -/
  | construct
  /-- `saver(log)`: `__call__`, lines 24-31 -/
  | save (log : L)
  /-- `saver.clean()`, lines 33-40 -/
  | clean
deriving DecidableEq

/-- Where a call is. saver.py:17-40. -/
inductive MemPc (L : Type) where
  | idle
  /-- `save` / `clean`: waiting for the semaphore (lines 29, 38).  The `with Lock()` of line 28 takes a
  lock nobody else knows and never waits. -/
  | waiting (call : MemCall L)
  /-- the semaphore is held; next: the assignment to `all` (lines 30, 39) -/
  | holding (call : MemCall L)
  /-- next: the assignment to `last` (lines 31, 40) -/
  | half (call : MemCall L)
  /-- next: leave the semaphore -/
  | leaving (call : MemCall L)
  /-- `construct`: `hasattr(self, 'inited')` was false (line 19); next: `self.all = []` (line 21) -/
  | notInited
  /-- `construct`: next: `self.inited = True` (line 22) -/
  | emptied
  | finished (call : MemCall L)
deriving DecidableEq

/-- Shared data, all calls, and (ghost) the order in which records and cleanings took effect on `all`.
saver.py:17-40. -/
structure MemState (L : Type) where
  /-- holder of `all_semaphore` (line 15; its value is 1) -/
  sem : Option Nat
  all : List L
  last : Option L
  inited : Bool
  pc : Nat → MemPc L
  /-- ghost: call numbers and calls, latest last -/
  hist : List (Nat × MemCall L)

/-- A call goes to another place of saver.py:17-40. -/
def MemState.move {L : Type} (s : MemState L) (c : Nat) (p : MemPc L) : Nat → MemPc L :=
  fun c' => if c' = c then p else s.pc c'

/-- The object has just been made by `__new__`: no `__init__` has run. read_only_singleton.py:11-21. -/
def MemState.new (L : Type) : MemState L := ⟨none, [], none, false, fun _ => .idle, []⟩

/-- The object after the first constructor call is over. saver.py:17-22. -/
def MemState.ready (L : Type) : MemState L := ⟨none, [], none, true, fun _ => .idle, []⟩

/-- The new value of `all`: lines 30 and 39. saver.py:30, 39. -/
def MemCall.onAll {L : Type} : MemCall L → List L → List L
  | .save log, all => all ++ [log]
  | .clean, _ => []
  | .construct, all => all

/-- The new value of `last`: lines 31 and 40. saver.py:31, 40. -/
def MemCall.onLast {L : Type} : MemCall L → Option L → Option L
  | .save log, _ => some log
  | .clean, _ => none
  | .construct, last => last

/-- One step of call number `c`.  Simplification: `save` and `clean` start only when some constructor
call has set `inited` (a thread that has the object has been through a constructor call). saver.py:17-40. -/
inductive MemStep {L : Type} (c : Nat) : MemState L → MemState L → Prop
  | start {s : MemState L} {call : MemCall L} : s.pc c = .idle → s.inited = true → call ≠ .construct →
      MemStep c s { s with pc := s.move c (.waiting call) }
  | acquire {s : MemState L} {call : MemCall L} : s.pc c = .waiting call → s.sem = none →
      MemStep c s { s with sem := some c, pc := s.move c (.holding call) }
  | setAll {s : MemState L} {call : MemCall L} : s.pc c = .holding call →
      MemStep c s { s with all := call.onAll s.all, pc := s.move c (.half call), hist := s.hist ++ [(c, call)] }
  | setLast {s : MemState L} {call : MemCall L} : s.pc c = .half call →
      MemStep c s { s with last := call.onLast s.last, pc := s.move c (.leaving call) }
  | release {s : MemState L} {call : MemCall L} : s.pc c = .leaving call →
      MemStep c s { s with sem := none, pc := s.move c (.finished call) }
  | skip {s : MemState L} : s.pc c = .idle → s.inited = true →
      MemStep c s { s with pc := s.move c (.finished .construct) }
  | begin {s : MemState L} : s.pc c = .idle → s.inited = false →
      MemStep c s { s with pc := s.move c .notInited }
  | empty {s : MemState L} : s.pc c = .notInited →
      MemStep c s { s with all := [], pc := s.move c .emptied }
  | mark {s : MemState L} : s.pc c = .emptied →
      MemStep c s { s with inited := true, pc := s.move c (.finished .construct) }

/-- Any interleaving of calls. saver.py:17-40. -/
inductive MemRun {L : Type} (s : MemState L) : MemState L → Prop
  | refl : MemRun s s
  | step {t u : MemState L} {c : Nat} : MemRun s t → MemStep c t u → MemRun s u

end Polog
