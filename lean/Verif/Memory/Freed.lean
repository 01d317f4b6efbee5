import Verif.Memory.Model
import Verif.File.Model

/-! Records that go away when `memory_saver` is cleaned. A record holds the arguments of the decorated function it is about
(`log_item.py:289-303`, `function_logger.py:184-186`), so when `clean` forgets the records, objects of the program may go away with them, and
their destructors run at once, in the same thread, in the middle of `clean`. A destructor may write a log (`finalizer.py:34` does it for the
objects made by `log('text')`; a class of the user may log in `__del__`). With the synchronous engine (`pool_size=0`,
`singlethreaded/engine.py:9-13`) this log is handed to the handler at once: a call of the handler inside of `clean`.

A thread is a stack of calls of the handler, of which only the topmost goes on.

Simplifications: those of `Memory/Model.lean`, and no constructor calls (the object is ready); `dies r` lists the logs that are written by the
destructors of the objects that only the record `r` keeps alive, in the order in which they go away; the program keeps no reference of its own to
the list `all` or to its records; every destructor writes its log to this handler and to no other. -/

namespace Polog

variable {L : Type}

/-- The handler, the calls in progress in every thread (the topmost first), and the logs that are still to be written by destructors that run in
the middle of a call, with the number of this call. saver.py:17-40. -/
structure FrState (L : Type) where
  m : MemState L
  stack : Nat → List Nat
  todo : Nat → List L

/-- The logs that destructors write during the next statement of call `n`. `self.all = []` (saver.py:39) frees the list and all the records in it
but the last one, to which `last` still refers, and CPython frees the items of a list from the end; `self.last = None` (saver.py:40) frees this one.
`self.all.append(log)` and `self.last = log` (saver.py:30-31) free nothing: the old `last` is in `all`. -/
def freedBy (dies : L → List L) (s : MemState L) (n : Nat) : List L :=
  match s.pc n with
  | .holding .clean => s.all.dropLast.reverse.flatMap dies
  | .half .clean => s.last.toList.flatMap dies
  | _ => []

/-- Call `n` begins. saver.py:24-29, 33-38. -/
def FrState.push (s : FrState L) (t n : Nat) (k : MemCall L) : FrState L :=
  { s with m := { s.m with pc := s.m.move n (.waiting k) }, stack := putAt s.stack t (n :: s.stack t) }

/-- One action. `gc`: the garbage collector may run at any moment, and with it destructors that log. saver.py:24-40. -/
inductive FrStep (dies : L → List L) (gc : Bool) : FrState L → FrState L → Prop
  /-- the program calls the handler or `clean` in thread `t` -/
  | call (s : FrState L) (t n : Nat) (k : MemCall L) : s.stack t = [] → s.m.pc n = .idle → k ≠ .construct → FrStep dies gc s (s.push t n k)
  /-- the topmost call of thread `t` goes on -/
  | go (s : FrState L) (t n : Nat) (rest : List Nat) (m' : MemState L) : s.stack t = n :: rest → s.todo n = [] → MemStep n s.m m' →
      FrStep dies gc s { s with m := m', todo := putAt s.todo n (freedBy dies s.m n) }
  /-- the next destructor that runs in the middle of the topmost call writes its log -/
  | destructor (s : FrState L) (t n c : Nat) (rest : List Nat) (x : L) (xs : List L) : s.stack t = n :: rest → s.todo n = x :: xs →
      s.m.pc c = .idle → FrStep dies gc s { s.push t c (.save x) with todo := putAt s.todo n xs }
  /-- the garbage collector runs in thread `t`, and a destructor writes the log `x` -/
  | collected (s : FrState L) (t c : Nat) (x : L) : gc = true → s.m.pc c = .idle → FrStep dies gc s (s.push t c (.save x))
  /-- the topmost call has returned -/
  | returns (s : FrState L) (t n : Nat) (rest : List Nat) (k : MemCall L) : s.stack t = n :: rest → s.todo n = [] → s.m.pc n = .finished k →
      FrStep dies gc s { s with stack := putAt s.stack t rest }

/-- Runs. saver.py:24-40. -/
inductive FrRun (dies : L → List L) (gc : Bool) (s₀ : FrState L) : FrState L → Prop
  | init : FrRun dies gc s₀ s₀
  | step {s s' : FrState L} : FrRun dies gc s₀ s → FrStep dies gc s s' → FrRun dies gc s₀ s'

/-- The object is ready and nothing is in progress. saver.py:17-22. -/
def FrState.ready (L : Type) : FrState L := ⟨.ready L, fun _ => [], fun _ => []⟩

end Polog
