import Verif.File.Model

/-!
The file handler when the system refuses to take data: a full disk, a quota, an error of the device.
`polog/handlers/file/writer.py`, `file_dependency_wrapper.py`.

What a file object of Python does then (`TextIOWrapper` over `BufferedWriter`).  Texts wait in the text layer (`pend`),
from where they are handed on together to the binary layer (`buf`), which keeps up to `cap` bytes.
* Handing on what does not fit makes the binary layer write its buffer first.  If the system refuses, the buffer keeps
  what was not taken, and what was to be handed on is dropped; if the buffer was written and the text itself is larger
  than the buffer, a part of the text may be taken before the system refuses, and the rest is dropped.
* If the system refuses while the binary layer is flushed, it keeps what was not taken.
* A `close` during which the system refuses closes the file all the same, and drops the rest.
-/

namespace Polog

/-- `cap`: the size of the binary buffer. `threads`: how many threads call the handler. `serial`: the calls
do not overlap (one worker, or the synchronous engine). file_dependency_wrapper.py:62, 84. -/
structure DkConf where
  cap : Nat
  threads : Nat
  serial : Bool

/-- Where a thread is in `file_writer.do(line)`, writer.py:33-43. -/
inductive DkPc where
  | idle
  | start (line : Str)
  | writing (line : Str)
  | flushing (line : Str)
deriving DecidableEq

/-- `old`: contents of the rotated files, in order; `cur`: of the file the handler has (or had) open; `opened`: it is
open; `named`: there is a file under the name the handler was given.  `given` and `calls` record history: the lines for
which `self.file.write` was called on an open file; the lines for which the handler has ended, with `true` if it ended normally and
`false` if `run_alt` was called instead (base.py:44-48).
file_dependency_wrapper.py:14-64. -/
structure DkState where
  old : List Str
  cur : Str
  buf : Str
  pend : Str
  opened : Bool
  named : Bool
  pc : Nat → DkPc
  given : List Str
  calls : List (Str × Bool)

/-- The handler after its creation, with an empty file. file_dependency_wrapper.py:14-27, 62. -/
def DkState.init : DkState := ⟨[], [], [], [], true, true, fun _ => .idle, [], []⟩

/-- One atomic action; `move_file`, `write` and `flush` are atomic because of the lock (C40).  Simplifications: when a
rotation rule fires is left open (C37); a move is a rename or has no effect, and opening the new file succeeds (C36);
`forced_flush` is on; the system takes whole characters. writer.py:33-65, file_dependency_wrapper.py:66-126. -/
inductive DkStep (c : DkConf) : DkState → DkState → Prop
  | call (s : DkState) (t : Nat) (line : Str) : t < c.threads → s.pc t = .idle →
      (c.serial = true → ∀ u, s.pc u = .idle) →
      DkStep c s { s with pc := putAt s.pc t (.start line) }
  /-- no rotation, or an attempt without effect -/
  | skip (s : DkState) (t : Nat) (line : Str) : s.pc t = .start line →
      DkStep c s { s with pc := putAt s.pc t (.writing line) }
  /-- `move_file`: the rename, `close` and `open`, file_dependency_wrapper.py:119-126 -/
  | rotate (s : DkState) (t : Nat) (line : Str) : s.pc t = .start line → s.named = true → s.opened = true →
      DkStep c s { s with old := s.old ++ [s.cur ++ s.buf ++ s.pend], cur := [], buf := [], pend := [],
                          pc := putAt s.pc t (.writing line) }
  /-- the same; in `close` the system takes `k` characters and refuses the rest; the exception is swallowed, writer.py:59-65 -/
  | rotateRefused (s : DkState) (t : Nat) (line : Str) (k : Nat) : s.pc t = .start line → s.named = true →
      s.opened = true → k < (s.buf ++ s.pend).length →
      DkStep c s { s with old := s.old ++ [s.cur ++ (s.buf ++ s.pend).take k], cur := [], buf := [], pend := [],
                          opened := false, named := false, pc := putAt s.pc t (.writing line) }
  /-- `self.file.write(line)`: the line waits in the text layer -/
  | writeKeep (s : DkState) (t : Nat) (line : Str) : s.pc t = .writing line → s.opened = true →
      DkStep c s { s with pend := s.pend ++ line, given := s.given ++ [line],
                          pc := putAt s.pc t (.flushing line) }
  /-- what waits is handed on, of which the system takes a part; then the line waits -/
  | writePush (s : DkState) (t : Nat) (line : Str) (a : Nat) : s.pc t = .writing line → s.opened = true →
      DkStep c s { s with cur := s.cur ++ (s.buf ++ s.pend).take a, buf := (s.buf ++ s.pend).drop a, pend := line,
                          given := s.given ++ [line], pc := putAt s.pc t (.flushing line) }
  /-- what waits and the line are handed on -/
  | writeThrough (s : DkState) (t : Nat) (line : Str) (a : Nat) : s.pc t = .writing line → s.opened = true →
      DkStep c s { s with cur := s.cur ++ (s.buf ++ (s.pend ++ line)).take a,
                          buf := (s.buf ++ (s.pend ++ line)).drop a, pend := [],
                          given := s.given ++ [line], pc := putAt s.pc t (.flushing line) }
  /-- it does not fit, and the system refuses the buffer: `OSError` -/
  | writeRefused (s : DkState) (t : Nat) (line : Str) (k : Nat) : s.pc t = .writing line → s.opened = true →
      k < s.buf.length → c.cap < byteSize (s.buf ++ (s.pend ++ line)) →
      DkStep c s { s with cur := s.cur ++ s.buf.take k, buf := s.buf.drop k, pend := [],
                          given := s.given ++ [line], calls := s.calls ++ [(line, false)], pc := putAt s.pc t .idle }
  /-- it is larger than the buffer, and the system takes only a part of it: `OSError` -/
  | writeTorn (s : DkState) (t : Nat) (line : Str) (k : Nat) : s.pc t = .writing line → s.opened = true →
      k < (s.pend ++ line).length → c.cap < byteSize (s.pend ++ line) →
      DkStep c s { s with cur := s.cur ++ s.buf ++ (s.pend ++ line).take k, buf := [], pend := [],
                          given := s.given ++ [line], calls := s.calls ++ [(line, false)], pc := putAt s.pc t .idle }
  /-- the file is closed: `ValueError` -/
  | writeClosed (s : DkState) (t : Nat) (line : Str) : s.pc t = .writing line → s.opened = false →
      DkStep c s { s with calls := s.calls ++ [(line, false)], pc := putAt s.pc t .idle }
  /-- `self.file.flush()` -/
  | flush (s : DkState) (t : Nat) (line : Str) : s.pc t = .flushing line → s.opened = true →
      DkStep c s { s with cur := s.cur ++ s.buf ++ s.pend, buf := [], pend := [],
                          calls := s.calls ++ [(line, true)], pc := putAt s.pc t .idle }
  /-- what waits is handed on, and the system refuses: `OSError`, everything is kept -/
  | flushHeld (s : DkState) (t : Nat) (line : Str) (k : Nat) : s.pc t = .flushing line → s.opened = true →
      k < (s.buf ++ s.pend).length →
      DkStep c s { s with cur := s.cur ++ (s.buf ++ s.pend).take k, buf := (s.buf ++ s.pend).drop k, pend := [],
                          calls := s.calls ++ [(line, false)], pc := putAt s.pc t .idle }
  /-- what waits does not fit, and the system refuses the buffer: `OSError` -/
  | flushRefused (s : DkState) (t : Nat) (line : Str) (k : Nat) : s.pc t = .flushing line → s.opened = true →
      k < s.buf.length → c.cap < byteSize (s.buf ++ s.pend) →
      DkStep c s { s with cur := s.cur ++ s.buf.take k, buf := s.buf.drop k, pend := [],
                          calls := s.calls ++ [(line, false)], pc := putAt s.pc t .idle }
  /-- what waits is larger than the buffer, and the system takes only a part of it: `OSError` -/
  | flushTorn (s : DkState) (t : Nat) (line : Str) (k : Nat) : s.pc t = .flushing line → s.opened = true →
      k < s.pend.length → c.cap < byteSize s.pend →
      DkStep c s { s with cur := s.cur ++ s.buf ++ s.pend.take k, buf := [], pend := [],
                          calls := s.calls ++ [(line, false)], pc := putAt s.pc t .idle }
  | flushClosed (s : DkState) (t : Nat) (line : Str) : s.pc t = .flushing line → s.opened = false →
      DkStep c s { s with calls := s.calls ++ [(line, false)], pc := putAt s.pc t .idle }

/-- Executions from `s₀`. writer.py:33-43. -/
inductive DkReach (c : DkConf) (s₀ : DkState) : DkState → Prop
  | init : DkReach c s₀ s₀
  | step {s s' : DkState} : DkReach c s₀ s → DkStep c s s' → DkReach c s₀ s'

end Polog
