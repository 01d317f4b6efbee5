import Verif.File.Model

/-! Model of several processes, each with its own `file_writer` for the same name
(`polog/handlers/file/writer.py`, `file_dependency_wrapper.py`, `rotation/rotator.py`), with
`forced_flush=True` (the default) and one logging thread per process.  Processes may start and die at
any moment.

The only thing the file lock (`lock_type='file'`, file_dependency_wrapper.py:70, 98, 120) does is to make
each of `write`, `flush` and `move_file` atomic with respect to other processes.  `write` and `flush` are
atomic here; `move_file` is split into the attempts to move and the reopening, so that a process can die
in between.  That other living processes may act in between is more than the lock allows. -/

namespace Polog

/-- Where the thread of a process is in `file_writer.do(line)`, writer.py:33-43. -/
inductive MPc where
  /-- the process does not exist (yet), or has no handler -/
  | absent
  /-- the process has died -/
  | dead
  | idle
  | checking (line : Str)
  /-- about to call `shutil.move`; `again`: the second attempt, after making the directory -/
  | moving (line : Str) (again : Bool)
  /-- has moved the file, about to reopen it, file_dependency_wrapper.py:126 -/
  | reopening (line : Str)
  | writing (line : Str)
  | flushing (line : Str)
deriving DecidableEq

/-- The file system, and for every process its open file and the buffer of that file.
`finished`, `rotated` only record history: lines for which `do` has finished without an exception, and
names of files made by rotations. file_dependency_wrapper.py:14-64, in each process. -/
structure MState where
  files : Str → Option Nat
  data : Nat → Str
  fresh : Nat
  fd : Nat → Option Nat
  buf : Nat → Str
  pc : Nat → MPc
  finished : List Str
  rotated : List Str

/-- The file system and the open file of process `p`, to which the operations of the model of one
process apply. file_dependency_wrapper.py:14-64. -/
def MState.view (s : MState) (p : Nat) : FileW := ⟨s.files, s.data, s.fresh, s.fd p, s.buf p⟩

/-- Process `p` has changed the file system and its open file. file_dependency_wrapper.py:66-126. -/
def MState.put (s : MState) (p : Nat) (w : FileW) : MState :=
  { s with files := w.files, data := w.data, fresh := w.fresh,
           fd := putAt s.fd p w.file, buf := putAt s.buf p w.buf }

/-- Parameters: the name of the file, when the rules of the rotator fire, whether rotated files stay on
the file system of the log, and whether every line fits into the buffer of the open file (then Python
gives nothing to the system before `flush`). writer.py:24-31. -/
structure MConf where
  fn : Str
  fires : Nat → Bool
  sameFs : Bool
  short : Bool

/-- One action of one process. writer.py:33-57, file_dependency_wrapper.py:66-126, double_lock.py:19-31. -/
inductive MStep (c : MConf) : MState → MState → Prop
  /-- a process starts and makes a handler: the file is opened, file_dependency_wrapper.py:58 -/
  | start (s : MState) (p : Nat) : s.pc p = .absent →
      MStep c s { s.put p (FileW.open ⟨s.files, s.data, s.fresh, none, []⟩ c.fn true) with
        pc := putAt s.pc p .idle }
  /-- a process dies; what is in its buffer disappears -/
  | die (s : MState) (p : Nat) :
      MStep c s { s with pc := putAt s.pc p .dead, fd := putAt s.fd p none, buf := putAt s.buf p [] }
  | call (s : MState) (p : Nat) (line : Str) : s.pc p = .idle →
      MStep c s { s with pc := putAt s.pc p (.checking line) }
  /-- rotator.py:36: a rule fires -/
  | fire (s : MState) (p : Nat) (line : Str) (n : Nat) : s.pc p = .checking line →
      (s.view p).size c.fn = some n → c.fires n = true →
      MStep c s { s with pc := putAt s.pc p (.moving line false) }
  /-- no rule fires, or asking for the size raises (swallowed, writer.py:59-65) -/
  | pass (s : MState) (p : Nat) (line : Str) : s.pc p = .checking line →
      (∀ n, (s.view p).size c.fn = some n → c.fires n = false) →
      MStep c s { s with pc := putAt s.pc p (.writing line) }
  /-- an attempt to move, file_dependency_wrapper.py:121-125; the name is new (C70) -/
  | move (s : MState) (p : Nat) (line target : Str) (again : Bool) (r : MoveRes) :
      s.pc p = .moving line again → s.files target = none → target ≠ c.fn →
      (c.sameFs = true → r.copies = false) →
      MStep c s { s.put p ((s.view p).moveOnce c.fn target r).1 with
        pc := putAt s.pc p (match ((s.view p).moveOnce c.fn target r).2 with
          | .moved => .reopening line
          | .notFound => if again then .writing line else .moving line true
          | .failed => .writing line)
        rotated := if ((s.view p).moveOnce c.fn target r).2 = .moved then s.rotated ++ [target]
          else s.rotated }
  /-- `make_dirs_for_path` raises: swallowed -/
  | noDirs (s : MState) (p : Nat) (line : Str) : s.pc p = .moving line true →
      MStep c s { s with pc := putAt s.pc p (.writing line) }
  /-- `reopen`, file_dependency_wrapper.py:86-92; `ok = false`: opening raises, which is swallowed -/
  | reopen (s : MState) (p : Nat) (line : Str) (ok : Bool) : s.pc p = .reopening line →
      MStep c s { s.put p ((s.view p).reopen c.fn ok) with pc := putAt s.pc p (.writing line) }
  | write (s : MState) (p : Nat) (line : Str) (auto : Nat) (w' : FileW) : s.pc p = .writing line →
      (c.short = true → auto = 0) → (s.view p).write line auto = some w' →
      MStep c s { s.put p w' with pc := putAt s.pc p (.flushing line) }
  | flush (s : MState) (p : Nat) (line : Str) (w' : FileW) : s.pc p = .flushing line →
      (s.view p).flush = some w' →
      MStep c s { s.put p w' with pc := putAt s.pc p .idle, finished := s.finished ++ [line] }
  /-- the file is closed: `write` raises -/
  | fails (s : MState) (p : Nat) (line : Str) : s.pc p = .writing line → s.fd p = none →
      MStep c s { s with pc := putAt s.pc p .idle }

/-- At the beginning no process has a handler. Before writer.py:24-31. -/
structure MStart (s : MState) : Prop where
  absent : ∀ p, s.pc p = .absent
  closed : ∀ p, s.fd p = none
  buf : ∀ p, s.buf p = []
  below : ∀ n i, s.files n = some i → i < s.fresh
  unused : ∀ i, s.fresh ≤ i → s.data i = []
  history : s.finished = [] ∧ s.rotated = []

/-- Runs of processes, writer.py:24-57. -/
inductive MRun (c : MConf) (s₀ : MState) : MState → Prop
  | init : MRun c s₀ s₀
  | step {s s' : MState} : MRun c s₀ s → MStep c s s' → MRun c s₀ s'

end Polog
