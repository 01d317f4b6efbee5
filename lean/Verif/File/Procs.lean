import Verif.File.Model

/-! Model of processes with several threads that write to one file through `file_writer`s made with the name
of the file (`polog/handlers/file/writer.py`, `file_dependency_wrapper.py`, `rotation/rotator.py`) and a lock
type that contains `thread` (the default is `'thread'`, writer.py:24).  Processes start, fork, exit and die at
any moment.

A forked process gets a copy of the handler with its open file, of the text that waits in the buffer of that
file and of the two locks; of the threads it has only the one that called `os.fork()`.

The file lock is left out, so processes may do more here than with `lock_type='thread+file'`.

Simplifications: rotated files stay on the file system of the log and what waits in a buffer fits into it
(for other cases see C71); the file is appended to in one system call for each `flush`. -/

namespace Polog

/-- Where a thread is in `file_writer.do(line)`, writer.py:33-43. -/
inductive PrPc where
  /-- there is no such thread -/
  | absent
  | idle
  /-- before `with self.lock` of `Rotator.maybe_do`, rotator.py:35 -/
  | start (line : Str)
  /-- before the check of the rules, rotator.py:36 -/
  | checking (line : Str)
  /-- in `move_file`, about to call `shutil.move`, file_dependency_wrapper.py:120-125; `again`: the second
  attempt, after making the directory -/
  | moving (line : Str) (again : Bool)
  /-- in `move_file`, about to reopen the file, file_dependency_wrapper.py:126 -/
  | reopening (line : Str)
  /-- before `with self.lock` of `write`, file_dependency_wrapper.py:70 -/
  | writing (line : Str)
  /-- before `self.file.write(log_string)`, file_dependency_wrapper.py:71 -/
  | inWrite (line : Str)
  /-- before `self.maybe_flush()`, writer.py:43; `k`: the number of the line among all lines written -/
  | flushing (k : Nat)
  /-- before `self.file.flush()`, file_dependency_wrapper.py:99 -/
  | inFlush (k : Nat)
deriving DecidableEq

/-- The file system; for every process its open file, the buffer of that file, the lock of the file wrapper
(double_lock.py:13-17) and the lock of the rotator (rotator.py:27), and where its threads are.
`written`, `finished`, `rotated` only record history: all lines given to the `write` of an open file, the
numbers of those among them for which `do` has finished, and names of files made by rotations.
`used`: numbers of processes that exist or existed. file_dependency_wrapper.py:14-64, in each process. -/
structure PrState where
  files : Str → Option Nat
  data : Nat → Str
  fresh : Nat
  fd : Nat → Option Nat
  buf : Nat → Str
  lock : Nat → Option Nat
  rotLock : Nat → Option Nat
  pc : Nat → Nat → PrPc
  used : Nat → Bool
  written : List Str
  finished : List Nat
  rotated : List Str

/-- Parameters: the name of the file, when the rules of the rotator fire, `forced_flush` (writer.py:24), and
whether processes fork only while none of their other threads is in the handler. -/
structure PrConf where
  fn : Str
  fires : Nat → Bool
  forced : Bool
  calm : Bool

/-- The file system and the open file of process `p`. file_dependency_wrapper.py:14-64. -/
def PrState.view (s : PrState) (p : Nat) : FileW := ⟨s.files, s.data, s.fresh, s.fd p, s.buf p⟩

/-- Process `p` has changed the file system and its open file. file_dependency_wrapper.py:66-126. -/
def PrState.put (s : PrState) (p : Nat) (w : FileW) : PrState :=
  { s with files := w.files, data := w.data, fresh := w.fresh,
           fd := putAt s.fd p w.file, buf := putAt s.buf p w.buf }

/-- Thread `t` of process `p` goes to another place of writer.py:33-43. -/
def PrState.go (s : PrState) (p t : Nat) (x : PrPc) : PrState :=
  { s with pc := putAt s.pc p (putAt (s.pc p) t x) }

/-- Takes or frees the lock of the file wrapper of process `p`, double_lock.py:19-31. -/
def PrState.setLock (s : PrState) (p : Nat) (x : Option Nat) : PrState := { s with lock := putAt s.lock p x }

/-- Takes or frees the lock of the rotator of process `p`, rotator.py:35. -/
def PrState.setRot (s : PrState) (p : Nat) (x : Option Nat) : PrState :=
  { s with rotLock := putAt s.rotLock p x }

/-- Process `q` is made by `os.fork()` in thread `t` of process `p`. Python's operation; what it copies is
made at writer.py:24-31. -/
def PrState.forked (s : PrState) (p t q : Nat) : PrState :=
  { s with fd := putAt s.fd q (s.fd p), buf := putAt s.buf q (s.buf p), lock := putAt s.lock q (s.lock p),
           rotLock := putAt s.rotLock q (s.rotLock p),
           pc := putAt s.pc q (putAt (fun _ => .absent) t .idle), used := putAt s.used q true }

/-- The threads and locks of process `p` are gone; its open file is as in `w`. Python's operation; the open file is that
of file_dependency_wrapper.py:24. -/
def PrState.gone (s : PrState) (p : Nat) (w : FileW) : PrState :=
  { s.put p w with pc := putAt s.pc p (fun _ => .absent), lock := putAt s.lock p none,
                   rotLock := putAt s.rotLock p none }

/-- One action of one thread. writer.py:33-65, rotator.py:29-53, file_dependency_wrapper.py:66-134. -/
inductive PrStep (c : PrConf) : PrState → PrState → Prop
  /-- a process starts and makes a handler: the file is opened, file_dependency_wrapper.py:58 -/
  | begin (s : PrState) (p t : Nat) : s.used p = false →
      PrStep c s { s.put p (FileW.open ⟨s.files, s.data, s.fresh, none, []⟩ c.fn true) with
        pc := putAt s.pc p (putAt (fun _ => .absent) t .idle), used := putAt s.used p true,
        lock := putAt s.lock p none, rotLock := putAt s.rotLock p none }
  /-- a process starts a thread -/
  | thread (s : PrState) (p t u : Nat) : s.pc p u ≠ .absent → s.pc p t = .absent → PrStep c s (s.go p t .idle)
  | fork (s : PrState) (p t q : Nat) : s.pc p t = .idle → s.used q = false →
      (c.calm = true → ∀ u, s.pc p u = .idle ∨ s.pc p u = .absent) →
      PrStep c s (s.forked p t q)
  /-- a process dies (or leaves by `os._exit`); what is in its buffer disappears -/
  | die (s : PrState) (p : Nat) : PrStep c s (s.gone p ⟨s.files, s.data, s.fresh, none, []⟩)
  /-- the interpreter ends normally: open files are closed -/
  | exit (s : PrState) (p : Nat) : (∀ u, s.pc p u = .idle ∨ s.pc p u = .absent) →
      PrStep c s (s.gone p (s.view p).close)
  | call (s : PrState) (p t : Nat) (line : Str) : s.pc p t = .idle → PrStep c s (s.go p t (.start line))
  | enterRot (s : PrState) (p t : Nat) (line : Str) : s.pc p t = .start line → s.rotLock p = none →
      PrStep c s ((s.setRot p (some t)).go p t (.checking line))
  /-- a rule fires; `move_file` takes the lock, file_dependency_wrapper.py:120 -/
  | fire (s : PrState) (p t : Nat) (line : Str) (n : Nat) : s.pc p t = .checking line →
      (s.view p).size c.fn = some n → c.fires n = true → s.lock p = none →
      PrStep c s ((s.setLock p (some t)).go p t (.moving line false))
  /-- no rule fires, or asking for the size raises (swallowed, writer.py:59-65) -/
  | pass (s : PrState) (p t : Nat) (line : Str) : s.pc p t = .checking line →
      (∀ n, (s.view p).size c.fn = some n → c.fires n = false) →
      PrStep c s ((s.setRot p none).go p t (.writing line))
  /-- the file is moved, file_dependency_wrapper.py:121-125; the name is new (C70) -/
  | moved (s : PrState) (p t : Nat) (line target : Str) (again : Bool) (w' : FileW) :
      s.pc p t = .moving line again → s.files target = none → target ≠ c.fn →
      (s.view p).moveOnce c.fn target .renamed = (w', .moved) →
      PrStep c s ({ s.put p w' with rotated := s.rotated ++ [target] }.go p t (.reopening line))
  /-- there is no such file or directory, file_dependency_wrapper.py:123; the directory is made -/
  | notFound (s : PrState) (p t : Nat) (line : Str) : s.pc p t = .moving line false →
      PrStep c s (s.go p t (.moving line true))
  /-- `move_file` raises and the file has not been moved: swallowed -/
  | refused (s : PrState) (p t : Nat) (line : Str) (again : Bool) : s.pc p t = .moving line again →
      PrStep c s (((s.setLock p none).setRot p none).go p t (.writing line))
  /-- `reopen`, file_dependency_wrapper.py:86-92; `ok = false`: opening raises, which is swallowed -/
  | reopen (s : PrState) (p t : Nat) (line : Str) (ok : Bool) : s.pc p t = .reopening line →
      PrStep c s ((((s.put p ((s.view p).reopen c.fn ok)).setLock p none).setRot p none).go p t (.writing line))
  | enterWrite (s : PrState) (p t : Nat) (line : Str) : s.pc p t = .writing line → s.lock p = none →
      PrStep c s ((s.setLock p (some t)).go p t (.inWrite line))
  | write (s : PrState) (p t : Nat) (line : Str) (w' : FileW) : s.pc p t = .inWrite line →
      (s.view p).write line 0 = some w' →
      PrStep c s ({ (s.put p w').setLock p none with written := s.written ++ [line] }.go p t
        (.flushing s.written.length))
  /-- the file is closed: `write` raises -/
  | writeFails (s : PrState) (p t : Nat) (line : Str) : s.pc p t = .inWrite line → s.fd p = none →
      PrStep c s ((s.setLock p none).go p t .idle)
  | enterFlush (s : PrState) (p t k : Nat) : s.pc p t = .flushing k → c.forced = true → s.lock p = none →
      PrStep c s ((s.setLock p (some t)).go p t (.inFlush k))
  | flush (s : PrState) (p t k : Nat) (w' : FileW) : s.pc p t = .inFlush k → (s.view p).flush = some w' →
      PrStep c s ({ (s.put p w').setLock p none with finished := s.finished ++ [k] }.go p t .idle)
  /-- the file is closed: `flush` raises -/
  | flushFails (s : PrState) (p t k : Nat) : s.pc p t = .inFlush k → s.fd p = none →
      PrStep c s ((s.setLock p none).go p t .idle)
  /-- `forced_flush=False`, writer.py:56 -/
  | noFlush (s : PrState) (p t k : Nat) : s.pc p t = .flushing k → c.forced = false →
      PrStep c s ({ s with finished := s.finished ++ [k] }.go p t .idle)

/-- At the beginning no process has a handler. Before writer.py:24-31. -/
structure PrStart (s : PrState) : Prop where
  unusedNumbers : ∀ p, s.used p = false
  absent : ∀ p t, s.pc p t = .absent
  closed : ∀ p, s.fd p = none
  buf : ∀ p, s.buf p = []
  free : ∀ p, s.lock p = none ∧ s.rotLock p = none
  below : ∀ n i, s.files n = some i → i < s.fresh
  unused : ∀ i, s.fresh ≤ i → s.data i = []
  history : s.written = [] ∧ s.finished = [] ∧ s.rotated = []

/-- Runs of processes, writer.py:24-57. -/
inductive PrRun (c : PrConf) (s₀ : PrState) : PrState → Prop
  | init : PrRun c s₀ s₀
  | step {s s' : PrState} : PrRun c s₀ s → PrStep c s s' → PrRun c s₀ s'

end Polog
