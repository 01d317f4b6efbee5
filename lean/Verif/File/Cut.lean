import Verif.File.Model

/-! Model of interrupts (Ctrl-C, `KeyboardInterrupt`) that reach the main thread while it is inside a file handler:
`polog/handlers/file/writer.py`, `file_dependency_wrapper.py`, `rotation/rotator.py`, `locks/double_lock.py`,
`locks/thread_lock.py`, with the lock type `thread` (the default). This happens with the synchronous engine
(`pool_size=0`); the other threads of the program may use the handler at the same time.

Thread 0 is the main thread. An interrupt may come before any action of it.

* `with self.lock` of the rotator (rotator.py:35) uses a `threading.Lock`: the interpreter does not let an interrupt
  in between its `acquire` and the body, so its lock is released however the body ends.
* `with self.lock` of the file wrapper uses `DoubleLock`, whose `__enter__` and `__exit__` are Python code
  (double_lock.py:19-31): an interrupt after the lock was taken in `__enter__`, or before it is released in
  `__exit__`, leaves it taken.
* an exception of `maybe_rotation` is swallowed, also `KeyboardInterrupt` (writer.py:59-65, exception_escaping.py:15);
  then the line is written. A `KeyboardInterrupt` elsewhere in `do` passes `except Exception` of base.py:47 (so `alt`
  is not called) and is swallowed by `call_one_handler` (log_item.py:166-171).

Simplifications: the file lock is left out (see C97), rotated files stay on the file system of the log
(`shutil.move` renames), `file.write` has either taken the line or not taken it when an interrupt comes. -/

namespace Polog

/-- The three blocks `with self.lock:` of file_dependency_wrapper.py:70, 98, 120. -/
inductive CuOp where
  | move
  | write
  | flush
deriving DecidableEq

/-- Where a thread is in `file_writer.do(line)`, writer.py:33-43. -/
inductive CuPc where
  | idle
  /-- before `self.maybe_rotation()`, writer.py:39 -/
  | before (line : Str)
  /-- before `with self.lock` of `Rotator.maybe_do`, rotator.py:35 -/
  | start (line : Str)
  /-- before the check of the rules, rotator.py:36 -/
  | checking (line : Str)
  /-- before or in `self.lock.acquire()`, thread_lock.py:21 -/
  | enter (o : CuOp) (line : Str)
  /-- the lock is taken, `DoubleLock.__enter__` has not ended, double_lock.py:19-24 -/
  | entered (o : CuOp) (line : Str)
  /-- before the body: line 122 (`shutil.move`), 71 (`write`) or 99 (`flush`) of file_dependency_wrapper.py -/
  | body (o : CuOp) (line : Str)
  /-- `FileNotFoundError`; before the second `shutil.move`, file_dependency_wrapper.py:123-125 -/
  | dirs (line : Str)
  /-- the file was moved; before `self.close()`, file_dependency_wrapper.py:91 -/
  | closing (line : Str)
  /-- the file was closed; before `self.open(...)`, file_dependency_wrapper.py:92 -/
  | opening (line : Str)
  /-- the body has ended; before `DoubleLock.__exit__`, double_lock.py:26 -/
  | ended (o : CuOp) (line : Str)
  /-- in `__exit__`, before the lock is released, double_lock.py:30; `raised`: an exception is on its way -/
  | exit (o : CuOp) (line : Str) (raised : Bool)
deriving DecidableEq

/-- What became of the line of a call: given to `file.write`; `do` raised an exception before that and the log was given
to `alt` (base.py:47-48); an interrupt came before that. writer.py:33-43. -/
inductive CuFate where
  | written
  | failed
  | cut
deriving DecidableEq

/-- `lock`: the lock of the file wrapper (thread_lock.py:12-16), `rotLock`: that of the rotator (rotator.py:27).
`calls`, `done`, `rotated`, `cuts` only record history: calls of `do` with their threads, what became of them, names of
rotated files, and how many interrupts came. -/
structure CuState where
  w : FileW
  pc : Nat → CuPc
  lock : Option Nat
  rotLock : Option Nat
  calls : List (Nat × Str)
  done : List (Nat × Str × CuFate)
  rotated : List Str
  cuts : Nat

/-- A thread goes to another place of writer.py:33-43. -/
def CuState.go (s : CuState) (t : Nat) (x : CuPc) : CuState := { s with pc := putAt s.pc t x }

/-- It is settled what becomes of the line of a call. History of writer.py:33-43. -/
def CuState.fate (s : CuState) (t : Nat) (line : Str) (f : CuFate) : CuState := { s with done := s.done ++ [(t, line, f)] }

/-- An exception leaves the block `o`: out of `maybe_do` with its lock and `maybe_rotation`, which swallows it
(writer.py:59-65), or out of `do`. -/
def CuState.abandon (s : CuState) (t : Nat) (o : CuOp) (line : Str) : CuState :=
  match o with
  | .move => { s with rotLock := none }.go t (.enter .write line)
  | .write => s.go t .idle
  | .flush => s.go t .idle

/-- The block `o` was left and its lock released: on with `maybe_rotation` and `write` (writer.py:39-41), with
`maybe_flush` (writer.py:43, 56), or the end of `do`. -/
def CuState.after (s : CuState) (forced : Bool) (t : Nat) (o : CuOp) (line : Str) (raised : Bool) : CuState :=
  match o with
  | .move => { s with rotLock := none }.go t (.enter .write line)
  | .write => s.go t (if forced && !raised then .enter .flush line else .idle)
  | .flush => s.go t .idle

/-- One action of thread `t`. writer.py:33-65, rotator.py:29-53, file_dependency_wrapper.py:66-134,
double_lock.py:19-31. -/
inductive CuStep (c : FConf) (t : Nat) : CuState → CuState → Prop
  | call (s : CuState) (line : Str) : t < c.threads → s.pc t = .idle →
      CuStep c t s ({ s with calls := s.calls ++ [(t, line)] }.go t (.before line))
  | rotation (s : CuState) (line : Str) : s.pc t = .before line → CuStep c t s (s.go t (.start line))
  | lockRot (s : CuState) (line : Str) : s.pc t = .start line → s.rotLock = none →
      CuStep c t s ({ s with rotLock := some t }.go t (.checking line))
  /-- a rule fires -/
  | fire (s : CuState) (line : Str) (n : Nat) : s.pc t = .checking line → s.w.size c.fn = some n → c.fires n = true →
      CuStep c t s (s.go t (.enter .move line))
  /-- no rule fires, or asking for the size raises, which is swallowed -/
  | pass (s : CuState) (line : Str) : s.pc t = .checking line → (∀ n, s.w.size c.fn = some n → c.fires n = false) →
      CuStep c t s ({ s with rotLock := none }.go t (.enter .write line))
  | acquire (s : CuState) (o : CuOp) (line : Str) : s.pc t = .enter o line → s.lock = none →
      CuStep c t s ({ s with lock := some t }.go t (.entered o line))
  | into (s : CuState) (o : CuOp) (line : Str) : s.pc t = .entered o line → CuStep c t s (s.go t (.body o line))
  /-- `shutil.move` succeeds; the name is new (C70) -/
  | moved (s : CuState) (line target : Str) (w' : FileW) : (s.pc t = .body .move line ∨ s.pc t = .dirs line) →
      s.w.files target = none → target ≠ c.fn → s.w.moveOnce c.fn target .renamed = (w', .moved) →
      CuStep c t s ({ s with w := w', rotated := s.rotated ++ [target] }.go t (.closing line))
  /-- no such file or directory; the directories are made -/
  | notFound (s : CuState) (line : Str) : s.pc t = .body .move line → (c.reliable = true → s.w.files c.fn = none) →
      CuStep c t s (s.go t (.dirs line))
  /-- `shutil.move` or `mkdir` raises -/
  | moveFails (s : CuState) (line : Str) : (s.pc t = .body .move line ∨ s.pc t = .dirs line) →
      (c.reliable = true → s.pc t = .dirs line ∧ s.w.files c.fn = none) → CuStep c t s (s.go t (.exit .move line true))
  | close (s : CuState) (line : Str) : s.pc t = .closing line →
      CuStep c t s ({ s with w := s.w.close }.go t (.opening line))
  | opened (s : CuState) (line : Str) : s.pc t = .opening line →
      CuStep c t s ({ s with w := s.w.open c.fn true }.go t (.ended .move line))
  /-- the system refuses to open the file -/
  | openFails (s : CuState) (line : Str) : s.pc t = .opening line → c.reliable = false →
      CuStep c t s (s.go t (.exit .move line true))
  | write (s : CuState) (line : Str) (auto : Nat) (w' : FileW) : s.pc t = .body .write line →
      s.w.write line auto = some w' →
      CuStep c t s (({ s with w := w' }.fate t line .written).go t (.ended .write line))
  /-- the file is closed: `ValueError` -/
  | writeFails (s : CuState) (line : Str) : s.pc t = .body .write line → s.w.file = none →
      CuStep c t s ((s.fate t line .failed).go t (.exit .write line true))
  /-- a part of the buffer is given to the system: `flush` in progress -/
  | spill (s : CuState) (line : Str) (auto : Nat) (w' : FileW) : s.pc t = .body .flush line →
      s.w.write [] auto = some w' → CuStep c t s { s with w := w' }
  | flush (s : CuState) (line : Str) (w' : FileW) : s.pc t = .body .flush line → s.w.flush = some w' →
      CuStep c t s ({ s with w := w' }.go t (.ended .flush line))
  /-- the file is closed: `ValueError`, and the log is given to `alt` although it was written (C36) -/
  | flushFails (s : CuState) (line : Str) : s.pc t = .body .flush line → s.w.file = none →
      CuStep c t s (s.go t (.exit .flush line true))
  | leave (s : CuState) (o : CuOp) (line : Str) : s.pc t = .ended o line → CuStep c t s (s.go t (.exit o line false))
  | release (s : CuState) (o : CuOp) (line : Str) (raised : Bool) : s.pc t = .exit o line raised →
      CuStep c t s ({ s with lock := none }.after c.forced t o line raised)

/-- An interrupt comes in thread 0, where it is. writer.py:33-65, rotator.py:35, double_lock.py:19-31,
exception_escaping.py:12-16, base.py:44-48. -/
def CuState.interrupt (s : CuState) : CuState :=
  let s := { s with cuts := s.cuts + 1 }
  match s.pc 0 with
  | .idle => s
  | .before line => (s.fate 0 line .cut).go 0 .idle
  | .start line => s.go 0 (.enter .write line)
  | .checking line => { s with rotLock := none }.go 0 (.enter .write line)
  | .enter .write line => (s.fate 0 line .cut).abandon 0 .write line
  | .enter o line => s.abandon 0 o line
  | .entered .write line => (s.fate 0 line .cut).abandon 0 .write line
  | .entered o line => s.abandon 0 o line
  | .body .write line => (s.fate 0 line .cut).go 0 (.exit .write line true)
  | .body o line => s.go 0 (.exit o line true)
  | .dirs line => s.go 0 (.exit .move line true)
  | .closing line => s.go 0 (.exit .move line true)
  | .opening line => s.go 0 (.exit .move line true)
  | .ended o line => s.go 0 (.exit o line true)
  | .exit o line _ => s.abandon 0 o line

/-- Places where an interrupt does lasting damage: in `__enter__` after the lock was taken and in `__exit__` before it is
released (double_lock.py:19-31), and between the renaming of the file and the opening of the new one
(file_dependency_wrapper.py:126). -/
def CuPc.fragile : CuPc → Bool
  | .entered _ _ => true
  | .exit _ _ _ => true
  | .closing _ => true
  | .opening _ => true
  | _ => false

/-- Runs of threads that use one handler, with interrupts; `mild`: none comes at a fragile place. writer.py:33-43. -/
inductive CuRun (c : FConf) (mild : Bool) (s₀ : CuState) : CuState → Prop
  | init : CuRun c mild s₀ s₀
  | step {s s' : CuState} (t : Nat) : CuRun c mild s₀ s → CuStep c t s s' → CuRun c mild s₀ s'
  | cut {s : CuState} : CuRun c mild s₀ s → (mild = true → (s.pc 0).fragile = false) → s.pc 0 ≠ .idle →
      CuRun c mild s₀ s.interrupt

/-- A handler that has just been made, writer.py:24-31: the file is open. -/
structure CuStart (c : FConf) (s : CuState) : Prop where
  opened : ∃ i, s.w.files c.fn = some i ∧ s.w.file = some i
  distinct : ∀ p q i, s.w.files p = some i → s.w.files q = some i → p = q
  below : ∀ p i, s.w.files p = some i → i < s.w.fresh
  buf : s.w.buf = []
  idle : ∀ t, s.pc t = .idle
  unlocked : s.lock = none ∧ s.rotLock = none
  history : s.calls = [] ∧ s.done = [] ∧ s.rotated = [] ∧ s.cuts = 0

end Polog
