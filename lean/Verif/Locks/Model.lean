import Verif.Py

/-! Model of `polog/handlers/file/locks/`: the lock around every operation of a file handler with its
file (`file_dependency_wrapper.py:70, 98, 120`). -/

namespace Polog

/-- Where a thread is. `H` is the type of handlers.

* `outside`: not using any lock;
* `entering h`: `DoubleLock.__enter__` (double_lock.py:19-24) has acquired the thread lock of `h`
  (line 23) and is about to acquire its file lock (line 24);
* `inside h`: in the body of `with self.lock`;
* `leaving h`: `DoubleLock.__exit__` (double_lock.py:26-31) has released the thread lock (line 30) and
  is about to release the file lock (line 31). -/
inductive LPc (H : Type) where
  | outside
  | entering (h : H)
  | inside (h : H)
  | leaving (h : H)
deriving DecidableEq

/-- The state of all threads of all processes that use handlers for one file. Every handler has its own
`threading.Lock` (thread_lock.py:12-16) and its own open lock file `<name>.lock` (file_lock.py:14-25).
`fileLock` is the handler whose open file holds the exclusive `flock` on that lock file. -/
structure LState (T H : Type) where
  pc : T → LPc H
  threadLock : H → Option T
  fileLock : Option H

/-- Which locks are on (`double_lock.py:12-17`; a lock that is off does nothing,
`abstract_single_lock.py:9-17`). -/
structure LKind where
  thread : Bool
  file : Bool

variable {T H : Type} [DecidableEq T] [DecidableEq H]

/-- A thread goes to another place of double_lock.py:19-31. -/
def setPc (s : LState T H) (t : T) (p : LPc H) : T → LPc H := fun t' => if t' = t then p else s.pc t'

/-- One atomic action of a thread. `uses t h` tells which threads may use which handler: the threads of
the process the handler lives in.

`flock` (file_lock.py:27-39) belongs to the open file, not to the thread: taking it again through the
same open file succeeds at once, and releasing it frees it whoever took it. -/
inductive LStep (k : LKind) (uses : T → H → Prop) : LState T H → LState T H → Prop
  /-- `thread_lock.acquire()`, double_lock.py:23 -/
  | acquireThread (s : LState T H) (t : T) (h : H) :
      uses t h → s.pc t = .outside → (k.thread = true → s.threadLock h = none) →
      LStep k uses s { s with
        pc := setPc s t (.entering h)
        threadLock := fun h' => if h' = h ∧ k.thread = true then some t else s.threadLock h' }
  /-- `file_lock.acquire()`, double_lock.py:24, file_lock.py:27-32 -/
  | acquireFile (s : LState T H) (t : T) (h : H) :
      s.pc t = .entering h → (k.file = true → s.fileLock = none ∨ s.fileLock = some h) →
      LStep k uses s { s with
        pc := setPc s t (.inside h)
        fileLock := if k.file = true then some h else s.fileLock }
  /-- the body ends, normally or not; `thread_lock.release()`, double_lock.py:30 -/
  | releaseThread (s : LState T H) (t : T) (h : H) :
      s.pc t = .inside h →
      LStep k uses s { s with
        pc := setPc s t (.leaving h)
        threadLock := fun h' => if h' = h ∧ k.thread = true then none else s.threadLock h' }
  /-- `file_lock.release()`, double_lock.py:31, file_lock.py:34-39 -/
  | releaseFile (s : LState T H) (t : T) (h : H) :
      s.pc t = .leaving h →
      LStep k uses s { s with
        pc := setPc s t .outside
        fileLock := if k.file = true ∧ s.fileLock = some h then none else s.fileLock }

/-- No lock is taken: double_lock.py:13-17. -/
def LState.init : LState T H := ⟨fun _ => .outside, fun _ => none, none⟩

/-- Executions of threads that use double_lock.py:19-31. -/
inductive LReach (k : LKind) (uses : T → H → Prop) : LState T H → Prop
  | init : LReach k uses LState.init
  | step {s s' : LState T H} : LReach k uses s → LStep k uses s s' → LReach k uses s'

/-- `str.strip()` with a given notion of white space. Python's own operation; used at double_lock.py:48-57. -/
def stripStr (isSpace : Char → Bool) (s : Str) : Str :=
  ((s.dropWhile isSpace).reverse.dropWhile isSpace).reverse

/-- The loop of `get_lock_types`, double_lock.py:48-57; `seen` is `previously_seen`, which always has
the same elements as `result`. -/
def lockTypesLoop : List Str → List Str → Except PyErr (List Str)
  | [], seen => .ok seen
  | m :: rest, seen =>
    if m ≠ "file".toList ∧ m ≠ "thread".toList then .error .valueError
    else if m ∈ seen then .error .valueError
    else lockTypesLoop rest (seen ++ [m])

/-- `DoubleLock.get_lock_types` followed by the tests `'thread' in self.types` and
`'file' not in self.types`, double_lock.py:33-74. The argument is `None`, a string, or another object.
Simplification: the result is only used for these two tests, so the sorting (line 58) is left out. -/
def lockKind (isSpace : Char → Bool) (lockType : Option (Option Str)) : Except PyErr LKind :=
  match lockType with
  | none => .ok ⟨false, false⟩
  | some none => .error .valueError
  | some (some s) =>
    if stripStr isSpace s = [] then .error .valueError
    else
      match lockTypesLoop (((splitChar '+' s).map (stripStr isSpace)).filter (· ≠ [])) [] with
      | .error e => .error e
      | .ok types => .ok ⟨decide ("thread".toList ∈ types), decide ("file".toList ∈ types)⟩

end Polog
