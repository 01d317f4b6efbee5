import Verif.Rotation.Model

/-! Model of the file handler: `polog/handlers/file/writer.py`, `file_dependency_wrapper.py` and
`rotation/rotator.py`, for a handler that was given the name of a file. Names of files are absolute,
`fn` is the name the handler was given. -/

namespace Polog

/-- The part of the file system the handler touches and its open file.

* `files`: which file (inode) a name stands for; `data`: contents of the files that the system has
  been given; inodes from `fresh` on are unused;
* `file`: the file that `self.file` has open for appending (`none`: closed);
* `buf`: what was written to `self.file` and not yet given to the system. file_dependency_wrapper.py:14-64. -/
structure FileW where
  files : Str → Option Nat
  data : Nat → Str
  fresh : Nat
  file : Option Nat
  buf : Str

/-- A function with one value changed; no code. -/
def putAt {α β : Type} [DecidableEq α] (f : α → β) (a : α) (b : β) : α → β := fun x => if x = a then b else f x

/-- Size in bytes in utf-8 (`open(..., encoding='utf-8')`, file_dependency_wrapper.py:84). -/
def byteSize (s : Str) : Nat := (s.map fun c => c.utf8Size).sum

/-- `get_size`, file_dependency_wrapper.py:101-109: `os.stat` of the name; `none`: it raises. -/
def FileW.size (w : FileW) (fn : Str) : Option Nat := (w.files fn).map fun i => byteSize (w.data i)

/-- `close`, file_dependency_wrapper.py:73-77: closing gives the buffer to the system. (A `close` that
raises, and a system that refuses to take data, are in `Full.lean`.) -/
def FileW.close (w : FileW) : FileW :=
  match w.file with
  | none => w
  | some i => { w with data := putAt w.data i (w.data i ++ w.buf), file := none, buf := [] }

/-- `open`, file_dependency_wrapper.py:79-84: opens the file for appending or creates it. `ok = false`:
the system refuses. -/
def FileW.open (w : FileW) (fn : Str) (ok : Bool) : FileW :=
  if ok then
    match w.files fn with
    | some i => { w with file := some i }
    | none => { w with files := putAt w.files fn (some w.fresh), data := putAt w.data w.fresh [],
                       fresh := w.fresh + 1, file := some w.fresh }
  else w

/-- `reopen`, file_dependency_wrapper.py:86-92. -/
def FileW.reopen (w : FileW) (fn : Str) (ok : Bool) : FileW := w.close.open fn ok

/-- What can happen to `shutil.move` when the source exists: a rename; a copy (to another file system)
and the removal of the source; no such directory; a copy that breaks off after `k` characters; a copy
without removal; an error with no effect. In the last three cases an exception other than
`FileNotFoundError` is raised. Called at file_dependency_wrapper.py:122, 125. -/
inductive MoveRes where
  | renamed
  | copied
  | noDirectory
  | broken (k : Nat)
  | notRemoved
  | refused

/-- How `shutil.move` ends as file_dependency_wrapper.py:121-125 sees it. -/
inductive MoveOut where
  | moved
  | notFound
  | failed
deriving DecidableEq

/-- `shutil.move(self.filename, path_to_copy)`, file_dependency_wrapper.py:122. -/
def FileW.moveOnce (w : FileW) (fn target : Str) (r : MoveRes) : FileW × MoveOut :=
  match w.files fn with
  | none => (w, .notFound)
  | some i =>
    match r with
    | .renamed => ({ w with files := putAt (putAt w.files fn none) target (some i) }, .moved)
    | .copied => ({ w with files := putAt (putAt w.files fn none) target (some w.fresh),
                           data := putAt w.data w.fresh (w.data i), fresh := w.fresh + 1 }, .moved)
    | .noDirectory => (w, .notFound)
    | .broken k => ({ w with files := putAt w.files target (some w.fresh),
                             data := putAt w.data w.fresh ((w.data i).take k), fresh := w.fresh + 1 }, .failed)
    | .notRemoved => ({ w with files := putAt w.files target (some w.fresh),
                               data := putAt w.data w.fresh (w.data i), fresh := w.fresh + 1 }, .failed)
    | .refused => (w, .failed)

/-- What the system does during one rotation: the outcomes of the two attempts to move, of creating the
directories, and of opening the new file. file_dependency_wrapper.py:111-134. -/
structure MoveEnv where
  first : MoveRes
  second : MoveRes
  mkdir : Bool
  opened : Bool

/-- `move_file`, file_dependency_wrapper.py:111-126, with `make_dirs_for_path`. The second component tells
whether the file was moved. An exception is swallowed by `exception_escaping` around `maybe_rotation`
(writer.py:59-65), so it is not part of the result. -/
def FileW.moveFile (w : FileW) (fn target : Str) (e : MoveEnv) : FileW × Bool :=
  match w.moveOnce fn target e.first with
  | (w1, .moved) => (w1.reopen fn e.opened, true)
  | (w1, .failed) => (w1, false)
  | (w1, .notFound) =>
    if e.mkdir then
      match w1.moveOnce fn target e.second with
      | (w2, .moved) => (w2.reopen fn e.opened, true)
      | (w2, _) => (w2, false)
    else (w1, false)

/-- `write`, file_dependency_wrapper.py:66-71. Python may give any part of the buffer to the system at
once: `auto` characters of it. `none`: the file is closed, `ValueError`. -/
def FileW.write (w : FileW) (line : Str) (auto : Nat) : Option FileW :=
  match w.file with
  | none => none
  | some i => some { w with data := putAt w.data i (w.data i ++ (w.buf ++ line).take auto),
                            buf := (w.buf ++ line).drop auto }

/-- `flush`, file_dependency_wrapper.py:94-99. `none`: the file is closed, `ValueError`. -/
def FileW.flush (w : FileW) : Option FileW :=
  match w.file with
  | none => none
  | some i => some { w with data := putAt w.data i (w.data i ++ w.buf), buf := [] }

/-- Parameters of a run: the name of the file, when the rules of the rotator fire, `forced_flush`
(writer.py:24), how many threads call the handler, whether the directory for rotated files is on the
same file system (then `shutil.move` never copies), and whether the system never refuses to move the file
and to open a new one. -/
structure FConf where
  fn : Str
  fires : Nat → Bool
  forced : Bool
  threads : Nat
  sameFs : Bool
  reliable : Bool

/-- Where a thread is in `file_writer.do(line)`, writer.py:33-43. -/
inductive FPc where
  | idle
  /-- before `with self.lock` of `Rotator.maybe_do`, rotator.py:35 -/
  | start (line : Str)
  /-- before the check of the rules, rotator.py:36 -/
  | checking (line : Str)
  /-- before `self.do()`, rotator.py:37 -/
  | moving (line : Str)
  /-- before `self.file.write(content)`, writer.py:41 -/
  | writing (line : Str)
  /-- before `self.maybe_flush()`, writer.py:43 -/
  | flushing (line : Str)
deriving DecidableEq

/-- `rotLock`: the lock of the rotator, rotator.py:27. `written`, `alt`, `rotated` only record history:
lines given to `self.file.write`, lines given to `run_alt` because `do` raised (base.py:44-48), and names
of files made by successful rotations, in order. -/
structure FState where
  w : FileW
  pc : Nat → FPc
  rotLock : Option Nat
  written : List Str
  alt : List Str
  rotated : List Str

/-- `shutil.move` copies only between file systems. Called at file_dependency_wrapper.py:122, 125. -/
def MoveRes.copies : MoveRes → Bool
  | .copied => true
  | .broken _ => true
  | .notRemoved => true
  | _ => false

/-- One atomic action of a thread. `move_file`, `write` and `flush` are atomic because their bodies are
under one lock (`lock_type` contains `thread`; C40). The check of the rules is one action: with several
rules the code asks for the size once per rule.
writer.py:33-57, rotator.py:29-53, file_dependency_wrapper.py:66-126. -/
inductive FStep (c : FConf) : FState → FState → Prop
  | call (s : FState) (t : Nat) (line : Str) : t < c.threads → s.pc t = .idle →
      FStep c s { s with pc := putAt s.pc t (.start line) }
  | lock (s : FState) (t : Nat) (line : Str) : s.pc t = .start line → s.rotLock = none →
      FStep c s { s with pc := putAt s.pc t (.checking line), rotLock := some t }
  /-- the rules ask for the size; a rule fires -/
  | fire (s : FState) (t : Nat) (line : Str) (n : Nat) : s.pc t = .checking line →
      s.w.size c.fn = some n → c.fires n = true →
      FStep c s { s with pc := putAt s.pc t (.moving line) }
  /-- no rule fires; or asking for the size raises, which `exception_escaping` swallows -/
  | pass (s : FState) (t : Nat) (line : Str) : s.pc t = .checking line →
      (∀ n, s.w.size c.fn = some n → c.fires n = false) →
      FStep c s { s with pc := putAt s.pc t (.writing line), rotLock := none }
  /-- `move_file`; the name is new (`new_filename`, rotator.py:120-129, is made of the time and the
  process) -/
  | move (s : FState) (t : Nat) (line target : Str) (e : MoveEnv) : s.pc t = .moving line →
      s.w.files target = none → target ≠ c.fn →
      (c.sameFs = true → e.first.copies = false ∧ e.second.copies = false) →
      (c.reliable = true → (e.first = .renamed ∨ e.first = .copied) ∧ e.opened = true) →
      FStep c s { s with
        w := (s.w.moveFile c.fn target e).1
        pc := putAt s.pc t (.writing line), rotLock := none
        rotated := if (s.w.moveFile c.fn target e).2 then s.rotated ++ [target] else s.rotated }
  | write (s : FState) (t : Nat) (line : Str) (auto : Nat) (w' : FileW) : s.pc t = .writing line →
      s.w.write line auto = some w' →
      FStep c s { s with w := w', pc := putAt s.pc t (.flushing line), written := s.written ++ [line] }
  | writeFails (s : FState) (t : Nat) (line : Str) : s.pc t = .writing line → s.w.file = none →
      FStep c s { s with pc := putAt s.pc t .idle, alt := s.alt ++ [line] }
  | flush (s : FState) (t : Nat) (line : Str) (w' : FileW) : s.pc t = .flushing line → c.forced = true →
      s.w.flush = some w' →
      FStep c s { s with w := w', pc := putAt s.pc t .idle }
  | flushFails (s : FState) (t : Nat) (line : Str) : s.pc t = .flushing line → c.forced = true →
      s.w.file = none →
      FStep c s { s with pc := putAt s.pc t .idle, alt := s.alt ++ [line] }
  | noFlush (s : FState) (t : Nat) (line : Str) : s.pc t = .flushing line → c.forced = false →
      FStep c s { s with pc := putAt s.pc t .idle }

/-- A handler that has just been created (writer.py:24-31; `get_file_object` has opened the file): no
two names for one file, all inodes in use are below `fresh`, nothing is buffered. -/
structure FStart (c : FConf) (s : FState) : Prop where
  opened : ∃ i, s.w.files c.fn = some i ∧ s.w.file = some i
  distinct : ∀ p q i, s.w.files p = some i → s.w.files q = some i → p = q
  below : ∀ p i, s.w.files p = some i → i < s.w.fresh
  buf : s.w.buf = []
  idle : ∀ t, s.pc t = .idle
  unlocked : s.rotLock = none
  history : s.written = [] ∧ s.alt = [] ∧ s.rotated = []

/-- `s` can follow `s₀`. Runs of writer.py:33-43. -/
inductive FRun (c : FConf) (s₀ : FState) : FState → Prop
  | init : FRun c s₀ s₀
  | step {s s' : FState} : FRun c s₀ s → FStep c s s' → FRun c s₀ s'

end Polog
