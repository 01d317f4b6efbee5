import Verif.File.Spec

/-! Model of one process that logs to a file in one thread with the synchronous engine, and that can be
stopped at any moment (a kill, a power cut), also in the middle of a rotation, and be started again
(`polog/handlers/file/writer.py`, `file_dependency_wrapper.py`, `rotation/rotator.py`).

What the system has been given (`files`, `data`) survives; the buffer of the open file does not. (Whether
the system itself keeps what it was given through a power cut is not part of this code: it never calls
`fsync`.) Unlike in `File/Model.lean`, `shutil.move` is not one action: a copy grows piece by piece, and
removing the source, closing and opening are actions of their own. -/

namespace Polog

/-- Where the program is. All but `off` and `idle` are places in `file_writer.do(line)`, writer.py:33-43. -/
inductive CrPc where
  /-- the program is not running -/
  | off
  /-- the program runs and is not in the handler -/
  | idle
  /-- before the check of the rules, rotator.py:36 -/
  | checking (line : Str)
  /-- before `shutil.move`, file_dependency_wrapper.py:122; `again`: line 125 -/
  | moving (line : Str) (again : Bool)
  /-- in `shutil.move`, which copies because `target` is on another file system -/
  | copying (line target : Str)
  /-- in `shutil.move`, after copying and before removing the source -/
  | removing (line target : Str)
  /-- before `self.close()`, file_dependency_wrapper.py:91 -/
  | closing (line : Str)
  /-- before `self.open(self.filename)`, file_dependency_wrapper.py:92 -/
  | opening (line : Str)
  /-- before `self.file.write(content)`, writer.py:41 -/
  | writing (line : Str)
  /-- before `self.maybe_flush()`, writer.py:43 -/
  | flushing (line : Str)
deriving DecidableEq

/-- `calls`, `alt`, `stops`, `rotated` only record history: the lines the handler was called with, in order;
the lines given to `run_alt` because `do` raised (base.py:44-48); how often the program was stopped; names of
files made by finished moves, in order. -/
structure CrState where
  w : FileW
  pc : CrPc
  calls : List Str
  alt : List Str
  stops : Nat
  rotated : List Str

/-- Parameters: the name of the file, when the rules of the rotator fire, `forced_flush`. writer.py:24-31. -/
structure CrConf where
  fn : Str
  fires : Nat → Bool
  forced : Bool

/-- One action. writer.py:33-57, file_dependency_wrapper.py:66-126. -/
inductive CrStep (c : CrConf) : CrState → CrState → Prop
  /-- the program starts: `file_writer(name)` opens the file, file_dependency_wrapper.py:58 -/
  | start (s : CrState) : s.pc = .off → CrStep c s { s with w := s.w.open c.fn true, pc := .idle }
  /-- the program is stopped, at any place -/
  | stop (s : CrState) : s.pc ≠ .off →
      CrStep c s { s with w := { s.w with file := none, buf := [] }, pc := .off, stops := s.stops + 1 }
  /-- the engine gives the next record to the handler, singlethreaded/engine.py:9-13 -/
  | call (s : CrState) (line : Str) : s.pc = .idle →
      CrStep c s { s with pc := .checking line, calls := s.calls ++ [line] }
  /-- rotator.py:36: a rule fires -/
  | fire (s : CrState) (line : Str) (n : Nat) : s.pc = .checking line → s.w.size c.fn = some n →
      c.fires n = true → CrStep c s { s with pc := .moving line false }
  /-- no rule fires, or asking for the size raises (swallowed, writer.py:59-65) -/
  | pass (s : CrState) (line : Str) : s.pc = .checking line →
      (∀ n, s.w.size c.fn = some n → c.fires n = false) → CrStep c s { s with pc := .writing line }
  /-- `shutil.move` renames the file; the new name is new (C70) -/
  | rename (s : CrState) (line target : Str) (again : Bool) (i : Nat) : s.pc = .moving line again →
      s.w.files c.fn = some i → s.w.files target = none → target ≠ c.fn →
      CrStep c s { s with
        w := { s.w with files := putAt (putAt s.w.files c.fn none) target (some i) }
        pc := .closing line, rotated := s.rotated ++ [target] }
  /-- `shutil.move` begins a copy: the target is created -/
  | copyBegins (s : CrState) (line target : Str) (again : Bool) : s.pc = .moving line again →
      s.w.files c.fn ≠ none → s.w.files target = none → target ≠ c.fn →
      CrStep c s { s with
        w := { s.w with files := putAt s.w.files target (some s.w.fresh),
                        data := putAt s.w.data s.w.fresh [], fresh := s.w.fresh + 1 }
        pc := .copying line target }
  /-- the first `k` characters are copied by now -/
  | copyGoesOn (s : CrState) (line target : Str) (i j k : Nat) : s.pc = .copying line target →
      s.w.files c.fn = some i → s.w.files target = some j →
      CrStep c s { s with w := { s.w with data := putAt s.w.data j ((s.w.data i).take k) } }
  /-- everything is copied -/
  | copyEnds (s : CrState) (line target : Str) : s.pc = .copying line target →
      s.w.files target ≠ none → FileSpec.content s.w target = FileSpec.content s.w c.fn →
      CrStep c s { s with pc := .removing line target }
  /-- the copy breaks off or the source cannot be removed: an exception, swallowed (writer.py:59-65) -/
  | copyFails (s : CrState) (line target : Str) : s.pc = .copying line target ∨ s.pc = .removing line target →
      CrStep c s { s with pc := .writing line }
  /-- the source is removed -/
  | remove (s : CrState) (line target : Str) : s.pc = .removing line target →
      CrStep c s { s with w := { s.w with files := putAt s.w.files c.fn none }, pc := .closing line,
                          rotated := s.rotated ++ [target] }
  /-- `FileNotFoundError`: the directory is made, file_dependency_wrapper.py:123-125 -/
  | notFound (s : CrState) (line : Str) : s.pc = .moving line false →
      CrStep c s { s with pc := .moving line true }
  /-- any other exception of `shutil.move` or of making the directory: swallowed -/
  | moveFails (s : CrState) (line : Str) (again : Bool) : s.pc = .moving line again →
      CrStep c s { s with pc := .writing line }
  | close (s : CrState) (line : Str) : s.pc = .closing line →
      CrStep c s { s with w := s.w.close, pc := .opening line }
  /-- `ok = false`: the system refuses, the exception is swallowed -/
  | reopen (s : CrState) (line : Str) (ok : Bool) : s.pc = .opening line →
      CrStep c s { s with w := s.w.open c.fn ok, pc := .writing line }
  | write (s : CrState) (line : Str) (auto : Nat) (w' : FileW) : s.pc = .writing line →
      s.w.write line auto = some w' → CrStep c s { s with w := w', pc := .flushing line }
  /-- the file is closed: `write` raises -/
  | writeFails (s : CrState) (line : Str) : s.pc = .writing line → s.w.file = none →
      CrStep c s { s with pc := .idle, alt := s.alt ++ [line] }
  | flush (s : CrState) (line : Str) (w' : FileW) : s.pc = .flushing line → c.forced = true →
      s.w.flush = some w' → CrStep c s { s with w := w', pc := .idle }
  | noFlush (s : CrState) (line : Str) : s.pc = .flushing line → c.forced = false →
      CrStep c s { s with pc := .idle }

/-- Before the first start of the program: no two names for one file, all inodes in use are below `fresh`.
Before writer.py:24-31. -/
structure CrStart (s : CrState) : Prop where
  off : s.pc = .off
  closed : s.w.file = none ∧ s.w.buf = []
  distinct : ∀ p q i, s.w.files p = some i → s.w.files q = some i → p = q
  below : ∀ p i, s.w.files p = some i → i < s.w.fresh
  history : s.calls = [] ∧ s.alt = [] ∧ s.stops = 0 ∧ s.rotated = []

/-- `s` can follow `s₀`. Runs of writer.py:24-57. -/
inductive CrRun (c : CrConf) (s₀ : CrState) : CrState → Prop
  | init : CrRun c s₀ s₀
  | step {s s' : CrState} : CrRun c s₀ s → CrStep c s s' → CrRun c s₀ s'

end Polog
