import Verif.File.Outside

/-! The file handler of `polog/handlers/file/writer.py` on a file system where others also copy and empty files, as `logrotate` does with
`copytruncate`, or `> app.log` in a shell. The handler has the file open for appending (`open(..., 'a')`, file_dependency_wrapper.py:59, 84),
so the system puts what it writes at the end the file has at that moment. -/

namespace Polog

/-- What happens to the contents of files; history only. file_dependency_wrapper.py:66-71, and actions of others. -/
inductive FileEvent where
  /-- the handler gives a line to file `i` -/
  | given (i : Nat) (line : Str)
  /-- others empty file `i`; the handler keeps `kept` for it at this moment (lines or parts of them not yet given to the system) -/
  | emptied (i : Nat) (kept : Str)
  /-- others make the file `i` with this text: a copy -/
  | copied (i : Nat) (text : Str)

/-- The file an event is about; no code. -/
def FileEvent.file : FileEvent → Nat
  | .given i _ => i
  | .emptied i _ => i
  | .copied i _ => i

/-- Runs of the handler (`FStep`: writer.py:33-43) and of others (`OStep`; copying and emptying), in any order. -/
inductive TRun (c : FConf) (s₀ : FState) : FState → List FileEvent → Prop
  | init : TRun c s₀ s₀ []
  | handler {s s' : FState} {h : List FileEvent} : TRun c s₀ s h → FStep c s s' → s'.written = s.written → TRun c s₀ s' h
  | line {s s' : FState} {h : List FileEvent} {i : Nat} {l : Str} : TRun c s₀ s h → FStep c s s' → s.w.file = some i →
      s'.written = s.written ++ [l] → TRun c s₀ s' (h ++ [.given i l])
  | outside {s : FState} {w : FileW} {h : List FileEvent} : TRun c s₀ s h → OStep false s.w w → TRun c s₀ { s with w := w } h
  /-- `> p` -/
  | empty {s : FState} {h : List FileEvent} (p : Str) (i : Nat) : TRun c s₀ s h → s.w.files p = some i →
      TRun c s₀ { s with w := { s.w with data := putAt s.w.data i [] } }
        (h ++ [.emptied i (if s.w.file = some i then s.w.buf else [])])
  /-- `cp p q`, where there is no `q` -/
  | copy {s : FState} {h : List FileEvent} (p q : Str) (i : Nat) : TRun c s₀ s h → s.w.files p = some i → s.w.files q = none →
      TRun c s₀ { s with w := { s.w with files := putAt s.w.files q (some s.w.fresh), data := putAt s.w.data s.w.fresh (s.w.data i),
                                         fresh := s.w.fresh + 1 } }
        (h ++ [.copied s.w.fresh (s.w.data i)])

end Polog
