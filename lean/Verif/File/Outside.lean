import Verif.File.Lemmas

/-! The file handler of `polog/handlers/file/writer.py` on a file system that others use too: `logrotate`, an
administrator, another program. They rename, replace, remove and create files while the program logs. (They do not
change the contents of existing files.) -/

namespace Polog

/-- What others do to the file system between two actions of the handler. An open file stays the same file
whatever happens to its name. `harmless = true`: they neither remove nor replace a file.
Not code of the repository; it acts on what file_dependency_wrapper.py:66-126 uses. -/
inductive OStep (harmless : Bool) : FileW → FileW → Prop
  /-- `mv p q`; a file with the name `q` is replaced. -/
  | rename (w : FileW) (p q : Str) (i : Nat) : w.files p = some i → p ≠ q →
      (harmless = true → w.files q = none) →
      OStep harmless w { w with files := putAt (putAt w.files p none) q (some i) }
  /-- `rm p` -/
  | remove (w : FileW) (p : Str) : harmless = false →
      OStep harmless w { w with files := putAt w.files p none }
  /-- `touch p` -/
  | create (w : FileW) (p : Str) : w.files p = none →
      OStep harmless w { w with files := putAt w.files p (some w.fresh), data := putAt w.data w.fresh [],
                                fresh := w.fresh + 1 }

/-- Runs of the handler (`FStep`: writer.py:33-43) and of others, in any order. The list only records history: which
file each line was given to (`self.file.write`, writer.py:41; file_dependency_wrapper.py:66-71). -/
inductive ORun (c : FConf) (harmless : Bool) (s₀ : FState) : FState → List (Nat × Str) → Prop
  | init : ORun c harmless s₀ s₀ []
  | handler {s s' : FState} {into : List (Nat × Str)} : ORun c harmless s₀ s into → FStep c s s' →
      s'.written = s.written → ORun c harmless s₀ s' into
  | line {s s' : FState} {into : List (Nat × Str)} {i : Nat} {l : Str} : ORun c harmless s₀ s into →
      FStep c s s' → s.w.file = some i → s'.written = s.written ++ [l] →
      ORun c harmless s₀ s' (into ++ [(i, l)])
  | outside {s : FState} {w : FileW} {into : List (Nat × Str)} : ORun c harmless s₀ s into →
      OStep harmless s.w w → ORun c harmless s₀ { s with w := w } into

end Polog
