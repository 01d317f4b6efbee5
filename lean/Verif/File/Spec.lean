import Verif.File.Model

/-! What the file handler is expected to do. -/

namespace Polog
namespace FileSpec

/-- What is in the file with this name (nothing if there is no such file). -/
def content (w : FileW) (name : Str) : Str :=
  match w.files name with
  | none => []
  | some i => w.data i

/-- What was in the file at the beginning and all written lines in order are in the rotated files in
order of rotation, then in the current file, then in the buffer of the open file: each exactly once. -/
def NothingLost (fn : Str) (before after : FState) : Prop :=
  (after.rotated.map (content after.w)).flatten ++ content after.w fn ++ after.w.buf =
    content before.w fn ++ after.written.flatten

end FileSpec
end Polog

namespace Polog
open FileSpec

/-- What belongs to thread `t`. -/
def FileSpec.ofThread {α : Type} (t : Nat) (l : List (Nat × α)) : List α := (l.filter fun x => x.1 = t).map Prod.snd

end Polog

namespace Polog

namespace FileSpec

/-- `n` more steps, in any order of the threads, during which no thread starts a new call. -/
inductive GoesOn (c : FConf) (s : FState) : Nat → FState → Prop
  | here : GoesOn c s 0 s
  | step {n : Nat} {s' s'' : FState} : GoesOn c s n s' → FStep c s' s'' →
      (∀ t, s'.pc t = .idle → s''.pc t = .idle) → GoesOn c s (n + 1) s''

end FileSpec

end Polog
