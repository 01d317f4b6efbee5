import Verif.File.Cut
import Verif.File.Spec

/-! What is expected of a file handler when interrupts come. -/

namespace Polog
namespace CutSpec
open FileSpec

/-- The lines with this fate, oldest first. -/
def linesWith (f : CuFate) (s : CuState) : List Str := (s.done.filter fun x => x.2.2 = f).map fun x => x.2.1

/-- The rotated files in order of rotation, the current file and the buffer of the open file contain what was in the file
at the beginning and then the written lines: whole, in order, each once. -/
def Kept (fn : Str) (before after : CuState) : Prop :=
  (after.rotated.map (content after.w)).flatten ++ content after.w fn ++ after.w.buf =
    content before.w fn ++ (linesWith .written after).flatten

/-- Every call that a thread has made and that has ended had exactly one fate, in the order of the calls. -/
def Accounted (s : CuState) : Prop :=
  ∀ t, s.pc t = .idle → ofThread t s.calls = (ofThread t s.done).map Prod.fst

/-- The threads go on with what they are doing: no new calls, no interrupts. -/
inductive GoesOnUndisturbed (c : FConf) (s : CuState) : CuState → Prop
  | here : GoesOnUndisturbed c s s
  | step {s' s'' : CuState} (t : Nat) : GoesOnUndisturbed c s s' → CuStep c t s' s'' → s'.pc t ≠ .idle →
      GoesOnUndisturbed c s s''

end CutSpec
end Polog
