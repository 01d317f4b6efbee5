import Verif.File.Crash
import Mathlib.Data.List.Forall2

/-! What is expected of the file when the program is stopped. -/

namespace Polog
namespace CrashSpec

/-- What can be read from the disk at this moment: the rotated files in order of rotation, and the file. -/
def onDisk (fn : Str) (s : CrState) : Str :=
  (s.rotated.map (FileSpec.content s.w)).flatten ++ FileSpec.content s.w fn

/-- How many of the lines are not there whole. `kept`: what there is of each line. -/
def damaged : (kept lines : List Str) → Nat
  | k :: kept, l :: lines => (if k = l then 0 else 1) + damaged kept lines
  | _, _ => 0

/-- The text is `before` and then, in order, each of the lines, whole or only a beginning of it, at most `n` of them
not whole. -/
def AllButFew (n : Nat) (before : Str) (lines : List Str) (text : Str) : Prop :=
  ∃ kept, List.Forall₂ (· <+: ·) kept lines ∧ text = before ++ kept.flatten ∧ damaged kept lines ≤ n

/-- A record is in work: the handler was called with it and has not finished. -/
def inWork (s : CrState) : Prop := s.pc ≠ .off ∧ s.pc ≠ .idle

instance (s : CrState) : Decidable (inWork s) := inferInstanceAs (Decidable (_ ∧ _))

end CrashSpec
end Polog
