import Verif.File.Full
import Mathlib.Data.List.Forall2

/-! What the user relies on when the disk is full. -/

namespace Polog
namespace FullSpec

/-- Everything the system has taken: the rotated files in order, then the log. -/
def stored (s : DkState) : Str := s.old.flatten ++ s.cur

/-- The text consists of one piece for each of the lines, in their order, and every piece is the beginning of its line
(possibly nothing, possibly the whole line). -/
def Beginnings (lines : List Str) (text : Str) : Prop :=
  ∃ pieces, List.Forall₂ (fun line piece => piece <+: line) lines pieces ∧ pieces.flatten = text

/-- The same for lines with a mark; the lines marked `true` are whole. -/
def Whole (lines : List (Str × Bool)) (text : Str) : Prop :=
  ∃ pieces, List.Forall₂ (fun line piece => piece <+: line.1 ∧ (line.2 = true → piece = line.1)) lines pieces ∧
    pieces.flatten = text

end FullSpec
end Polog
