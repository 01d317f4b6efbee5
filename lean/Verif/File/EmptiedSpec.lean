import Verif.File.Emptied
import Verif.File.OutsideSpec

/-! What a file holds when others copy and empty files. -/

namespace Polog
namespace EmptiedSpec

/-- What is due in file `i` after these events, if it was `text` before: lines come to the end; when the file is emptied, only what the
handler has not yet given to the system is still to come; a copy begins with what was copied. -/
def due (i : Nat) : List FileEvent → Str → Str
  | [], text => text
  | .given j l :: rest, text => due i rest (if j = i then text ++ l else text)
  | .emptied j kept :: rest, text => due i rest (if j = i then kept else text)
  | .copied j t :: rest, text => due i rest (if j = i then t else text)

/-- The lines given to the file, in order. -/
def linesTo (i : Nat) : List FileEvent → Str
  | [] => []
  | .given j l :: rest => (if j = i then l else []) ++ linesTo i rest
  | _ :: rest => linesTo i rest

/-- Nobody empties this file. -/
def NotEmptied (i : Nat) (h : List FileEvent) : Prop := ∀ kept, FileEvent.emptied i kept ∉ h

/-- Nothing happens to this file. -/
def Untouched (i : Nat) (h : List FileEvent) : Prop := ∀ e ∈ h, e.file ≠ i

/-- A text is made of some of these pieces, one after another. -/
def MadeOf (piece : Str → Prop) (text : Str) : Prop := ∃ ps : List Str, text = ps.flatten ∧ ∀ p ∈ ps, piece p

end EmptiedSpec
end Polog
