import Verif.File.Multi

/-! What is expected of several processes that log to one file. -/

namespace Polog.MultiSpec

/-- Every finished line has a file: `place` tells for each finished line, in the order of finishing, the
file (inode) it was appended to.  Every file consists of what was in it at the beginning and of the lines
placed there, whole and in order, and every file with a line in it has a name: that of the log or of a
rotated file. -/
def LinesKept (fn : Str) (before after : MState) : Prop :=
  ∃ place : List Nat, place.length = after.finished.length ∧
    (∀ i, after.data i =
      before.data i ++ (((place.zip after.finished).filter (fun x => x.1 = i)).map Prod.snd).flatten) ∧
    ∀ i ∈ place, ∃ name, after.files name = some i ∧ (name = fn ∨ name ∈ after.rotated)

/-- The text is somewhere in the file with this name. -/
def HasText (s : MState) (name text : Str) : Prop :=
  ∃ i a b, s.files name = some i ∧ s.data i = a ++ text ++ b

end Polog.MultiSpec
