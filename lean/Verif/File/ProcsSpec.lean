import Verif.File.Procs

/-! What is expected of the file when processes fork. -/

namespace Polog.ProcsSpec

/-- Every line written has a number.  `placed` lists the numbers in the order in which the lines came to the
disk, with the file (inode) each of them is in: no number twice.  Every file consists of what was in it at the
beginning and of the lines placed there, whole and in order; every file with a line in it has a name, that of
the log or of a rotated file; and the line of every call of the handler that has finished is there. -/
def OnceOnDisk (fn : Str) (before after : PrState) : Prop :=
  ∃ placed : List (Nat × Nat), (placed.map Prod.snd).Nodup ∧
    (∀ x ∈ placed, x.2 < after.written.length) ∧
    (∀ i, after.data i = before.data i ++
      ((placed.filter (fun x => x.1 = i)).map (fun x => after.written.getD x.2 [])).flatten) ∧
    (∀ x ∈ placed, ∃ name, after.files name = some x.1 ∧ (name = fn ∨ name ∈ after.rotated)) ∧
    ∀ k ∈ after.finished, k ∈ placed.map Prod.snd

/-- The text of the file with this name. -/
def TextIs (s : PrState) (name text : Str) : Prop := ∃ i, s.files name = some i ∧ s.data i = text

end Polog.ProcsSpec
