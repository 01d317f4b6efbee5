import Verif.File.Outside
import Verif.File.Spec

/-! What becomes of the lines when others rename, replace and remove log files. -/

namespace Polog
namespace OutsideSpec

/-- What was in a file when it was first seen: files made later begin empty. -/
def before (s₀ : FState) (i : Nat) : Str := if i < s₀.w.fresh then s₀.w.data i else []

/-- The lines given to the file `i`, in order. -/
def linesOf (i : Nat) : List (Nat × Str) → Str
  | [] => []
  | (j, l) :: rest => if j = i then l ++ linesOf i rest else linesOf i rest

/-- What the handler still keeps for the file `i`. -/
def pendingFor (w : FileW) (i : Nat) : Str := if w.file = some i then w.buf else []

end OutsideSpec
end Polog
