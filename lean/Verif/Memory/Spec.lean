import Verif.Memory.Model

/-! What is expected from a handler that keeps records in memory. -/

namespace Polog
namespace MemSpec

/-- The records saved after the last cleaning, in the order of saving. -/
def sinceClean {L : Type} : List (Nat × MemCall L) → List L → List L
  | [], acc => acc
  | (_, .save log) :: rest, acc => sinceClean rest (acc ++ [log])
  | (_, .clean) :: rest, _ => sinceClean rest []
  | (_, .construct) :: rest, acc => sinceClean rest acc

/-- The records the object should hold. -/
def kept {L : Type} (hist : List (Nat × MemCall L)) : List L := sinceClean hist []

end MemSpec
end Polog
