import Verif.TimeLimit.Model

/-! The time a body takes (C52). -/

namespace Polog

/-- The time a body takes. -/
def total (pieces : List Nat) : Nat := pieces.sum

end Polog
