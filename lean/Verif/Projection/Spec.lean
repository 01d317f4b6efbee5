import Verif.Tree.Spec
import Verif.Projection.Model
import Verif.Py

/-! Specification of local namespaces: which keys belong to a selected path. -/

namespace Polog.ProjSpec

/-- The key is the path itself or a name somewhere below it (`"a.b"` is below `"a"`, `"ab"` is not). -/
def Under (path key : Str) : Prop := key = path ∨ ∃ rest, key = path ++ '.' :: rest

end Polog.ProjSpec

namespace Polog

variable {V : Type}

/-- The registrations and deletions of a history, as operations on a plain map from keys to handlers
(`Verif/Tree/Spec.lean`); a selection is no operation on the map. -/
def HOp.toMap : HOp V → List (TreeSpec.Op V)
  | .set k v => [.set k v]
  | .del k => [.del k]
  | .select _ => []

end Polog
