import Verif.Calls.Marks
import Verif.Calls.Spec

/-! What is said about exceptions of unusual classes. -/

namespace Polog
namespace MarksSpec

/-- The exception behaves as those of Python do: attributes can be asked for and set. -/
def Ordinary (kinds : Nat → AttrKind) (e : Exc) : Prop := ∀ n, e.id = .user n → kinds n = .ordinary

/-- Neither asking for an attribute nor setting one raises. -/
def Harmless (kinds : Nat → AttrKind) : Prop := ∀ n, (kinds n).look ≠ .raises ∧ (kinds n).mark ≠ .refuses

/-- An end of a call that brings only exceptions of which `P` holds. -/
def Brings (P : Exc → Prop) : Outcome → Prop
  | .ret _ => True
  | .raised e => P e

/-- All exceptions that the code raises, or raises again, are such that `P` holds of them, provided that those it gets from
the calls it makes are. -/
def RaisesOnly (P : Exc → Prop) : Body → Prop
  | .ret _ => True
  | .raise e => P e
  | .call _ b k => RaisesOnly P b ∧ ∀ o, Brings P o → RaisesOnly P (k o)
  | .block _ b k => RaisesOnly P b ∧ ∀ o, Brings P o → RaisesOnly P (k o)
  | .msg _ _ k => ∀ o, RaisesOnly P (k o)
  | .manual _ _ k => ∀ o, RaisesOnly P (k o)

end MarksSpec
end Polog
