import Verif.Printer.Model

/-! The order of the nodes and the lines of a printed tree (C65). -/

namespace Polog
namespace PrinterSpec

variable {V : Type}

/-- The tree has a node at this path. -/
def HasNode (t : Tree V) (path : List Str) : Prop := (t.walk path).isSome = true

/-- Names of nodes: what `str.isidentifier` accepts is not empty and contains neither dots nor line
breaks. -/
def GoodName (n : Str) : Prop := n ≠ [] ∧ '.' ∉ n ∧ '\n' ∉ n

/-- Each node stands after its parent, and between them there are only nodes below that parent. -/
def Ordered (order : List (List Str)) : Prop :=
  ∀ before path after, order = before ++ path :: after → path ≠ [] →
    ∃ b₁ b₂, before = b₁ ++ path.dropLast :: b₂ ∧ ∀ q ∈ b₂, path.length ≤ q.length

/-- The line of a node: as many tabs as the node is deep, and its own name. -/
def line (path : List Str) : Str :=
  List.replicate path.length '\t' ++ '|' :: "\x1b[4m".toList ++
    (if path = [] then ".".toList else path.getLastD []) ++ "\x1b[0m".toList

end PrinterSpec

end Polog
