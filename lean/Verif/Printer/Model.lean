import Verif.Tree.Model

/-!
Model of the textual representation of a tree: `TreePrinter`
(`polog/data_structures/trees/named_tree/printer.py`), `TreeWalker.dfs` (`walker.py:33-49`) and
`get_full_name` (`tree.py:274-296`).
-/

namespace Polog

variable {V : Type}

/-- `_recursive_dfs` over the children of a node, `walker.py:41-49`.  A node is given by the names on the
way from the root to it (`path`, `tree.py:285-290` reversed).  Simplification: the tree is not so deep
that Python's recursion limit is reached (`printer.py:31-32`). -/
def Forest.dfs (path : List Str) : Forest V → List (List Str)
  | .nil => []
  | .cons n _ c r => (path ++ [n]) :: (c.dfs (path ++ [n]) ++ r.dfs path)

/-- `dfs`, `walker.py:33-39`. -/
def Tree.dfs (t : Tree V) : List (List Str) := [] :: t.childs.dfs []

/-- `get_full_name`, `tree.py:274-296`. -/
def nodeFullName (path : List Str) : Str := if path = [] then [sep] else joinChar sep path

/-- `full_name.count(...) + 1 if ... else 0`, `printer.py:26`. -/
def nodeIndent (path : List Str) : Nat := if nodeFullName path ≠ [sep] then (nodeFullName path).count sep + 1 else 0

/-- `node.name if node.name is not None else ...`, `printer.py:28`. -/
def nodeName (path : List Str) : Str := match path.getLast? with | some n => n | none => [sep]

/-- One line, `printer.py:25-29`, with the terminal sequences for underlining. -/
def nodeLine (path : List Str) : Str :=
  List.replicate (nodeIndent path) '\t' ++ '|' :: "\x1b[4m".toList ++ nodeName path ++ "\x1b[0m".toList

/-- `get_indented_representation`, `printer.py:9-35`, which is `str(tree)` (`tree.py:152-159`). -/
def Tree.repr (t : Tree V) : Str :=
  if t.len = 0 then "<NamedTree empty object>".toList
  else "<NamedTree:\n".toList ++ joinChar '\n' (t.dfs.map nodeLine) ++ ">".toList

end Polog
