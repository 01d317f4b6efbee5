import Verif.Walk.Model

/-! Specification of "a handler is registered under a path" for the heap model of the namespace. -/

namespace Polog.WalkSpec

variable {V : Type}

/-- The names of the path lead from the node `i` to the node `j`, from parent to child. -/
inductive ByNames (h : Heap V) : Nat → List Str → Nat → Prop
  | here (i : Nat) : ByNames h i [] i
  | down {i j k : Nat} {name : Str} {path : List Str} (hc : Dict.get? name (h.node i).childs = some k)
      (hp : ByNames h k path j) : ByNames h i (name :: path) j

/-- The handler `v` is registered under the path (a list of names; the empty list is the root). -/
def At (h : Heap V) (path : List Str) (v : V) : Prop := ∃ i, ByNames h 0 path i ∧ (h.node i).value = some v

/-- `v` is registered under this path and under no other. -/
def OnlyAt (h : Heap V) (path : List Str) (v : V) : Prop :=
  At h path v ∧ ∀ path', At h path' v → path' = path

end Polog.WalkSpec

namespace Polog
open WalkSpec

variable {V : Type}

/-- The runs in which the changes never add or remove a child of a node exactly while the walk reads the
children of that node, and in which `v` stays registered under `q`. -/
def CalmKeeping (q : List Str) (v : V) (s s' : WSys V) : Prop := CalmStep s s' ∧ At s'.heap q v

/-- All runs in which `v` stays registered under `q`. -/
def RaceKeeping (q : List Str) (v : V) (s s' : WSys V) : Prop := RaceStep s s' ∧ At s'.heap q v

end Polog
