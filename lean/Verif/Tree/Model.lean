import Verif.Py

/-!
Model of `polog/data_structures/trees/named_tree/tree.py` (`NamedTree`) and `walker.py`
(`TreeWalker`), as a functional rose tree.  Node identity and sharing between trees is *not* part of
this file; it is modelled in `Verif.Projection`.
-/

namespace Polog

/-- The `childs` dictionary of a node (`tree.py:57`): an insertion-ordered list of
(name, child node), where a child node is given by its `value` and its own `childs`.
Simplification: the attributes `parent`, `name`, `lock`, `walker`, `printer` of a node are implicit. -/
inductive Forest (V : Type) where
  | nil : Forest V
  | cons (name : Str) (value : Option V) (childs : Forest V) (rest : Forest V) : Forest V
deriving Repr, DecidableEq

/-- A node, `tree.py:49-60`.  `value = none` is Python's `None`. -/
structure Tree (V : Type) where
  value : Option V
  childs : Forest V
deriving Repr, DecidableEq

variable {V : Type}

/-- `NamedTree()`, `tree.py:49-60`: no value, no children. -/
def Tree.empty : Tree V := ⟨none, .nil⟩

/-- The separator, default of `keys_separator`, `tree.py:49`. -/
def sep : Char := '.'

/-- `childs.get(key)`, used at `tree.py:222`. -/
def Forest.get? (k : Str) : Forest V → Option (Tree V)
  | .nil => none
  | .cons n v c r => if n = k then some ⟨v, c⟩ else r.get? k

/-- The loop of `search_node`, `tree.py:220-226`. -/
def Tree.walk (t : Tree V) : List Str → Option (Tree V)
  | [] => some t
  | k :: ks =>
    match t.childs.get? k with
    | none => none
    | some next => next.walk ks

/-- `search_node`, `tree.py:208-226`. -/
def Tree.searchNode (t : Tree V) (keys : List Str) : Option (Tree V) :=
  if keys = [] then none
  else if keys = [[sep]] then some t
  else t.walk keys

/-- A dictionary access `childs[k]` that creates the child (with no value, no children) when it is
missing and then continues in the child with `f`: `tree.py:240-243` with `create_child`
(`tree.py:246-272`; its "already has a child" error cannot happen here because the child was just
looked up under the same lock). A new key goes to the end of the dictionary. -/
def Forest.upsert (k : Str) (f : Tree V → Tree V) : Forest V → Forest V
  | .nil => let t := f ⟨none, .nil⟩; .cons k t.value t.childs .nil
  | .cons n v c r =>
    if n = k then let t := f ⟨v, c⟩; .cons n t.value t.childs r
    else .cons n v c (r.upsert k f)

/-- The loop of `search_or_create_node` (`tree.py:238-244`) followed by an update `f` of the node
found (e.g. `node.value = value`, `tree.py:93`). -/
def Tree.modifyAt (f : Tree V → Tree V) : List Str → Tree V → Tree V
  | [], t => f t
  | k :: ks, t => ⟨t.value, t.childs.upsert k (Tree.modifyAt f ks)⟩

/-- `search_or_create_node`, `tree.py:228-244`, followed by an update of the node found. -/
def Tree.searchOrCreate (f : Tree V → Tree V) (keys : List Str) (t : Tree V) : Tree V :=
  if keys = [[sep]] then f t else Tree.modifyAt f keys t

/-- A key as the user passes it: a string or any other object.
What tree.py:62-150 get as `key`; told apart at tree.py:298-317. -/
inductive Key where
  | str (s : Str)
  | other
deriving DecidableEq, Repr

/-- `get_converted_keys`, `tree.py:298-317`.  `isId` is the `key_checker` (default
`str.isidentifier`, which depends on Unicode tables and is therefore a parameter). -/
def convKeys (isId : Str → Bool) : Key → Except PyErr (List Str)
  | .other => .error .keyError
  | .str s =>
    if s = [sep] then .ok [s]
    else
      let keys := splitChar sep s
      if keys.all isId then .ok keys else .error .keyError

/-- Number of nodes of a forest; used only as the termination measure of `bfs`.
For the termination of walker.py:8-21. -/
def Forest.size : Forest V → Nat
  | .nil => 0
  | .cons _ _ c r => 1 + c.size + r.size

/-- `node.childs.values()`, `walker.py:19`. -/
def Forest.trees : Forest V → List (Tree V)
  | .nil => []
  | .cons _ v c r => ⟨v, c⟩ :: r.trees

/-- Number of nodes of a tree; for the termination of `bfs` (walker.py:8-21). -/
def Tree.size (t : Tree V) : Nat := 1 + t.childs.size

theorem Forest.trees_size (f : Forest V) : (f.trees.map Tree.size).sum = f.size := by
  induction f with
  | nil => rfl
  | cons n v c r _ ih => simp [Forest.trees, Forest.size, Tree.size, ih]

/-- The next layer built by `walker.py:16-21`: the children of all nodes of the layer, in order. -/
def nextLayer (layer : List (Tree V)) : List (Tree V) := layer.flatMap fun t => t.childs.trees

theorem nextLayer_size (layer : List (Tree V)) :
    ((nextLayer layer).map Tree.size).sum + layer.length
      = (layer.map Tree.size).sum := by
  induction layer with
  | nil => rfl
  | cons t ts ih =>
    simp only [nextLayer, List.flatMap_cons, List.map_append, List.sum_append, List.map_cons, List.sum_cons,
      List.length_cons, Forest.trees_size, Tree.size] at ih ⊢
    omega

/-- `TreeWalker.bfs`, `walker.py:8-21`: layer by layer; the next layer is the concatenation of the
children of the current one. -/
def bfsLayers (layer : List (Tree V)) : List (Tree V) :=
  if _h : layer = [] then []
  else layer ++ bfsLayers (nextLayer layer)
termination_by (layer.map Tree.size).sum
decreasing_by
  have := nextLayer_size layer
  have : 0 < layer.length := List.length_pos_iff.2 _h
  omega

/-- `TreeWalker.bfs_values`, `walker.py:23-31`, and `__iter__`, `tree.py:109-118`. -/
def Tree.iter (t : Tree V) : List V := (bfsLayers [t]).filterMap Tree.value

/-- `__len__`, `tree.py:95-107`. -/
def Tree.len (t : Tree V) : Nat := t.iter.length

/-- One round of `cut_empty_branch`, `tree.py:175-182`: delete the children with `len(child) == 0`. -/
def Forest.prune : Forest V → Forest V
  | .nil => .nil
  | .cons n v c r => if (⟨v, c⟩ : Tree V).len = 0 then r.prune else .cons n v c r.prune

/-- Replace the (existing) child under `k`; the dictionary position is kept.
The effect of a change inside a node found by tree.py:208-226 on the whole. -/
def Forest.modify (k : Str) (f : Tree V → Tree V) : Forest V → Forest V
  | .nil => .nil
  | .cons n v c r =>
    if n = k then let t := f ⟨v, c⟩; .cons n t.value t.childs r
    else .cons n v c (r.modify k f)

/-- `node.delete_value(); self.cut_empty_branch(node, break_on=self)` for the node at `keys`
(`tree.py:149-150`, `161-191`).  The upward walk over the parents is the unwinding of this
recursion: every proper ancestor, from the deepest one up to the root, drops its empty children; the
node itself does not.  Simplification: `self` is the root of its tree (`parent is None`), so
`break_on` is never met as a child. -/
def Tree.delAt : List Str → Tree V → Tree V
  | [], t => ⟨none, t.childs⟩
  | k :: ks, t => ⟨t.value, (t.childs.modify k (Tree.delAt ks)).prune⟩

/-- `get`, `tree.py:193-206`; `none` is Python's `None`. -/
def Tree.get (isId : Str → Bool) (t : Tree V) (key : Key) : Except PyErr (Option V) :=
  if key = .str [sep] then .ok t.value
  else
    match convKeys isId key with
    | .error e => .error e
    | .ok keys =>
      match t.searchNode keys with
      | none => .ok none
      | some node => .ok node.value

/-- `__getitem__`, `tree.py:62-73`. -/
def Tree.getitem (isId : Str → Bool) (t : Tree V) (key : Key) : Except PyErr V :=
  match t.get isId key with
  | .error e => .error e
  | .ok none => .error .keyError
  | .ok (some v) => .ok v

/-- `__setitem__`, `tree.py:75-93`.  `value = none` is Python's `None`; `okValue` is the
`value_checker`. -/
def Tree.setitem (isId : Str → Bool) (okValue : V → Bool) (t : Tree V) (key : Key)
    (value : Option V) : Except PyErr (Tree V) :=
  match key with
  | .other => .error .keyError
  | .str _ =>
    match value with
    | none => .error .valueError
    | some v =>
      if okValue v then
        match convKeys isId key with
        | .error e => .error e
        | .ok keys => .ok (t.searchOrCreate (fun n => ⟨some v, n.childs⟩) keys)
      else .error .valueError

/-- `__contains__`, `tree.py:120-129`. -/
def Tree.contains (isId : Str → Bool) (t : Tree V) (key : Key) : Except PyErr Bool :=
  match convKeys isId key with
  | .error e => .error e
  | .ok keys =>
    match t.searchNode keys with
    | none => .ok false
    | some _ => .ok true

/-- `__delitem__`, `tree.py:131-150`. -/
def Tree.delitem (isId : Str → Bool) (t : Tree V) (key : Key) : Except PyErr (Tree V) :=
  match key with
  | .other => .error .keyError
  | .str _ =>
    match convKeys isId key with
    | .error e => .error e
    | .ok keys =>
      match t.searchNode keys with
      | none => .error .keyError
      | some node =>
        if node.value.isNone then .error .keyError
        else if keys = [[sep]] then .ok (Tree.delAt [] t)
        else .ok (Tree.delAt keys t)

/-- What `TreeProjector.on` (`projector.py:29`) does to the *source* tree for one path:
`self.tree.search_or_create_node(self.tree.get_converted_keys(path))` (the root path is refused,
`projector.py:27-28`). -/
def Tree.touch (isId : Str → Bool) (t : Tree V) (key : Key) : Except PyErr (Tree V) :=
  if key = .str [sep] then .error .valueError
  else
    match convKeys isId key with
    | .error e => .error e
    | .ok keys => .ok (t.searchOrCreate id keys)

end Polog
