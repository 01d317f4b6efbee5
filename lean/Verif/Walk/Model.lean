import Verif.Projection.Model

/-!
Model of the walk over the handler namespace that is made for every log, *while other threads (or the
handlers themselves) change the namespace*: `LogItem.call_handlers` (`polog/core/log_item.py:159-171`)
iterates over the tree (`polog/data_structures/trees/named_tree/tree.py:109-118`), which is the generator
`TreeWalker.bfs_values` over the generator `TreeWalker.bfs`
(`polog/data_structures/trees/named_tree/walker.py:8-31`).  `__iter__` holds the lock of the tree only
while it creates the generator, so the steps of the walk interleave with changes.

The tree is the heap of nodes of `Verif.Projection.Model`.
-/

namespace Polog

variable {V : Type}

/-- Where the two generators are. walker.py:8-31, tree.py:109-118. -/
inductive WState where
  /-- the generator was created, nothing was done yet -/
  | start
  /-- `walker.py:16-18`: before taking the next node of the layer; `rest` is the rest of the layer, `next`
  is `next_layer` -/
  | layer (rest next : List Nat)
  /-- `walker.py:18,29-30`: the node `i` was yielded by `bfs`; before `if node.value is not None` -/
  | check (i : Nat) (rest next : List Nat)
  /-- `walker.py:31`: the value of `i` was not `None`; before it is read again and yielded -/
  | give (i : Nat) (rest next : List Nat)
  /-- `log_item.py:163-171`: the handler got the log (it may still be running), or the node was empty;
  before `node.childs.values()`, `walker.py:19` -/
  | after (i : Nat) (rest next : List Nat)
  /-- `walker.py:19-20`: inside the loop over the children of `i`; the dictionary iterator is at position
  `pos` and was created when the dictionary had `used` entries -/
  | copy (i used pos : Nat) (rest next : List Nat)
  /-- `StopIteration` -/
  | done
  /-- `RuntimeError: dictionary changed size during iteration`, raised by the loop `walker.py:19`, and
  passed on by both generators and by `call_handlers` -/
  | failed
deriving DecidableEq

/-- The namespace, the walk and the handlers called so far with this log, in the order of the calls.
`seen` is a history variable: the nodes yielded by `bfs` so far. log_item.py:159-164, walker.py:8-31. -/
structure WSys (V : Type) where
  heap : Heap V
  w : WState
  calls : List V
  seen : List Nat

/-- `iter(tree)` for a namespace: `tree.py:117-118`, `walker.py:14`. -/
def WSys.begin (h : Heap V) : WSys V := ⟨h, .start, [], []⟩

/-- One step of the thread that handles the log.
Simplifications: the handler call is one step (its changes to the namespace are `EnvStep`s made in the
state `after`); whatever the handler does or raises is escaped (`log_item.py:166-171`), so is the call of
`None` when the handler was deleted between the two reads of the value (`walker.py:30,31`).  The position of
a dictionary iterator is the position in the list of entries; when the dictionary was changed but has the
same size, CPython's position may be another one. -/
inductive WalkStep : WSys V → WSys V → Prop
  /-- `walker.py:14`: `layer = [self.tree]` -/
  | start {h : Heap V} {c sn} : WalkStep ⟨h, .start, c, sn⟩ ⟨h, .layer [0] [], c, sn⟩
  /-- `walker.py:17-18` -/
  | node {h : Heap V} {i rest next c sn} :
      WalkStep ⟨h, .layer (i :: rest) next, c, sn⟩ ⟨h, .check i rest next, c, sn ++ [i]⟩
  /-- `walker.py:30`, the node is empty -/
  | skip {h : Heap V} {i rest next c sn} (hv : (h.node i).value = none) :
      WalkStep ⟨h, .check i rest next, c, sn⟩ ⟨h, .after i rest next, c, sn⟩
  /-- `walker.py:30`, the node holds a handler -/
  | full {h : Heap V} {i rest next c sn} (hv : (h.node i).value ≠ none) :
      WalkStep ⟨h, .check i rest next, c, sn⟩ ⟨h, .give i rest next, c, sn⟩
  /-- `walker.py:31`, `log_item.py:163-171` -/
  | call {h : Heap V} {i rest next c sn} :
      WalkStep ⟨h, .give i rest next, c, sn⟩ ⟨h, .after i rest next, c ++ (h.node i).value.toList, sn⟩
  /-- `walker.py:19`: the iterator is created -/
  | iter {h : Heap V} {i rest next c sn} :
      WalkStep ⟨h, .after i rest next, c, sn⟩ ⟨h, .copy i (h.node i).childs.length 0 rest next, c, sn⟩
  /-- `walker.py:19-20`: the next child -/
  | child {h : Heap V} {i used pos rest next c sn} (hu : (h.node i).childs.length = used) {k : Str} {j : Nat}
      (hj : (h.node i).childs[pos]? = some (k, j)) :
      WalkStep ⟨h, .copy i used pos rest next, c, sn⟩ ⟨h, .copy i used (pos + 1) rest (next ++ [j]), c, sn⟩
  /-- `walker.py:19`: no more children -/
  | childsEnd {h : Heap V} {i used pos rest next c sn} (hu : (h.node i).childs.length = used)
      (hj : (h.node i).childs[pos]? = none) :
      WalkStep ⟨h, .copy i used pos rest next, c, sn⟩ ⟨h, .layer rest next, c, sn⟩
  /-- `walker.py:19`: the dictionary changed its size -/
  | changed {h : Heap V} {i used pos rest next c sn} (hu : (h.node i).childs.length ≠ used) :
      WalkStep ⟨h, .copy i used pos rest next, c, sn⟩ ⟨h, .failed, c, sn⟩
  /-- `walker.py:21,15`: the next layer -/
  | nextLayer {h : Heap V} {i next c sn} :
      WalkStep ⟨h, .layer [] (i :: next), c, sn⟩ ⟨h, .layer (i :: next) [], c, sn⟩
  /-- `walker.py:15`: the next layer is empty -/
  | stop {h : Heap V} {c sn} : WalkStep ⟨h, .layer [] [], c, sn⟩ ⟨h, .done, c, sn⟩

/-- An elementary change of the namespace by a registration, a deletion or a selection of paths for a
local namespace, made by any thread.  These operations hold the lock of the tree, but the walk does not
take it, so it can see their intermediate states.
Simplification: the `del` statements for one parent (`tree.py:181-182`) are one step. -/
inductive EnvStep : Heap V → Heap V → Prop
  /-- `create_child`, `tree.py:266-272`, for a node of the tree that has no such child -/
  | create {h : Heap V} (path : List Str) (i : Nat) (k : Str) (hr : h.walk 0 path = some i)
      (hn : Dict.get? k (h.node i).childs = none) : EnvStep h (h.createChild i k).1
  /-- `node.value = value`, `tree.py:93` -/
  | setVal {h : Heap V} (path : List Str) (i : Nat) (v : V) (hr : h.walk 0 path = some i) :
      EnvStep h (h.put i { h.node i with value := some v })
  /-- `delete_value`, `tree.py:185-191` -/
  | delVal {h : Heap V} (i : Nat) (hi : i < h.next) : EnvStep h (h.put i { h.node i with value := none })
  /-- one round of `cut_empty_branch`, `tree.py:175-182` -/
  | prune {h : Heap V} (i : Nat) (hi : i < h.next) : EnvStep h (h.prune i)

/-- The whole system: the walk and the changes, in any interleaving. walker.py:8-31 with tree.py:75-93, 131-150. -/
inductive RaceStep : WSys V → WSys V → Prop
  | walk {s s' : WSys V} (hw : WalkStep s s') : RaceStep s s'
  | env {s : WSys V} {h' : Heap V} (he : EnvStep s.heap h') : RaceStep s { s with heap := h' }

/-- The node whose children are just being read, `walker.py:19-20`. -/
def WState.expanding : WState → Option Nat
  | .copy i _ _ _ _ => some i
  | _ => none

/-- The same, but no child is added to or removed from a node exactly while the walk reads the children
of that node. walker.py:8-31 with tree.py:75-93, 131-150. -/
inductive CalmStep : WSys V → WSys V → Prop
  | walk {s s' : WSys V} (hw : WalkStep s s') : CalmStep s s'
  | env {s : WSys V} {h' : Heap V} (he : EnvStep s.heap h')
      (hc : ∀ i, s.w.expanding = some i → (h'.node i).childs = (s.heap.node i).childs) :
      CalmStep s { s with heap := h' }

end Polog
