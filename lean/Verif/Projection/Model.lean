import Verif.Dict
import Verif.Tree.Model

/-!
Model of the *sharing* between the global handler tree and the local trees made by
`polog/data_structures/trees/named_tree/projector.py` (`TreeProjector.on`), used by
`config.get_handlers(*names)` (`polog/config.py:111-124`) and by `@log(handlers=[...])`
(`polog/loggers/auto/function_logger.py:241-284`).

The nodes of the global tree live in a heap and have an identity; a local tree consists of nodes of
its own and of references to nodes of the global heap.  A global node that was cut off the global tree
stays in the heap, as in Python it stays alive while a local tree refers to it.
-/

namespace Polog

/-- A node of the global tree, `tree.py:49-60`: `name`, `value`, `childs` (name to node identity) and
`parent`.  The attributes `lock`, `walker`, `printer` and the checkers are left out. -/
structure HNode (V : Type) where
  name : Option Str
  value : Option V
  childs : Dict Str Nat
  parent : Option Nat
deriving DecidableEq

/-- The nodes created so far: identities below `next`.  The global tree is the node `0`
(`polog/core/stores/handlers.py`: one `NamedTree()` for the whole program). -/
structure Heap (V : Type) where
  node : Nat → HNode V
  next : Nat

variable {V : Type}

/-- `NamedTree()`: only the root, without value, children, parent and name, `tree.py:49-60`. -/
def Heap.init : Heap V := ⟨fun _ => ⟨none, none, [], none⟩, 1⟩

/-- An attribute assignment on the node `i`. tree.py:75-93, 162-191. -/
def Heap.put (h : Heap V) (i : Nat) (n : HNode V) : Heap V :=
  ⟨fun j => if j = i then n else h.node j, h.next⟩

/-- `create_child`, `tree.py:246-272`: a new node with the name, parent `i`, no value and no children,
and a new entry in the `childs` of `i`. -/
def Heap.createChild (h : Heap V) (i : Nat) (name : Str) : Heap V × Nat :=
  (⟨fun j => if j = h.next then ⟨some name, none, [], some i⟩
      else if j = i then { h.node i with childs := Dict.set name h.next (h.node i).childs }
      else h.node j, h.next + 1⟩, h.next)

/-- The loop of `search_node`, `tree.py:220-226`, from the node `i`. -/
def Heap.walk (h : Heap V) (i : Nat) : List Str → Option Nat
  | [] => some i
  | k :: ks =>
    match Dict.get? k (h.node i).childs with
    | none => none
    | some j => h.walk j ks

/-- The loop of `search_or_create_node`, `tree.py:238-244`, from the node `i`. -/
def Heap.walkNew (h : Heap V) (i : Nat) : List Str → Heap V × Nat
  | [] => (h, i)
  | k :: ks =>
    match Dict.get? k (h.node i).childs with
    | none => (h.createChild i k).1.walkNew (h.createChild i k).2 ks
    | some j => h.walkNew j ks

/-- `len(node) > 0`, `tree.py:95-107` with `walker.py:8-31`: some node below (or the node itself) holds
a value.  Simplifications: depth first instead of breadth first, as only the truth value is used here;
the recursion is cut at the given depth (`Heap.hasValue_iff` shows that the depth used by `Heap.cut`
is enough). -/
def Heap.hasValue (h : Heap V) : Nat → Nat → Bool
  | 0, _ => false
  | depth + 1, i => (h.node i).value.isSome || (h.node i).childs.any fun kj => h.hasValue depth kj.2

/-- One round of `cut_empty_branch` for the node `p`, `tree.py:175-182` without the check of
`break_on`: the children without values are deleted. -/
def Heap.prune (h : Heap V) (p : Nat) : Heap V :=
  h.put p { h.node p with childs := (h.node p).childs.filter fun kj => h.hasValue h.next kj.2 }

/-- `cut_empty_branch(node, break_on)`, `tree.py:161-183`.  The number of rounds of the `while` loop
is bounded by `rounds`; `Heap.cut_rounds` shows that the bound used by `Heap.del` is never reached. -/
def Heap.cut (h : Heap V) (breakOn : Nat) : Nat → Nat → Heap V
  | 0, _ => h
  | rounds + 1, i =>
    match (h.node i).parent with
    | none => h
    | some p =>
      if (h.node p).childs.any (fun kj => kj.2 == breakOn) then h
      else (h.prune p).cut breakOn rounds p

/-- `search_node(keys)` of the global tree, `tree.py:208-226`. -/
def Heap.search (h : Heap V) (keys : List Str) : Option Nat :=
  if keys = [] then none else if keys = [[sep]] then some 0 else h.walk 0 keys

/-- `search_or_create_node(keys)` of the global tree, `tree.py:228-244`. -/
def Heap.searchOrCreate (h : Heap V) (keys : List Str) : Heap V × Nat :=
  if keys = [[sep]] then (h, 0) else h.walkNew 0 keys

/-- `global_handlers.get(key)`, `tree.py:193-206`. -/
def Heap.get (isId : Str → Bool) (h : Heap V) (key : Key) : Except PyErr (Option V) :=
  if key = .str [sep] then .ok (h.node 0).value
  else
    match convKeys isId key with
    | .error e => .error e
    | .ok keys =>
      match h.search keys with
      | none => .ok none
      | some i => .ok (h.node i).value

/-- `global_handlers[key] = value`, `tree.py:75-93`; `okValue` is the `value_checker`. -/
def Heap.set (isId : Str → Bool) (okValue : V → Bool) (h : Heap V) (key : Key) (value : Option V) :
    Heap V × Option PyErr :=
  match key with
  | .other => (h, some .keyError)
  | .str _ =>
    match value with
    | none => (h, some .valueError)
    | some v =>
      if okValue v then
        match convKeys isId key with
        | .error e => (h, some e)
        | .ok keys =>
          ((h.searchOrCreate keys).1.put (h.searchOrCreate keys).2
            { (h.searchOrCreate keys).1.node (h.searchOrCreate keys).2 with value := some v }, none)
      else (h, some .valueError)

/-- `del global_handlers[key]`, `tree.py:131-150`. -/
def Heap.del (isId : Str → Bool) (h : Heap V) (key : Key) : Heap V × Option PyErr :=
  match key with
  | .other => (h, some .keyError)
  | .str _ =>
    match convKeys isId key with
    | .error e => (h, some e)
    | .ok keys =>
      match h.search keys with
      | none => (h, some .keyError)
      | some i =>
        if (h.node i).value.isNone then (h, some .keyError)
        else ((h.put i { h.node i with value := none }).cut 0 h.next i, none)

/-- A node of a local tree: one of its own nodes (`value`, `childs`), or a node of the global tree that
was put into it.  Simplification: the own nodes of a local tree are reachable only from that tree, so
they are kept as a value without identities; their `parent` and `name` are never read.
projector.py:17-32, tree.py:319-349. -/
inductive PNode (V : Type) where
  | own (value : Option V) (childs : List (Str × PNode V))
  | shared (id : Nat)

/-- `put_node(keys, new_node)`, `tree.py:336-349`, walking from a global node `i`. -/
def Heap.putNode (h : Heap V) (i : Nat) : List Str → Nat → Heap V
  | [], _ => h
  | [k], n => h.put i { h.node i with childs := Dict.set k n (h.node i).childs }
  | k :: k2 :: ks, n =>
    match Dict.get? k (h.node i).childs with
    | none => (h.createChild i k).1.putNode (h.createChild i k).2 (k2 :: ks) n
    | some j => h.putNode j (k2 :: ks) n

/-- `put_node(keys, new_node)`, `tree.py:336-349`, walking from a node of the local tree. A missing
node is created without value and children (`tree.py:346-347`). -/
def PNode.putNode (h : Heap V) : PNode V → List Str → Nat → Heap V × PNode V
  | .shared i, keys, n => (h.putNode i keys n, .shared i)
  | .own v f, [], _ => (h, .own v f)
  | .own v f, [k], n => (h, .own v (Dict.set k (.shared n) f))
  | .own v f, k :: k2 :: ks, n =>
    let r := PNode.putNode h ((Dict.get? k f).getD (.own none [])) (k2 :: ks) n
    (r.1, .own v (Dict.set k r.2 f))

/-- The loop of `TreeProjector.on`, `projector.py:26-32`, continuing the local tree `t`.  An exception
leaves the changes made so far in the global tree. -/
def Heap.on (isId : Str → Bool) (h : Heap V) (t : PNode V) : List Key → Heap V × Except PyErr (PNode V)
  | [] => (h, .ok t)
  | p :: ps =>
    if p = .str [sep] then (h, .error .valueError)
    else
      match convKeys isId p with
      | .error e => (h, .error e)
      | .ok keys =>
        let s := h.searchOrCreate keys
        let r := PNode.putNode s.1 t keys s.2
        r.1.on isId r.2 ps

/-- `config.get_handlers(*names)` with at least one name, `config.py:122-124`, and
`projector.on(paths)`, `projector.py:17-32`. -/
def Heap.select (isId : Str → Bool) (h : Heap V) (paths : List Key) : Heap V × Except PyErr (PNode V) :=
  h.on isId (.own none []) paths

/-- The value found by walking from a node of a local tree, `tree.py:203-206`, `220-226`. -/
def PNode.val (h : Heap V) : PNode V → List Str → Option V
  | .shared i, ks => (h.walk i ks).bind fun j => (h.node j).value
  | .own v _, [] => v
  | .own _ f, k :: ks =>
    match Dict.get? k f with
    | none => none
    | some t => t.val h ks

/-- `local.get(key)`, `tree.py:193-206`, for a local tree. -/
def PNode.get (isId : Str → Bool) (h : Heap V) (t : PNode V) (key : Key) : Except PyErr (Option V) :=
  if key = .str [sep] then .ok (t.val h [])
  else
    match convKeys isId key with
    | .error e => .error e
    | .ok keys => .ok (t.val h keys)

/-- `search_node(keys) is not None` for a local tree, `tree.py:220-226`. -/
def PNode.hasNode (h : Heap V) : PNode V → List Str → Bool
  | .shared i, ks => (h.walk i ks).isSome
  | .own _ _, [] => true
  | .own _ f, k :: ks =>
    match Dict.get? k f with
    | none => false
    | some t => t.hasNode h ks

/-- `local[name] = handler` for a local tree, `tree.py:90-93`, after the conversion of the name. -/
def PNode.setVal (h : Heap V) : PNode V → List Str → V → Heap V × PNode V
  | .shared i, ks, v =>
    ((h.walkNew i ks).1.put (h.walkNew i ks).2
      { (h.walkNew i ks).1.node (h.walkNew i ks).2 with value := some v }, .shared i)
  | .own _ f, [], v => (h, .own (some v) f)
  | .own v0 f, k :: ks, v =>
    let r := PNode.setVal h ((Dict.get? k f).getD (.own none [])) ks v
    (r.1, .own v0 (Dict.set k r.2 f))

/-- The loop `function_logger.py:277-282`: every handler object gets the next generated name that is
not in the local tree.  `names` is a part of the (infinite) sequence of generated names, after the
replacement of spaces; `none` means that this part was too short. -/
def addLocals (isId : Str → Bool) (h : Heap V) (t : PNode V) :
    List Str → List V → Option (Heap V × Except PyErr (PNode V))
  | _, [] => some (h, .ok t)
  | [], _ :: _ => none
  | name :: names, v :: vs =>
    match convKeys isId (.str name) with
    | .error e => some (h, .error e)
    | .ok keys =>
      if t.hasNode h keys then addLocals isId h t names (v :: vs)
      else
        let r := t.setVal h keys v
        addLocals isId r.1 r.2 names vs

/-- The local namespace of `@log(handlers=[...])`, `function_logger.py:272-284`, for the paths and the
handler objects of the list (the sorting of the list into the two kinds, lines 261-270, is not part of
this definition). -/
def Heap.localScope (isId : Str → Bool) (h : Heap V) (paths : List Key) (handlers : List V)
    (names : List Str) : Option (Heap V × Except PyErr (PNode V)) :=
  match h.select isId paths with
  | (h', .error e) => some (h', .error e)
  | (h', .ok t) => addLocals isId h' t names handlers

/-- The operations on the global namespace: registration, deletion and selecting paths for (other)
local namespaces. config.py:72-144, projector.py:17-32. -/
inductive HOp (V : Type) where
  | set (key : Key) (value : Option V)
  | del (key : Key)
  | select (paths : List Key)

/-- One operation; the second part is the exception, if any. tree.py:75-93, 131-150, projector.py:17-32. -/
def Heap.step (isId : Str → Bool) (okValue : V → Bool) (h : Heap V) : HOp V → Heap V × Option PyErr
  | .set k v => h.set isId okValue k v
  | .del k => h.del isId k
  | .select ps =>
    match h.select isId ps with
    | (h', .ok _) => (h', none)
    | (h', .error e) => (h', some e)

/-- A history of operations on the global namespace. tree.py:75-93, 131-150, projector.py:17-32. -/
def Heap.run (isId : Str → Bool) (okValue : V → Bool) (h : Heap V) : List (HOp V) → Heap V
  | [] => h
  | op :: ops => (h.step isId okValue op).1.run isId okValue ops

end Polog
