import Verif.Py
import Verif.Tree.Model

/-!
Specification of a handler namespace: a plain map from key strings to handlers.
Nothing here refers to nodes, children, paths or pruning.  From the model it only takes the type
`Key` of keys as the user passes them.
-/

namespace Polog.TreeSpec

/-- A key is valid if it is the separator itself (the root), or all its dot-separated parts are
accepted identifiers. -/
def validKey (isId : Str → Bool) (s : Str) : Bool :=
  s == ['.'] || (splitChar '.' s).all isId

/-- Depth of a key: 0 for the root key ".", otherwise the number of dot-separated parts. -/
def depth (s : Str) : Nat := if s = ['.'] then 0 else (splitChar '.' s).length

/-- The abstract namespace: which handler is registered under which key string. -/
abbrev Map (V : Type) := Str → Option V

/-- Operations on a namespace: assignment, deletion, reading, and selecting a branch for a local
namespace (which must not change the map). -/
inductive Op (V : Type) where
  | set (key : Key) (value : Option V)
  | del (key : Key)
  | get (key : Key)
  | select (key : Key)

/-- What the caller observes. -/
inductive Out (V : Type) where
  | done
  | value (v : V)
  | raised (e : PyErr)
deriving DecidableEq, Repr

variable {V : Type}

def Map.put (m : Map V) (k : Str) (v : Option V) : Map V := fun k' => if k' = k then v else m k'

/-- The intended behaviour: a map, with the documented rejections. -/
def step (isId : Str → Bool) (okValue : V → Bool) (m : Map V) : Op V → Map V × Out V
  | .set .other _ => (m, .raised .keyError)
  | .set (.str _) none => (m, .raised .valueError)
  | .set (.str k) (some v) =>
    if !okValue v then (m, .raised .valueError)
    else if !validKey isId k then (m, .raised .keyError)
    else (m.put k (some v), .done)
  | .del .other => (m, .raised .keyError)
  | .del (.str k) =>
    if !validKey isId k then (m, .raised .keyError)
    else match m k with
      | none => (m, .raised .keyError)
      | some _ => (m.put k none, .done)
  | .get .other => (m, .raised .keyError)
  | .get (.str k) =>
    if !validKey isId k then (m, .raised .keyError)
    else match m k with
      | none => (m, .raised .keyError)
      | some v => (m, .value v)
  | .select .other => (m, .raised .keyError)
  | .select (.str k) =>
    if k = ['.'] then (m, .raised .valueError)
    else if !validKey isId k then (m, .raised .keyError)
    else (m, .done)

/-- A history of operations on the abstract namespace: final map and all observations. -/
def run (isId : Str → Bool) (okValue : V → Bool) : Map V → List (Op V) → Map V × List (Out V)
  | m, [] => (m, [])
  | m, op :: ops =>
    let (m', o) := step isId okValue m op
    let (m'', os) := run isId okValue m' ops
    (m'', o :: os)

/-- The empty namespace. -/
def empty : Map V := fun _ => none

end Polog.TreeSpec

namespace Polog
open TreeSpec (Op Out)

variable {V : Type}

/-- The same operations on the modelled `NamedTree`: `tree[k]=v`, `del tree[k]`, `tree[k]`
(`tree.py:62-93`, `131-150`) and the effect of `TreeProjector.on([k])` on the tree
(`projector.py:26-29`). A raised exception leaves the tree as it was. -/
def Tree.step (isId : Str → Bool) (okValue : V → Bool) (t : Tree V) : Op V → Tree V × Out V
  | .set k v =>
    match t.setitem isId okValue k v with
    | .error e => (t, .raised e)
    | .ok t' => (t', .done)
  | .del k =>
    match t.delitem isId k with
    | .error e => (t, .raised e)
    | .ok t' => (t', .done)
  | .get k =>
    match t.getitem isId k with
    | .error e => (t, .raised e)
    | .ok v => (t, .value v)
  | .select k =>
    match t.touch isId k with
    | .error e => (t, .raised e)
    | .ok t' => (t', .done)

/-- A history of operations on the modelled tree. -/
def Tree.run (isId : Str → Bool) (okValue : V → Bool) : Tree V → List (Op V) → Tree V × List (Out V)
  | t, [] => (t, [])
  | t, op :: ops =>
    let (t', o) := t.step isId okValue op
    let (t'', os) := Tree.run isId okValue t' ops
    (t'', o :: os)

/-- Trees that some history of operations leads to, starting from `NamedTree()`. -/
def Tree.Reachable (isId : Str → Bool) (okValue : V → Bool) (t : Tree V) : Prop :=
  ∃ ops, (Tree.run isId okValue Tree.empty ops).1 = t

end Polog

namespace Polog
open TreeSpec

variable {V : Type}

/-- A registered key covers `k` if it is `k` itself or lies below it (`k.` is a proper prefix). -/
def Covers (k k' : Str) : Prop := k' = k ∨ ∃ rest, k' = k ++ '.' :: rest

/-- Histories that only assign, delete and read. -/
def NoSelect : List (Op V) → Prop
  | [] => True
  | .select _ :: _ => False
  | _ :: ops => NoSelect ops

end Polog
