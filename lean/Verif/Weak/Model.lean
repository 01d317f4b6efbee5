import Verif.Py

/-!
Model of `LockedWeakKeyValueDictionary`
(`polog/data_structures/wrappers/weak_linked/dictionary.py`), the dictionary behind the registries of
decorated and unlogged functions (`polog/core/stores/registering_functions.py:11-13`).

Objects are numbers; a weak reference to an object is its number together with the knowledge whether the
object is still alive.  Simplification: the operations are atomic (the lock), and a weak reference's
callback runs at the moment the object goes away.
-/

namespace Polog

/-- What is known about the objects of the program: which of them can be referred to weakly, which are
equal, which of them are `None`, and what a call of an object returns (`none`: not callable).
Asked by dictionary.py:15-133. -/
structure ObjEnv where
  weakable : Nat → Bool
  same : Nat → Nat → Bool
  isNone : Nat → Bool
  result : Nat → Option Nat

/-- An item of `self.data`: the key the dictionary refers to, the value, and the key in the closure of
`finalizer` (dictionary.py:24-29). -/
structure WeakItem where
  key : Nat
  value : Nat
  closure : Nat
deriving DecidableEq

/-- The dictionary and the objects that are gone. dictionary.py:11-13. -/
structure WeakDict where
  data : List WeakItem
  gone : List Nat
deriving DecidableEq

/-- dictionary.py:11-13. -/
def WeakDict.empty : WeakDict := ⟨[], []⟩

/-- The item `self.data` finds for a key. dictionary.py:31-39. -/
def WeakDict.find (env : ObjEnv) (d : WeakDict) (k : Nat) : Option WeakItem :=
  d.data.find? fun i => env.same i.key k

/-- `self.data[key] = ref`: a Python dict keeps the old key if there is an equal one. dictionary.py:15-29. -/
def setItem (env : ObjEnv) (k v : Nat) : List WeakItem → List WeakItem
  | [] => [⟨k, v, k⟩]
  | i :: rest => if env.same i.key k then ⟨i.key, v, k⟩ :: rest else i :: setItem env k v rest

/-- `del self.data[key]`, when the key is there. dictionary.py:41-46. -/
def delItem (env : ObjEnv) (k : Nat) : List WeakItem → List WeakItem
  | [] => []
  | i :: rest => if env.same i.key k then rest else i :: delItem env k rest

/-- `__setitem__`, dictionary.py:15-29. -/
def WeakDict.set (env : ObjEnv) (d : WeakDict) (k v : Nat) : Except PyErr WeakDict :=
  if env.isNone v then .error .typeError
  else if !env.weakable k then .error .typeError
  else if !env.weakable v then .error .typeError
  else .ok { d with data := setItem env k v d.data }

/-- `get`, dictionary.py:83-90; the answer `none` is `None`. -/
def WeakDict.get (env : ObjEnv) (d : WeakDict) (k : Nat) : Except PyErr (Option Nat) :=
  if !env.weakable k then .error .typeError
  else
    match d.find env k with
    | none => .ok none
    | some i => .ok (if i.value ∈ d.gone then none else some i.value)

/-- `__getitem__`, dictionary.py:31-39. -/
def WeakDict.getItem (env : ObjEnv) (d : WeakDict) (k : Nat) : Except PyErr Nat :=
  match d.get env k with
  | .error e => .error e
  | .ok none => .error .keyError
  | .ok (some v) => .ok v

/-- `__delitem__`, dictionary.py:41-46. -/
def WeakDict.del (env : ObjEnv) (d : WeakDict) (k : Nat) : Except PyErr WeakDict :=
  if !env.weakable k then .error .typeError
  else
    match d.find env k with
    | none => .error .keyError
    | some _ => .ok { d with data := delItem env k d.data }

/-- `__contains__`, dictionary.py:58-62; `WeakKeyDictionary` answers `False` for what cannot be
referred to weakly. -/
def WeakDict.contains (env : ObjEnv) (d : WeakDict) (k : Nat) : Bool :=
  env.weakable k && (d.find env k).isSome

/-- `__len__`, dictionary.py:70-74. -/
def WeakDict.len (d : WeakDict) : Nat := d.data.length

/-- `keys` and `__iter__`, dictionary.py:76-81, 92-96. -/
def WeakDict.keys (d : WeakDict) : List Nat := d.data.map WeakItem.key

/-- `values`, dictionary.py:98-105. -/
def WeakDict.values (d : WeakDict) : List Nat :=
  (d.data.map WeakItem.value).filter fun v => decide (v ∉ d.gone)

/-- `items`, dictionary.py:107-114, over the keys `ks`: `value` is what `get` returned, and line 114 calls
it. -/
def WeakDict.itemsFrom (env : ObjEnv) (d : WeakDict) : List Nat → Except PyErr (List (Nat × Nat))
  | [] => .ok []
  | k :: ks =>
    match d.get env k with
    | .error e => .error e
    | .ok none => d.itemsFrom env ks
    | .ok (some v) =>
      match env.result v with
      | none => .error .typeError
      | some r =>
        match d.itemsFrom env ks with
        | .error e => .error e
        | .ok rest => .ok ((k, r) :: rest)

/-- `items`, dictionary.py:107-114. -/
def WeakDict.items (env : ObjEnv) (d : WeakDict) : Except PyErr (List (Nat × Nat)) :=
  d.itemsFrom env d.keys

/-- `pop`, dictionary.py:116-133; `defaults` are the further arguments. -/
def WeakDict.pop (env : ObjEnv) (d : WeakDict) (k : Nat) (defaults : List Nat) : Except PyErr Nat × WeakDict :=
  match defaults with
  | _ :: _ :: _ => (.error .typeError, d)
  | defaults =>
    match d.get env k with
    | .error e => (.error e, d)
    | .ok none =>
      match defaults with
      | x :: _ => (.ok x, d)
      | [] => (.error .keyError, d)
    | .ok (some v) =>
      match d.del env k with
      | .error e => (.error e, d)
      | .ok d' => (.ok v, d')

/-- The callbacks of the values that are gone, dictionary.py:26-28: each deletes the item of the key in
its closure, if that key is alive. -/
def runFinalizers (env : ObjEnv) (gone : List Nat) : List WeakItem → List WeakItem → List WeakItem
  | [], data => data
  | i :: rest, data =>
    runFinalizers env gone rest (if i.closure ∈ gone then data else delItem env i.closure data)

/-- An object goes away: `WeakKeyDictionary` drops the items whose key it is, and the finalizers of the
items whose value it is run. dictionary.py:26-28. -/
def WeakDict.die (env : ObjEnv) (d : WeakDict) (x : Nat) : WeakDict :=
  let gone := x :: d.gone
  let left := d.data.filter fun i => i.key ≠ x
  ⟨runFinalizers env gone (left.filter fun i => i.value = x) left, gone⟩

/-- One thing that happens to the dictionary. dictionary.py:15-133. -/
inductive WeakOp where
  | set (k v : Nat)
  | del (k : Nat)
  | pop (k : Nat) (defaults : List Nat)
  | die (x : Nat)

/-- The dictionary after it; operations that raise leave it as it was. dictionary.py:15-133. -/
def WeakDict.step (env : ObjEnv) (d : WeakDict) : WeakOp → WeakDict
  | .set k v => match d.set env k v with | .ok d' => d' | .error _ => d
  | .del k => match d.del env k with | .ok d' => d' | .error _ => d
  | .pop k ds => (d.pop env k ds).2
  | .die x => d.die env x

/-- dictionary.py:15-133, one after another. -/
def WeakDict.run (env : ObjEnv) : WeakDict → List WeakOp → WeakDict
  | d, [] => d
  | d, op :: ops => (d.step env op).run env ops

end Polog
