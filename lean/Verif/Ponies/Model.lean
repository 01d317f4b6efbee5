import Verif.Py

/-! Model of `polog/core/utils/pony_names_generator.py`: the names of handlers registered without one. -/

namespace Polog

/-- `halfs_combinations`, pony_names_generator.py:74-83 (the list that is appended to the container). -/
def halfsCombinations (first second : List Str) (prefix_ : Str) : List Str :=
  first.flatMap fun half => second.map fun half2 => prefix_ ++ half ++ half2

/-- `new_names_portion`, pony_names_generator.py:27-72. -/
def ponyPortion : List Str :=
  halfsCombinations
    (["Twilight", "Apple", "Flutter", "Rari", "Pinkie", "Rainbow", "Derpy"].map String.toList)
    ([" Sparkle", "jack", "shy", "ty", " Pie", " Dash", " Hooves"].map String.toList) [] ++
  halfsCombinations
    (["Cad", "Sky", "Amo", "Cele", "Lu"].map String.toList)
    (["ance", "star", "re", "stia", "na"].map String.toList) "Princess ".toList

/-- The tables of pony_names_generator.py:92-95. -/
def romanOnes : List Str :=
  ["", "I", "II", "III", "IV", "V", "VI", "VII", "VIII", "IX"].map String.toList
/-- pony_names_generator.py:86-100. -/
def romanTens : List Str :=
  ["", "X", "XX", "XXX", "XL", "L", "LX", "LXX", "LXXX", "XC"].map String.toList
/-- pony_names_generator.py:86-100. -/
def romanHunds : List Str :=
  ["", "C", "CC", "CCC", "CD", "D", "DC", "DCC", "DCCC", "CM"].map String.toList
/-- pony_names_generator.py:86-100. -/
def romanThous : List Str := ["", "M", "MM", "MMM", "MMMM"].map String.toList

/-- `l[i]` of a Python list for a non-negative index. Used at pony_names_generator.py:86-100. -/
def pyIndex {A : Type} (l : List A) (i : Nat) : Except PyErr A :=
  match l[i]? with
  | some a => .ok a
  | none => .error .indexError

/-- `roman_numerals` for positive numbers, pony_names_generator.py:86-100 (for others it is `None` and
the generator never asks for them). -/
def roman (number : Nat) : Except PyErr Str := do
  let thous ← pyIndex romanThous (number / 1000)
  let hunds ← pyIndex romanHunds (number / 100 % 10)
  let tens ← pyIndex romanTens (number / 10 % 10)
  let ones ← pyIndex romanOnes (number % 10)
  return thous ++ hunds ++ tens ++ ones

/-- The names yielded for one value of `epoch`, pony_names_generator.py:17-23, in the order `names`
left by `random.shuffle`. -/
def ponyEpochName (epoch : Nat) (name : Str) : Except PyErr Str :=
  if epoch = 0 then .ok name
  else do
    let r ← roman (epoch + 1)
    return name ++ " ".toList ++ r

/-- The `k`-th object yielded by `get_next_pony()`, pony_names_generator.py:5-25: `shuffled e` is the
list of line 18 of the call with `epoch=e`. Simplification: the recursion of line 25 has no depth
limit (with CPython's default limit the generator stops near 70 000 names, as its docstring says). -/
def nextPony (shuffled : Nat → List Str) (k : Nat) : Except PyErr Str :=
  match (shuffled (k / ponyPortion.length))[k % ponyPortion.length]? with
  | none => .error .indexError
  | some name => ponyEpochName (k / ponyPortion.length) name

/-- `next(pony_names_generator).replace(' ', '_')`, config.py:96 and function_logger.py:279. -/
def ponyHandlerName (shuffled : Nat → List Str) (k : Nat) : Except PyErr Str := do
  let name ← nextPony shuffled k
  return name.map fun c => if c = ' ' then '_' else c

end Polog
