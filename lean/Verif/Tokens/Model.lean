import Verif.Py

/-! Model of the token patterns:
`polog/handlers/file/rotation/rules/rules/tokenization/tokens/tokens_group.py`. -/

namespace Polog

/-- `regexp_unit`, tokens_group.py:5. -/
structure PUnit where
  letter : Char
  value : Option Str
deriving DecidableEq, Repr

/-- A token: its class letter (`regexp_letter`) and its text (`source`), abstract_token.py:16-34. -/
structure Tok where
  letter : Char
  source : Str
deriving DecidableEq, Repr

/-- The state of the loop of `parse_regexp`: outside brackets with the last letter seen
(`base_letter`), or inside brackets (`bracket_flag`) with the letters collected so far. tokens_group.py:137-154. -/
inductive PState where
  | out (base : Option Char)
  | inn (base : Char) (into : Str)

/-- `parse_regexp` and `get_regexp_unit`, tokens_group.py:137-190, from a state on the rest of the
pattern. -/
def parseFrom : PState → Str → Except PyErr (List PUnit)
  | _, [] => .ok []
  | .out base, c :: rest =>
    if c = '[' then
      match base with
      | none => .error .valueError
      | some b => if b = '*' then .error .valueError else parseFrom (.inn b []) rest
    else if c = ']' then .error .valueError
    else if rest.head? ≠ some '[' then
      match parseFrom (.out (some c)) rest with
      | .error e => .error e
      | .ok us => .ok (⟨c, none⟩ :: us)
    else parseFrom (.out (some c)) rest
  | .inn b into, c :: rest =>
    if c = '[' then .error .valueError
    else if c = ']' then
      match parseFrom (.out (some b)) rest with
      | .error e => .error e
      | .ok us => .ok (⟨b, some into⟩ :: us)
    else parseFrom (.inn b (into ++ [c])) rest

/-- `parse_regexp`, tokens_group.py:137-154: the loop from its first state. -/
def parsePattern (pattern : Str) : Except PyErr (List PUnit) := parseFrom (.out none) pattern

/-- `reduce_regexp`, tokens_group.py:53-70. -/
def reducePattern : List PUnit → List PUnit
  | [] => []
  | [u] => [u]
  | u :: v :: us =>
    if u.letter = '*' ∧ v.letter = '*' then reducePattern (v :: us) else u :: reducePattern (v :: us)

/-- `compare_token_and_unit`, tokens_group.py:106-135. -/
def compareUnit (u : PUnit) (t : Tok) : Bool :=
  if u.letter = '*' then true
  else if u.letter = '.' then
    match u.value with
    | some v => v == t.source
    | none => true
  else if u.letter ≠ t.letter then false
  else
    match u.value with
    | some v => v == t.source
    | none => true

/-- The `while` loop of tokens_group.py:94-99: try every non-empty rest of the tokens. -/
def anySuffix (f : List Tok → Except PyErr Bool) : List Tok → Except PyErr Bool
  | [] => .ok false
  | t :: ts =>
    match f (t :: ts) with
    | .error e => .error e
    | .ok true => .ok true
    | .ok false => anySuffix f ts

/-- `regexp_loop`, tokens_group.py:72-104. The arguments are what is left of the pattern and of the
tokens from the two indexes on (`regexp[regexp_index:]`, `tokens[tokens_index:]`).
Simplification: no recursion limit (tokens_group.py:50-51 answers `False` when Python's is hit). -/
def regexpLoop : List PUnit → List Tok → Except PyErr Bool
  | [], _ => .error .indexError
  | [u], ts =>
    match ts with
    | [t] => .ok (compareUnit u t)
    | _ => .ok (decide (u.letter = '*'))
  | u :: v :: us, ts =>
    match ts with
    | [] => if u.letter = '*' then .ok false else .error .indexError
    | [t] =>
      if u.letter = '*' then regexpLoop (v :: us) [t]
      else .ok (compareUnit u t && decide (us = []) && decide (v.letter = '*'))
    | t :: t2 :: ts' =>
      if u.letter = '*' then anySuffix (regexpLoop (v :: us)) (t :: t2 :: ts')
      else if compareUnit u t then regexpLoop (v :: us) (t2 :: ts')
      else .ok false

/-- `TokensGroup.check_regexp` with a string argument, tokens_group.py:39-51. -/
def checkRegexp (tokens : List Tok) (pattern : Str) : Except PyErr Bool :=
  if pattern = [] then .ok true
  else
    match parsePattern pattern with
    | .error e => .error e
    | .ok us => regexpLoop (reducePattern us) tokens

end Polog
