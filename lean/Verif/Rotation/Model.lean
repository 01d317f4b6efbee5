import Verif.Tokens.Model
import Verif.Locks.Model
import Verif.Dict

/-! Model of the rotation rules of the file handler:
`polog/handlers/file/rotation/{rotator,parser}.py`, `rotation/rules/rules_elector.py`,
`rotation/rules/rules/{abstract_rule,file_size_rule}.py`, `tokenization/tokenizator.py` and the token
classes. -/

namespace Polog

/-- What the code takes from Python about characters and numbers: white space of `str.strip` and
`str.split`, and `int(text)` (`none`: raises).
Used at rotator.py:64-89, tokenizator.py:41-46, number_token.py:8-16. -/
structure TextEnv where
  isSpace : Char → Bool
  int : Str → Option Int

/-- `source.split()`, tokenizator.py:41-46; `acc` is the word read so far. -/
def wordsFrom (isSpace : Char → Bool) : Str → Str → List Str
  | acc, [] => if acc = [] then [] else [acc]
  | acc, c :: cs =>
    if isSpace c then (if acc = [] then wordsFrom isSpace [] cs else acc :: wordsFrom isSpace [] cs)
    else wordsFrom isSpace (acc ++ [c]) cs

/-- `text.split()` of Python, tokenizator.py:41-46. -/
def splitWords (isSpace : Char → Bool) (s : Str) : List Str := wordsFrom isSpace [] s

/-- `SizeToken.short_sizes`, size_token.py:11-18. -/
def shortSizes : Dict Str Nat :=
  [("b".toList, 1), ("kb".toList, 1024), ("mb".toList, 1024 * 1024), ("gb".toList, 1024 * 1024 * 1024),
   ("tb".toList, 1024 * 1024 * 1024 * 1024), ("pb".toList, 1024 * 1024 * 1024 * 1024 * 1024)]

/-- `SizeToken.full_sizes`, size_token.py:20-27. -/
def fullSizes : Dict Str Nat :=
  [("byte".toList, 1), ("kilobyte".toList, 1024), ("megabyte".toList, 1024 * 1024),
   ("gigabyte".toList, 1024 * 1024 * 1024), ("terabyte".toList, 1024 * 1024 * 1024 * 1024),
   ("petabyte".toList, 1024 * 1024 * 1024 * 1024 * 1024)]

/-- `SizeToken.get_all_keys`, size_token.py:47-55. -/
def sizeKeys : List Str :=
  Dict.keys shortSizes ++ Dict.keys fullSizes ++ (Dict.keys fullSizes).map (· ++ ['s'])

/-- `SizeToken.parse`, size_token.py:36-45 (`none`: Python's `None`, or an exception). -/
def sizeParse (source : Str) : Option Nat :=
  match Dict.get? source shortSizes with
  | some n => some n
  | none =>
    match Dict.get? source fullSizes with
    | some n => some n
    | none => if source.getLast? = some 's' then Dict.get? source.dropLast fullSizes else none

/-- The content of a token (`content`, abstract_token.py:34). -/
inductive TokContent where
  | size (bytes : Nat)
  | number (n : Int)
  | text (s : Str)
deriving DecidableEq

/-- A token with its content. abstract_token.py:22-34. -/
structure CTok where
  tok : Tok
  content : TokContent
deriving DecidableEq

/-- One round of the loop of `generate_tokens`, tokenizator.py:28-38: `SizeToken`, then `NumberToken`
(number_token.py:4-16), then `DotToken` (dot_token.py:4-22). -/
def tokenOf (env : TextEnv) (chunk : Str) : CTok :=
  if sizeKeys.contains chunk then
    match sizeParse chunk with
    | some n => ⟨⟨'s', chunk⟩, .size n⟩
    | none => ⟨⟨'d', chunk⟩, .text chunk⟩
  else
    match env.int chunk with
    | some n => ⟨⟨'n', chunk⟩, .number n⟩
    | none => ⟨⟨'d', chunk⟩, .text chunk⟩

/-- `AbstractRule.get_tokens`, abstract_rule.py:29-34. -/
def ruleTokens (env : TextEnv) (source : Str) : List CTok :=
  (splitWords env.isSpace source).map (tokenOf env)

/-- `tokens[letter][0].content`, tokens_group.py:10-34. -/
def firstContent (letter : Char) (tokens : List CTok) : Except PyErr TokContent :=
  match tokens.filter (fun t => t.tok.letter == letter) with
  | [] => .error .indexError
  | t :: _ => .ok t.content

/-- `FileSizeRule.prove_source`, file_size_rule.py:9-14. -/
def proveSource (tokens : List CTok) : Except PyErr Bool :=
  match checkRegexp (tokens.map (·.tok)) "ns".toList with
  | .error e => .error e
  | .ok false => .ok false
  | .ok true =>
    match firstContent 'n' tokens with
    | .error e => .error e
    | .ok (.number n) => .ok (decide (0 < n))
    | .ok _ => .error .typeError

/-- `FileSizeRule.extract_data_from_string`, file_size_rule.py:20-30: the limit in bytes. -/
def sizeLimit (tokens : List CTok) : Except PyErr Int :=
  match firstContent 'n' tokens, firstContent 's' tokens with
  | .ok (.number n), .ok (.size b) => .ok (n * b)
  | .error e, _ => .error e
  | _, .error e => .error e
  | _, _ => .error .typeError

/-- `RulesElector.choose` with the constructor of the rule, rules_elector.py:12-23,
abstract_rule.py:17-22. The result is the limit of the rule. -/
def chooseRule (env : TextEnv) (source : Str) : Except PyErr Int :=
  let tokens := ruleTokens env source
  match proveSource tokens with
  | .error e => .error e
  | .ok false => .error .valueError
  | .ok true => sizeLimit tokens

/-- `Parser.split_source`, parser.py:23-28. -/
def splitSource (env : TextEnv) (source : Str) : List Str :=
  (((splitChar ',' (source.map fun c => if c = ';' then ',' else c)).map (stripStr env.isSpace)).filter
    (· ≠ []))

/-- `Parser.extract_rules`, parser.py:12-21. -/
def extractRules (env : TextEnv) : List Str → Except PyErr (List Int)
  | [] => .ok []
  | s :: rest =>
    match chooseRule env s with
    | .error e => .error e
    | .ok r =>
      match extractRules env rest with
      | .error e => .error e
      | .ok rs => .ok (r :: rs)

/-- `source.split('>>')`, rotator.py:77, 103; `acc` is the part read so far. -/
def splitArrows : Str → Str → List Str
  | acc, [] => [acc]
  | acc, [c] => [acc ++ [c]]
  | acc, c :: d :: cs =>
    if c = '>' ∧ d = '>' then acc :: splitArrows [] cs else splitArrows (acc ++ [c]) (d :: cs)

/-- `extract_rules_string_from_source`, rotator.py:91-112. -/
def rulesString (source : Str) : Except PyErr (Option Str) :=
  match splitArrows [] source with
  | [_] => .ok (some source)
  | [a, _] => if a = [] then .ok none else .ok (some a)
  | _ => .error .valueError

/-- `where_to_rotate`, rotator.py:64-89. -/
def whereToRotate (env : TextEnv) (source : Str) : Except PyErr Str :=
  match splitArrows [] source with
  | [_] => .ok "logs".toList
  | [_, b] => if b = [] then .ok "logs".toList else .ok (stripStr env.isSpace b)
  | _ => .error .valueError

/-- What a `Rotator` keeps: the limits of its rules and the directory. rotator.py:19-27. -/
structure RotConf where
  limits : List Int
  dir : Str
deriving DecidableEq

/-- `Rotator.__init__`, rotator.py:19-27, with `generate_rules`, 55-62. `hasFile`: the handler writes to
a named file. -/
def rotatorInit (env : TextEnv) (hasFile : Bool) (source : Option Str) : Except PyErr RotConf :=
  match source with
  | none => .ok ⟨[], "logs".toList⟩
  | some s =>
    if s ≠ [] ∧ hasFile = false then .error .valueError
    else
      match rulesString s with
      | .error e => .error e
      | .ok rules =>
        match whereToRotate env s with
        | .error e => .error e
        | .ok dir =>
          match rules with
          | none => .ok ⟨[], dir⟩
          | some r =>
            match extractRules env (splitSource env r) with
            | .error e => .error e
            | .ok limits => .ok ⟨limits, dir⟩

/-- `to_do_or_not_to_do`, rotator.py:39-46, with `FileSizeRule.check`, file_size_rule.py:16-18: is a
file of this size to be rotated now? -/
def RotConf.fires (conf : RotConf) (size : Nat) : Bool := conf.limits.any fun l => decide (l ≤ (size : Int))

end Polog
