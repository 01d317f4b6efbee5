import Verif.Tokens.Model

/-! The language of the patterns of tokens (C39). -/

namespace Polog
namespace TokenSpec

/-- One token fits an element of a pattern: `.` fits any class, a letter the class of that letter; a text
in brackets must be the text of the token. -/
def Fits (u : PUnit) (t : Tok) : Prop :=
  (u.letter = '.' ∨ u.letter = t.letter) ∧ ∀ v, u.value = some v → t.source = v

/-- The sequence of tokens is in the language of the pattern. -/
inductive Matches : List PUnit → List Tok → Prop
  | nil : Matches [] []
  | star {u us skipped ts} : u.letter = '*' → Matches us ts → Matches (u :: us) (skipped ++ ts)
  | one {u us t ts} : u.letter ≠ '*' → Fits u t → Matches us ts → Matches (u :: us) (t :: ts)

/-- How a pattern is written down. -/
def write (us : List PUnit) : Str :=
  us.flatMap fun u => match u.value with
    | none => [u.letter]
    | some v => u.letter :: '[' :: v ++ [']']

/-- Elements that can be written down: brackets are reserved and `*` takes no text. -/
def Writable (u : PUnit) : Prop :=
  u.letter ≠ '[' ∧ u.letter ≠ ']' ∧ (u.letter = '*' → u.value = none) ∧
  ∀ v, u.value = some v → '[' ∉ v ∧ ']' ∉ v

end TokenSpec

end Polog
