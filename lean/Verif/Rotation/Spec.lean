import Verif.Rotation.Model
import Mathlib.Data.List.Forall2

/-! What the documentation says about rotation conditions. -/

namespace Polog
namespace RotationSpec

/-- Names of units and how many times 1024 is multiplied by itself. -/
def unitExponent (u : Str) : Option Nat :=
  if u ∈ ["b", "byte", "bytes"].map String.toList then some 0
  else if u ∈ ["kb", "kilobyte", "kilobytes"].map String.toList then some 1
  else if u ∈ ["mb", "megabyte", "megabytes"].map String.toList then some 2
  else if u ∈ ["gb", "gigabyte", "gigabytes"].map String.toList then some 3
  else if u ∈ ["tb", "terabyte", "terabytes"].map String.toList then some 4
  else if u ∈ ["pb", "petabyte", "petabytes"].map String.toList then some 5
  else none

/-- A blank text. -/
def Blank (env : TextEnv) (s : Str) : Prop := ∀ c ∈ s, env.isSpace c = true

/-- A word: not empty, no white space. -/
def Word (env : TextEnv) (s : Str) : Prop := s ≠ [] ∧ ∀ c ∈ s, env.isSpace c = false

/-- `s` is a condition with the limit `bytes`: a positive number and a unit separated by white space. -/
def Condition (env : TextEnv) (s : Str) (bytes : Int) : Prop :=
  ∃ before number between unit after n k,
    s = before ++ number ++ between ++ unit ++ after ∧
    Blank env before ∧ Blank env between ∧ between ≠ [] ∧ Blank env after ∧
    Word env number ∧ Word env unit ∧
    env.int number = some n ∧ 0 < n ∧ unitExponent unit = some k ∧ bytes = n * 1024 ^ k

/-- `conditions` are the non-blank pieces of `s` between commas and semicolons: `s` is the pieces
with one of the two characters between neighbours. -/
inductive Pieces : Str → List Str → Prop
  | last {p} : ',' ∉ p → ';' ∉ p → Pieces p [p]
  | cons {p s ps c} : ',' ∉ p → ';' ∉ p → c = ',' ∨ c = ';' → Pieces s ps → Pieces (p ++ c :: s) (p :: ps)

/-- The text contains `>>`. -/
def HasArrows (s : Str) : Prop := ∃ a b, s = a ++ '>' :: '>' :: b

/-- `s` is `a >> b` with these as the first and only arrows. -/
def Arrow (s a b : Str) : Prop := s = a ++ '>' :: '>' :: b ∧ ¬ HasArrows (a ++ ['>']) ∧ ¬ HasArrows b

/-- All non-blank pieces of the text are conditions, with these limits. -/
def Conditions (env : TextEnv) (s : Str) (limits : List Int) : Prop :=
  ∃ ps, Pieces s ps ∧
    List.Forall₂ (Condition env) (ps.filter fun p => !(p.all env.isSpace)) limits

end RotationSpec
end Polog
