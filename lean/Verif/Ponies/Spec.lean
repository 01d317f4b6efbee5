import Verif.Ponies.Model

/-! Roman numerals (C47), and what is known about the order of the generated names (C46). -/

namespace Polog
namespace RomanSpec

/-- The value of a Roman digit. -/
def digit : Char → Int
  | 'I' => 1
  | 'V' => 5
  | 'X' => 10
  | 'L' => 50
  | 'C' => 100
  | 'D' => 500
  | 'M' => 1000
  | _ => 0

/-- The rule of Roman numerals: a digit standing before a greater one is subtracted, any other is
added. -/
def value : Str → Int
  | [] => 0
  | [c] => digit c
  | c :: d :: rest => (if digit c < digit d then - digit c else digit c) + value (d :: rest)

/-- Value of the first digit (0 if there is none). -/
def first (s : Str) : Int := match s with | [] => 0 | c :: _ => digit c

/-- The usual way to write a number: as often as it fits, the greatest of the symbols (with the six usual
pairs such as `IV`), then the rest in the same way with the smaller ones. -/
def writeWith : List (Nat × String) → Nat → Str
  | [], _ => []
  | (v, symbol) :: rest, n => (List.replicate (n / v) symbol.toList).flatten ++ writeWith rest (n % v)

def usual (n : Nat) : Str :=
  writeWith [(1000, "M"), (900, "CM"), (500, "D"), (400, "CD"), (100, "C"), (90, "XC"), (50, "L"), (40, "XL"),
    (10, "X"), (9, "IX"), (5, "V"), (4, "IV"), (1, "I")] n

end RomanSpec

/-- The order of names in every epoch is some permutation of the standard portion
(`random.shuffle`). -/
def Shuffle (shuffled : Nat → List Str) : Prop := ∀ e, (shuffled e).Perm ponyPortion

/-- The first part of a generated name: a first and a second half. -/
inductive IsPony : String → Prop
  | pony (a b : String) (ha : a ∈ ["Twilight", "Apple", "Flutter", "Rari", "Pinkie", "Rainbow", "Derpy"])
      (hb : b ∈ ["_Sparkle", "jack", "shy", "ty", "_Pie", "_Dash", "_Hooves"]) : IsPony (a ++ b)
  | princess (a b : String) (ha : a ∈ ["Cad", "Sky", "Amo", "Cele", "Lu"]) (hb : b ∈ ["ance", "star", "re", "stia", "na"]) :
      IsPony ("Princess_" ++ a ++ b)

/-- How many names the generator can give. -/
def ponyLimit : Nat := 4999 * 74

end Polog
