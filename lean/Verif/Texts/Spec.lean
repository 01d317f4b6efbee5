import Verif.Texts.Model

/-! What the text of a log is to tell. -/

namespace Polog.TextSpec

/-- The entry of a field, for a string and for anything else that can be shown. -/
inductive Entry : Str × TextVal → Str → Prop
  | str (name s : Str) : Entry (name, .str s) (name ++ " = \"".toList ++ s ++ "\"".toList)
  | other (name text : Str) : Entry (name, .other (some text)) (name ++ " = ".toList ++ text)

/-- The entry of a setting: without quotes. -/
inductive PlainEntry : Str × TextVal → Str → Prop
  | str (name s : Str) : PlainEntry (name, .str s) (name ++ " = ".toList ++ s)
  | other (name text : Str) : PlainEntry (name, .other (some text)) (name ++ " = ".toList ++ text)

/-- An entry of the text of an object made by `log(...)`. -/
inductive ArgEntry : Str × TextVal → Str → Prop
  | str (name s : Str) : ArgEntry (name, .str s) (name ++ "=\"".toList ++ s ++ "\"".toList)
  | other (name text : Str) : ArgEntry (name, .other (some text)) (name ++ "=".toList ++ text)

/-- The text consists of these entries, in this order, with `", "` between them. -/
inductive Listed {A : Type} (entry : A → Str → Prop) : List A → Str → Prop
  | none : Listed entry [] []
  | one {a : A} {e : Str} : entry a e → Listed entry [a] e
  | more {a b : A} {as : List A} {e rest : Str} : entry a e → Listed entry (b :: as) rest →
      Listed entry (a :: b :: as) (e ++ ", ".toList ++ rest)

/-- `str()` of the value does not raise. -/
def CanBeShown (v : TextVal) : Prop := v ≠ .other none

/-- A field whose entry can be read back: the name has no spaces, a string has no double quotes in it, the text of anything else
has no comma and does not begin with a double quote. -/
def Legible (f : Str × TextVal) : Prop :=
  ' ' ∉ f.1 ∧ (∀ s, f.2 = .str s → '"' ∉ s) ∧
    ∀ t, f.2 = .other (some t) → ',' ∉ t ∧ t.head? ≠ some '"'

end Polog.TextSpec
