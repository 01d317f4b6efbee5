import Verif.Ctor.Model
import Verif.Signature.Spec
import Verif.Rotation.Spec

/-! Specification of the accepted constructor arguments, in the words of the documentation. -/

namespace Polog.CtorSpec

/-- A string. -/
def IsStr (v : CtorVal) : Prop := ∃ s, v = .str s

/-- A bool. -/
def IsBool (v : CtorVal) : Prop := ∃ b, v = .bool b

/-- An integer (Python's bools are integers). -/
def IsInt (v : CtorVal) : Prop := (∃ n, v = .int n) ∨ ∃ b, v = .bool b

/-- The parameters of a function that Polog takes for a handler: one positional parameter without a default, no `*args`, no
`**kwargs`, and defaults for positional-only parameters at most (how this fits what can be called with one argument: C49). -/
structure HandlerParams (ps : List Param) : Prop where
  noStars : ∀ p ∈ ps, p.kind ≠ .varPositional ∧ p.kind ≠ .varKeyword
  one : ∃ p, (ps.filter fun p => SigSpec.isPos p && !p.hasDefault) = [p]
  defaults : ∀ p ∈ ps, p.hasDefault = true → p.kind = .positionalOnly

/-- A callable that `add_handlers` would accept. -/
def IsHandler (v : CtorVal) : Prop := ∃ ps, v = .callable (.sig ps) ∧ HandlerParams ps

/-- Not given, or such a callable. -/
def OptHandler (v : CtorVal) : Prop := v = .none ∨ IsHandler v

/-- What the file handler is told to write to, and what that means. -/
inductive Names : List CtorVal → FileTarget → Prop
  | nothing : Names [] .stdout
  | path (s : Str) : Names [.str s] (.path s)
  | object (m : List Str) (h1 : "read".toList ∈ m) (h2 : "write".toList ∈ m) (h3 : "close".toList ∈ m) :
      Names [.object m] (.object m)

/-- The file is given by its path. -/
def ByPath : List CtorVal → Bool
  | [.str _] => true
  | _ => false

/-- The locks asked for (`thread`, `file`): none, or different names of locks with `+` between them; blank parts and white space
around the names do not matter. -/
inductive Locks (isSpace : Char → Bool) : CtorVal → Bool → Bool → Prop
  | none : Locks isSpace .none false false
  | names (s : Str) (thread file : Bool) (parts : List Str)
      (hp : parts = ((splitChar '+' s).map (stripStr isSpace)).filter (· ≠ [])) (hb : stripStr isSpace s ≠ [])
      (hn : ∀ m ∈ parts, m = "file".toList ∨ m = "thread".toList) (hd : parts.Nodup)
      (ht : thread = true ↔ "thread".toList ∈ parts) (hf : file = true ↔ "file".toList ∈ parts) :
      Locks isSpace (.str s) thread file

open RotationSpec in
/-- The rotation asked for, with its limits and the directory: none; or conditions, possibly with an arrow and a directory.
Anything but the empty text needs a file with a path. -/
inductive Rotates (env : TextEnv) (path : Bool) : CtorVal → List Int → Str → Prop
  | none : Rotates env path .none [] "logs".toList
  | conditions (s : Str) (limits : List Int) (hp : s ≠ [] → path = true) (ha : ¬ HasArrows s) (hc : Conditions env s limits) :
      Rotates env path (.str s) limits "logs".toList
  | arrow (s a b : Str) (limits : List Int) (hp : path = true) (ha : Arrow s a b) (hc : Conditions env a limits) :
      Rotates env path (.str s) limits (if b = [] then "logs".toList else stripStr env.isSpace b)

end Polog.CtorSpec
