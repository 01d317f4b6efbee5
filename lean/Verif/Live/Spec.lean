import Verif.Live.Model
import Verif.LogItem.Spec
import Mathlib.Logic.Relation

/-! Vocabulary for the statements about fields that are registered and deleted while records are made. -/

namespace Polog.LiveSpec

open Relation

variable {V : Type}

/-- The field `f` is registered under the name `n`. -/
def Registered (x : TakeSys V) (n : Str) (f : Extractor V) : Prop := some (n, f) ∈ x.slots

/-- The names registered, in the order of registration. -/
def fieldNames (x : TakeSys V) : List Str := x.slots.filterMap fun e => e.map Prod.fst

/-- The thread goes through the global fields just now. -/
def Walking (x : TakeSys V) : Prop :=
  (∃ used pos len, x.st = .loop used pos len) ∨ ∃ n f used pos len, x.st = .took n f used pos len

/-- Steps in which no name is added or removed while the thread goes through the global fields.  (A registered field may be
replaced by another one under its name.) -/
def Calm (inter : Bool) (own : List (Str × Extractor V)) (globals : Bool) (x y : TakeSys V) : Prop :=
  LiveStep inter own globals x y ∧ (Walking x → fieldNames y = fieldNames x)

/-- ... and the field `f` stays registered under the name `n`. -/
def CalmKept (inter : Bool) (own : List (Str × Extractor V)) (globals : Bool) (n : Str) (f : Extractor V) (x y : TakeSys V) : Prop :=
  Calm inter own globals x y ∧ Registered y n f

/-- A run that began in `x₀` and is now in `x` has been in the state `y`. -/
def Passed (R : TakeSys V → TakeSys V → Prop) (x₀ x y : TakeSys V) : Prop := ReflTransGen R x₀ y ∧ ReflTransGen R y x

/-- Runs in which the thread that makes the record takes exactly so many steps (changes of the registry are not counted). -/
inductive StepsOf (inter : Bool) (own : List (Str × Extractor V)) (globals : Bool) : Nat → TakeSys V → TakeSys V → Prop
  | none (x) : StepsOf inter own globals 0 x x
  | own {k x y z} : TakeStep inter own globals x y → StepsOf inter own globals k y z → StepsOf inter own globals (k + 1) x z
  | change {k x s' z} : FieldChange x.slots s' → StepsOf inter own globals k { x with slots := s' } z →
      StepsOf inter own globals k x z

/-- No name is registered twice: an invariant of a Python dictionary. -/
def Sound (x : TakeSys V) : Prop := (fieldNames x).Nodup

end Polog.LiveSpec
