import Mathlib.Data.List.Forall2
import Verif.Decorate.Model

/-!
What the documentation says about the arguments of `@log(...)`: which are taken by the decorator of a function and
by the decorator of a class.
-/

namespace Polog.DecorateSpec

/-- The object is a list or a tuple of these items. -/
def Sequence (env : DEnv) (v : HVal) (items : List HVal) : Prop :=
  ∃ i, v = .other i ∧ (env.obj i = .list items ∨ env.obj i = .tuple items)

/-- The object is `...`. -/
def IsEllipsis (env : DEnv) (v : HVal) : Prop := ∃ i, v = .other i ∧ env.obj i = .ellipsis

/-- The object is a dictionary from names to fields. -/
def FieldDict (env : DEnv) (v : HVal) (d : List (Str × Extractor HVal)) : Prop :=
  ∃ i, v = .other i ∧ env.obj i = .dict (d.map fun x => (some x.1, some x.2))

/-- A list of dictionaries of fields with any number of `...` between them. -/
inductive Mixed (env : DEnv) : List HVal → List (List (Str × Extractor HVal)) → Prop
  | nil : Mixed env [] []
  | skip {v items ds} : IsEllipsis env v → Mixed env items ds → Mixed env (v :: items) ds
  | take {v d items ds} : FieldDict env v d → Mixed env items ds → Mixed env (v :: items) (d :: ds)

/-- A dictionary of fields, a list of such dictionaries and `...`, or a tuple of such dictionaries. -/
inductive FieldDicts (env : DEnv) : HVal → List (List (Str × Extractor HVal)) → Prop
  | one {v d} : FieldDict env v d → FieldDicts env v [d]
  | list {i items ds} : env.obj i = .list items → Mixed env items ds → FieldDicts env (.other i) ds
  | tuple {i items ds} : env.obj i = .tuple items → List.Forall₂ (FieldDict env) items ds →
      FieldDicts env (.other i) ds

/-- A right value of `message`. -/
def Text (v : HVal) : Prop := v = .none ∨ ∃ s, v = .str s

/-- A right value of `level` and `errors_level`. -/
def LevelLike (v : HVal) : Prop := v = .none ∨ (∃ s, v = .str s) ∨ (∃ n, v = .int n) ∨ ∃ b, v = .bool b

/-- A path in the tree of handlers: names separated by dots. -/
def Path (isId : Str → Bool) (p : Str) : Prop := p ≠ ['.'] ∧ ∀ part ∈ splitChar '.' p, isId part = true

/-- A right value of `handlers`. -/
def Handlers (env : DEnv) (v : HVal) : Prop :=
  v = .none ∨ ∃ items, Sequence env v items ∧
    ∀ x ∈ items, (∃ p, x = .str p ∧ Path env.isId p) ∨ ((∀ p, x ≠ .str p) ∧ env.isHandler x = true)

/-- A right value of `extra_fields` and `extra_engine_fields`: no name comes twice. -/
def Fields (env : DEnv) (v : HVal) : Prop :=
  v = .none ∨ ∃ ds, FieldDicts env v ds ∧ (ds.flatten.map Prod.fst).Nodup

/-- The argument is right if it is given. -/
def Given (kwargs : Dict Str HVal) (name : String) (P : HVal → Prop) : Prop :=
  ∀ v, Dict.get? name.toList kwargs = some v → P v

/-- The arguments taken by the decorator of a function. -/
structure Accepts (env : DEnv) (kwargs : Dict Str HVal) : Prop where
  names : ∀ x ∈ kwargs, x.1 ∈ ["message", "level", "errors_level", "is_method", "handlers", "extra_fields",
    "extra_engine_fields"].map String.toList
  message : Given kwargs "message" Text
  level : Given kwargs "level" LevelLike
  errorsLevel : Given kwargs "errors_level" LevelLike
  isMethod : Given kwargs "is_method" fun v => ∃ b, v = .bool b
  handlers : Given kwargs "handlers" (Handlers env)
  fields : Given kwargs "extra_fields" (Fields env)
  engineFields : Given kwargs "extra_engine_fields" (Fields env)

/-- The arguments with simple types are right. -/
def SimpleRight (kwargs : Dict Str HVal) : Prop :=
  Given kwargs "message" Text ∧ Given kwargs "level" LevelLike ∧ Given kwargs "errors_level" LevelLike

/-- The names taken by the decorator of a class. -/
def ClassNames (kwargs : Dict Str HVal) : Prop :=
  ∀ x ∈ kwargs, x.1 ∈ ["methods", "message", "level", "errors_level"].map String.toList

/-- The class has a method of this name that `@log` without `methods` is for. -/
def HasMethod (w : DWorld) (mro : List Nat) (n : Str) : Prop :=
  ((∃ f, w.getattr n mro = some (.func f)) ∨ w.getattr n mro = some .builtin) ∧
    ¬ ("__".toList <+: n ∨ "__".toList <:+ n)

/-- The classes of exceptions among what was given to `suppress`. -/
def classesOf (excs : List SuppressArg) : List Nat := excs.filterMap fun x => match x with | .exc c => some c | .wrong => none

end Polog.DecorateSpec
