import Verif.Calls.FnNames
import Verif.Calls.EverySpec
import Verif.Handle.Spec

/-! Where a function stands in the source code and what Python itself says about it. -/

namespace Polog
namespace FnNamesSpec

/-- The bodies of classes and functions in which a definition can stand. -/
inductive Scope where
  | cls (name : Str)
  | func (name : Str)

/-- The name of a scope. -/
def Scope.name : Scope → Str
  | .cls n => n
  | .func n => n

/-- The parts of the qualified name that a scope makes (Python language reference, "qualified name"; PEP 3155): the name, and
for a function also `<locals>`. -/
def Scope.parts : Scope → List Str
  | .cls n => [n]
  | .func n => [n, "<locals>".toList]

/-- The text with dots between the parts. -/
def withDots : List Str → Str
  | [] => []
  | [s] => s
  | s :: t => s ++ ".".toList ++ withDots t

/-- `__qualname__` of what is defined under this name in these scopes, the outermost first. -/
def qualifiedName (path : List Scope) (name : Str) : Str := withDots (path.flatMap Scope.parts ++ [name])

/-- The class in whose body the definition stands immediately (not one further out, with a function in between). -/
def classOf (path : List Scope) : Option Str :=
  match path.getLast? with
  | some (.cls n) => some n
  | _ => none

/-- Names of the source code: no dots in them; names of classes are identifiers, and `<locals>` is none. -/
def Proper (isId : Str → Bool) (path : List Scope) (name : Str) : Prop :=
  '.' ∉ name ∧ (∀ s ∈ path, '.' ∉ s.name) ∧ (∀ n, Scope.cls n ∈ path → isId n = true) ∧ isId "<locals>".toList = false

/-- The function defined (by `def` or `lambda`) under this name in these scopes of the module. Its `__self__`: a plain function
has none; a method can be bound to an instance, which has no `__name__`. -/
structure DefinedAs (path : List Scope) (name module : Str) (f : FnObject) : Prop where
  hasName : f.name = some name
  hasModule : f.module = some module
  hasQualname : f.qualname = some (qualifiedName path name)
  bound : f.self = none ∨ f.self = some none

/-- A class method: the same, bound to a class. -/
structure ClassMethodAs (path : List Scope) (name module cls : Str) (f : FnObject) : Prop where
  hasName : f.name = some name
  hasModule : f.module = some module
  hasQualname : f.qualname = some (qualifiedName path name)
  bound : f.self = some (some cls)

/-- No message in the code gives a field under this name, which may be written `class_` for `class`. -/
def NoMessageNames (b : Body) (key : Str) : Prop :=
  ∀ args kwargs, CallSpec.SaysMessage b args kwargs → ∀ k ∈ Dict.keys kwargs, HandleSpec.fullName k ≠ key

/-- There is no extractable field under this name. -/
def NoExtraField (b : Body) (key : Str) : Prop :=
  ∀ d info callee k, CallSpec.Part (.call (.logged d info) callee k) b → key ∉ d.inPlace.map Prod.fst

end FnNamesSpec
end Polog
