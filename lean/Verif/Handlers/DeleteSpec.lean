import Verif.Tree.Spec
import Verif.Handlers.Model

/-!
Specification of `config.delete_handlers`, in terms of the plain map "what is registered under which
name".  From the model it takes only the type of the arguments (a string or another object).
-/

namespace Polog.DeleteSpec
open TreeSpec

variable {V : Type}

/-- `Deletes m args m' err`: with `m` registered before, `delete_handlers(*args)` leaves `m'` and
raises `err`.  Arguments are taken one after another and the first refused one ends the call:
* a registered name is freed, an unregistered one is a `KeyError`;
* a handler object frees some name without dots that holds it, and is a `ValueError` if no name
  without dots holds it;
* `None` is always refused. -/
inductive Deletes : Map V → List (DelArg V) → Map V → Option PyErr → Prop where
  | done (m : Map V) : Deletes m [] m none
  | name {m m' : Map V} {s : Str} {v : V} {rest : List (DelArg V)} {e : Option PyErr} :
      m s = some v → Deletes (m.put s none) rest m' e → Deletes m (.name s :: rest) m' e
  | noName {m : Map V} {s : Str} {rest : List (DelArg V)} :
      m s = none → Deletes m (.name s :: rest) m (some .keyError)
  | object {m m' : Map V} {s : Str} {v : V} {rest : List (DelArg V)} {e : Option PyErr} :
      '.' ∉ s → m s = some v → Deletes (m.put s none) rest m' e →
      Deletes m (.obj (some v) :: rest) m' e
  | noObject {m : Map V} {v : V} {rest : List (DelArg V)} :
      (∀ s, '.' ∉ s → m s ≠ some v) → Deletes m (.obj (some v) :: rest) m (some .valueError)
  | nothing {m : Map V} {rest : List (DelArg V)} {e : PyErr} :
      e = .keyError ∨ e = .valueError → Deletes m (.obj none :: rest) m (some e)

end Polog.DeleteSpec
