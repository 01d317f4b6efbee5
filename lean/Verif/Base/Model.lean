/-! Model of the base class of the standard handlers, `polog/handlers/abstract/base.py`. -/

namespace Polog

/-- What a call does: the observable actions in order and whether it ends with an exception.
What base.py:33-72 does. -/
structure Act (E : Type) where
  events : List E
  raised : Bool
deriving DecidableEq

/-- The parts of a handler that `BaseHandler` combines. `L` are logs, `C` contents, `E` observable
actions of this program (writing to a file, sending a letter, ...).

* `onlyErrors`, `filter`, `alt`: the constructor arguments (base.py:23-31). A filter answers with a
  bool (`.ok (some b)`), with some other object (`.ok none`) or raises.
* `success`: `log.get('success', True)` as a truth value (line 56); `none` if the field is missing.
* `content`, `write`: the methods `get_content` and `do` of the subclass; both may raise an
  `Exception`.
Simplification: the filter has no observable actions of its own. -/
structure BaseH (L C E : Type) where
  onlyErrors : Bool
  filter : Option (L → Except Unit (Option Bool))
  success : L → Option Bool
  content : L → Except Unit C
  write : C → Act E

/-- `to_do_or_not_to_do`, base.py:46-63. `.error` is the exception of the filter. -/
def BaseH.toDo {L C E : Type} (h : BaseH L C E) (log : L) : Except Unit Bool :=
  if h.onlyErrors && (h.success log).getD true then .ok false
  else
    match h.filter with
    | none => .ok true
    | some f =>
      match f log with
      | .error e => .error e
      | .ok (some b) => .ok b
      | .ok none => .ok true

/-- `run_alt`, base.py:65-72. -/
def runAlt {L E : Type} (alt : Option (L → Act E)) (log : L) : Act E :=
  match alt with
  | none => ⟨[], false⟩
  | some f => f log

/-- base.py:41-42: `content = self.get_content(log); self.do(content)`. -/
def BaseH.attempt {L C E : Type} (h : BaseH L C E) (log : L) : Act E :=
  match h.content log with
  | .error _ => ⟨[], true⟩
  | .ok c => h.write c

/-- `__call__`, base.py:33-44. -/
def BaseH.call {L C E : Type} (h : BaseH L C E) (alt : Option (L → Act E)) (log : L) : Act E :=
  match h.toDo log with
  | .error _ => ⟨[], true⟩
  | .ok false => runAlt alt log
  | .ok true =>
    let a := h.attempt log
    if a.raised then
      let b := runAlt alt log
      ⟨a.events ++ b.events, b.raised⟩
    else a

/-- Handlers given one to another as `alt`: `h1(alt=h2(alt=h3...))`. base.py:33-72, once for each handler. -/
def chainCall {L C E : Type} : List (BaseH L C E) → Option (L → Act E)
  | [] => none
  | h :: rest => some (h.call (chainCall rest))

end Polog
