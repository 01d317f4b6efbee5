import Verif.Handle.Spec

/-! Specification for C92: what `message(...)` asks for. -/

namespace Polog
namespace MessageSpec

open HandleSpec

/-- The new value of a field of the record of the surrounding call, when `g` tells what the arguments of `message(...)`
give for each field: an exception gives the fields that describe it; `success` and `level` are not touched by it. -/
def newValue (env : HEnv) (g : Str → Option HVal) (name : Str) : Option HVal :=
  if name = "exception".toList then none
  else
    match g "exception".toList with
    | some (.exc _ type text) =>
      if name = "exception_type".toList then some (.str type)
      else if name = "exception_message".toList then some (.str text)
      else if name = "traceback".toList then some (.str env.traceback)
      else if name = "local_variables".toList ∧ env.localsText ≠ [] then some (.str env.localsText)
      else g name
    | some (.str type) => if name = "exception_type".toList then some (.str type) else g name
    | _ => g name

/-- A correct call of `message(...)`: at most one positional argument, every keyword argument right, `function` not
among them. -/
def RightMessage (env : HEnv) (args : List HVal) (kwargs : Dict Str HVal) : Prop :=
  ValidCall handleLogger env args kwargs ∧ ∀ k v, (k, v) ∈ kwargs → k ≠ "function".toList

end MessageSpec
end Polog
