import Verif.Engine.Pool

/-! What the user observes of a pool: the logs put in, taken and handled, in order. -/

namespace Polog
namespace PoolSpec

/-- The logs put into the queue, in order. -/
def puts (tr : List PLabel) : List Log :=
  tr.filterMap fun a => match a with | .put l => some l | _ => none

/-- The logs taken from the queue by workers, in order. -/
def takes (tr : List PLabel) : List Log :=
  tr.filterMap fun a => match a with | .take _ l => some l | _ => none

/-- The logs whose handlers have been called, in order. -/
def handled (tr : List PLabel) : List Log :=
  tr.filterMap fun a => match a with | .handled _ l => some l | _ => none

end PoolSpec
end Polog

namespace Polog

/-- The log in the hands of a worker. -/
def workersLog : WPC → List Log
  | .busy l => [l]
  | _ => []

/-- The logs currently in the hands of the first `k` workers. -/
def busyLogs (w : Nat → WPC) : Nat → List Log
  | 0 => []
  | k + 1 => busyLogs w k ++ workersLog (w k)

/-- Steps of the workers and of the stopping thread: nobody else is needed. -/
inductive PQuiet : Pool → Pool → Prop where
  | refl (p : Pool) : PQuiet p p
  | step {p p' p'' : Pool} {a : PLabel} : PStep p a p' → (∀ l, a ≠ .put l) → PQuiet p' p'' → PQuiet p p''

end Polog
