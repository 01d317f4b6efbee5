import Verif.Calls.Threads

/-! What a user relies on when several threads log at the same time: every thread logs as if it were alone. -/

namespace Polog
namespace CallSpec

/-- The records made by one thread, in order. -/
def recordsOf (t : Nat) (records : List (Nat × Rec)) : List Rec := (records.filter fun x => x.1 = t).map Prod.snd

/-- What the thread would do alone. -/
def alone (env : CEnv) (b : Body) (msg : Option (Dict Str HVal)) (unlog : Option (Option Bool)) : Outcome × CallState :=
  b.run env { CallState.init with msg := msg, unlog := unlog }

/-- The exception object belongs to the thread (`owner`: to which one). -/
def OwnId (owner : Nat → Nat) (t : Nat) : ExcId → Prop
  | .user n => owner n = t
  | .internal _ => True

def OwnOutcome (owner : Nat → Nat) (t : Nat) : Outcome → Prop
  | .ret _ => True
  | .raised e => OwnId owner t e.id

/-- The code raises only exception objects of its own thread, as long as it meets only such ones. -/
def Own (owner : Nat → Nat) (t : Nat) : Body → Prop
  | .ret _ => True
  | .raise e => OwnId owner t e.id
  | .call _ b k => Own owner t b ∧ ∀ o, OwnOutcome owner t o → Own owner t (k o)
  | .block _ b k => Own owner t b ∧ ∀ o, OwnOutcome owner t o → Own owner t (k o)
  | .msg _ _ k => ∀ e, Own owner t (k e)
  | .manual _ _ k => ∀ e, Own owner t (k e)

end CallSpec
end Polog

namespace Polog
open CallSpec

/-- Is this a record of the exception object `g`? -/
def CallSpec.recordsObject (g : GExc) (y : Nat × Rec) : Bool :=
  match y.2.origin with
  | .auto _ (.raised e) => GExc.of y.1 e.id = g
  | _ => false

end Polog
