import Verif.Nested.Model

/-! Specification for C91 and C93: handlers that write logs and change settings. -/

namespace Polog
namespace NestedSpec

/-- All logs of the sequence of trees. -/
def idsOf : NLogs → List Nat
  | .nil => []
  | .cons i c r => i :: (idsOf c ++ idsOf r)

/-- The log and all that is written because of it. -/
def allOf (l : NLog) : List Nat := l.id :: idsOf l.children

/-- Everything that client threads have written and all that their logs make handlers write. -/
def due (s : NState) : List Nat := s.sh.written.flatMap allOf

/-- The thread is outside of Polog, or a worker with nothing to do. -/
def Idle (t : NThread) : Prop := t.frames = [] ∧ (t.pc = .rest ∨ t.pc = .expired ∨ t.pc = .exited)

/-- All calls have returned, no handler runs, and no log is in a queue. -/
def AllQuiet (s : NState) : Prop := (∀ t ∈ s.threads, Idle t) ∧ ∀ e ∈ s.sh.engines, e.queue = []

/-- How many workers have just looked into an empty queue in vain. -/
def polls (s : NState) : Nat := s.threads.countP (fun t => decide (t.pc = .expired))

/-- A step that gets on with the logs that are already written: no new log of a client thread, no reload, and no idle
polling of a worker. -/
def GetsOn (s s' : NState) : Prop := NStep false s s' ∧ s'.sh.written = s.sh.written ∧ polls s' ≤ polls s

/-- Any number of such steps. -/
inductive GoesOn : NState → NState → Prop where
  | here (s : NState) : GoesOn s s
  | step {s s' s'' : NState} : GetsOn s s' → GoesOn s' s'' → GoesOn s s''

/-- The order in which the logs are finished when each is handled at once: first those written by its handlers. -/
def inside : NLogs → List Nat
  | .nil => []
  | .cons i c r => inside c ++ [i] ++ inside r

/-- The same for one log. -/
def insideFirst (l : NLog) : List Nat := inside l.children ++ [l.id]

/-- Nothing can happen in the program any more. -/
def Stuck (s : NState) : Prop := ∀ b s', ¬ NStep b s s'

/-- Any number of steps of the program. -/
inductive Leads : NState → NState → Prop where
  | here (s : NState) : Leads s s
  | step {s s' s'' : NState} (b : Bool) : NStep b s s' → Leads s' s'' → Leads s s''

/-- The thread is inside `config.set(pool_size=…)` and the engine lock is free or its own. -/
def Changing (sh : NShared) (t : NThread) : Prop :=
  (t.pc = .rBlock false ∧ sh.lock = false) ∨ t.pc = .rSwap false ∨ t.pc = .rStop false ∨ (∃ k, t.pc = .rPoll false k) ∨
    (∃ k, t.pc = .rJoin false k) ∨ t.pc = .rLoad ∨ t.pc = .rUnblock ∨ t.pc = .rRelease

end NestedSpec
end Polog
