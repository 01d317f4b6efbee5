import Verif.Memory.Freed
import Verif.Memory.Spec

/-! What is expected of `memory_saver` when destructors write logs. -/

namespace Polog
namespace FreedSpec

variable {L : Type}

/-- What is under way goes on and ends, with the destructors this leads to: no new calls of the program, no garbage collection. -/
inductive FrOnward (dies : L → List L) (s : FrState L) : FrState L → Prop
  | here : FrOnward dies s s
  | go {u : FrState L} (t n : Nat) (rest : List Nat) (m' : MemState L) : FrOnward dies s u → u.stack t = n :: rest → u.todo n = [] →
      MemStep n u.m m' → FrOnward dies s { u with m := m', todo := putAt u.todo n (freedBy dies u.m n) }
  | destructor {u : FrState L} (t n c : Nat) (rest : List Nat) (x : L) (xs : List L) : FrOnward dies s u → u.stack t = n :: rest →
      u.todo n = x :: xs → u.m.pc c = .idle → FrOnward dies s { u.push t c (.save x) with todo := putAt u.todo n xs }
  | returns {u : FrState L} (t n : Nat) (rest : List Nat) (k : MemCall L) : FrOnward dies s u → u.stack t = n :: rest → u.todo n = [] →
      u.m.pc n = .finished k → FrOnward dies s { u with stack := putAt u.stack t rest }

/-- A destructor has to write a log, or is writing it, while a call of the same thread that it interrupted, directly or not, is inside the handler:
call `h` of thread `t` is between taking and releasing the semaphore. -/
def LogsInside (s : FrState L) (t h : Nat) : Prop :=
  h ∈ s.stack t ∧ s.m.sem = some h ∧ ((s.stack t).head? ≠ some h ∨ s.todo h ≠ [])

/-- The call never returns, whatever happens. -/
def HangsForever (dies : L → List L) (gc : Bool) (s : FrState L) (n : Nat) : Prop :=
  ∀ s', FrRun dies gc s s' → ∀ k, s'.m.pc n ≠ .finished k

/-- The call in progress with number `n`. -/
def Doing (s : FrState L) (n : Nat) (k : MemCall L) : Prop :=
  s.m.pc n = .waiting k ∨ s.m.pc n = .holding k ∨ s.m.pc n = .half k ∨ s.m.pc n = .leaving k

/-- Nothing that logs when it goes away is held by a record that the handler has or is just being given. -/
def Harmless (dies : L → List L) (s : FrState L) : Prop :=
  (∀ r ∈ s.m.all, dies r = []) ∧ (∀ r ∈ s.m.last, dies r = []) ∧ ∀ n r, Doing s n (.save r) → dies r = []

end FreedSpec
end Polog
