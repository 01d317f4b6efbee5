import Verif.File.Nest
import Verif.File.CutSpec

/-! What is expected of logs that are written in the middle of another call of the handler. -/

namespace Polog
namespace NestSpec
open FileSpec CutSpec

/-- What is under way goes on and ends: no new calls, no new destructors. -/
inductive NeOnward (c : FConf) (s : NeState) : NeState → Prop
  | here : NeOnward c s s
  | go {s' : NeState} (t : Nat) (f' : CuState) : NeOnward c s s' → s'.f.pc (s'.top t) ≠ .idle → CuStep c (s'.top t) s'.f f' →
      NeOnward c s { s' with f := f' }
  | finished {s' : NeState} (t d : Nat) : NeOnward c s s' → s'.depth t = d + 1 → s'.f.pc (s'.top t) = .idle →
      NeOnward c s { s' with depth := putAt s'.depth t d }

/-- The call with number `n` is between taking and releasing one of the two locks of the handler. -/
def HoldsLock (s : NeState) (n : Nat) : Prop := s.f.lock = some n ∨ s.f.rotLock = some n

/-- A destructor has called the handler while a call of the same thread that it interrupted, directly or not, holds a lock of the handler:
thread `t`, the call at depth `d`, the call of the destructor at depth `d'`. -/
def CalledInside (s : NeState) (t d d' : Nat) : Prop := d < d' ∧ HoldsLock s (callNo t d) ∧ s.f.pc (callNo t d') ≠ .idle

/-- Neither will the call ever return nor will its line be written or handed to `alt`, whatever happens. -/
def NeverReturns (c : FConf) (s : NeState) (n : Nat) : Prop :=
  ∀ s', NeRun c s s' → s'.f.pc n ≠ .idle ∧ ofThread n s'.f.done = ofThread n s.f.done

end NestSpec
end Polog
