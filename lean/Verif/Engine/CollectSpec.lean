import Verif.Engine.Collect

/-! Vocabulary for the statements about destructors that log. -/

namespace Polog.EngineSpec

/-- A call number is suspended: a destructor runs in its thread. -/
def Suspended (s : GcEng) (f : Nat) : Prop := ∃ t d, d < s.depth t ∧ f = frameNo t d

/-- The calls that wait for a destructor hold nothing: neither the lock of the engine, nor that of the settings, nor the mutex of a queue. -/
def NothingHeld (s : GcEng) : Prop :=
  (∀ f, Suspended s f → s.e.g.engLock ≠ some f ∧ s.e.g.setLock ≠ some f) ∧ ∀ k, s.mutex k = none

/-- Steps that start nothing new: no new call and no new destructor. -/
inductive GcOnward : GcEng → GcEng → Prop where
  | refl (s : GcEng) : GcOnward s s
  | thread {s s' : GcEng} (t : Nat) (busy : s.e.pc (s.top t) ≠ .idle) (g' : Glob) (p' : PC)
      (h : TStep (s.top t) s.e.g (s.e.pc (s.top t)) g' p')
      (free : ∀ k, (s.e.pc (s.top t)).putsInto = some k → s.mutex k = none ∨ s.mutex k = some (s.top t)) :
      GcOnward { s with e := ⟨g', setFn s.e.pc (s.top t) p'⟩
                        mutex := fun k => if s.mutex k = some (s.top t) then none else s.mutex k } s' → GcOnward s s'
  | pool {s s' : GcEng} (k : Nat) (p p' : Pool) (a : PLabel) (hk : k < s.e.g.loads) (hr : s.e.g.real k = .pool p)
      (hp : PStep p a p') (hput : ∀ l, a ≠ .put l) (hstop : a ≠ .stop) (free : s.mutex k = none ∨ ¬ usesQueue p p') :
      GcOnward { s with e := ⟨{ s.e.g with real := setFn s.e.g.real k (.pool p'), seq := s.e.g.seq ++ a.log?.toList }, s.e.pc⟩ } s' →
      GcOnward s s'

/-- The log call, or `config.set`, that was made first in thread `t` and the destructors in it are in progress, and whatever happens, they never end. -/
def NeverEnds (s : GcEng) (t : Nat) : Prop :=
  ∀ s', GcReach s s' → 0 < s'.depth t ∧ s'.e.pc (frameNo t 0) ≠ .idle ∧ s'.e.pc (frameNo t 1) ≠ .idle

/-- The log will not be handled, whatever happens. -/
def NeverHandled (s : GcEng) (l : Log) : Prop := ∀ s', GcReach s s' → timesHandled s'.e l = 0

end Polog.EngineSpec
