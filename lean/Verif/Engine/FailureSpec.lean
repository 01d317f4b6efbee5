import Verif.Engine.Failure
import Verif.Engine.Spec

/-! Vocabulary for the statements about failures to create an engine. -/

namespace Polog.FailureSpec

/-- No log has found an engine to go to: none has been created yet. -/
def NoEngine (e : Eng) : Prop := e.g.loads = 0

/-- The engine in use is the synchronous one. -/
def SyncInUse (e : Eng) : Prop := ∃ k, e.g.loads = k + 1 ∧ e.g.real k = .single

/-- Executions in which the creation of an engine fails only when it was to replace the synchronous
engine (by `config.set(...)`). -/
inductive GentleReach : Eng → Prop where
  | init : GentleReach Eng.init
  | run {e e' : Eng} : GentleReach e → EStep e e' → GentleReach e'
  | loadFails {e : Eng} (t : Nat) : GentleReach e → e.pc t = .cLoad → SyncInUse e →
      GentleReach ⟨e.g, setFn e.pc t .cUnblock⟩

end Polog.FailureSpec
