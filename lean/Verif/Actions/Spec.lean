import Verif.Actions.Model

/-! Specification for the settings that act outside of the store (C67). -/

namespace Polog.ActSpec

/-- Some thread has stored a new value of the setting, and its call of `config.set` has not returned. -/
def BeingChanged (a : ActState) (s : Setting) : Prop := ∃ t old new, a.conf.pc t = .stored s old new

/-- Executions in which the value of `fields_intersection` does not change while a thread creating the first
log has read it and has not stored its copy. -/
inductive CalmReach (isId : Str → Bool) (debug : Bool) : ActState → Prop where
  | init : CalmReach isId debug (ActState.init isId debug)
  | step {a a' : ActState} : CalmReach isId debug a → ActStep isId debug a a' →
      ((∃ u v, a.item u = .read v) →
        a'.conf.store.value .fieldsIntersection = a.conf.store.value .fieldsIntersection) →
      CalmReach isId debug a'

end Polog.ActSpec
