import Verif.Base.Model

/-! What is expected of the standard handlers (C35). -/

namespace Polog
namespace BaseSpec

/-- What the user asked for: the log is to be written by this handler. -/
def Wanted {L C E : Type} (h : BaseH L C E) (log : L) : Prop :=
  (h.onlyErrors = false ∨ h.success log = some false) ∧
  (∀ f, h.filter = some f → f log = .ok (some true))

/-- The filter does its job: it answers with a bool. -/
def FilterWorks {L C E : Type} (h : BaseH L C E) (log : L) : Prop :=
  ∀ f, h.filter = some f → ∃ b, f log = .ok (some b)

/-- Writing the log succeeds and does `es`. -/
def Writes {L C E : Type} (h : BaseH L C E) (log : L) (es : List E) : Prop :=
  ∃ c, h.content log = .ok c ∧ (h.write c).events = es ∧ (h.write c).raised = false

/-- Writing the log fails, after doing `es`. -/
def FailsToWrite {L C E : Type} (h : BaseH L C E) (log : L) (es : List E) : Prop :=
  (h.content log = .error () ∧ es = []) ∨
  ∃ c, h.content log = .ok c ∧ (h.write c).events = es ∧ (h.write c).raised = true

end BaseSpec

end Polog
