import Verif.Calls.Spec

/-! What is expected of calls that end by something that is not an `Exception`. -/

namespace Polog
namespace CallSpec

/-- No automatic record is about an interrupt. -/
def NoInterruptRecorded (s : CallState) : Prop := ∀ r ∈ s.records, ∀ info e, r.origin = .auto info (.raised e) → e.isException = true

end CallSpec
end Polog
