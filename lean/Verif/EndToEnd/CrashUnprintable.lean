import Verif.EndToEnd.Crash

/-! C74: a value that cannot be printed loses records without any crash. -/

namespace Polog
open CallSpec WaySpec FileSpec CrashSpec

/-- **C74 is false for values that cannot be printed** (the hypothesis `hp` of `C74_stopped_program_loses_at_most_one_event_partial`): a
program written as documented has two events to record and has ended, all its calls of the handler have returned and none is at
work; then it is stopped, and none of the two is on the disk. -/
theorem C74_unprintable_value_loses_finished_records_fails : ∃ (b : Body) (c : CrConf) (s₀ s : CrState),
    Valid wayUnprintable.c b ∧ UnlogFlat wayUnprintable.c false b ∧ MsgSafe wayUnprintable.c false false b ∧
    c.forced = true ∧ CrStart s₀ ∧ CrRun c s₀ s ∧ s.stops = 0 ∧ s.alt = [] ∧ s.calls = wayUnprintable.lines b ∧ ¬ inWork s ∧
    (toRecord wayUnprintable.c [] (events wayUnprintable.c false b)).length = 2 ∧ onDisk c.fn s = content s₀.w c.fn := by
  have hl : wayUnprintable.lines cProg = [] := by decide +kernel
  have hrec := C28_record_has_the_last_own_message_partial wayUnprintable.c cProg cProg_valid cProg_flat cProg_safe
  have hlen : (toRecord wayUnprintable.c [] (events wayUnprintable.c false cProg)).length = 2 := by
    rw [hrec.length_eq]
    decide +kernel
  have r1 := CrRun.init.step (CrStep.start (c := ⟨['f'], fun _ => false, true⟩) crEmpty rfl)
  exact ⟨cProg, ⟨['f'], fun _ => false, true⟩, crEmpty, _, cProg_valid, cProg_flat, cProg_safe, rfl, crEmpty_start, r1, rfl, rfl, hl.symm,
    (fun h => h.2 rfl), hlen, rfl⟩

end Polog
