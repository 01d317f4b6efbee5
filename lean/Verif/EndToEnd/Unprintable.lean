import Verif.EndToEnd.SystemSync

/-! C79, C80: a field that cannot be printed takes the lines of a whole program out of its file. -/

namespace Polog
open CallSpec FormatSpec FileSpec WaySpec EngineSpec

/-- The settings of the examples with a field added in the engine whose value has a `__str__` that raises. -/
def mutedExample : WayEnv :=
  { wayExample with
    engineFields := [("user".toList, fun _ => .ok (.other 99))]
    view := fun v => if v = .other 99 then .other none true [] else wayExample.view v }

/-- The world in which the program of the examples has ended. -/
theorem sysProgs_muted : ∃ w : CWorld, CwRun mutedExample.c (.start sysProgs (fun _ => none) (fun _ => none)) w ∧
    w.records.map Prod.fst = [0, 0, 1] ∧ (∀ t < 2, ∃ o, (w.threads t).ctl = .halted o) ∧
    ∀ x ∈ w.records, ((fileHandler mutedExample).call none (mutedExample.log x.2)).events = [] := by
  have h : ((CWorld.start sysProgs (fun _ => none) (fun _ => none)).exec cEnv [0, 1, 0, 1, 0, 0, 0, 0, 1, 0, 1]).map
      (fun w => (match (w.threads 0).ctl with | .halted _ => true | _ => false, match (w.threads 1).ctl with | .halted _ => true | _ => false,
        w.records.map Prod.fst,
        w.records.all fun x => ((fileHandler mutedExample).call none (mutedExample.log x.2)).events == [])) =
      some (true, true, [0, 0, 1], true) := by
    decide +kernel
  obtain ⟨w, hw, he⟩ := Option.map_eq_some_iff.1 h
  obtain ⟨h1, h2⟩ := Prod.mk.inj he
  obtain ⟨h2, h3⟩ := Prod.mk.inj h2
  obtain ⟨h3, h4⟩ := Prod.mk.inj h3
  refine ⟨w, CWorld.exec_run hw, h3, fun t ht => ?_, fun x hx => by simpa using List.all_eq_true.1 h4 x hx⟩
  match t, ht with
  | 0, _ =>
    split at h1
    · rename_i o heq; exact ⟨o, heq⟩
    · cases h1
  | 1, _ =>
    split at h2
    · rename_i o heq; exact ⟨o, heq⟩
    · cases h2

/-- The three events that the program has to record. -/
theorem sysProgs_due :
    ((List.range 2).flatMap fun t => toRecord mutedExample.c [] (events mutedExample.c false (sysProgs t))).length = 3 := by
  obtain ⟨_, _, h3, h4, h5, _, _⟩ := sysProgs_ok
  have h : ∀ t, (ht : t < 2) → (toRecord mutedExample.c [] (events mutedExample.c false (sysProgs t))).length =
      ((sysProgs t).run mutedExample.c .init).2.records.length := fun t ht =>
    (C28_record_has_the_last_own_message_partial mutedExample.c (sysProgs t) (h3 t ht) (h4 t ht) (h5 t ht)).length_eq
  have h0 : ((sysProgs 0).run mutedExample.c .init).2.records.length = 2 := by decide +kernel
  have h1 : ((sysProgs 1).run mutedExample.c .init).2.records.length = 1 := by decide +kernel
  rw [show List.range 2 = [0, 1] from rfl, List.flatMap_cons, List.flatMap_cons, List.flatMap_nil, List.append_nil, List.length_append,
    h 0 (by decide), h 1 (by decide), h0, h1]

/-- **C80 is false for values that cannot be printed** (the hypothesis `hp` of `C80_file_is_an_interleaving_of_the_threads_partial`): two
threads of a program written as documented have three records to make; they make them, all calls have returned, the file system works and
nothing else goes on, but there is nothing in the file: a field with such a value takes the whole line away. -/
theorem C80_unprintable_field_empties_the_file_fails :
    (∀ t, Own twoOwner t (sysProgs t)) ∧ (∀ t, 2 ≤ t → ∃ v, sysProgs t = .ret v) ∧
    (∀ t < 2, Valid mutedExample.c (sysProgs t)) ∧ (∀ t < 2, UnlogFlat mutedExample.c false (sysProgs t)) ∧
    (∀ t < 2, MsgSafe mutedExample.c false false (sysProgs t)) ∧
    wayConf2.sameFs = true ∧ wayConf2.forced = true ∧ wayConf2.reliable = true ∧
    ∃ s : SyncSystemRun mutedExample sysProgs wayConf2,
      (∀ t < 2, ∃ o, (s.w.threads t).ctl = .halted o) ∧ (∀ t, s.e.pc t = .idle) ∧ (∀ t, s.after.pc t = .idle) ∧
      s.w.records.map Prod.fst = [0, 0, 1] ∧
      ((List.range 2).flatMap fun t => toRecord mutedExample.c [] (events mutedExample.c false (sysProgs t))).length = 3 ∧
      text wayConf2.fn s.after = content s.before.w wayConf2.fn := by
  obtain ⟨h1, h2, h3, h4, h5, _, _⟩ := sysProgs_ok
  refine ⟨h1, h2, h3, h4, h5, rfl, rfl, rfl, ?_⟩
  obtain ⟨w, hw, hr, hh, hn⟩ := sysProgs_muted
  obtain ⟨s, rfl, ha, hb⟩ := exists_syncSystemRun mutedExample sysProgs w (fun x hx => by
    have := List.mem_map_of_mem (f := Prod.fst) hx
    rw [hr] at this
    simp at this
    omega) hw
  refine ⟨s, hh, ha, hb, hr, sysProgs_due, ?_⟩
  · obtain ⟨hwr, hord⟩ := C36_each_thread_writes_in_order wayConf2 s.before s.after s.calls s.writes s.start s.file
    have hdisk := C36_all_on_disk_at_rest_partial wayConf2 rfl rfl _ _ s.start s.file.toTrace.toRun hb
    have hcalls : ∀ t, ofThread t s.calls = [] := by
      intro t
      rw [s.handler t, List.flatMap_eq_nil_iff]
      intro l _
      rw [List.flatMap_eq_nil_iff]
      intro x hx
      rw [Option.mem_toList] at hx
      exact hn x (List.mem_of_getElem? hx)
    have hwrites : s.writes = [] := by
      cases hs : s.writes with
      | nil => rfl
      | cons y ys =>
        have := (hord y.1).1
        rw [hcalls, List.sublist_nil, hs] at this
        simp [ofThread] at this
    rw [hwrites] at hwr
    change text wayConf2.fn s.after = _ at hdisk
    rw [hdisk, ← hwr]
    simp

/-- **C79 is false for values that cannot be printed** (the hypothesis `hp` of `C79_every_event_of_every_thread_is_in_the_file_partial`):
the same program, everything has ended, no log reached an engine while it was exchanged, and the file has no line. -/
theorem C79_unprintable_field_empties_the_file_fails :
    (∀ t, Own twoOwner t (sysProgs t)) ∧ (∀ t, 2 ≤ t → ∃ v, sysProgs t = .ret v) ∧
    (∀ t < 2, Valid mutedExample.c (sysProgs t)) ∧ (∀ t < 2, UnlogFlat mutedExample.c false (sysProgs t)) ∧
    (∀ t < 2, MsgSafe mutedExample.c false false (sysProgs t)) ∧
    wayConf.sameFs = true ∧ wayConf.forced = true ∧ wayConf.reliable = true ∧
    ∃ s : SystemRun mutedExample sysProgs wayConf,
      (∀ t < 2, ∃ o, (s.w.threads t).ctl = .halted o) ∧ CalmReach Eng.init s.e ∧ Quiescent s.e ∧ (∀ t, s.after.pc t = .idle) ∧
      s.w.records.map Prod.fst = [0, 0, 1] ∧
      ((List.range 2).flatMap fun t => toRecord mutedExample.c [] (events mutedExample.c false (sysProgs t))).length = 3 ∧
      text wayConf.fn s.after = content s.before.w wayConf.fn := by
  obtain ⟨h1, h2, h3, h4, h5, _, _⟩ := sysProgs_ok
  refine ⟨h1, h2, h3, h4, h5, rfl, rfl, rfl, ?_⟩
  obtain ⟨w, hw, hr, hh, hn⟩ := sysProgs_muted
  obtain ⟨s, rfl, ha, hq, hb⟩ := exists_systemRun mutedExample sysProgs w hw
  refine ⟨s, hh, ha, hq, hb, hr, sysProgs_due, ?_⟩
  · have hdisk := C36_all_on_disk_at_rest_partial wayConf rfl rfl _ _ s.start s.file.toRun hb
    have hcalls : s.calls = [] := by
      have := s.handler
      rw [List.flatMap_eq_nil_iff.2, List.perm_nil] at this
      · exact this
      · intro l _
        rw [List.flatMap_eq_nil_iff]
        intro x hx
        rw [Option.mem_toList] at hx
        exact hn x (List.mem_of_getElem? hx)
    obtain ⟨tc, tw, htr, htc⟩ := s.file.byThread
    obtain ⟨hwr, hord⟩ := C36_each_thread_writes_in_order wayConf s.before s.after _ _ s.start htr
    have hwrites : tw = [] := by
      cases hs : tw with
      | nil => rfl
      | cons y ys =>
        have h0 : tc = [] := by
          rw [hcalls] at htc
          simpa using htc
        have := (hord y.1).1
        rw [h0, hs] at this
        simp [ofThread] at this
    rw [hwrites] at hwr
    change text wayConf.fn s.after = _ at hdisk
    rw [hdisk, ← hwr]
    simp

/-- **C81 is false for values that cannot be printed** (the hypothesis `hp` of
`C81_stopped_threads_lose_at_most_one_event_each_partial`): the same program is stopped when no thread is in a call of the engine or of the
handler; thread 0 has logged two records, and none of them is in the file. -/
theorem C81_unprintable_field_loses_all_records_fails :
    (∀ t, Own twoOwner t (sysProgs t)) ∧ (∀ t < 2, Valid mutedExample.c (sysProgs t)) ∧
    (∀ t < 2, UnlogFlat mutedExample.c false (sysProgs t)) ∧ (∀ t < 2, MsgSafe mutedExample.c false false (sysProgs t)) ∧
    ∃ s : SyncSystemRun mutedExample sysProgs wayConf2,
      (∀ t l, ¬ InCall s.e t l) ∧ (∀ t, s.after.pc t = .idle) ∧ (recordsOf 0 s.w.records).length = 2 ∧
      text wayConf2.fn s.after = content s.before.w wayConf2.fn := by
  obtain ⟨h1, _, h3, h4, h5, _, _, _, s, _, ha, hb, hr, _, ht⟩ := C80_unprintable_field_empties_the_file_fails
  refine ⟨h1, h3, h4, h5, s, fun t l hc => ?_, hb, ?_, ht⟩
  · simp [InCall, ha t, PC.log?] at hc
  · have h0 : (recordsOf 0 s.w.records).length = ((s.w.records.map Prod.fst).filter (· == 0)).length := by
      unfold recordsOf
      rw [List.filter_map, List.length_map, List.length_map]
      rfl
    rw [h0, hr]
    rfl

end Polog
