import Verif.Calls.Plain
import Verif.Calls.ThreadsProps
import Verif.EndToEnd.SystemExamples

/-! C102 for threads, and down to the file: the files hold what is read off the code. -/

namespace Polog
open CallSpec FileSpec PlainSpec WaySpec EngineSpec

/-- **C102** for threads: in every interleaving of the steps of any number of threads, the records made by an orderly thread are a
beginning of what is read off its code, and all of it when the thread has ended. (Each exception object is met by one thread only, as in
C78.) -/
theorem C102_each_thread_logs_what_its_code_says (env : CEnv) (owner : Nat → Nat) (progs : Nat → Body)
    (msg : Nat → Option (Dict Str HVal)) (unlog : Nat → Option (Option Bool)) (hown : ∀ t, Own owner t (progs t)) (w : CWorld)
    (h : CwRun env (.start progs msg unlog) w) (t : Nat) (hm : msg t = none) (hu : unlog t = none)
    (ho : Orderly env false false (progs t)) :
    (∃ part, part <+: due env [] (happened env false (progs t)) ∧ List.Forall₂ (RecordFor env) part (recordsOf t w.records)) ∧
    ∀ o, (w.threads t).ctl = .halted o → o = outcome env (progs t) ∧
      List.Forall₂ (RecordFor env) (due env [] (happened env false (progs t))) (recordsOf t w.records) := by
  obtain ⟨h1, h2⟩ := C78_threads_do_not_disturb_each_other env owner progs msg unlog hown w h t
  obtain ⟨h3, h4⟩ := C102_log_is_read_off_the_code env (progs t) ho
  rw [hm, hu] at h1 h2
  refine ⟨?_, fun o ht => ?_⟩
  · obtain ⟨rest, hr⟩ := h1
    have h4' : List.Forall₂ (RecordFor env) (due env [] (happened env false (progs t))) (recordsOf t w.records ++ rest) := by
      rw [hr]; exact h4
    exact ⟨_, List.take_prefix _ _, List.forall₂_take_append _ _ _ h4'⟩
  · obtain ⟨e1, e2⟩ := h2 o ht
    exact ⟨e1.trans h3, e2 ▸ h4⟩

/-- The line for what happened: the line of its record. -/
def WaySpec.LineOfHappened (env : WayEnv) (h : Happened) (line : Str) : Prop :=
  ∃ r log, RecordFor env.c h r ∧ LogFor env r log ∧ FormatSpec.LineOf env.f env.first "\n".toList log line

theorem stands_line {env : WayEnv} {ev : Event} {h : Happened} {line : Str} (hs : Stands env.c ev h) (hl : LineFor env ev line) :
    LineOfHappened env h line := by
  obtain ⟨r, log, h1, h2, h3⟩ := hl
  exact ⟨r, log, hs r h1, h2, h3⟩

/-- **C102** down to the file: after an orderly program has run (one thread, the synchronous engine), the rotated files and the file
together hold what was there before and then exactly one line for each thing that is due a record, in order.

Partial: the limits of C73. -/
theorem C102_file_is_read_off_the_code_partial (env : WayEnv) (b : Body) (ho : Orderly env.c false false b)
    (hp : ∀ v, (env.view v).text ≠ none)
    (c : FConf) (ht : c.threads = 1) (hf : c.forced = true) (hrel : c.reliable = true) (before after : FState)
    (hstart : FStart c before) (htrace : FTrace c before (env.lines b) after) (hidle : ∀ t, after.pc t = .idle) :
    ∃ lines, List.Forall₂ (LineOfHappened env) (due env.c [] (happened env.c false b)) lines ∧
      text c.fn after = content before.w c.fn ++ lines.flatten := by
  obtain ⟨_, h2, h3, h4, _, _⟩ := orderly_bridge env.c b false false ho
  obtain ⟨lines, h5, h6⟩ :=
    C73_every_event_is_in_the_file_partial env b h2 h3 h4 hp c ht hf hrel before after hstart htrace hidle
  exact ⟨lines, forall₂_through (P := Stands env.c) (Q := LineFor env) (R := LineOfHappened env) (fun _ _ _ h1 h2 => stands_line h1 h2) (orderly_due ho) h5, h6⟩

/-- **C102** for the whole system: threads, an engine with any number of workers, the handler of a file with rotation. When all has come
to rest, the rotated files and the file hold what was there before and exactly one line for each thing that is due a record in the code of
any of the threads.

Partial: the limits of C79. -/
theorem C102_files_of_all_threads_are_read_off_the_code_partial (env : WayEnv) (n : Nat) (progs : Nat → Body) (owner : Nat → Nat)
    (hown : ∀ t, Own owner t (progs t)) (hrest : ∀ t, n ≤ t → ∃ v, progs t = .ret v)
    (ho : ∀ t < n, Orderly env.c false false (progs t)) (hp : ∀ v, (env.view v).text ≠ none)
    (c : FConf) (hfs : c.sameFs = true) (hf : c.forced = true) (hrel : c.reliable = true)
    (s : SystemRun env progs c) (hended : ∀ t < n, ∃ o, (s.w.threads t).ctl = .halted o)
    (hcalm : CalmReach Eng.init s.e) (hq : Quiescent s.e) (hidle : ∀ t, s.after.pc t = .idle) :
    ∃ all lines, all.Perm ((List.range n).flatMap fun t => due env.c [] (happened env.c false (progs t))) ∧
      List.Forall₂ (LineOfHappened env) all lines ∧ text c.fn s.after = content s.before.w c.fn ++ lines.flatten := by
  have hb := fun t ht => orderly_bridge env.c (progs t) false false (ho t ht)
  obtain ⟨evs, lines, h1, h2, h3⟩ := C79_every_event_of_every_thread_is_in_the_file_partial env n progs owner hown hrest
    (fun t ht => (hb t ht).2.1) (fun t ht => (hb t ht).2.2.1) (fun t ht => (hb t ht).2.2.2.1) hp c hfs hf hrel s hended hcalm hq hidle
  have hall : ∀ m ≤ n, List.Forall₂ (Stands env.c) ((List.range m).flatMap fun t => toRecord env.c [] (events env.c false (progs t)))
      ((List.range m).flatMap fun t => due env.c [] (happened env.c false (progs t))) := by
    intro m
    induction m with
    | zero => intro _; exact .nil
    | succ m ih =>
      intro hm
      rw [List.range_succ, List.flatMap_append, List.flatMap_append]
      refine List.rel_append (ih (by omega)) ?_
      simpa using orderly_due (ho m (by omega))
  obtain ⟨all, h4, h5⟩ := List.perm_comp_forall₂ h1 (hall n (Nat.le_refl n))
  exact ⟨all, lines, h5, forall₂_through (P := Stands env.c) (Q := LineFor env) (R := LineOfHappened env) (fun _ _ _ h1 h2 => stands_line h1 h2) h4 h2, h3⟩

/-! The hypotheses are met: by the program of the examples of C102 written to a file, and by the two threads of the examples of C79. -/

theorem text_message (env : CEnv) (t : Str) : MessageSpec.RightMessage env.h [.str t] [] ∧ GivesSomething env [.str t] [] :=
  ⟨⟨⟨by simp, List.nodup_nil, (fun _ _ h => nomatch h), (fun _ h => nomatch h), (fun _ _ _ h => nomatch h)⟩, (fun _ _ h => nomatch h)⟩,
    "message".toList, by
      show (if "message".toList = "exception".toList then _ else _) ≠ _
      rw [if_neg (by decide)]
      exact fun h => nomatch h⟩

theorem sysProgs_orderly : ∀ t < 2, Orderly wayExample.c false false (sysProgs t)
  | 0, _ => ⟨.inr ⟨9, rfl, by decide⟩, rfl, rfl, rfl,
      .inl ⟨rfl, ⟨9, .given _ _ rfl (.number 9 (by decide)), by decide⟩, trivial⟩,
      ⟨.inr ⟨3, rfl, by decide⟩, rfl, rfl, rfl, .inr rfl, trivial, (text_message cEnv _).1, (text_message cEnv _).2, trivial⟩, trivial⟩
  | 1, _ => ⟨.inr ⟨9, rfl, by decide⟩, rfl, rfl, rfl,
      .inl ⟨rfl, ⟨9, .given _ _ rfl (.number 9 (by decide)), by decide⟩, trivial⟩,
      ⟨(text_message cEnv _).1, (text_message cEnv _).2, trivial⟩, trivial⟩

example : ∃ after, Orderly wayExample.c false false cWhole ∧ (∀ v, (wayExample.view v).text ≠ none) ∧ FStart wayConf fTraceStart ∧
    FTrace wayConf fTraceStart (wayExample.lines cWhole) after ∧ (∀ t, after.pc t = .idle) ∧ (wayExample.lines cWhole).length = 4 := by
  obtain ⟨s, h1, h2, _⟩ := exists_trace wayConf (fun _ => rfl) (by decide) rfl fTraceStart (wayExample.lines cWhole)
    (fun _ => rfl) rfl (fun h => nomatch h)
  exact ⟨s, cWhole_orderly, (fun v h => nomatch h), wayStart, h1, h2, by decide +kernel⟩

example : (∀ t, Own twoOwner t (sysProgs t)) ∧ (∀ t, 2 ≤ t → ∃ v, sysProgs t = .ret v) ∧
    (∀ t < 2, Orderly wayExample.c false false (sysProgs t)) ∧ (∀ v, (wayExample.view v).text ≠ none) ∧
    ∃ s : SystemRun wayExample sysProgs wayConf, s.w.records.map Prod.fst = [0, 0, 1] ∧
      (∀ t < 2, ∃ o, (s.w.threads t).ctl = .halted o) ∧
      CalmReach Eng.init s.e ∧ Quiescent s.e ∧ (∀ t, s.after.pc t = .idle) := by
  obtain ⟨h1, h2, h3, h4, h5, h6, w, hw, hr, hh⟩ := sysProgs_ok
  obtain ⟨s, rfl, ha, hb, hc⟩ := exists_systemRun wayExample sysProgs w hw
  exact ⟨h1, h2, sysProgs_orderly, h6, s, hr, hh, ha, hb, hc⟩

end Polog
