import Verif.EndToEnd.Lemmas
import Mathlib.Data.List.Induction
import Mathlib.Data.List.Perm.Basic

/-! C73: what was logged is in the file. -/

namespace Polog
open CallSpec FormatSpec FileSpec WaySpec

theorem toFVal_text {view : HVal → FVal} (hp : ∀ v, (view v).text ≠ none) (v : HVal) : (toFVal view v).text ≠ none := by
  cases v with
  | none => exact (fun h => nomatch h)
  | bool b => exact (fun h => nomatch h)
  | int n => exact (fun h => nomatch h)
  | str s => exact (fun h => nomatch h)
  | exc i t m => exact hp _
  | cls i n m => exact hp _
  | fn i n m t => exact hp _
  | other i => exact hp _

theorem toFVal_shown (view : HVal → FVal) (v : HVal) : Shown view v (toFVal view v) := by
  cases v with
  | none => exact .none
  | bool b => exact .bool b
  | int n => exact .int n
  | str s => exact .str s
  | exc i t m => exact .object _ nofun nofun nofun nofun
  | cls i n m => exact .object _ nofun nofun nofun nofun
  | fn i n m t => exact .object _ nofun nofun nofun nofun
  | other i => exact .object _ nofun nofun nofun nofun

theorem wayLog_for (env : WayEnv) (r : Rec) : LogFor env r (env.log r) := by
  refine ⟨_, extractFrom_extracted .., ?_⟩
  unfold WayEnv.log
  generalize extractFrom env.c.h.fieldsIntersection env.engineFields r.data = d
  induction d with
  | nil => exact .nil
  | cons x d ih => exact .cons ⟨rfl, toFVal_shown ..⟩ ih

/-- The handler gives the file the line of each record. -/
theorem fileHandler_line (env : WayEnv) (hp : ∀ v, (env.view v).text ≠ none) (r : Rec) (hr : Dict.WF r.data) :
    ∃ line, ((fileHandler env).call none (env.log r)).events = [line] ∧ LineOf env.f env.first "\n".toList (env.log r) line := by
  have hw := wayLog_wf env r hr
  cases hf : formatLine env.f env.first "\n".toList (env.log r) with
  | error e =>
    obtain ⟨x, hx, _, hn⟩ := (C42_no_line_exactly env.f env.first _ (env.log r) hw).1 ⟨e, hf⟩
    obtain ⟨y, _, rfl⟩ := List.mem_map.1 hx
    exact absurd hn (toFVal_text hp y.2)
  | ok line =>
    refine ⟨line, ?_, (C42_line env.f env.first _ (env.log r) hw line).1 hf⟩
    have hc : (fileHandler env).content (env.log r) = .ok line := by
      show (match formatLine env.f env.first "\n".toList (env.log r) with
        | .ok line => Except.ok line
        | .error _ => .error ()) = _
      rw [hf]
    have := C35_wanted_log_is_written (fileHandler env) none (env.log r) [line] ⟨.inl rfl, (fun f h => nomatch h)⟩
      ⟨line, hc, rfl, rfl⟩
    rw [this]

/-- The lines given to the file are those of the events to be recorded, in their order. -/
theorem lines_for (env : WayEnv) (hp : ∀ v, (env.view v).text ≠ none) {evs : List Event} {recs : List Rec}
    (h : List.Forall₂ (RecordOf env.c) evs recs) (hw : ∀ r ∈ recs, Dict.WF r.data) :
    List.Forall₂ (LineFor env) evs (recs.flatMap fun r => ((fileHandler env).call none (env.log r)).events) := by
  induction h with
  | nil => exact .nil
  | @cons ev r evs recs hr _ ih =>
    obtain ⟨line, he, hl⟩ := fileHandler_line env hp r (hw r List.mem_cons_self)
    rw [List.flatMap_cons, he]
    exact .cons ⟨r, _, hr, wayLog_for env r, hl⟩ (ih fun r' h' => hw r' (List.mem_cons_of_mem _ h'))

/-- **C73**: for every program that uses decorated functions, `with` blocks, messages and manual logging correctly, after it has
run the rotated files and the file together hold what was there before and then, in the order of the events, exactly one line
for each event that is to be recorded, with the fields of this event; and nothing else.

Partial: one thread, the synchronous engine, `forced_flush` (the default), a system that does not refuse to move and open
files, objects whose `str()` does not raise, messages left where they are not lost (`MsgSafe`, see C28), no unlogged call
inside an unlogged call (see C29). -/
theorem C73_every_event_is_in_the_file_partial (env : WayEnv) (b : Body) (hv : Valid env.c b) (hu : UnlogFlat env.c false b)
    (hm : MsgSafe env.c false false b) (hp : ∀ v, (env.view v).text ≠ none)
    (c : FConf) (ht : c.threads = 1) (hf : c.forced = true) (hrel : c.reliable = true) (before after : FState)
    (hstart : FStart c before) (htrace : FTrace c before (env.lines b) after) (hidle : ∀ t, after.pc t = .idle) :
    ∃ lines, List.Forall₂ (LineFor env) (toRecord env.c [] (events env.c false b)) lines ∧
      text c.fn after = content before.w c.fn ++ lines.flatten := by
  refine ⟨env.lines b, ?_, ?_⟩
  · exact lines_for env hp (C28_record_has_the_last_own_message_partial env.c b hv hu hm)
      (run_recsWF env.c b .init (fun r h => nomatch h))
  · have hn := C36_nothing_lost_by_one_thread_partial c ht hf before after hstart htrace.toRun
    have hb : after.w.buf = [] := (FRun.alone ht hf hstart htrace.toRun).flushed (fun line h => by rw [hidle 0] at h; cases h)
    unfold NothingLost at hn
    rw [hb, List.append_nil, htrace.written_eq ht hrel hstart hidle] at hn
    exact hn

/-- **C73**: and if no text of the program has line breaks in it, the lines of the (formerly empty) file are exactly these:
reading the file line by line gives back one line per event. -/
theorem C73_file_reads_back_line_by_line_partial (env : WayEnv) (b : Body) (hv : Valid env.c b) (hu : UnlogFlat env.c false b)
    (hm : MsgSafe env.c false false b) (hp : ∀ v, (env.view v).text ≠ none)
    (hfree : ∀ r ∈ (b.run env.c .init).2.records, RecordFree env.f '\n' (env.log r))
    (c : FConf) (ht : c.threads = 1) (hf : c.forced = true) (hrel : c.reliable = true) (before after : FState)
    (hempty : content before.w c.fn = [])
    (hstart : FStart c before) (htrace : FTrace c before (env.lines b) after) (hidle : ∀ t, after.pc t = .idle) :
    ∃ bodies, splitChar '\n' (text c.fn after) = bodies ++ [[]] ∧
      List.Forall₂ (fun ev body => LineFor env ev (body ++ "\n".toList)) (toRecord env.c [] (events env.c false b)) bodies := by
  have hwf : ∀ r ∈ (b.run env.c .init).2.records, Dict.WF r.data := run_recsWF env.c b .init (fun r h => nomatch h)
  have hfmt : List.Forall₂ (fun log line => Dict.WF log ∧ RecordFree env.f '\n' log ∧
      formatLine env.f env.first "\n".toList log = .ok line)
      ((b.run env.c .init).2.records.map env.log) (env.lines b) := by
    unfold WayEnv.lines
    generalize (b.run env.c .init).2.records = recs at hfree hwf
    induction recs with
    | nil => exact .nil
    | cons r recs ih =>
      obtain ⟨line, he, hl⟩ := fileHandler_line env hp r (hwf r List.mem_cons_self)
      rw [List.map_cons, List.flatMap_cons, he]
      have hw := wayLog_wf env r (hwf r List.mem_cons_self)
      exact .cons ⟨hw, hfree r List.mem_cons_self, (C42_line env.f env.first _ (env.log r) hw line).2 hl⟩
        (ih (fun x hx => hfree x (List.mem_cons_of_mem _ hx)) (fun x hx => hwf x (List.mem_cons_of_mem _ hx)))
  obtain ⟨bodies, h1, h2⟩ := C57_file_splits_into_records_partial env.f env.first _ _ hfmt
  have hn := C36_nothing_lost_by_one_thread_partial c ht hf before after hstart htrace.toRun
  have hb : after.w.buf = [] := (FRun.alone ht hf hstart htrace.toRun).flushed (fun line h => by rw [hidle 0] at h; cases h)
  unfold NothingLost at hn
  rw [hb, List.append_nil, htrace.written_eq ht hrel hstart hidle, hempty, List.nil_append] at hn
  refine ⟨bodies, by unfold text; rw [hn]; exact h2, ?_⟩
  have hall := lines_for env hp (C28_record_has_the_last_own_message_partial env.c b hv hu hm) hwf
  have hl : (b.run env.c .init).2.records.flatMap (fun r => ((fileHandler env).call none (env.log r)).events) =
      bodies.map (· ++ "\n".toList) := h1
  rw [hl] at hall
  exact List.forall₂_map_right_iff.1 hall

/-- **C73** for several threads: when the records reach the handler in any order and in any number of threads, as with a pool of
workers (which calls the handler once for each record: C17), the files hold what was there before and exactly one line for each
event that is to be recorded, in some order, each line whole.

Partial: the rotated files stay on the file system of the log (see C36 for the other case), and the other limits as above. -/
theorem C73_every_event_is_in_the_file_with_a_pool_partial (env : WayEnv) (b : Body) (hv : Valid env.c b)
    (hu : UnlogFlat env.c false b) (hm : MsgSafe env.c false false b) (hp : ∀ v, (env.view v).text ≠ none)
    (c : FConf) (hfs : c.sameFs = true) (hf : c.forced = true) (hrel : c.reliable = true) (before after : FState)
    (calls : List Str) (hcalls : calls.Perm (env.lines b))
    (hstart : FStart c before) (htrace : FTrace c before calls after) (hidle : ∀ t, after.pc t = .idle) :
    ∃ evs lines, evs.Perm (toRecord env.c [] (events env.c false b)) ∧ List.Forall₂ (LineFor env) evs lines ∧
      text c.fn after = content before.w c.fn ++ lines.flatten := by
  have hall : List.Forall₂ (LineFor env) (toRecord env.c [] (events env.c false b)) (env.lines b) :=
    lines_for env hp (C28_record_has_the_last_own_message_partial env.c b hv hu hm)
      (run_recsWF env.c b .init (fun r h => nomatch h))
  have hw := (C36_reliable_system_writes_everything c hrel before after calls hstart htrace hidle).1.trans hcalls
  obtain ⟨evs, h1, h2⟩ := List.perm_comp_forall₂ hw hall.flip
  exact ⟨evs, after.written, h2, h1.flip, C36_all_on_disk_at_rest_partial c hf hfs before after hstart htrace.toRun hidle⟩

/-! ### The hypotheses are met -/

/-- The handler can always write any lines. -/
theorem exists_trace (c : FConf) (hc : ∀ n, c.fires n = false) (ht : 0 < c.threads) (hf : c.forced = true) (s₀ : FState) (lines : List Str)
    (h₀ : ∀ t, s₀.pc t = .idle) (hl : s₀.rotLock = none) (hopen : s₀.w.file ≠ none) :
    ∃ s, FTrace c s₀ lines s ∧ (∀ t, s.pc t = .idle) ∧ s.rotLock = none ∧ s.w.file ≠ none := by
  induction lines using List.reverseRecOn with
  | nil => exact ⟨s₀, .init, h₀, hl, hopen⟩
  | append_singleton lines line ih =>
    obtain ⟨s, r, hi, hk, ho⟩ := ih
    obtain ⟨i, hi'⟩ := Option.ne_none_iff_exists'.1 ho
    have keep : ∀ (pc : Nat → FPc) (p : FPc), pc 0 ≠ .idle → ∀ t, pc t = .idle → putAt pc 0 p t = .idle := by
      intro pc p h0 t h
      by_cases ht : t = 0
      · subst ht; exact absurd h h0
      · rw [putAt_ne _ _ ht]; exact h
    have r := r.call (t := 0) (line := line) (.call _ 0 line ht (hi 0)) (hi 0) rfl
    have r := r.other (.lock _ 0 line rfl hk) (keep _ _ (show FPc.start line ≠ .idle from (fun h => nomatch h)))
    have r := r.other (.pass _ 0 line rfl (fun n _ => hc n))
      (keep _ _ (show FPc.checking line ≠ .idle from (fun h => nomatch h)))
    have r := r.other (.write _ 0 line 0 ⟨s.w.files, putAt s.w.data i (s.w.data i ++ (s.w.buf ++ line).take 0), s.w.fresh, some i,
      (s.w.buf ++ line).drop 0⟩ rfl (by simp only [FileW.write, hi']))
      (keep _ _ (show FPc.writing line ≠ .idle from (fun h => nomatch h)))
    have r := r.other (.flush _ 0 line _ rfl hf rfl)
      (keep _ _ (show FPc.flushing line ≠ .idle from (fun h => nomatch h)))
    refine ⟨_, r, fun t => ?_, rfl, (fun h => nomatch h)⟩
    by_cases h0 : t = 0
    · subst h0; rfl
    · change putAt (putAt (putAt (putAt (putAt s.pc 0 _) 0 _) 0 _) 0 _) 0 _ t = _
      rw [putAt_ne _ _ h0, putAt_ne _ _ h0, putAt_ne _ _ h0, putAt_ne _ _ h0, putAt_ne _ _ h0]
      exact hi t

/-- The settings of the examples of decorated calls with the formatter of its examples. -/
def wayExample : WayEnv :=
  ⟨cEnv, [("user".toList, fun _ => .ok (.str "root".toList))], fun _ => .other (some "12:00".toList) true [],
    { fmtExampleEnv with service := none }, Levels.standard .empty⟩

def wayConf : FConf := ⟨['f'], fun _ => false, true, 1, true, true⟩

theorem wayStart : FStart wayConf fTraceStart := ⟨fTraceStart_ok.opened, fTraceStart_ok.distinct, fTraceStart_ok.below, rfl, fun _ => rfl, rfl, ⟨rfl, rfl, rfl⟩⟩

-- the whole way from a program to the text of the file
example : wayExample.lines cProg =
    ["[12:00] |    5     |  ERROR  |  AUTO  | where: m.inner() | 12:00 | exception: ValueError(\"bad\") | [] | local_variables: \"\" | user: \"root\"\n".toList,
     "[12:00] |    9     | SUCCESS |  AUTO  | \"hello\" | where: m.outer() | 12:00 | result: 7 (<class 'str'>) | user: \"root\"\n".toList] := by
  decide +kernel

-- nothing that the program of this example logs has a line break in it, and the file is empty at the beginning
example : (∀ r ∈ (cProg.run wayExample.c .init).2.records, RecordFree wayExample.f '\n' (wayExample.log r)) ∧
    (cProg.run wayExample.c .init).2.records.length = 2 ∧ content fTraceStart.w wayConf.fn = [] := by
  have hrec : ∀ log ∈ (cProg.run wayExample.c .init).2.records.map wayExample.log,
      (∀ x ∈ log, '\n' ∉ x.1) ∧ (∀ x ∈ log, '\n' ∉ x.2.text.getD []) ∧ (∀ x ∈ log, '\n' ∉ x.2.typeText) := by
    decide +kernel
  refine ⟨fun r hr => ?_, by decide +kernel, by decide +kernel⟩
  obtain ⟨h1, h2, h3⟩ := hrec _ (List.mem_map_of_mem hr)
  refine ⟨h1, fun x hx t ht => ?_, h3, fun x _ s j _ h => ?_, by decide +kernel, fun s hs => nomatch hs⟩
  · have := h2 x hx
    rwa [ht] at this
  · cases h

example : ∃ after, Valid wayExample.c cProg ∧ UnlogFlat wayExample.c false cProg ∧ MsgSafe wayExample.c false false cProg ∧
    (∀ v, (wayExample.view v).text ≠ none) ∧ FStart wayConf fTraceStart ∧ FTrace wayConf fTraceStart (wayExample.lines cProg) after ∧
    (∀ t, after.pc t = .idle) := by
  obtain ⟨s, h1, h2, _⟩ := exists_trace wayConf (fun _ => rfl) (by decide) rfl fTraceStart (wayExample.lines cProg)
    (fun _ => rfl) rfl (fun h => nomatch h)
  exact ⟨s, cProg_valid, cProg_flat, cProg_safe, (fun v h => nomatch h), wayStart, h1, h2⟩

/-- The same with a registered field whose value is an object that cannot be printed. -/
def wayUnprintable : WayEnv :=
  { wayExample with
    engineFields := [("user".toList, fun _ => .ok (.other 77))]
    view := fun v => match v with
      | .other 77 => .other none true []
      | _ => .other (some "12:00".toList) true [] }

/-- **C73 fails** when `str()` of one value raises: two events are to be recorded, and nothing at all comes into the file. -/
theorem C73_unprintable_value_loses_the_line_fails : ∃ (b : Body) (before after : FState),
    Valid wayUnprintable.c b ∧ UnlogFlat wayUnprintable.c false b ∧ MsgSafe wayUnprintable.c false false b ∧
    FStart wayConf before ∧ FTrace wayConf before (wayUnprintable.lines b) after ∧ (∀ t, after.pc t = .idle) ∧
    (toRecord wayUnprintable.c [] (events wayUnprintable.c false b)).length = 2 ∧
    ¬ ∃ lines, List.Forall₂ (LineFor wayUnprintable) (toRecord wayUnprintable.c [] (events wayUnprintable.c false b)) lines ∧
      text wayConf.fn after = content before.w wayConf.fn ++ lines.flatten := by
  have hl : wayUnprintable.lines cProg = [] := by decide +kernel
  have hrec := C28_record_has_the_last_own_message_partial wayUnprintable.c cProg cProg_valid cProg_flat cProg_safe
  have hlen : (toRecord wayUnprintable.c [] (events wayUnprintable.c false cProg)).length = 2 := by
    rw [hrec.length_eq]
    decide +kernel
  refine ⟨cProg, fTraceStart, fTraceStart, cProg_valid, cProg_flat, cProg_safe, wayStart, hl ▸ .init, fun _ => rfl, hlen, ?_⟩
  rintro ⟨lines, h1, h2⟩
  have hflat : lines.flatten = [] := by
    have h2 : content fTraceStart.w wayConf.fn = content fTraceStart.w wayConf.fn ++ lines.flatten := h2
    exact List.self_eq_append_right.1 h2
  cases lines with
  | nil => rw [List.forall₂_nil_right_iff.1 h1] at hlen; cases hlen
  | cons line rest =>
    rw [List.flatten_cons, List.append_eq_nil_iff] at hflat
    obtain ⟨ev, _, hev, _⟩ := List.forall₂_cons_right_iff.1 h1
    obtain ⟨r, log, _, _, _, _, _, _, hline⟩ := hev
    rw [hflat.1] at hline
    have := congrArg List.length hline
    simp at this

end Polog
