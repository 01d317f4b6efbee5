import Verif.EndToEnd.SystemExamples
import Verif.File.ByThread

/-! C80: with the synchronous engine (the default) the lines of each thread are in the file in the order of its events. -/

namespace Polog

/-- An execution of the whole system with the synchronous engine (`pool_size=0`): it calls the handler in the thread which logs
(`SingleThreadedRealEngine.write`, singlethreaded/engine.py:9-13). The parts are connected as in `SystemRun`; here also the order is known:
logs reach the engine in the order in which they are handed over, and the calls of the handler in one thread are made in
the order in which the engine handles the logs of this thread. -/
structure SyncSystemRun (env : WayEnv) (progs : Nat → Body) (c : FConf) where
  w : CWorld
  e : Eng
  /-- the lines the handler was called with and those written, with their threads -/
  calls : List (Nat × Str)
  writes : List (Nat × Str)
  before : FState
  after : FState
  programs : CwRun env.c (.start progs (fun _ => none) (fun _ => none)) w
  engine : EReach Eng.init e
  sync : EngineSpec.AllSync e
  start : FStart c before
  file : FTraceT c before calls writes after
  logs : e.g.calls = w.records.zipIdx.map fun x => (x.1.1, x.2)
  handler : ∀ t, FileSpec.ofThread t calls = (EngineSpec.handledOf t e).flatMap fun l =>
    (w.records[l]?).toList.flatMap fun x => ((fileHandler env).call none (env.log x.2)).events

open CallSpec FormatSpec FileSpec WaySpec EngineSpec

/-- Events for lines of several threads, from the events for the lines of each. -/
theorem weave {α : Type} {R : α → Str → Prop} (lines : List (Nat × Str)) (E : Nat → List α)
    (h : ∀ t, List.Forall₂ R (E t) (ofThread t lines)) :
    ∃ evs : List (Nat × α), List.Forall₂ R (evs.map Prod.snd) (lines.map Prod.snd) ∧
      evs.map Prod.fst = lines.map Prod.fst ∧ ∀ t, ofThread t evs = E t := by
  induction lines generalizing E with
  | nil => exact ⟨[], .nil, rfl, fun t => (List.forall₂_nil_right_iff.1 (h t)).symm⟩
  | cons x lines ih =>
    have hx := h x.1
    have e1 : ofThread x.1 (x :: lines) = x.2 :: ofThread x.1 lines := by simp [ofThread]
    rw [e1] at hx
    generalize hE : E x.1 = Ex at hx
    cases hx with
    | @cons a _ as _ h1 h2 =>
      obtain ⟨evs, h3, h5, h4⟩ := ih (fun t => if t = x.1 then as else E t) (fun t => by
        by_cases ht : t = x.1
        · subst ht; simpa using h2
        · have e2 : ofThread t (x :: lines) = ofThread t lines := by simp [ofThread, Ne.symm ht]
          have := h t
          rw [e2] at this
          simpa [ht] using this)
      refine ⟨(x.1, a) :: evs, .cons h1 h3, congrArg (x.1 :: ·) h5, fun t => ?_⟩
      have := h4 t
      by_cases ht : t = x.1
      · subst ht
        rw [if_pos rfl] at this
        rw [hE, ← this]
        simp [ofThread]
      · rw [if_neg ht] at this
        rw [← this]
        simp [ofThread, Ne.symm ht]

theorem zipIdx_lookup {α β : Type} (p : α → Bool) (f : α → List β) (l pre : List α) :
    ((l.zipIdx pre.length).filter (fun x => p x.1)).flatMap (fun x => (((pre ++ l)[x.2]?).toList.flatMap f)) =
      (l.filter p).flatMap f := by
  induction l generalizing pre with
  | nil => rfl
  | cons a l ih =>
    have := ih (pre ++ [a])
    rw [List.length_append, List.length_singleton, List.append_assoc, List.singleton_append] at this
    rw [List.zipIdx_cons, List.filter_cons, List.filter_cons]
    by_cases hp : p a = true
    · simp only [hp, if_true, List.flatMap_cons, this]
      simp
    · simp only [hp]
      simpa using this

/-- The lines of the records of a thread, found through the engine. -/
theorem written_lines {env : WayEnv} {w : CWorld} {e : Eng} (logs : e.g.calls = w.records.zipIdx.map fun x => (x.1.1, x.2)) (t : Nat) :
    ((writtenBy t e).flatMap fun l => (w.records[l]?).toList.flatMap fun x => ((fileHandler env).call none (env.log x.2)).events) =
      (recordsOf t w.records).flatMap fun r => ((fileHandler env).call none (env.log r)).events := by
  unfold writtenBy recordsOf
  rw [logs, List.filter_map, List.map_map, List.flatMap_map, List.flatMap_map]
  have := zipIdx_lookup (fun x : Nat × Rec => x.1 == t) (fun x => ((fileHandler env).call none (env.log x.2)).events) w.records []
  simp only [List.length_nil, List.nil_append] at this
  refine this.trans ?_
  congr 1

/-- **C80**: threads of the program, the synchronous engine, the handler of a file with rotation; any order of their steps. Whenever no call
of the handler is going on, the rotated files and the file together hold what was there before and then one line for each
event of a list in which the events of every thread are a beginning of those it has to record, in their order; and all
of them if the thread has ended. So the file is an interleaving of the logs of the threads: no line is lost, doubled, torn, or in
a wrong place among the lines of its thread.

Partial: a system that does not refuse to move and open files, rotated files on the file system of the log, and the limits
of C28, C29. -/
theorem C80_file_is_an_interleaving_of_the_threads_partial (env : WayEnv) (n : Nat) (progs : Nat → Body) (owner : Nat → Nat)
    (hown : ∀ t, Own owner t (progs t)) (hrest : ∀ t, n ≤ t → ∃ v, progs t = .ret v)
    (hv : ∀ t < n, Valid env.c (progs t)) (hu : ∀ t < n, UnlogFlat env.c false (progs t))
    (hm : ∀ t < n, MsgSafe env.c false false (progs t)) (hp : ∀ v, (env.view v).text ≠ none)
    (c : FConf) (hfs : c.sameFs = true) (hf : c.forced = true) (hrel : c.reliable = true)
    (s : SyncSystemRun env progs c) (hidle : ∀ t, s.after.pc t = .idle) :
    ∃ (evs : List (Nat × Event)) (lines : List Str),
      List.Forall₂ (LineFor env) (evs.map Prod.snd) lines ∧ text c.fn s.after = content s.before.w c.fn ++ lines.flatten ∧
      ∀ t, ofThread t evs <+: toRecord env.c [] (events env.c false (progs t)) ∧
        ((∃ o, (s.w.threads t).ctl = .halted o) → s.e.pc t = .idle →
          ofThread t evs = toRecord env.c [] (events env.c false (progs t))) := by
  obtain ⟨hw, hord⟩ := C36_each_thread_writes_in_order c s.before s.after s.calls s.writes s.start s.file
  have halt := (C36_reliable_system_writes_everything c hrel _ _ _ s.start s.file.toTrace hidle).2
  have hdisk := C36_all_on_disk_at_rest_partial c hf hfs _ _ s.start s.file.toTrace.toRun hidle
  have key : ∀ t, ∃ E : List Event, List.Forall₂ (LineFor env) E (ofThread t s.writes) ∧
      E <+: toRecord env.c [] (events env.c false (progs t)) ∧
        ((∃ o, (s.w.threads t).ctl = .halted o) → s.e.pc t = .idle → E = toRecord env.c [] (events env.c false (progs t))) := by
    intro t
    have hlines : ∃ rest, ofThread t s.writes ++ rest =
        (recordsOf t s.w.records).flatMap (fun r => ((fileHandler env).call none (env.log r)).events) ∧ (s.e.pc t = .idle → rest = []) := by
      rw [(hord t).2 (hidle t) halt, s.handler t, ← written_lines s.logs t]
      have ho := seq_order s.engine s.sync t
      rw [ho, List.flatMap_append]
      refine ⟨_, rfl, fun hi => by rw [hi]; rfl⟩
    obtain ⟨rest, hl, hnil⟩ := hlines
    have hval : Valid env.c (progs t) ∧ UnlogFlat env.c false (progs t) ∧ MsgSafe env.c false false (progs t) := by
      by_cases ht : t < n
      · exact ⟨hv t ht, hu t ht, hm t ht⟩
      · obtain ⟨v, hv⟩ := hrest t (by omega)
        rw [hv]; exact ⟨trivial, trivial, trivial⟩
    obtain ⟨E, h1, h2, h3, _⟩ := prefix_lines s.programs owner hown hp t hval.1 hval.2.1 hval.2.2
    rw [← hl] at h2
    refine ⟨E.take (ofThread t s.writes).length, ?_, (List.take_prefix _ _).trans h1, fun ho hi => ?_⟩
    · have := List.forall₂_take (ofThread t s.writes).length h2
      rwa [List.take_left'] at this
      rfl
    · rw [hnil hi, List.append_nil] at h2
      rw [← h2.length_eq, List.take_length]
      exact h3 ho
  obtain ⟨E, hE⟩ := Classical.axiomOfChoice key
  obtain ⟨evs, h1, _, h2⟩ := weave s.writes E fun t => (hE t).1
  refine ⟨evs, s.after.written, hw ▸ h1, hdisk, fun t => ?_⟩
  rw [h2 t]
  exact (hE t).2

/-! ### The hypotheses are met -/

/-- Threads can always write lines one after another. -/
theorem exists_traceT (c : FConf) (hc : ∀ n, c.fires n = false) (hf : c.forced = true) (s₀ : FState) (lines : List (Nat × Str))
    (hlt : ∀ x ∈ lines, x.1 < c.threads)
    (h₀ : ∀ t, s₀.pc t = .idle) (hl : s₀.rotLock = none) (hopen : s₀.w.file ≠ none) :
    ∃ s, FTraceT c s₀ lines lines s ∧ (∀ t, s.pc t = .idle) ∧ s.rotLock = none ∧ s.w.file ≠ none := by
  induction lines using List.reverseRecOn with
  | nil => exact ⟨s₀, .init, h₀, hl, hopen⟩
  | append_singleton lines x ih =>
    obtain ⟨s, r, hi, hk, ho⟩ := ih fun y hy => hlt y (List.mem_append_left _ hy)
    obtain ⟨u, line⟩ := x
    have hu : u < c.threads := hlt (u, line) (List.mem_append_right _ (List.mem_singleton.2 rfl))
    obtain ⟨i, hi'⟩ := Option.ne_none_iff_exists'.1 ho
    have keep : ∀ (pc : Nat → FPc) (p : FPc), pc u ≠ .idle → ∀ t, pc t = .idle → putAt pc u p t = .idle := by
      intro pc p h0 t h
      by_cases ht : t = u
      · subst ht; exact absurd h h0
      · rw [putAt_ne _ _ ht]; exact h
    have ne : ∀ {pc : Nat → FPc} {p : FPc}, p ≠ .idle → putAt pc u p u ≠ .idle := by
      intro pc p h; rw [putAt_same]; exact h
    have r := r.call (t := u) (line := line) (.call _ u line hu (hi u)) (hi u) (putAt_same ..)
    have r := r.other (.lock _ u line (putAt_same ..) hk) (keep _ _ (ne (fun h => nomatch h))) rfl
    have r := r.other (.pass _ u line (putAt_same ..) (fun n _ => hc n)) (keep _ _ (ne (fun h => nomatch h))) rfl
    have r := r.write (t := u) (line := line) (.write _ u line 0 ⟨s.w.files, putAt s.w.data i (s.w.data i ++ (s.w.buf ++ line).take 0), s.w.fresh, some i,
      (s.w.buf ++ line).drop 0⟩ (putAt_same ..) (by simp only [FileW.write, hi'])) (putAt_same ..) (putAt_same ..)
    have r := r.other (.flush _ u line _ (putAt_same ..) hf rfl) (keep _ _ (ne (fun h => nomatch h))) rfl
    refine ⟨_, r, fun t => ?_, rfl, (fun h => nomatch h)⟩
    by_cases h0 : t = u
    · subst h0; exact putAt_same ..
    · change putAt (putAt (putAt (putAt (putAt s.pc u _) u _) u _) u _) u _ t = _
      rw [putAt_ne _ _ h0, putAt_ne _ _ h0, putAt_ne _ _ h0, putAt_ne _ _ h0, putAt_ne _ _ h0]
      exact hi t

def wayConf2 : FConf := ⟨['f'], fun _ => false, true, 2, true, true⟩

theorem wayStart2 : FStart wayConf2 fTraceStart :=
  ⟨fTraceStart_ok.opened, fTraceStart_ok.distinct, fTraceStart_ok.below, rfl, fun _ => rfl, rfl, ⟨rfl, rfl, rfl⟩⟩

theorem ofThread_tagged {α β : Type} (t : Nat) (f : α → List β) (l : List (Nat × α)) :
    ofThread t (l.flatMap fun x => (f x.2).map fun y => (x.1, y)) = (ofThread t l).flatMap f := by
  induction l with
  | nil => rfl
  | cons x l ih =>
    rw [List.flatMap_cons, ofThread_append, ih]
    by_cases ht : x.1 = t
    · have h1 : ofThread t ((f x.2).map fun y => (x.1, y)) = f x.2 := by
        generalize f x.2 = ys
        induction ys with
        | nil => rfl
        | cons y ys ih => simpa [ofThread, ht] using ih
      have h2 : ofThread t (x :: l) = x.2 :: ofThread t l := by simp [ofThread, ht]
      rw [h1, h2, List.flatMap_cons]
    · have h1 : ofThread t ((f x.2).map fun y => (x.1, y)) = [] := by simp [ofThread, ht]
      have h2 : ofThread t (x :: l) = ofThread t l := by simp [ofThread, ht]
      rw [h1, h2, List.nil_append]

/-- Whatever the threads of the program have done, there is an execution of the whole system with the synchronous engine. -/
theorem exists_syncSystemRun (env : WayEnv) (progs : Nat → Body) (w : CWorld) (hlt : ∀ x ∈ w.records, x.1 < 2)
    (h : CwRun env.c (.start progs (fun _ => none) (fun _ => none)) w) :
    ∃ s : SyncSystemRun env progs wayConf2, s.w = w ∧ (∀ t, s.e.pc t = .idle) ∧ ∀ t, s.after.pc t = .idle := by
  obtain ⟨e, hr, hi, hc, hs⟩ : ∃ e, CalmReach Eng.init e ∧ (∀ u, e.pc u = .idle) ∧ e.g.calls = (w.records.map Prod.fst).zipIdx ∧
      AllSync e := by
    cases hw : w.records with
    | nil => exact ⟨_, .init, fun _ => rfl, rfl, fun k h => absurd h (Nat.not_lt_zero k)⟩
    | cons x l =>
      obtain ⟨e, hr, hi, _, hl, hk, hc, hs⟩ := calm_writes x.1 (l.map Prod.fst)
      refine ⟨e, hr, hi, hc, fun k hlt => ?_⟩
      rw [hl] at hlt
      have : k = 0 := by omega
      subst this
      exact hk
  have hlogs : e.g.calls = w.records.zipIdx.map fun x => (x.1.1, x.2) := by
    rw [hc, List.zipIdx_map]; rfl
  obtain ⟨after, h1, h2, _⟩ := exists_traceT wayConf2 (fun _ => rfl) rfl fTraceStart
    (w.records.flatMap fun x => ((fileHandler env).call none (env.log x.2)).events.map fun y => (x.1, y))
    (fun x hx => by
      obtain ⟨r, hr, hx⟩ := List.mem_flatMap.1 hx
      obtain ⟨y, _, rfl⟩ := List.mem_map.1 hx
      exact hlt r hr)
    (fun _ => rfl) rfl (fun h => nomatch h)
  refine ⟨⟨w, e, _, _, fTraceStart, after, h, hr.reach, hs, wayStart2, h1, hlogs, fun t => ?_⟩, rfl, hi, h2⟩
  rw [C20_sync_handled_before_return_in_order e hr.reach hs t (hi t), written_lines hlogs t]
  exact ofThread_tagged t (fun r => ((fileHandler env).call none (env.log r)).events) w.records

example : (∀ t, Own twoOwner t (sysProgs t)) ∧ (∀ t, 2 ≤ t → ∃ v, sysProgs t = .ret v) ∧
    (∀ t < 2, Valid wayExample.c (sysProgs t)) ∧ (∀ t < 2, UnlogFlat wayExample.c false (sysProgs t)) ∧
    (∀ t < 2, MsgSafe wayExample.c false false (sysProgs t)) ∧ (∀ v, (wayExample.view v).text ≠ none) ∧
    ∃ s : SyncSystemRun wayExample sysProgs wayConf2, s.w.records.map Prod.fst = [0, 0, 1] ∧
      (∀ t < 2, ∃ o, (s.w.threads t).ctl = .halted o) ∧ (∀ t, s.e.pc t = .idle) ∧ (∀ t, s.after.pc t = .idle) := by
  obtain ⟨h1, h2, h3, h4, h5, h6, w, hw, hr, hh⟩ := sysProgs_ok
  obtain ⟨s, rfl, ha, hb⟩ := exists_syncSystemRun wayExample sysProgs w (fun x hx => by
    have := List.mem_map_of_mem (f := Prod.fst) hx
    rw [hr] at this
    simp at this
    omega) hw
  exact ⟨h1, h2, h3, h4, h5, h6, s, hr, hh, ha, hb⟩

end Polog
