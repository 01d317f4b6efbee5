import Verif.EndToEnd.SystemSync
import Verif.File.CrashThreads

/-! C81: a program with several threads is stopped at any moment. -/

namespace Polog
open CallSpec FormatSpec FileSpec WaySpec EngineSpec

theorem fileHandler_at_most_one (env : WayEnv) (log : FLog) : ((fileHandler env).call none log).events.length ≤ 1 := by
  unfold BaseH.call
  split
  · exact Nat.zero_le _
  · exact Nat.zero_le _
  · unfold BaseH.attempt
    dsimp only [fileHandler]
    split <;> split <;> simp_all [runAlt]

/-- **C81**: threads of the program, the synchronous engine, the handler of a file with rotation, and the program is stopped at any moment
(what Python holds in its buffer is lost). Then the rotated files and the file together hold what was there before; whole lines for
the events `evs`; and possibly a beginning of the lines of the events `next`, which threads were writing just then, at most one event
of each thread. In `evs` and `next` together the events of each thread are the first of those it has to record, in their order. Of the
records that a thread has logged at most the last one is not among `evs`, and none if it is neither in the engine nor
in the handler.

`hin`: a thread that is in the handler is not at the same time before it, on the way to give another log to the engine.

Partial: a system that does not refuse to move and open files, rotated files on the file system of the log, and the limits
of C28, C29. -/
theorem C81_stopped_threads_lose_at_most_one_event_each_partial (env : WayEnv) (n : Nat) (progs : Nat → Body) (owner : Nat → Nat)
    (hown : ∀ t, Own owner t (progs t)) (hrest : ∀ t, n ≤ t → ∃ v, progs t = .ret v)
    (hv : ∀ t < n, Valid env.c (progs t)) (hu : ∀ t < n, UnlogFlat env.c false (progs t))
    (hm : ∀ t < n, MsgSafe env.c false false (progs t)) (hp : ∀ v, (env.view v).text ≠ none)
    (c : FConf) (hfs : c.sameFs = true) (hf : c.forced = true) (hrel : c.reliable = true)
    (s : SyncSystemRun env progs c) (hin : ∀ t, s.after.pc t ≠ .idle → ∀ l, ¬ InCall s.e t l) :
    ∃ (evs next : List (Nat × Event)) (lines more : List Str) (part : Str),
      List.Forall₂ (LineFor env) (evs.map Prod.snd) lines ∧ List.Forall₂ (LineFor env) (next.map Prod.snd) more ∧
      part <+: more.flatten ∧ text c.fn s.after = content s.before.w c.fn ++ lines.flatten ++ part ∧
      (next.map Prod.fst).Nodup ∧ (∀ x ∈ next, s.after.pc x.1 ≠ .idle) ∧
      ∀ t, (ofThread t evs ++ ofThread t next) <+: toRecord env.c [] (events env.c false (progs t)) ∧
        (recordsOf t s.w.records).length ≤ (ofThread t evs).length + 1 ∧
        ((∀ l, ¬ InCall s.e t l) → s.after.pc t = .idle → (recordsOf t s.w.records).length = (ofThread t evs).length) := by
  have hord := s.file.order s.start
  have halt : s.after.alt = [] := by
    have ho := C36_no_line_refused_while_open_partial c _ _ s.start s.file.toTrace.toRun
    exact ho.1 (ho.2 hrel)
  obtain ⟨done, pend, part, hsplit, hpart, hpend, hnodup, hdisk⟩ :=
    C74_threads_lose_only_lines_in_work c hf hfs _ _ _ _ s.start s.file
  have key : ∀ t, ∃ E : List Event, List.Forall₂ (LineFor env) E (ofThread t s.writes) ∧
      E <+: toRecord env.c [] (events env.c false (progs t)) ∧
      (recordsOf t s.w.records).length ≤ E.length + (s.after.pc t).before.toList.length + (s.e.pc t).log?.toList.length ∧
      E.length ≤ (recordsOf t s.w.records).length := by
    intro t
    have hl : ofThread t s.writes ++ ((s.after.pc t).before.toList ++
        (s.e.pc t).log?.toList.flatMap fun l => (s.w.records[l]?).toList.flatMap fun x => ((fileHandler env).call none (env.log x.2)).events) =
        (recordsOf t s.w.records).flatMap (fun r => ((fileHandler env).call none (env.log r)).events) := by
      rw [← List.append_assoc, hord.whole halt t, s.handler t, ← written_lines s.logs t, seq_order s.engine s.sync t, List.flatMap_append]
    have hval : Valid env.c (progs t) ∧ UnlogFlat env.c false (progs t) ∧ MsgSafe env.c false false (progs t) := by
      by_cases ht : t < n
      · exact ⟨hv t ht, hu t ht, hm t ht⟩
      · obtain ⟨v, hv⟩ := hrest t (by omega)
        rw [hv]; exact ⟨trivial, trivial, trivial⟩
    obtain ⟨E, h1, h2, _, h4⟩ := prefix_lines s.programs owner hown hp t hval.1 hval.2.1 hval.2.2
    have hlen := h2.length_eq
    rw [← hl] at h2 hlen
    refine ⟨E.take (ofThread t s.writes).length, ?_, (List.take_prefix _ _).trans h1, ?_, by rw [← h4]; exact List.length_take_le' _ _⟩
    · have := List.forall₂_take (ofThread t s.writes).length h2
      rwa [List.take_left'] at this
      rfl
    · have hone : ((s.e.pc t).log?.toList.flatMap fun l =>
          (s.w.records[l]?).toList.flatMap fun x => ((fileHandler env).call none (env.log x.2)).events).length ≤
          (s.e.pc t).log?.toList.length := by
        cases (s.e.pc t).log? with
        | none => exact Nat.le_refl _
        | some l =>
          cases hx : s.w.records[l]? with
          | none => simp [hx]
          | some x => simpa [hx] using fileHandler_at_most_one env (env.log x.2)
      rw [List.length_append, List.length_append] at hlen
      rw [List.length_take]
      omega
  obtain ⟨E, hE⟩ := Classical.axiomOfChoice key
  obtain ⟨all, h1, hfst, h2⟩ := weave s.writes E fun t => (hE t).1
  have hlen : all.length = s.writes.length := by simpa using congrArg List.length hfst
  have hnext : (all.drop done.length).map Prod.fst = pend.map Prod.fst := by
    rw [List.map_drop, hfst, hsplit, List.map_append, List.drop_left' (by simp)]
  have hmem : ∀ x ∈ all.drop done.length, ∃ y ∈ pend, y.1 = x.1 := by
    intro x hx
    have := List.mem_map_of_mem (f := Prod.fst) hx
    rw [hnext] at this
    exact List.mem_map.1 this
  refine ⟨all.take done.length, all.drop done.length, done.map Prod.snd, pend.map Prod.snd, part, ?_, ?_, hpart, hdisk,
    hnext ▸ hnodup, ?_, fun t => ?_⟩
  · have := List.forall₂_take done.length h1
    rwa [hsplit, List.map_append, List.take_left' (by simp), ← List.map_take] at this
  · have := List.forall₂_drop done.length h1
    rwa [hsplit, List.map_append, List.drop_left' (by simp), ← List.map_drop] at this
  · intro x hx
    obtain ⟨y, hy, he⟩ := hmem x hx
    rw [← he, hpend y hy]
    exact (fun h => nomatch h)
  · rw [← ofThread_append, List.take_append_drop, h2 t]
    have hnum := (hE t).2.2.1
    have htot : (E t).length = (ofThread t (all.take done.length)).length + (ofThread t (all.drop done.length)).length := by
      rw [← h2 t, ← List.length_append, ← ofThread_append, List.take_append_drop]
    have hle : (ofThread t (all.drop done.length)).length ≤ 1 := by
      have hn : ((all.drop done.length).map Prod.fst).Nodup := hnext ▸ hnodup
      have : (ofThread t (all.drop done.length)).length = ((all.drop done.length).map Prod.fst).count t := by
        unfold ofThread
        rw [List.length_map, List.count_eq_length_filter, List.filter_map, List.length_map]
        rfl
      rw [this]
      exact List.nodup_iff_count.1 hn t
    have hzero : ofThread t (all.drop done.length) ≠ [] → ∃ l, s.after.pc t = .flushing l := by
      intro hne
      obtain ⟨e, he⟩ := List.exists_mem_of_ne_nil _ hne
      obtain ⟨x, hx, _⟩ := List.mem_map.1 he
      obtain ⟨hx, ht⟩ := List.mem_filter.1 hx
      obtain ⟨y, hy, he⟩ := hmem x hx
      have ht : x.1 = t := by simpa using ht
      exact ⟨y.2, ht ▸ he ▸ hpend y hy⟩
    have hlog : (∀ l, ¬ InCall s.e t l) → (s.e.pc t).log? = none := by
      intro h
      cases hl : (s.e.pc t).log? with
      | none => rfl
      | some l => exact absurd ((log?_iff_inCall s.e t l).1 hl) (h l)
    have hidle : s.after.pc t = .idle → ofThread t (all.drop done.length) = [] ∧ (s.after.pc t).before = none := by
      intro h
      refine ⟨?_, by rw [h]; rfl⟩
      by_contra hne
      obtain ⟨l, hl⟩ := hzero hne
      rw [h] at hl; cases hl
    have hbef : (s.after.pc t).before.toList.length ≤ 1 := by
      cases (s.after.pc t).before <;> simp
    have hlg : (s.e.pc t).log?.toList.length ≤ 1 := by
      cases (s.e.pc t).log? <;> simp
    have hsplit2 : ofThread t (all.drop done.length) = [] ∨ (s.after.pc t).before = none := by
      by_cases h : ofThread t (all.drop done.length) = []
      · exact .inl h
      · obtain ⟨l, hl⟩ := hzero h
        exact .inr (by rw [hl]; rfl)
    have hge : (E t).length ≤ (recordsOf t s.w.records).length := (hE t).2.2.2
    refine ⟨(hE t).2.1, ?_, fun hno hid => ?_⟩
    · by_cases hid : s.after.pc t = .idle
      · obtain ⟨h3, h4⟩ := hidle hid
        rw [h4] at hnum
        rw [h3] at htot
        simp only [Option.toList_none, List.length_nil] at hnum htot
        omega
      · rw [hlog (hin t hid)] at hnum
        simp only [Option.toList_none, List.length_nil] at hnum
        have : (ofThread t (all.drop done.length)).length + (s.after.pc t).before.toList.length ≤ 1 := by
          rcases hsplit2 with h | h
          · rw [h]; simpa using hbef
          · rw [h]; simpa using hle
        omega
    · obtain ⟨h3, h4⟩ := hidle hid
      rw [hlog hno, h4] at hnum
      rw [h3] at htot
      simp only [Option.toList_none, List.length_nil] at hnum htot
      omega

/-! ### The hypotheses are met -/

/-- Threads write lines one after another; the last line is in Python's buffer. -/
theorem exists_stoppedTrace (c : FConf) (hc : ∀ n, c.fires n = false) (hf : c.forced = true) (s₀ : FState) (lines : List (Nat × Str))
    (u : Nat) (line : Str) (hlt : ∀ x ∈ lines ++ [(u, line)], x.1 < c.threads)
    (h₀ : ∀ t, s₀.pc t = .idle) (hl : s₀.rotLock = none) (hopen : s₀.w.file ≠ none) :
    ∃ s, FTraceT c s₀ (lines ++ [(u, line)]) (lines ++ [(u, line)]) s ∧ s.pc u = .flushing line ∧ line <:+ s.w.buf := by
  obtain ⟨s, r, hi, hk, ho⟩ := exists_traceT c hc hf s₀ lines (fun y hy => hlt y (List.mem_append_left _ hy)) h₀ hl hopen
  have hu : u < c.threads := hlt (u, line) (List.mem_append_right _ (List.mem_singleton.2 rfl))
  obtain ⟨i, hi'⟩ := Option.ne_none_iff_exists'.1 ho
  have keep : ∀ (pc : Nat → FPc) (p : FPc), pc u ≠ .idle → ∀ t, pc t = .idle → putAt pc u p t = .idle := by
    intro pc p h0 t h
    by_cases ht : t = u
    · subst ht; exact absurd h h0
    · rw [putAt_ne _ _ ht]; exact h
  have ne : ∀ {pc : Nat → FPc} {p : FPc}, p ≠ .idle → putAt pc u p u ≠ .idle := by
    intro pc p h; rw [putAt_same]; exact h
  have r := r.call (t := u) (line := line) (.call _ u line hu (hi u)) (hi u) (putAt_same ..)
  have r := r.other (.lock _ u line (putAt_same ..) hk) (keep _ _ (ne (fun h => nomatch h))) rfl
  have r := r.other (.pass _ u line (putAt_same ..) (fun n _ => hc n)) (keep _ _ (ne (fun h => nomatch h))) rfl
  have r := r.write (t := u) (line := line) (.write _ u line 0 ⟨s.w.files, putAt s.w.data i (s.w.data i ++ (s.w.buf ++ line).take 0), s.w.fresh, some i,
    (s.w.buf ++ line).drop 0⟩ (putAt_same ..) (by simp only [FileW.write, hi'])) (putAt_same ..) (putAt_same ..)
  exact ⟨_, r, putAt_same .., ⟨s.w.buf, rfl⟩⟩

/-- Two threads have ended, and the last of the three lines is not yet on the disk when the program is stopped. -/
example : (∀ t, Own twoOwner t (sysProgs t)) ∧ (∀ t, 2 ≤ t → ∃ v, sysProgs t = .ret v) ∧
    (∀ t < 2, Valid wayExample.c (sysProgs t)) ∧ (∀ t < 2, UnlogFlat wayExample.c false (sysProgs t)) ∧
    (∀ t < 2, MsgSafe wayExample.c false false (sysProgs t)) ∧ (∀ v, (wayExample.view v).text ≠ none) ∧
    ∃ s : SyncSystemRun wayExample sysProgs wayConf2, s.w.records.map Prod.fst = [0, 0, 1] ∧
      (∀ t, s.after.pc t ≠ .idle → ∀ l, ¬ InCall s.e t l) ∧ ∃ t line, s.after.pc t = .flushing line ∧ line <:+ s.after.w.buf := by
  obtain ⟨h1, h2, h3, h4, h5, h6, w, hw, hr, hh⟩ := sysProgs_ok
  have hlt2 : ∀ x ∈ w.records, x.1 < 2 := by
    intro x hx
    have := List.mem_map_of_mem (f := Prod.fst) hx
    rw [hr] at this
    simp at this
    omega
  obtain ⟨s, rfl, ha, hb⟩ := exists_syncSystemRun wayExample sysProgs w hlt2 hw
  generalize hL : (s.w.records.flatMap fun x => ((fileHandler wayExample).call none (wayExample.log x.2)).events.map fun y => (x.1, y)) = L
  have hall : ∀ t, ofThread t L = (handledOf t s.e).flatMap fun l =>
      (s.w.records[l]?).toList.flatMap fun x => ((fileHandler wayExample).call none (wayExample.log x.2)).events := by
    intro t
    rw [C20_sync_handled_before_return_in_order s.e s.engine s.sync t (ha t), written_lines s.logs t, ← hL]
    exact ofThread_tagged t (fun r => ((fileHandler wayExample).call none (wayExample.log r)).events) s.w.records
  have hne : L ≠ [] := by
    intro hnil
    obtain ⟨E, _, e2, _, e4⟩ := prefix_lines s.programs twoOwner h1 h6 0 (h3 0 (by omega)) (h4 0 (by omega)) (h5 0 (by omega))
    have h0 := ofThread_tagged 0 (fun r => ((fileHandler wayExample).call none (wayExample.log r)).events) s.w.records
    rw [hL, hnil] at h0
    have : (recordsOf 0 s.w.records).flatMap (fun r => ((fileHandler wayExample).call none (wayExample.log r)).events) = [] := h0.symm
    rw [this] at e2
    have hz := e2.length_eq
    rw [e4] at hz
    have : (recordsOf 0 s.w.records).length = (s.w.records.map Prod.fst).count 0 := by
      unfold recordsOf
      rw [List.length_map, List.count_eq_length_filter, List.filter_map, List.length_map]
      rfl
    rw [this, hr] at hz
    exact absurd hz (by decide)
  have hLlt : ∀ x ∈ L, x.1 < 2 := by
    rw [← hL]
    intro x hx
    obtain ⟨r, hr, hx⟩ := List.mem_flatMap.1 hx
    obtain ⟨y, _, rfl⟩ := List.mem_map.1 hx
    exact hlt2 r hr
  obtain ⟨L', ⟨u, line⟩, rfl⟩ : ∃ L' x, L = L' ++ [x] := ⟨_, _, (List.dropLast_append_getLast hne).symm⟩
  obtain ⟨after, a1, a2, a3⟩ := exists_stoppedTrace wayConf2 (fun _ => rfl) rfl fTraceStart L' u line hLlt (fun _ => rfl) rfl
    (fun h => nomatch h)
  refine ⟨h1, h2, h3, h4, h5, h6, ⟨s.w, s.e, _, _, fTraceStart, after, s.programs, s.engine, s.sync, wayStart2, a1, s.logs, hall⟩,
    hr, fun t _ l hl => ?_, u, line, a2, a3⟩
  have := (log?_iff_inCall s.e t l).2 hl
  have hi := ha t
  change (s.e.pc t).log? = _ at this
  rw [hi] at this
  cases this

end Polog
