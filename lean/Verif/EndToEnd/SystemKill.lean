import Verif.EndToEnd.SystemCrash
import Verif.Engine.Kill

/-! C86: a program with several threads and a pool of workers is killed at any moment: how many lines are missing. -/

namespace Polog
open CallSpec FormatSpec FileSpec WaySpec EngineSpec

theorem each_one_of_total {α β : Type} (f : α → List β) : ∀ (l : List α), (∀ x ∈ l, (f x).length ≤ 1) →
    (l.flatMap f).length = l.length → ∀ x ∈ l, (f x).length = 1 := by
  intro l h1 h2
  have hle : ∀ (l : List α), (∀ x ∈ l, (f x).length ≤ 1) → (l.flatMap f).length ≤ l.length := by
    intro l h
    induction l with
    | nil => exact Nat.le_refl _
    | cons a l ih =>
      rw [List.flatMap_cons, List.length_append, List.length_cons]
      have := ih fun x hx => h x (List.mem_cons_of_mem _ hx)
      have := h a List.mem_cons_self
      omega
  induction l with
  | nil => intro x hx; cases hx
  | cons a l ih =>
    rw [List.flatMap_cons, List.length_append, List.length_cons] at h2
    have ha := h1 a List.mem_cons_self
    have hl := hle l fun x hx => h1 x (List.mem_cons_of_mem _ hx)
    intro x hx
    rcases List.mem_cons.1 hx with rfl | hx
    · omega
    · exact ih (fun x hx => h1 x (List.mem_cons_of_mem _ hx)) (by omega) x hx

theorem flatMap_length_one {α β : Type} (f : α → List β) (l : List α) (h : ∀ x ∈ l, (f x).length = 1) :
    (l.flatMap f).length = l.length := by
  induction l with
  | nil => rfl
  | cons a l ih =>
    rw [List.flatMap_cons, List.length_append, List.length_cons, h a List.mem_cons_self, ih fun x hx => h x (List.mem_cons_of_mem _ hx)]
    omega

/-- Every record becomes one line. -/
theorem SystemRun.one_line_each {env : WayEnv} {progs : Nat → Body} {c : FConf} (s : SystemRun env progs c) (n : Nat)
    (owner : Nat → Nat) (hown : ∀ t, Own owner t (progs t)) (hp : ∀ v, (env.view v).text ≠ none)
    (hrest : ∀ t, n ≤ t → ∃ v, progs t = .ret v)
    (hv : ∀ t < n, Valid env.c (progs t)) (hu : ∀ t < n, UnlogFlat env.c false (progs t))
    (hm : ∀ t < n, MsgSafe env.c false false (progs t)) :
    ∀ x ∈ s.w.records, ((fileHandler env).call none (env.log x.2)).events.length = 1 := by
  intro x hx
  have hval : Valid env.c (progs x.1) ∧ UnlogFlat env.c false (progs x.1) ∧ MsgSafe env.c false false (progs x.1) := by
    by_cases ht : x.1 < n
    · exact ⟨hv _ ht, hu _ ht, hm _ ht⟩
    · obtain ⟨v, hv⟩ := hrest x.1 (by omega)
      rw [hv]; exact ⟨trivial, trivial, trivial⟩
  obtain ⟨E, _, h2, _, h4⟩ := prefix_lines s.programs owner hown hp x.1 hval.1 hval.2.1 hval.2.2
  have := h2.length_eq
  exact each_one_of_total _ (recordsOf x.1 s.w.records) (fun r _ => fileHandler_at_most_one env (env.log r)) (by rw [← this, h4]) x.2
    (List.mem_map.2 ⟨x, List.mem_filter.2 ⟨hx, by simp⟩, rfl⟩)

/-- The lines given to the handler and not written are in the hands of threads. -/
theorem calls_length {c : FConf} {s₀ s : FState} {calls : List Str} (hrel : c.reliable = true) (h₀ : FStart c s₀)
    (hr : FTrace c s₀ calls s) :
    calls.length = s.written.length + ((List.range c.threads).filterMap fun t => (s.pc t).before).length := by
  have ho := C36_no_line_refused_while_open_partial c s₀ s h₀ hr.toRun
  have ha : s.alt = [] := ho.1 (ho.2 hrel)
  have hc := hr.count h₀
  have hpend : ∀ l, s.pending c.threads l = ((List.range c.threads).filterMap fun t => (s.pc t).before).count l := by
    intro l
    unfold FState.pending
    generalize List.range c.threads = L
    induction L with
    | nil => rfl
    | cons t L ih =>
      rw [List.map_cons, List.sum_cons, ih, List.filterMap_cons]
      cases hb : (s.pc t).before with
      | none => simp
      | some x =>
        simp only [Option.some.injEq, List.count_cons, beq_iff_eq]
        omega
  have : calls.Perm (s.written ++ (List.range c.threads).filterMap fun t => (s.pc t).before) := by
    refine List.perm_iff_count.2 fun l => ?_
    have h1 := hc.notMore l
    have h2 := hc.notLess l
    rw [ha] at h2
    simp only [List.count_nil, Nat.add_zero] at h2
    rw [List.count_append, ← hpend]
    omega
  rw [this.length_eq, List.length_append]

theorem flushing_and_before {c : FConf} {s : FState} (pend : List (Nat × Str)) (hact : ∀ t, s.pc t ≠ .idle → t < c.threads)
    (hp : ∀ x ∈ pend, s.pc x.1 = .flushing x.2) (hn : (pend.map Prod.fst).Nodup) :
    pend.length + ((List.range c.threads).filterMap fun t => (s.pc t).before).length ≤ c.threads := by
  have e : ((List.range c.threads).filterMap fun t => (s.pc t).before).length =
      ((List.range c.threads).filter fun t => (s.pc t).before.isSome).length := by
    generalize List.range c.threads = L
    induction L with
    | nil => rfl
    | cons t L ih =>
      rw [List.filterMap_cons, List.filter_cons]
      cases (s.pc t).before with
      | none => simpa using ih
      | some x => simpa using ih
  have hnd : (pend.map Prod.fst ++ (List.range c.threads).filter fun t => (s.pc t).before.isSome).Nodup := by
    rw [List.nodup_append]
    refine ⟨hn, List.nodup_range.filter _, ?_⟩
    rintro a ha b hb rfl
    obtain ⟨x, hx, rfl⟩ := List.mem_map.1 ha
    have := (List.mem_filter.1 hb).2
    rw [hp x hx] at this
    cases this
  have hsub : (pend.map Prod.fst ++ (List.range c.threads).filter fun t => (s.pc t).before.isSome) ⊆ List.range c.threads := by
    intro a ha
    rcases List.mem_append.1 ha with ha | ha
    · obtain ⟨x, hx, rfl⟩ := List.mem_map.1 ha
      refine List.mem_range.2 (hact x.1 ?_)
      rw [hp x hx]
      exact fun h => nomatch h
    · exact (List.mem_filter.1 ha).1
  have := (List.subperm_of_subset hnd hsub).length_le
  rw [List.length_append, List.length_map, List.length_range, ← e] at this
  exact this

/-- The logs that the engine has not handled. -/
theorem SystemRun.seq_length {env : WayEnv} {progs : Nat → Body} {c : FConf} (s : SystemRun env progs c) (m : Nat)
    (hq : ∀ t, ¬ Accepted s.e t) (hlim : s.e.g.maxQueue ≠ 0) (hm : ∀ t, m ≤ t → s.e.pc t = .idle) (hlate : s.e.g.late = []) :
    s.w.records.length ≤ s.e.g.seq.length + (m + (s.e.g.maxQueue + s.e.g.poolSize)) := by
  have hL := C83_kill_loses_with_those_in_calls_partial s.e s.engine hq hlim m hm
    ((List.range s.w.records.length).filter fun l => decide (l ∉ s.e.g.seq)) (List.nodup_range.filter _) (by
      intro l hl
      obtain ⟨h1, h2⟩ := List.mem_filter.1 hl
      have hlt := List.mem_range.1 h1
      refine ⟨⟨(s.w.records[l]).1, (s.logs _ l).2 ⟨(s.w.records[l]).2, List.getElem?_eq_getElem hlt⟩⟩, ?_, by rw [hlate]; exact List.not_mem_nil⟩
      unfold timesHandled
      exact List.count_eq_zero.2 (by simpa using h2))
  have hin : ((List.range s.w.records.length).filter fun l => decide (l ∈ s.e.g.seq)).length ≤ s.e.g.seq.length :=
    (List.subperm_of_subset (List.nodup_range.filter _) fun l hl => by simpa using (List.mem_filter.1 hl).2).length_le
  have hsum : ∀ L : List Nat, L.length = (L.filter fun l => decide (l ∈ s.e.g.seq)).length +
      (L.filter fun l => decide (l ∉ s.e.g.seq)).length := by
    intro L
    induction L with
    | nil => rfl
    | cons a L ih =>
      by_cases h : a ∈ s.e.g.seq
      · simp only [List.filter_cons, h, decide_true, not_true_eq_false, decide_false, if_true, List.length_cons]
        simp only [Bool.false_eq_true, if_false]
        omega
      · simp only [List.filter_cons, h, decide_false, not_false_eq_true, decide_true, if_true, List.length_cons]
        simp only [Bool.false_eq_true, if_false]
        omega
  have := hsum (List.range s.w.records.length)
  rw [List.length_range] at this
  omega

/-- **C86**: threads of the program, the engine with a pool of workers, the handler of a file with rotation, and the program is killed at any
moment at which no setting is being changed. Then the rotated files and the file together hold what was there before; whole lines for
the events `evs`; and possibly a beginning of the lines of the events `next`. All these are events which the threads have to record, no
event twice. Of the records that the threads have made at most `max_queue_size + pool_size` plus one for each thread in a call of the
engine (there are at most `m`) and one for each thread in the handler (at most `c.threads`) are missing.

Partial: a limited queue; no log has reached an engine that was being exchanged (C17); a system that does not refuse to move and open
files, rotated files on the file system of the log, and the limits of C28, C29. -/
theorem C86_killed_pool_loses_a_limited_number_partial (env : WayEnv) (n : Nat) (progs : Nat → Body) (owner : Nat → Nat)
    (hown : ∀ t, Own owner t (progs t)) (hrest : ∀ t, n ≤ t → ∃ v, progs t = .ret v)
    (hv : ∀ t < n, Valid env.c (progs t)) (hu : ∀ t < n, UnlogFlat env.c false (progs t))
    (hm : ∀ t < n, MsgSafe env.c false false (progs t)) (hp : ∀ v, (env.view v).text ≠ none)
    (c : FConf) (hfs : c.sameFs = true) (hf : c.forced = true) (hrel : c.reliable = true)
    (s : SystemRun env progs c) (hq : ∀ t, ¬ Accepted s.e t) (hlim : s.e.g.maxQueue ≠ 0) (hlate : s.e.g.late = [])
    (m : Nat) (hcalls : ∀ t, m ≤ t → s.e.pc t = .idle) :
    ∃ (evs next : List Event) (lines more : List Str) (part : Str),
      List.Forall₂ (LineFor env) evs lines ∧ List.Forall₂ (LineFor env) next more ∧ part <+: more.flatten ∧
      text c.fn s.after = content s.before.w c.fn ++ lines.flatten ++ part ∧
      (evs ++ next).Subperm ((List.range n).flatMap fun t => toRecord env.c [] (events env.c false (progs t))) ∧
      s.w.records.length ≤ evs.length + (s.e.g.maxQueue + s.e.g.poolSize + m + c.threads) ∧
      ((∀ t < n, ∃ o, (s.w.threads t).ctl = .halted o) →
        ((List.range n).flatMap fun t => toRecord env.c [] (events env.c false (progs t))).length = s.w.records.length) := by
  obtain ⟨part, evs0, hpart, hperm, hall⟩ := s.all_lines n owner hown hp hrest hv hu hm
  have hone := s.one_line_each n owner hown hp hrest hv hu hm
  obtain ⟨tc, tw, htr, htc⟩ := s.file.byThread
  obtain ⟨done, pend, cut, hsplit, hcut, hpend, hnodup, hdisk⟩ := C74_threads_lose_only_lines_in_work c hf hfs _ _ _ _ s.start htr
  have hwr : tw.map Prod.snd = s.after.written := (htr.order s.start).all
  have hcount := s.file.count s.start
  have hw : (tw.map Prod.snd).Subperm (s.w.records.flatMap fun x => ((fileHandler env).call none (env.log x.2)).events) := by
    have h1 : s.after.written.Subperm s.calls := List.subperm_ext_iff.2 fun l _ => by
      have := hcount.notMore l
      omega
    rw [hwr]
    refine (h1.trans s.handler.subperm).trans ?_
    rw [← range_lookup s.w.records]
    obtain ⟨l, hl1, hl2⟩ := s.seq_subperm
    exact ((hl1.flatMap_right _).symm.subperm).trans (sublist_flatMap hl2 _).subperm
  obtain ⟨l, hl1, hl2⟩ := hw
  obtain ⟨evs', h1, h2⟩ := forall₂_of_sublist hall hl2
  obtain ⟨evs'', h3, h4⟩ := List.perm_comp_forall₂ hl1.symm h2.flip
  have h3 := h3.flip
  rw [hsplit, List.map_append] at h3
  have hlen : evs''.length = done.length + pend.length := by
    rw [h3.length_eq, List.length_append, List.length_map, List.length_map]
  have hsub : ((List.range n).flatMap part).Sublist
      ((List.range n).flatMap fun t => toRecord env.c [] (events env.c false (progs t))) := by
    have : ∀ m ≤ n, ((List.range m).flatMap part).Sublist
        ((List.range m).flatMap fun t => toRecord env.c [] (events env.c false (progs t))) := by
      intro m
      induction m with
      | zero => intro _; exact .refl _
      | succ m ih =>
        intro hmn
        rw [List.range_succ, List.flatMap_append, List.flatMap_append]
        refine (ih (by omega)).append ?_
        simpa using (hpart m (by omega)).1.sublist
    exact this n (Nat.le_refl n)
  have htotal : ((List.range n).flatMap part).length = s.w.records.length := by
    rw [← hperm.length_eq, hall.length_eq]
    exact flatMap_length_one _ _ hone
  refine ⟨evs''.take done.length, evs''.drop done.length, done.map Prod.snd, pend.map Prod.snd, cut, ?_, ?_, hcut, hdisk, ?_, ?_, ?_⟩
  · have := List.forall₂_take done.length h3
    rwa [List.take_left' (by simp)] at this
  · have := List.forall₂_drop done.length h3
    rwa [List.drop_left' (by simp)] at this
  · rw [List.take_append_drop]
    exact ((h4.subperm.trans h1.subperm).trans hperm.subperm).trans hsub.subperm
  · have e1 := s.seq_length m hq hlim hcalls hlate
    have e2 : s.calls.length = s.e.g.seq.length := by
      rw [s.handler.length_eq]
      refine flatMap_length_one _ _ fun l hl => ?_
      have := s.seq_subperm.subset hl
      have hlt := List.mem_range.1 this
      rw [List.getElem?_eq_getElem hlt]
      simpa using hone _ (List.getElem_mem hlt)
    have e3 := calls_length hrel s.start s.file
    have e4 := flushing_and_before (c := c) pend hcount.active hpend hnodup
    have e5 : s.after.written.length = done.length + pend.length := by
      rw [← hwr, hsplit, List.length_map, List.length_append]
    rw [List.length_take, hlen]
    omega
  · intro hended
    rw [← htotal]
    congr 1
    rw [List.flatMap_def, List.flatMap_def]
    congr 1
    exact List.map_congr_left fun t ht => ((hpart t (List.mem_range.1 ht)).2 (hended t (List.mem_range.1 ht))).symm

/-- The first write has started a pool of one worker with a queue of one place. -/
def limitedGlob (p : Pool) (calls : List (Nat × Log)) (seq : List Log) : Glob :=
  { setLock := none, engLock := none, started := true, poolSize := 1, maxQueue := 1, mode := .direct, loads := 1,
    real := setFn (fun _ => .single) 0 (.pool p), inits := 1, hooks := 1, calls := calls, seq := seq, late := [] }

theorem setFn_setFn {α : Type} (f : Nat → α) (i : Nat) (x y : α) : setFn (setFn f i x) i y = setFn f i y := by
  funext j
  simp only [setFn]
  split <;> rfl

theorem setFn_idle (t : Nat) : setFn (fun _ => PC.idle) t .idle = fun _ => .idle := by
  funext u
  simp only [setFn]
  split <;> rfl

theorem limitedGlob_first : EReach Eng.init ⟨limitedGlob (.init 1 1) [(0, 0)] [], setFn (fun _ => .idle) 0 (.wFetch 0)⟩ := by
  have b1 := limited_reached.th 0 (.callFirst _ 0 (by intro x hx; exact nomatch hx) rfl)
  have b2 := b1.th 0 (.wLock _ _ rfl)
  have b3 := b2.th 0 (.wNotYet _ _ rfl)
  have b4 := b3.th 0 (.wSetLock _ _ rfl)
  have b5 := b4.th 0 (.wSetStarted _ _)
  have b6 := b5.th 0 (.wLoadMulti _ _ (by decide))
  have b7 := b6.th 0 (.wLoadQueue _ _)
  have b8 := b7.th 0 (.wLoadWorkers _ _ _)
  have b9 := b8.th 0 (.wRegister _ _)
  have c1 := b9.th 0 (.wDone _ _)
  simp only [setFn_setFn] at c1
  exact c1

theorem limitedGlob_hand {p : Pool} {calls : List (Nat × Log)} {seq : List Log} {t : Nat} {l : Log} (hc : p.closed = false)
    (hroom : p.cap = 0 ∨ p.queue.length < p.cap)
    (h : EReach Eng.init ⟨limitedGlob p calls seq, setFn (fun _ => .idle) t (.wFetch l)⟩) :
    EReach Eng.init ⟨limitedGlob { p with queue := p.queue ++ [l] } calls seq, fun _ => .idle⟩ := by
  have h1 := EReach.step h (.thread _ t _ _ (by
    show TStep t _ (setFn (fun _ => PC.idle) t (.wFetch l) t) _ _
    rw [setFn_self]
    exact .fetch _ _ 0 rfl))
  have h2 := EReach.step h1 (.thread _ t _ _ (by
    show TStep t _ (setFn _ t (.wHand l 0) t) _ _
    rw [setFn_self]
    exact .handPool _ _ 0 p _ rfl (.put _ l hroom)))
  simp only [setFn_setFn, setFn_idle, hc] at h2
  simpa [limitedGlob, setFn_setFn] using h2

theorem limitedGlob_call {p : Pool} {calls : List (Nat × Log)} {seq : List Log} (t : Nat) (l : Log) (hf : ∀ x ∈ calls, x.2 ≠ l)
    (h : EReach Eng.init ⟨limitedGlob p calls seq, fun _ => .idle⟩) :
    EReach Eng.init ⟨limitedGlob p (calls ++ [(t, l)]) seq, setFn (fun _ => .idle) t (.wFetch l)⟩ :=
  .step h (.thread _ t _ _ (.callDirect _ l hf rfl))

theorem limitedGlob_pool {p p' : Pool} {calls : List (Nat × Log)} {seq : List Log} {a : PLabel} (hp : PStep p a p')
    (hput : ∀ l, a ≠ .put l) (hstop : a ≠ .stop) (h : EReach Eng.init ⟨limitedGlob p calls seq, fun _ => .idle⟩) :
    EReach Eng.init ⟨limitedGlob p' calls (seq ++ a.log?.toList), fun _ => .idle⟩ := by
  have h1 := EReach.step h (.pool _ 0 p p' a (by exact Nat.zero_lt_one) rfl hp hput hstop)
  simpa [limitedGlob, setFn_setFn] using h1

/-- A pool of one worker, a queue of one place: of three logs the first is handled, the second is being handled, the third is in the
queue. -/
theorem limited_at_work : ∃ e, EReach Eng.init e ∧ (∀ t, e.pc t = .idle) ∧ e.g.maxQueue = 1 ∧ e.g.poolSize = 1 ∧ e.g.late = [] ∧
    e.g.calls = [(0, 0), (0, 1), (1, 2)] ∧ e.g.seq = [0] := by
  have a1 := limitedGlob_hand rfl (.inr (by decide)) limitedGlob_first
  have a2 := limitedGlob_pool (.take _ 0 0 [] (by decide) rfl rfl) (by simp) (by simp) a1
  have a3 := limitedGlob_pool (.handled _ 0 0 (by decide) rfl) (by simp) (by simp) a2
  have a4 := limitedGlob_hand rfl (.inr (by decide)) (limitedGlob_call 0 1 (by decide) a3)
  have a5 := limitedGlob_pool (.take _ 0 1 [] (by decide) rfl rfl) (by simp) (by simp) a4
  have a6 := limitedGlob_hand rfl (.inr (by decide)) (limitedGlob_call 1 2 (by decide) a5)
  exact ⟨_, a6, fun _ => rfl, rfl, rfl, rfl, rfl, rfl⟩

-- the hypotheses of C86 are met: three records are made, one line is in the file, two records would be lost
example : (∀ t, Own twoOwner t (sysProgs t)) ∧ (∀ t, 2 ≤ t → ∃ v, sysProgs t = .ret v) ∧
    (∀ t < 2, Valid wayExample.c (sysProgs t)) ∧ (∀ t < 2, UnlogFlat wayExample.c false (sysProgs t)) ∧
    (∀ t < 2, MsgSafe wayExample.c false false (sysProgs t)) ∧ (∀ v, (wayExample.view v).text ≠ none) ∧
    wayConf.sameFs = true ∧ wayConf.forced = true ∧ wayConf.reliable = true ∧
    ∃ s : SystemRun wayExample sysProgs wayConf, s.w.records.length = 3 ∧ s.calls.length = 1 ∧ (∀ t, ¬ Accepted s.e t) ∧
      s.e.g.maxQueue = 1 ∧ s.e.g.poolSize = 1 ∧ s.e.g.late = [] ∧ (∀ t, 0 ≤ t → s.e.pc t = .idle) ∧
      (∀ t < 2, ∃ o, (s.w.threads t).ctl = .halted o) := by
  obtain ⟨h1, h2, h3, h4, h5, h6, w, hw, hrec, hh⟩ := sysProgs_ok
  obtain ⟨e, hr, hi, k1, k2, k3, hc, hs⟩ := limited_at_work
  obtain ⟨after, t1, t2, _⟩ := exists_trace wayConf (fun _ => rfl) (by decide) rfl fTraceStart
    (e.g.seq.flatMap fun l => (w.records[l]?).toList.flatMap fun x => ((fileHandler wayExample).call none (wayExample.log x.2)).events)
    (fun _ => rfl) rfl (fun h => nomatch h)
  have hlen : w.records.length = 3 := by
    have := congrArg List.length hrec
    simpa using this
  let s : SystemRun wayExample sysProgs wayConf := ⟨w, e, _, fTraceStart, after, hw, hr, wayStart, t1, fun t l => by
    rw [hc, show [(0, 0), (0, 1), (1, 2)] = (w.records.map Prod.fst).zipIdx by rw [hrec]; rfl, List.mem_zipIdx_iff_getElem?,
      List.getElem?_map]
    simp only [Option.map_eq_some_iff]
    constructor
    · rintro ⟨x, hx, rfl⟩; exact ⟨x.2, hx⟩
    · rintro ⟨r, hr⟩; exact ⟨_, hr, rfl⟩, .refl _⟩
  refine ⟨h1, h2, h3, h4, h5, h6, rfl, rfl, rfl, s, hlen, ?_, fun t => ?_, k1, k2, k3, fun t _ => hi t, hh⟩
  · show (e.g.seq.flatMap _).length = 1
    rw [hs, List.flatMap_singleton, List.getElem?_eq_getElem (by omega)]
    have := s.one_line_each 2 twoOwner h1 h6 h2 h3 h4 h5 _ (List.getElem_mem (show 0 < w.records.length by omega))
    simpa using this
  · unfold Accepted
    show ¬ _
    rw [show s.e.pc t = .idle from hi t]
    simp

end Polog
