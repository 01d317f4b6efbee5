import Verif.Engine.Props2

/-! Executions that show what can go wrong (C17, C18, C21), and that the hypotheses of the theorems
about the engine can be met. -/

namespace Polog
open EngineSpec

theorem EReach.th {e₀ e : Eng} (h : EReach e₀ e) (t : Nat) {g' : Glob} {p' : PC}
    (hs : TStep t e.g (e.pc t) g' p') : EReach e₀ ⟨g', setFn e.pc t p'⟩ := .step h (.thread e t g' p' hs)

theorem EReach.po {e₀ e : Eng} (h : EReach e₀ e) (k : Nat) {p p' : Pool} {a : PLabel} (hk : k < e.g.loads)
    (hr : e.g.real k = .pool p) (hp : PStep p a p') (hput : ∀ l, a ≠ .put l) (hstop : a ≠ .stop) :
    EReach e₀ ⟨{ e.g with real := setFn e.g.real k (.pool p'), seq := e.g.seq ++ a.log?.toList }, e.pc⟩ :=
  .step h (.pool e k p p' a hk hr hp hput hstop)

/-- The deadlock of the first write with a change of a setting is for ever. -/
theorem deadlock_forever {e e' : Eng} (hI : SInv e) (h : EReach e e') {l : Log}
    (h0 : e.pc 0 = .wStart l) (h1 : e.pc 1 = .cEngine) :
    SInv e' ∧ e'.pc 0 = .wStart l ∧ e'.pc 1 = .cEngine := by
  induction h with
  | init => exact ⟨hI, h0, h1⟩
  | @step e1 e2 hr hs ih =>
    obtain ⟨hI1, i0, i1⟩ := ih
    refine ⟨SInv_step hI1 hs, ?_⟩
    have heng := (hI1.eng 0).1 (by rw [i0]; rfl)
    have hset := (hI1.set 1).1 (by rw [i1]; rfl)
    cases hs with
    | pool => exact ⟨i0, i1⟩
    | thread t g' p' hst =>
      dsimp only
      have n0 : t ≠ 0 := by
        rintro rfl
        rw [i0] at hst
        cases hst with
        | wSetLock l hf => rw [hf] at hset; cases hset
      have n1 : t ≠ 1 := by
        rintro rfl
        rw [i1] at hst
        cases hst with
        | cEngineEnter hf => rw [hf] at heng; cases heng
      rw [setFn_ne _ _ (Ne.symm n0), setFn_ne _ _ (Ne.symm n1)]
      exact ⟨i0, i1⟩

/-- **C18 fails.** Thread 0 writes the first log while thread 1 calls `config.set(pool_size=1)`: a
state is reachable from which neither call ever returns, whatever happens. -/
theorem C18_no_deadlock_fails : ∃ e, EReach Eng.init e ∧ (0, 7) ∈ e.g.calls ∧
    ∀ e', EReach e e' → e'.pc 0 ≠ .idle ∧ e'.pc 1 ≠ .idle ∧ timesHandled e' 7 = 0 := by
  have r1 := (EReach.init (e₀ := Eng.init)).th 0 (.callFirst _ 7 (by simp [Eng.init, Glob.init]) rfl)
  have r2 := r1.th 0 (.wLock _ 7 rfl)
  have r3 := r2.th 0 (.wNotYet _ 7 rfl)
  have r4 := r3.th 1 (.cCall _ (.poolSize 1))
  have r5 := r4.th 1 (.cAcquire _ (.poolSize 1) rfl)
  have r6 := r5.th 1 (.cStore _ (.poolSize 1) rfl rfl)
  refine ⟨_, r6, List.mem_singleton.2 rfl, fun e' h => ?_⟩
  obtain ⟨_, h0, h1⟩ := deadlock_forever (EInv_reach EInv_init r6).s h (l := 7) rfl rfl
  refine ⟨by rw [h0]; simp, by rw [h1]; simp, ?_⟩
  obtain ⟨loc, hL⟩ := (EInv_reach EInv_init (r6.trans h)).l
  have hl := (hL.thread 0 7).1 (by rw [h0]; rfl)
  have := hL.done 7
  rw [hl] at this
  simpa [timesHandled] using this

/-- A log in the queue of a stopped engine is never handled. -/
theorem never_handled {e e' : Eng} (hI : EInv e) (h : EReach e e') {k : Nat} {p : Pool} {l : Log}
    (hk : k < e.g.loads) (hr : e.g.real k = .pool p) (hd : p.stop = .done) (hl : l ∈ p.queue) :
    timesHandled e' l = 0 := by
  obtain ⟨hI', hk', p', hr', _, _, hq⟩ := stopped_keeps hI h hk hr hd
  obtain ⟨loc, hL⟩ := hI'.l
  have hloc := (hL.queue k l).2 ⟨hk', p', hr', hq.subset hl⟩
  have := hL.done l
  rw [hloc] at this
  simpa [timesHandled] using this

/-- **C17 fails.** A log written through the API is never handled although all calls have returned:
thread 0 has fetched the engine when thread 1 calls `config.set(pool_size=2)`; the old engine is
stopped and replaced, then thread 0 puts its log into the queue of the old one. -/
theorem C17_no_log_lost_fails : ∃ e, EReach Eng.init e ∧ (∀ t, e.pc t = .idle) ∧ Written e 6 ∧
    ∀ e', EReach e e' → timesHandled e' 6 = 0 := by
  -- `config.set(pool_size=1)` before the first log
  have a1 := (EReach.init (e₀ := Eng.init)).th 1 (.cCall _ (.poolSize 1))
  have a2 := a1.th 1 (.cAcquire _ _ rfl)
  have a3 := a2.th 1 (.cStore _ _ rfl rfl)
  have a4 := a3.th 1 (.cEngineEnter _ rfl)
  have a5 := a4.th 1 (.cEngineLeave _)
  have a6 := a5.th 1 (.cNotStarted _ rfl)
  have a7 := a6.th 1 (.cDone _)
  -- the first log, number 5
  have b1 := a7.th 0 (.callFirst _ 5 (by simp [Eng.init, Glob.init, Change.apply]) rfl)
  have b2 := b1.th 0 (.wLock _ _ rfl)
  have b3 := b2.th 0 (.wNotYet _ _ rfl)
  have b4 := b3.th 0 (.wSetLock _ _ rfl)
  have b5 := b4.th 0 (.wSetStarted _ _)
  have b6 := b5.th 0 (.wLoadMulti _ _ (by decide))
  have b7 := b6.th 0 (.wLoadQueue _ _)
  have b8 := b7.th 0 (.wLoadWorkers _ _ _)
  have b9 := b8.th 0 (.wRegister _ _)
  have b10 := b9.th 0 (.wDone _ _)
  have b11 := b10.th 0 (.fetch _ _ 0 rfl)
  have b12 := b11.th 0 (.handPool _ _ 0 _ _ rfl (.put _ _ (.inl rfl)))
  have b13 := b12.po 0 (by decide) rfl (.take _ 0 5 [] (by decide) rfl rfl) (by simp) (by simp)
  have b14 := b13.po 0 (by decide) rfl (.handled _ 0 5 (by decide) rfl) (by simp) (by simp)
  -- thread 0 begins to write log 6
  have c1 := b14.th 0 (.callDirect _ 6 (by
    intro x hx
    have : x = (0, 5) := List.mem_singleton.1 hx
    subst this; decide) rfl)
  have c2 := c1.th 0 (.fetch _ _ 0 rfl)
  -- thread 1: `config.set(pool_size=2)`
  have d1 := c2.th 1 (.cCall _ (.poolSize 2))
  have d2 := d1.th 1 (.cAcquire _ _ rfl)
  have d3 := d2.th 1 (.cStore _ _ rfl rfl)
  have d4 := d3.th 1 (.cEngineEnter _ rfl)
  have d5 := d4.th 1 (.cEngineLeave _)
  have d6 := d5.th 1 (.cStarted _ rfl)
  have d7 := d6.th 1 (.cBlock _ rfl)
  have d8 := d7.th 1 (.cSwap _)
  have d9 := d8.th 1 (.cStopPool _ 0 _ _ rfl rfl (.stopCall _ rfl))
  have d10 := d9.po 0 (by decide) rfl (.drained _ rfl rfl) (by simp) (by simp)
  have d11 := d10.po 0 (by decide) rfl (.setFlag _ 0 rfl (by decide)) (by simp) (by simp)
  have d12 := d11.po 0 (by decide) rfl (.flagged _ rfl) (by simp) (by simp)
  have d13 := d12.po 0 (by decide) rfl (.expire _ 0 (by decide) rfl rfl) (by simp) (by simp)
  have d14 := d13.po 0 (by decide) rfl (.exit _ 0 (by decide) rfl rfl) (by simp) (by simp)
  have d15 := d14.po 0 (by decide) rfl (.join _ 0 rfl (by decide) rfl) (by simp) (by simp)
  have d16 := d15.po 0 (by decide) rfl (.stopped _ rfl) (by simp) (by simp)
  have d17 := d16.th 1 (.cStopped _ 0 _ rfl rfl)
  have d18 := d17.th 1 (.cLoad _)
  have d19 := d18.th 1 (.cUnblock _)
  have d20 := d19.th 1 (.cRelease _)
  have d21 := d20.th 1 (.cDone _)
  -- thread 0 goes on
  have f1 := d21.th 0 (.handPool _ _ 0 _ _ rfl (.put _ _ (.inl rfl)))
  refine ⟨_, f1, ?_, ⟨0, ?_⟩, ?_⟩
  · intro t
    by_cases h0 : t = 0
    · subst h0; rfl
    · by_cases h1 : t = 1
      · subst h1; rfl
      · simp [setFn, h0, h1, Eng.init]
  · exact List.mem_cons_of_mem _ (List.mem_singleton.2 rfl)
  · intro e' h
    exact never_handled (EInv_reach EInv_init f1) h (k := 0) (Nat.zero_lt_succ _) rfl rfl (List.mem_singleton.2 rfl)

/-- **C55 fails** in the same way: after such a loss the exit hook of thread 2 ends, all calls have returned, and log 6 was never handled
and never will be. -/
theorem C55_exit_hook_drains_fails : ∃ e, EReach Eng.init e ∧ e.pc 2 = .xEnd ∧ Written e 6 ∧ (∀ t, t ≠ 2 → e.pc t = .idle) ∧
    ∀ e', EReach e e' → timesHandled e' 6 = 0 := by
  -- `config.set(pool_size=1)` before the first log
  have a1 := (EReach.init (e₀ := Eng.init)).th 1 (.cCall _ (.poolSize 1))
  have a2 := a1.th 1 (.cAcquire _ _ rfl)
  have a3 := a2.th 1 (.cStore _ _ rfl rfl)
  have a4 := a3.th 1 (.cEngineEnter _ rfl)
  have a5 := a4.th 1 (.cEngineLeave _)
  have a6 := a5.th 1 (.cNotStarted _ rfl)
  have a7 := a6.th 1 (.cDone _)
  -- the first log, number 5
  have b1 := a7.th 0 (.callFirst _ 5 (by simp [Eng.init, Glob.init, Change.apply]) rfl)
  have b2 := b1.th 0 (.wLock _ _ rfl)
  have b3 := b2.th 0 (.wNotYet _ _ rfl)
  have b4 := b3.th 0 (.wSetLock _ _ rfl)
  have b5 := b4.th 0 (.wSetStarted _ _)
  have b6 := b5.th 0 (.wLoadMulti _ _ (by decide))
  have b7 := b6.th 0 (.wLoadQueue _ _)
  have b8 := b7.th 0 (.wLoadWorkers _ _ _)
  have b9 := b8.th 0 (.wRegister _ _)
  have b10 := b9.th 0 (.wDone _ _)
  have b11 := b10.th 0 (.fetch _ _ 0 rfl)
  have b12 := b11.th 0 (.handPool _ _ 0 _ _ rfl (.put _ _ (.inl rfl)))
  have b13 := b12.po 0 (by decide) rfl (.take _ 0 5 [] (by decide) rfl rfl) (by simp) (by simp)
  have b14 := b13.po 0 (by decide) rfl (.handled _ 0 5 (by decide) rfl) (by simp) (by simp)
  -- thread 0 begins to write log 6
  have c1 := b14.th 0 (.callDirect _ 6 (by
    intro x hx
    have : x = (0, 5) := List.mem_singleton.1 hx
    subst this; decide) rfl)
  have c2 := c1.th 0 (.fetch _ _ 0 rfl)
  -- thread 1: `config.set(pool_size=0)`
  have d1 := c2.th 1 (.cCall _ (.poolSize 0))
  have d2 := d1.th 1 (.cAcquire _ _ rfl)
  have d3 := d2.th 1 (.cStore _ _ rfl rfl)
  have d4 := d3.th 1 (.cEngineEnter _ rfl)
  have d5 := d4.th 1 (.cEngineLeave _)
  have d6 := d5.th 1 (.cStarted _ rfl)
  have d7 := d6.th 1 (.cBlock _ rfl)
  have d8 := d7.th 1 (.cSwap _)
  have d9 := d8.th 1 (.cStopPool _ 0 _ _ rfl rfl (.stopCall _ rfl))
  have d10 := d9.po 0 (by decide) rfl (.drained _ rfl rfl) (by simp) (by simp)
  have d11 := d10.po 0 (by decide) rfl (.setFlag _ 0 rfl (by decide)) (by simp) (by simp)
  have d12 := d11.po 0 (by decide) rfl (.flagged _ rfl) (by simp) (by simp)
  have d13 := d12.po 0 (by decide) rfl (.expire _ 0 (by decide) rfl rfl) (by simp) (by simp)
  have d14 := d13.po 0 (by decide) rfl (.exit _ 0 (by decide) rfl rfl) (by simp) (by simp)
  have d15 := d14.po 0 (by decide) rfl (.join _ 0 rfl (by decide) rfl) (by simp) (by simp)
  have d16 := d15.po 0 (by decide) rfl (.stopped _ rfl) (by simp) (by simp)
  have d17 := d16.th 1 (.cStopped _ 0 _ rfl rfl)
  have d18 := d17.th 1 (.cLoad _)
  have d19 := d18.th 1 (.cUnblock _)
  have d20 := d19.th 1 (.cRelease _)
  have d21 := d20.th 1 (.cDone _)
  -- thread 0 goes on
  have f1 := d21.th 0 (.handPool _ _ 0 _ _ rfl (.put _ _ (.inl rfl)))
  -- the exit hook
  have g1 := f1.th 2 (.xCall _ (by decide))
  have g2 := g1.th 2 (.xLock _ rfl)
  have g3 := g2.th 2 (.xSwap _)
  have g4 := g3.th 2 (.xStopSingle _ 1 rfl rfl)
  refine ⟨_, g4, rfl, ⟨0, ?_⟩, ?_, ?_⟩
  · exact List.mem_cons_of_mem _ (List.mem_singleton.2 rfl)
  · intro t h2
    by_cases h0 : t = 0
    · subst h0; rfl
    · by_cases h1 : t = 1
      · subst h1; rfl
      · simp [setFn, h0, h1, h2, Eng.init]
  · intro e' h
    exact never_handled (EInv_reach EInv_init g4) h (k := 0) (Nat.zero_lt_succ _) rfl rfl (List.mem_singleton.2 rfl)

/-- A writer at the full queue of a stopped engine stays there. -/
theorem stranded_forever {e e' : Eng} (hI : EInv e) (h : EReach e e') {t k : Nat} {p : Pool} {l : Log}
    (hpc : e.pc t = .wHand l k) (hr : e.g.real k = .pool p) (hd : p.stop = .done)
    (hc : p.cap ≠ 0) (hfull : p.cap ≤ p.queue.length) : e'.pc t = .wHand l k := by
  have hk : k < e.g.loads := by have := hI.s.loc t; rw [hpc] at this; exact this
  induction h with
  | init => exact hpc
  | @step e1 e2 h1 hs ih =>
    obtain ⟨_, _, q, hq, _, hqc, hqp⟩ := stopped_keeps hI h1 hk hr hd
    cases hs with
    | pool => exact ih
    | thread u g' p' hst =>
      dsimp only
      by_cases hu : t = u
      · subst hu
        rw [ih] at hst
        cases hst with
        | handSingle l k hs => rw [hq] at hs; cases hs
        | handPool l k r r' hs hp =>
          rw [hq] at hs; cases hs
          cases hp with
          | put l room =>
            exfalso
            have := hqp.length_le
            rcases room with h | h <;> omega
      · rw [setFn_ne _ _ hu]; exact ih

/-- **C18 fails**, a second way: with a bounded queue the race of a writer with a reload can leave
the writer waiting for ever for room in the queue of the engine that has been replaced.  All other
calls have returned. -/
theorem C18_writer_never_stranded_fails : ∃ e, EReach Eng.init e ∧ (∀ t, t ≠ 2 → e.pc t = .idle) ∧
    ∀ e', EReach e e' → e'.pc 2 ≠ .idle := by
  have a1 := (EReach.init (e₀ := Eng.init)).th 1 (.cCall _ (.poolSize 1))
  have a2 := a1.th 1 (.cAcquire _ _ rfl)
  have a3 := a2.th 1 (.cStore _ _ rfl rfl)
  have a4 := a3.th 1 (.cEngineEnter _ rfl)
  have a5 := a4.th 1 (.cEngineLeave _)
  have a6 := a5.th 1 (.cNotStarted _ rfl)
  have a7 := a6.th 1 (.cDone _)
  have a8 := a7.th 1 (.cCall _ (.maxQueue 1))
  have a9 := a8.th 1 (.cAcquire _ _ rfl)
  have a10 := a9.th 1 (.cStore _ _ rfl rfl)
  have a11 := a10.th 1 (.cEngineEnter _ rfl)
  have a12 := a11.th 1 (.cEngineLeave _)
  have a13 := a12.th 1 (.cNotStarted _ rfl)
  have a14 := a13.th 1 (.cDone _)
  have b1 := a14.th 0 (.callFirst _ 5 (by simp [Eng.init, Glob.init, Change.apply]) rfl)
  have b2 := b1.th 0 (.wLock _ _ rfl)
  have b3 := b2.th 0 (.wNotYet _ _ rfl)
  have b4 := b3.th 0 (.wSetLock _ _ rfl)
  have b5 := b4.th 0 (.wSetStarted _ _)
  have b6 := b5.th 0 (.wLoadMulti _ _ (by decide))
  have b7 := b6.th 0 (.wLoadQueue _ _)
  have b8 := b7.th 0 (.wLoadWorkers _ _ _)
  have b9 := b8.th 0 (.wRegister _ _)
  have b10 := b9.th 0 (.wDone _ _)
  have b11 := b10.th 0 (.fetch _ _ 0 rfl)
  -- thread 2 begins to write log 6
  have c1 := b11.th 2 (.callDirect _ 6 (by
    intro x hx
    have : x = (0, 5) := List.mem_singleton.1 hx
    subst this; decide) rfl)
  have c2 := c1.th 2 (.fetch _ _ 0 rfl)
  -- thread 1: `config.set(pool_size=2)`
  have d1 := c2.th 1 (.cCall _ (.poolSize 2))
  have d2 := d1.th 1 (.cAcquire _ _ rfl)
  have d3 := d2.th 1 (.cStore _ _ rfl rfl)
  have d4 := d3.th 1 (.cEngineEnter _ rfl)
  have d5 := d4.th 1 (.cEngineLeave _)
  have d6 := d5.th 1 (.cStarted _ rfl)
  have d7 := d6.th 1 (.cBlock _ rfl)
  have d8 := d7.th 1 (.cSwap _)
  have d9 := d8.th 1 (.cStopPool _ 0 _ _ rfl rfl (.stopCall _ rfl))
  have d10 := d9.po 0 (by decide) rfl (.drained _ rfl rfl) (by simp) (by simp)
  have d11 := d10.po 0 (by decide) rfl (.setFlag _ 0 rfl (by decide)) (by simp) (by simp)
  have d12 := d11.po 0 (by decide) rfl (.flagged _ rfl) (by simp) (by simp)
  have d13 := d12.po 0 (by decide) rfl (.expire _ 0 (by decide) rfl rfl) (by simp) (by simp)
  have d14 := d13.po 0 (by decide) rfl (.exit _ 0 (by decide) rfl rfl) (by simp) (by simp)
  have d15 := d14.po 0 (by decide) rfl (.join _ 0 rfl (by decide) rfl) (by simp) (by simp)
  have d16 := d15.po 0 (by decide) rfl (.stopped _ rfl) (by simp) (by simp)
  have d17 := d16.th 1 (.cStopped _ 0 _ rfl rfl)
  have d18 := d17.th 1 (.cLoad _)
  have d19 := d18.th 1 (.cUnblock _)
  have d20 := d19.th 1 (.cRelease _)
  have d21 := d20.th 1 (.cDone _)
  -- thread 0 fills the queue of the old engine
  have f1 := d21.th 0 (.handPool _ _ 0 _ _ rfl (.put _ _ (.inr (by decide))))
  refine ⟨_, f1, ?_, ?_⟩
  · intro t h2
    by_cases h0 : t = 0
    · subst h0; rfl
    · by_cases h1 : t = 1
      · subst h1; rfl
      · simp [setFn, h0, h1, h2, Eng.init]
  · intro e' h
    rw [stranded_forever (EInv_reach EInv_init f1) h (t := 2) (k := 0) rfl rfl rfl (by decide) (by decide)]
    simp

/-- A pool without workers that has a log in its queue never finishes stopping. -/
theorem no_workers_forever {e e' : Eng} (hI : EInv e) (h : EReach e e') {t k : Nat} {p : Pool} {l : Log}
    (hpc : e.pc t = .cStopping k) (hr : e.g.real k = .pool p) (hd : p.stop = .polling)
    (hsize : p.size = 0) (hl : l ∈ p.queue) : e'.pc t = .cStopping k := by
  have hk : k < e.g.loads := by
    have := hI.s.held t ((hI.s.eng t).1 (by rw [hpc]; rfl))
    rw [hpc] at this
    have := this.2.1; omega
  have key : e'.pc t = .cStopping k ∧ k < e'.g.loads ∧ ∃ q, e'.g.real k = .pool q ∧ q.stop = .polling ∧
      q.size = 0 ∧ l ∈ q.queue := by
    induction h with
    | init => exact ⟨hpc, hk, p, hr, hd, hsize, hl⟩
    | @step e1 e2 h1 hs ih =>
      obtain ⟨ipc, ik, q, hq, hqd, hqs, hql⟩ := ih
      have one : ∀ q' a, PStep q a q' → q'.stop = .polling ∧ q'.size = 0 ∧ l ∈ q'.queue := by
        intro q' a hst
        cases hst with
        | put l' => exact ⟨hqd, hqs, List.mem_append_left _ hql⟩
        | take i _ _ hi => omega
        | handled i _ hi => omega
        | expire i hi => omega
        | again i hi => omega
        | exit i hi => omega
        | stopCall h => rw [hqd] at h; cases h
        | drained h hq => rw [hq] at hql; cases hql
        | setFlag j h => rw [hqd] at h; cases h
        | flagged h => rw [hqd] at h; cases h
        | join j h => rw [hqd] at h; cases h
        | stopped h => rw [hqd] at h; cases h
      have upd : ∀ (g' : Glob) (j : Nat) (r r' : Pool) (a : PLabel), e1.g.real j = .pool r → PStep r a r' →
          g'.real = setFn e1.g.real j (.pool r') →
          ∃ q, g'.real k = .pool q ∧ q.stop = .polling ∧ q.size = 0 ∧ l ∈ q.queue := by
        intro g' j r r' a hj hst hg
        by_cases hjk : k = j
        · subst hjk
          rw [hq] at hj; cases hj
          obtain ⟨h1, h2, h3⟩ := one _ _ hst
          exact ⟨r', by rw [hg, setFn_self], h1, h2, h3⟩
        · exact ⟨q, by rw [hg, setFn_ne _ _ hjk]; exact hq, hqd, hqs, hql⟩
      have keep : ∀ (g' : Glob), g'.real k = e1.g.real k →
          ∃ q, g'.real k = .pool q ∧ q.stop = .polling ∧ q.size = 0 ∧ l ∈ q.queue :=
        fun g' hg => ⟨q, by rw [hg]; exact hq, hqd, hqs, hql⟩
      have load : ∀ (g' : Glob) r, g'.real = setFn e1.g.real e1.g.loads r →
          ∃ q, g'.real k = .pool q ∧ q.stop = .polling ∧ q.size = 0 ∧ l ∈ q.queue :=
        fun g' r hg => keep g' (by rw [hg, setFn_ne _ _ (by omega)])
      cases hs with
      | pool j r r' a hj hjr hst hput hstop => exact ⟨ipc, ik, upd _ _ _ _ _ hjr hst rfl⟩
      | thread u g' pc' hst =>
        refine ⟨?_, Nat.lt_of_lt_of_le ik hst.mono.1, ?_⟩
        · dsimp only
          by_cases hu : t = u
          · subst hu
            rw [ipc] at hst
            cases hst with
            | cStopped k r hr' hd' => rw [hq] at hr'; cases hr'; rw [hqd] at hd'; cases hd'
          · rw [setFn_ne _ _ hu]; exact ipc
        · generalize e1.pc u = pc at hst
          cases hst with
          | wLoadSingle l hz => exact load _ _ rfl
          | wLoadWorkers l cap => exact load _ _ rfl
          | cLoad => exact load _ _ rfl
          | handPool l j r r' hr hp => exact upd _ _ _ _ _ hr hp rfl
          | bHandPool l j r r' hr hp => exact upd _ _ _ _ _ hr hp rfl
          | cStopPool j r r' hl hr hp => exact upd _ _ _ _ _ hr hp rfl
          | xStopPool j r r' hl hr hp => exact upd _ _ _ _ _ hr hp rfl
          | cStore c => cases c <;> exact keep _ rfl
          | _ => exact keep _ rfl
  exact key.1

/-- **C18 fails**, a third way: the settings are read without the lock while the first write loads the
engine.  If `config.set(pool_size=0)` comes between the choice of the engine and the start of the
workers, there is a multi-threaded engine without workers: the log is never handled, and the
reload, that is the call of `config.set`, waits for ever for its queue to become empty. -/
theorem C18_reload_always_ends_fails : ∃ e, EReach Eng.init e ∧ Written e 5 ∧
    (∀ t, t ≠ 1 → e.pc t = .idle) ∧ ∀ e', EReach e e' → e'.pc 1 ≠ .idle := by
  have a1 := (EReach.init (e₀ := Eng.init)).th 1 (.cCall _ (.poolSize 1))
  have a2 := a1.th 1 (.cAcquire _ _ rfl)
  have a3 := a2.th 1 (.cStore _ _ rfl rfl)
  have a4 := a3.th 1 (.cEngineEnter _ rfl)
  have a5 := a4.th 1 (.cEngineLeave _)
  have a6 := a5.th 1 (.cNotStarted _ rfl)
  have a7 := a6.th 1 (.cDone _)
  have b1 := a7.th 0 (.callFirst _ 5 (by simp [Eng.init, Glob.init, Change.apply]) rfl)
  have b2 := b1.th 0 (.wLock _ _ rfl)
  have b3 := b2.th 0 (.wNotYet _ _ rfl)
  have b4 := b3.th 0 (.wSetLock _ _ rfl)
  have b5 := b4.th 0 (.wSetStarted _ _)
  have b6 := b5.th 0 (.wLoadMulti _ _ (by decide))
  have b7 := b6.th 0 (.wLoadQueue _ _)
  -- `config.set(pool_size=0)` stores the value
  have c1 := b7.th 1 (.cCall _ (.poolSize 0))
  have c2 := c1.th 1 (.cAcquire _ _ rfl)
  have c3 := c2.th 1 (.cStore _ _ rfl rfl)
  -- no worker is created
  have b8 := c3.th 0 (.wLoadWorkers _ _ _)
  have b9 := b8.th 0 (.wRegister _ _)
  have b10 := b9.th 0 (.wDone _ _)
  have b11 := b10.th 0 (.fetch _ _ 0 rfl)
  have b12 := b11.th 0 (.handPool _ _ 0 _ _ rfl (.put _ _ (.inl rfl)))
  have d4 := b12.th 1 (.cEngineEnter _ rfl)
  have d5 := d4.th 1 (.cEngineLeave _)
  have d6 := d5.th 1 (.cStarted _ rfl)
  have d7 := d6.th 1 (.cBlock _ rfl)
  have d8 := d7.th 1 (.cSwap _)
  have d9 := d8.th 1 (.cStopPool _ 0 _ _ rfl rfl (.stopCall _ rfl))
  refine ⟨_, d9, ⟨0, List.mem_singleton.2 rfl⟩, ?_, ?_⟩
  · intro t h1
    by_cases h0 : t = 0
    · subst h0; rfl
    · simp [setFn, h0, h1, Eng.init]
  · intro e' h
    rw [no_workers_forever (EInv_reach EInv_init d9) h (t := 1) (k := 0) rfl rfl rfl rfl (List.mem_singleton.2 rfl)]
    simp

/-- Steps with one more action of the user: `config.set(started=True)`, which stores the value
(`settings_store.py:56`, the setting is public) without loading anything. -/
inductive UStep : Eng → Eng → Prop where
  | engine {e e' : Eng} : EStep e e' → UStep e e'
  | userStarted (e : Eng) (t : Nat) (hi : e.pc t = .idle) (hl : e.g.setLock = none) :
      UStep e { e with g := { e.g with started := true } }

inductive UReach (e₀ : Eng) : Eng → Prop where
  | init : UReach e₀ e₀
  | step {e e' : Eng} : UReach e₀ e → UStep e e' → UReach e₀ e'

/-- **C21 fails** if the user may set the public setting `started`: after `config.set(started=True)`
the first log finds no engine and its write raises `AttributeError`. -/
theorem C21_user_set_started_fails : ∃ e l, UReach Eng.init e ∧ e.pc 0 = .wFailed l ∧ Written e l := by
  have r1 := (UReach.init (e₀ := Eng.init)).step (.userStarted _ 0 rfl rfl)
  have r2 := r1.step (.engine (.thread _ 0 _ _ (.callFirst _ 5 (by simp [Eng.init, Glob.init]) rfl)))
  have r3 := r2.step (.engine (.thread _ 0 _ _ (.wLock _ _ rfl)))
  have r4 := r3.step (.engine (.thread _ 0 _ _ (.wAlready _ _ rfl)))
  have r5 := r4.step (.engine (.thread _ 0 _ _ (.fetchFails _ _ rfl)))
  exact ⟨_, 5, r5, rfl, 0, List.mem_singleton.2 rfl⟩

theorem EngineSpec.CalmReach.th {e₀ e : Eng} (h : CalmReach e₀ e) (t : Nat) {g' : Glob} {p' : PC}
    (hs : TStep t e.g (e.pc t) g' p')
    (hc : e.g.mode ≠ .blocked → g'.mode = .blocked → ¬ WriteInFlight e) :
    CalmReach e₀ ⟨g', setFn e.pc t p'⟩ := .step h (.thread e t g' p' hs) hc

theorem EngineSpec.CalmReach.po {e₀ e : Eng} (h : CalmReach e₀ e) (k : Nat) {p p' : Pool} {a : PLabel}
    (hk : k < e.g.loads) (hr : e.g.real k = .pool p) (hp : PStep p a p') (hput : ∀ l, a ≠ .put l)
    (hstop : a ≠ .stop) :
    CalmReach e₀ ⟨{ e.g with real := setFn e.g.real k (.pool p'), seq := e.g.seq ++ a.log?.toList }, e.pc⟩ :=
  .step h (.pool e k p p' a hk hr hp hput hstop) (fun h1 h2 => absurd h2 h1)

local macro "calm" : tactic => `(tactic| (intro _ h; exact nomatch h))

local macro "blocked" : tactic => `(tactic| (intro h; exact absurd rfl h))

theorem quiescent_of_all_handled {e : Eng} (h : EReach Eng.init e) (hi : ∀ t, e.pc t = .idle)
    (hall : ∀ x ∈ e.g.calls, x.2 ∈ e.g.seq) : Quiescent e := by
  obtain ⟨loc, hL⟩ := (EInv_reach EInv_init h).l
  have key : ∀ l, loc l = .unborn ∨ loc l = .done := by
    intro l
    by_cases hb : ∀ x ∈ e.g.calls, x.2 ≠ l
    · exact .inl ((hL.born l).2 hb)
    · right
      have hm : l ∈ e.g.seq := by
        apply Classical.byContradiction
        intro hn
        exact hb fun x hx hxl => hn (hxl ▸ hall x hx)
      have hd := hL.done l
      by_cases hl : loc l = .done
      · exact hl
      · rw [if_neg hl] at hd
        exact absurd hm (List.count_eq_zero.1 hd)
  refine ⟨hi, fun k _ => ⟨fun l hq => ?_, fun i l hq => ?_⟩⟩
  · have := (hL.queue k l).2 hq
    rcases key l with h | h <;> rw [h] at this <;> cases this
  · have := (hL.worker k i l).2 hq
    rcases key l with h | h <;> rw [h] at this <;> cases this

/-- The hypotheses of the theorems about calm executions can be met: two logs handled by two engines,
one of them replaced by a reload; everything at rest. -/
example : ∃ e, CalmReach Eng.init e ∧ Quiescent e ∧ e.g.loads = 2 ∧ Written e 5 ∧ Written e 6 ∧
    e.g.seq = [5, 6] := by
  have a1 := (CalmReach.init (e₀ := Eng.init)).th 1 (.cCall _ (.poolSize 1)) (by calm)
  have a2 := a1.th 1 (.cAcquire _ _ rfl) (by calm)
  have a3 := a2.th 1 (.cStore _ _ rfl rfl) (by calm)
  have a4 := a3.th 1 (.cEngineEnter _ rfl) (by calm)
  have a5 := a4.th 1 (.cEngineLeave _) (by calm)
  have a6 := a5.th 1 (.cNotStarted _ rfl) (by calm)
  have a7 := a6.th 1 (.cDone _) (by calm)
  have b1 := a7.th 0 (.callFirst _ 5 (by simp [Eng.init, Glob.init, Change.apply]) rfl) (by calm)
  have b2 := b1.th 0 (.wLock _ _ rfl) (by calm)
  have b3 := b2.th 0 (.wNotYet _ _ rfl) (by calm)
  have b4 := b3.th 0 (.wSetLock _ _ rfl) (by calm)
  have b5 := b4.th 0 (.wSetStarted _ _) (by calm)
  have b6 := b5.th 0 (.wLoadMulti _ _ (by decide)) (by calm)
  have b7 := b6.th 0 (.wLoadQueue _ _) (by calm)
  have b8 := b7.th 0 (.wLoadWorkers _ _ _) (by calm)
  have b9 := b8.th 0 (.wRegister _ _) (by calm)
  have b10 := b9.th 0 (.wDone _ _) (by calm)
  have b11 := b10.th 0 (.fetch _ _ 0 rfl) (by calm)
  have b12 := b11.th 0 (.handPool _ _ 0 _ _ rfl (.put _ _ (.inl rfl))) (by calm)
  -- `config.set(pool_size=2)` while log 5 is still in the queue
  have d1 := b12.th 1 (.cCall _ (.poolSize 2)) (by calm)
  have d2 := d1.th 1 (.cAcquire _ _ rfl) (by calm)
  have d3 := d2.th 1 (.cStore _ _ rfl rfl) (by calm)
  have d4 := d3.th 1 (.cEngineEnter _ rfl) (by calm)
  have d5 := d4.th 1 (.cEngineLeave _) (by calm)
  have d6 := d5.th 1 (.cStarted _ rfl) (by calm)
  have d7 := d6.th 1 (.cBlock _ rfl) (by calm)
  have d8 := d7.th 1 (.cSwap _) (by
    rintro _ _ ⟨t, l, h⟩
    by_cases h0 : t = 0
    · subst h0; rcases h with h | ⟨k, h⟩ <;> exact nomatch h
    · by_cases h1 : t = 1
      · subst h1; rcases h with h | ⟨k, h⟩ <;> exact nomatch h
      · simp [setFn, h0, h1, Eng.init] at h)
  -- thread 0 writes log 6 meanwhile
  have e1 := d8.th 0 (.callBlocked _ 6 (by
    intro x hx
    have : x = (0, 5) := List.mem_singleton.1 hx
    subst this; decide) rfl) (by blocked)
  have d9 := e1.th 1 (.cStopPool _ 0 _ _ rfl rfl (.stopCall _ rfl)) (by blocked)
  have b13 := d9.po 0 (by decide) rfl (.take _ 0 5 [] (by decide) rfl rfl) (by simp) (by simp)
  have d10 := b13.po 0 (by decide) rfl (.drained _ rfl rfl) (by simp) (by simp)
  have b14 := d10.po 0 (by decide) rfl (.handled _ 0 5 (by decide) rfl) (by simp) (by simp)
  have d11 := b14.po 0 (by decide) rfl (.setFlag _ 0 rfl (by decide)) (by simp) (by simp)
  have d12 := d11.po 0 (by decide) rfl (.flagged _ rfl) (by simp) (by simp)
  have d13 := d12.po 0 (by decide) rfl (.expire _ 0 (by decide) rfl rfl) (by simp) (by simp)
  have d14 := d13.po 0 (by decide) rfl (.exit _ 0 (by decide) rfl rfl) (by simp) (by simp)
  have d15 := d14.po 0 (by decide) rfl (.join _ 0 rfl (by decide) rfl) (by simp) (by simp)
  have d16 := d15.po 0 (by decide) rfl (.stopped _ rfl) (by simp) (by simp)
  have d17 := d16.th 1 (.cStopped _ 0 _ rfl rfl) (by blocked)
  have d18 := d17.th 1 (.cLoad _) (by blocked)
  have d19 := d18.th 1 (.cUnblock _) (by calm)
  have d20 := d19.th 1 (.cRelease _) (by calm)
  have d21 := d20.th 1 (.cDone _) (by calm)
  -- log 6 goes to the new engine
  have f1 := d21.th 0 (.bAcquire _ _ rfl) (by calm)
  have f2 := f1.th 0 (.bFetch _ _ 1 rfl) (by calm)
  have f3 := f2.th 0 (.bHandPool _ _ 1 _ _ rfl (.put _ _ (.inl rfl))) (by calm)
  have f4 := f3.th 0 (.bRelease _) (by calm)
  have f5 := f4.po 1 (by decide) rfl (.take _ 1 6 [] (by decide) rfl rfl) (by simp) (by simp)
  have f6 := f5.po 1 (by decide) rfl (.handled _ 1 6 (by decide) rfl) (by simp) (by simp)
  refine ⟨_, f6, quiescent_of_all_handled f6.reach ?_ ?_, rfl, ⟨0, List.mem_cons_self⟩,
    ⟨0, List.mem_cons_of_mem _ List.mem_cons_self⟩, rfl⟩
  · intro t
    by_cases h0 : t = 0
    · subst h0; rfl
    · by_cases h1 : t = 1
      · subst h1; rfl
      · simp [setFn, h0, h1, Eng.init]
  · show ∀ x ∈ [(0, 5), (0, 6)], x.2 ∈ [5, 6]
    decide

/-- The exit hook ends with a log handled and another one waiting for ever. -/
example : ∃ e, CalmReach Eng.init e ∧ e.pc 1 = .xEnd ∧ Written e 5 ∧ e.g.seq = [5] ∧ e.pc 2 = .bLock 6 := by
  have b1 := (CalmReach.init (e₀ := Eng.init)).th 0 (.callFirst _ 5 (by simp [Eng.init, Glob.init]) rfl) (by calm)
  have b2 := b1.th 0 (.wLock _ _ rfl) (by calm)
  have b3 := b2.th 0 (.wNotYet _ _ rfl) (by calm)
  have b4 := b3.th 0 (.wSetLock _ _ rfl) (by calm)
  have b5 := b4.th 0 (.wSetStarted _ _) (by calm)
  have b6 := b5.th 0 (.wLoadSingle _ _ rfl) (by calm)
  have b9 := b6.th 0 (.wRegister _ _) (by calm)
  have b10 := b9.th 0 (.wDone _ _) (by calm)
  have b11 := b10.th 0 (.fetch _ _ 0 rfl) (by calm)
  have b12 := b11.th 0 (.handSingle _ _ 0 rfl) (by calm)
  have x1 := b12.th 1 (.xCall _ (by decide)) (by calm)
  have x2 := x1.th 1 (.xLock _ rfl) (by calm)
  have x3 := x2.th 1 (.xSwap _) (by
    rintro _ _ ⟨t, l, h⟩
    by_cases h0 : t = 0
    · subst h0; rcases h with h | ⟨k, h⟩ <;> exact nomatch h
    · by_cases h1 : t = 1
      · subst h1; rcases h with h | ⟨k, h⟩ <;> exact nomatch h
      · simp [setFn, h0, h1, Eng.init] at h)
  have y1 := x3.th 2 (.callBlocked _ 6 (by
    intro x hx
    have : x = (0, 5) := List.mem_singleton.1 hx
    subst this; decide) rfl) (by blocked)
  have x4 := y1.th 1 (.xStopSingle _ 0 rfl rfl) (by blocked)
  exact ⟨_, x4, rfl, ⟨0, List.mem_cons_self⟩, rfl, rfl⟩

/-- A thread that has written two logs through the synchronous engine. -/
example : ∃ e, EReach Eng.init e ∧ AllSync e ∧ e.pc 0 = .idle ∧ writtenBy 0 e = [5, 6] := by
  have b1 := (EReach.init (e₀ := Eng.init)).th 0 (.callFirst _ 5 (by simp [Eng.init, Glob.init]) rfl)
  have b2 := b1.th 0 (.wLock _ _ rfl)
  have b3 := b2.th 0 (.wNotYet _ _ rfl)
  have b4 := b3.th 0 (.wSetLock _ _ rfl)
  have b5 := b4.th 0 (.wSetStarted _ _)
  have b6 := b5.th 0 (.wLoadSingle _ _ rfl)
  have b9 := b6.th 0 (.wRegister _ _)
  have b10 := b9.th 0 (.wDone _ _)
  have b11 := b10.th 0 (.fetch _ _ 0 rfl)
  have b12 := b11.th 0 (.handSingle _ _ 0 rfl)
  have c1 := b12.th 0 (.callDirect _ 6 (by
    intro x hx
    have : x = (0, 5) := List.mem_singleton.1 hx
    subst this; decide) rfl)
  have c2 := c1.th 0 (.fetch _ _ 0 rfl)
  have c3 := c2.th 0 (.handSingle _ _ 0 rfl)
  refine ⟨_, c3, ?_, rfl, rfl⟩
  intro k hk
  have : k = 0 := Nat.lt_one_iff.1 hk
  subst this; rfl

end Polog
