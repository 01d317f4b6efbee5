import Verif.Engine.ForkLemmas
import Verif.Engine.Kill

/-! Theorems about logs written in a child process made by `os.fork()` (C105). -/

namespace Polog
open EngineSpec

/-- **C105, nothing twice**: at whatever moment a program forks, the child does not handle any log written before the
fork, not even one that was waiting in a queue or was in the hands of another thread, and handles no log twice. So no
log is handled both by the parent and by the child. -/
theorem C105_no_log_in_both_processes (e : Eng) (h : EReach Eng.init e) (c : Eng) (hc : EReach e.forked c) :
    ∃ new, c.g.seq = e.g.seq ++ new ∧ new.Nodup ∧ ∀ l ∈ new, ¬ Written e l := by
  obtain ⟨hS, _, loc, hL⟩ := EInv_reach EInv_init h
  have hB := BInv_reach (BInv_forked hS hL) hc
  obtain ⟨loc', hL'⟩ := hB.l
  obtain ⟨new, hnew⟩ := seq_grows hc
  have hcount : ∀ l, e.g.seq.count l + new.count l = if loc' l = .done then 1 else 0 := by
    intro l
    have := hL'.done l
    simp only [strip, hnew, List.count_append] at this
    exact this
  refine ⟨new, hnew, ?_, ?_⟩
  · rw [List.nodup_iff_count]
    intro l
    have := hcount l
    split at this <;> omega
  · rintro l hl ⟨t, ht⟩
    have h1 : 0 < new.count l := List.count_pos_iff.2 hl
    have hcl := hcount l
    have hdone : loc' l = .done := by
      by_cases hd : loc' l = .done
      · exact hd
      · rw [if_neg hd] at hcl; omega
    rw [if_pos hdone] at hcl
    have h0 : e.g.seq.count l = 0 := by omega
    have hborn : loc l ≠ .unborn := fun hu => (hL.born l).1 hu _ ht rfl
    have hnd : loc l ≠ .done := by
      intro hd
      have := hL.done l
      rw [if_pos hd] at this; omega
    cases hloc : loc l with
    | unborn => exact hborn hloc
    | done => exact hnd hloc
    | queue k =>
      obtain ⟨hk, p, hp, hm⟩ := (hL.queue k l).1 hloc
      have hq : Queued e.forked k l := ⟨hk, p.forked, by simp [Eng.forked, hp, Real.forked], hm⟩
      have hq' := queued_stays (DeadBelow_forked e) hk hq hc
      have := (hL'.queue k l).2 hq'
      rw [hdone] at this; cases this
    | thread s =>
      have hun : loc' l = .unborn := (hL'.born l).2 fun x hx hxl => by
        simp only [strip, List.mem_filter] at hx
        rw [hxl, hloc] at hx
        exact absurd hx.2 (by simp [Loc.moving])
      rw [hdone] at hun; cases hun
    | worker k i =>
      have hun : loc' l = .unborn := (hL'.born l).2 fun x hx hxl => by
        simp only [strip, List.mem_filter] at hx
        rw [hxl, hloc] at hx
        exact absurd hx.2 (by simp [Loc.moving])
      rw [hdone] at hun; cases hun

theorem inCall_of_log {e : Eng} {t : Nat} {l : Log} (h : (e.pc t).log? = some l) : InCall e t l := by
  unfold InCall
  cases hp : e.pc t <;> rw [hp] at h <;> simp only [PC.log?, Option.some.injEq, reduceCtorEq] at h <;> subst h <;> simp

/-- **C105, no log disappears**: a log written in the child has been handled once, or its call has not returned, or it
waits in a queue or is in the hands of a worker. -/
theorem C105_where_the_logs_of_the_child_are (e : Eng) (h : EReach Eng.init e) (c : Eng) (hc : EReach e.forked c)
    (l : Log) (hw : Written c l) (hn : ¬ Written e l) :
    timesHandled c l = 1 ∨ (∃ t, InCall c t l) ∨ (∃ k, Queued c k l) ∨ ∃ k i, e.g.loads ≤ k ∧ InWork c k i l := by
  obtain ⟨hS, _, loc, hL⟩ := EInv_reach EInv_init h
  have hB := BInv_reach (BInv_forked hS hL) hc
  obtain ⟨loc', hL'⟩ := hB.l
  have hun : loc l = .unborn := (hL.born l).2 fun x hx hxl => hn ⟨x.1, by rw [← hxl]; exact hx⟩
  obtain ⟨s, hs⟩ := hw
  cases hloc : loc' l with
  | unborn =>
    refine absurd rfl ((hL'.born l).1 hloc (s, l) ?_)
    simp only [strip, List.mem_filter, hun, Loc.moving]
    exact ⟨hs, rfl⟩
  | done => exact .inl ((hL'.done l).trans (if_pos hloc))
  | thread t => exact .inr (.inl ⟨t, inCall_of_log ((hL'.thread t l).2 hloc)⟩)
  | queue k => exact .inr (.inr (.inl ⟨k, (hL'.queue k l).1 hloc⟩))
  | worker k i =>
    have hwk := (hL'.worker k i l).1 hloc
    refine .inr (.inr (.inr ⟨k, i, ?_, hwk⟩))
    obtain ⟨_, p, hp, _, hb⟩ := hwk
    by_cases hk : k < e.g.loads
    · have := (DeadBelow_reach (DeadBelow_forked e) hc).2 k hk p hp i
      rw [this] at hb; cases hb
    · omega

/-- **C105, synchronous programs**: as long as the child uses the synchronous engine only, every log whose call has
returned there has been handled exactly once, at whatever moment the program forked. -/
theorem C105_synchronous_child_loses_nothing (e : Eng) (h : EReach Eng.init e) (c : Eng) (hc : EReach e.forked c)
    (hsync : AllSync c) (l : Log) (hr : Returned c l) (hn : ¬ Written e l) : timesHandled c l = 1 := by
  rcases C105_where_the_logs_of_the_child_are e h c hc l hr.1 hn with h1 | ⟨t, h1⟩ | ⟨k, hk, p, hp, _⟩ |
    ⟨k, i, _, hk, p, hp, _⟩
  · exact h1
  · exact absurd h1 (hr.2 t)
  · rw [hsync k hk] at hp; cases hp
  · rw [hsync k hk] at hp; cases hp

/-- Engines are numbered without gaps. -/
theorem real_beyond {e : Eng} (h : EReach Eng.init e) : ∀ k, e.g.loads ≤ k → e.g.real k = .single := by
  induction h with
  | init => intro k _; rfl
  | @step a b ha hs ih =>
    have hS := (EInv_reach EInv_init ha).s
    cases hs with
    | pool k p p' a hk hr hp hput hstop =>
      intro j hj
      exact (setFn_ne _ _ (by dsimp only at hj; omega)).trans (ih j hj)
    | thread t g' p' hst =>
      have hloc := hS.loc t
      have hph : (a.pc t).holdsEng = true → Phase a.g (a.pc t) := fun hx => hS.held t ((hS.eng t).1 hx)
      intro j hj
      dsimp only at hj ⊢
      generalize a.pc t = pc at hst hloc hph
      generalize a.g = g at hst hloc hph ih
      cases hst with
      | wLoadSingle => exact (setFn_ne _ _ (by simp [Glob.load] at hj; omega)).trans (ih j (by simp [Glob.load] at hj; omega))
      | wLoadWorkers => exact (setFn_ne _ _ (by simp [Glob.load] at hj; omega)).trans (ih j (by simp [Glob.load] at hj; omega))
      | cLoad => exact (setFn_ne _ _ (by simp [Glob.load] at hj; omega)).trans (ih j (by simp [Glob.load] at hj; omega))
      | handPool l k q q' hr hp => exact (setFn_ne _ _ (by simp only [LocalOk] at hloc; dsimp only at hj; omega)).trans (ih j hj)
      | bHandPool l k q q' hr hp =>
        exact (setFn_ne _ _ (by have := (hph rfl).2; dsimp only at hj; omega)).trans (ih j hj)
      | cStopPool k q q' hl hr hp => exact (setFn_ne _ _ (by dsimp only at hj; omega)).trans (ih j hj)
      | xStopPool k q q' hl hr hp => exact (setFn_ne _ _ (by dsimp only at hj; omega)).trans (ih j hj)
      | cStore c => cases c <;> exact ih j hj
      | _ => exact ih j hj

/-- **C105, calm synchronous programs**: if no other thread is inside polog when a program without workers forks –
in particular if nothing has been logged yet – the child continues from exactly the state of the parent: everything
that is true of a program is true of it. -/
theorem C105_fork_of_a_calm_synchronous_program (e : Eng) (h : EReach Eng.init e) (hidle : ∀ t, e.pc t = .idle)
    (hsync : AllSync e) : e.forked = e ∧ EReach Eng.init e.forked := by
  have heq : e.forked = e := by
    have hr : (fun k => (e.g.real k).forked) = e.g.real := by
      funext k
      have : e.g.real k = .single := by
        by_cases hk : k < e.g.loads
        · exact hsync k hk
        · exact real_beyond h k (by omega)
      rw [this]; rfl
    have hp : (fun _ => PC.idle) = e.pc := funext fun t => (hidle t).symm
    unfold Eng.forked
    rw [hr, hp]
  exact ⟨heq, by rw [heq]; exact h⟩

/-- **C105, synchronous logs do not wait**: in the child a log call goes through with nobody's help while the writes
are direct and the engine is the synchronous one, even if locks are held by threads that do not exist any more. -/
theorem C105_synchronous_log_of_the_child (c : Eng) (t : Nat) (ht : c.pc t = .idle) (hm : c.g.mode = .direct) (k : Nat)
    (hk : c.g.loads = k + 1) (hr : c.g.real k = .single) (l : Log) (hl : ¬ Written c l) (h0 : timesHandled c l = 0) :
    ∃ c', EReach c c' ∧ c'.pc = c.pc ∧ Written c' l ∧ timesHandled c' l = 1 := by
  have a1 := (EReach.init (e₀ := c)).step (.thread c t _ _ (by
    rw [ht]; exact .callDirect _ l (fun x hx hxl => hl ⟨x.1, by rw [← hxl]; exact hx⟩) hm))
  have a2 := a1.step (.thread _ t _ _ (by
    dsimp only; rw [setFn_self]; exact .fetch _ l k hk))
  have a3 := a2.step (.thread _ t _ _ (by
    dsimp only; rw [setFn_self]; exact .handSingle _ l k hr))
  refine ⟨_, a3, ?_, ⟨t, List.mem_append_right _ List.mem_cons_self⟩, ?_⟩
  · funext s
    dsimp only
    by_cases hs : s = t
    · subst hs; rw [setFn_self, ht]
    · rw [setFn_ne _ _ hs, setFn_ne _ _ hs, setFn_ne _ _ hs]
  · show (c.g.seq ++ [l]).count l = 1
    have : c.g.seq.count l = 0 := h0
    simp [List.count_append, this]

/-! ### Programs with workers -/

/-- **C105**: a log that the child puts into the queue of a pool made before the fork is never handled, whatever the
child does afterwards. -/
theorem C105_logs_for_the_old_pool_are_lost (e : Eng) (h : EReach Eng.init e) (c : Eng) (hc : EReach e.forked c)
    (k : Nat) (hk : k < e.g.loads) (l : Log) (hq : Queued c k l) (c' : Eng) (hc' : EReach c c') :
    Queued c' k l ∧ timesHandled c' l = 0 := by
  obtain ⟨hS, _, loc, hL⟩ := EInv_reach EInv_init h
  have hB := BInv_reach (BInv_forked hS hL) (hc.trans hc')
  obtain ⟨loc', hL'⟩ := hB.l
  have hd := DeadBelow_reach (DeadBelow_forked e) hc
  have hq' := queued_stays hd hk hq hc'
  refine ⟨hq', ?_⟩
  have := (hL'.queue k l).2 hq'
  have hdone := hL'.done l
  rw [this] at hdone
  exact hdone

/-- The first log of a program with one worker was written. -/
theorem one_worker_begun : ∃ e, EReach Eng.init e ∧ (∀ t, e.pc t = .idle) ∧ e.g.mode = .direct ∧ e.g.loads = 1 ∧
    e.g.maxQueue = 0 ∧ e.g.poolSize = 1 ∧ e.g.started = true ∧ e.g.engLock = none ∧ e.g.setLock = none ∧
    e.g.real 0 = .pool { Pool.init 1 0 with queue := [0] } ∧ e.g.calls = [(0, 0)] ∧ e.g.seq = [] := by
  have a1 := (EReach.init (e₀ := Eng.init)).th 1 (.cCall _ (.poolSize 1))
  have a2 := a1.th 1 (.cAcquire _ _ rfl)
  have a3 := a2.th 1 (.cStore _ _ rfl rfl)
  have a4 := a3.th 1 (.cEngineEnter _ rfl)
  have a5 := a4.th 1 (.cEngineLeave _)
  have a6 := a5.th 1 (.cNotStarted _ rfl)
  have a7 := a6.th 1 (.cDone _)
  have b1 := a7.th 0 (.callFirst _ 0 (by intro x hx; exact nomatch hx) rfl)
  have b2 := b1.th 0 (.wLock _ _ rfl)
  have b3 := b2.th 0 (.wNotYet _ _ rfl)
  have b4 := b3.th 0 (.wSetLock _ _ rfl)
  have b5 := b4.th 0 (.wSetStarted _ _)
  have b6 := b5.th 0 (.wLoadMulti _ _ (by decide))
  have b7 := b6.th 0 (.wLoadQueue _ _)
  have b8 := b7.th 0 (.wLoadWorkers _ _ _)
  have b9 := b8.th 0 (.wRegister _ _)
  have c1 := b9.th 0 (.wDone _ _)
  have c2 := c1.th 0 (.fetch _ _ 0 rfl)
  have c3 := c2.th 0 (.handPool _ _ 0 _ _ rfl (.put _ _ (.inl rfl)))
  refine ⟨_, c3, fun t => ?_, rfl, rfl, rfl, rfl, rfl, rfl, rfl, rfl, rfl, rfl⟩
  simp only [setFn]
  split
  · rfl
  · split
    · rfl
    · rfl

/-- The first log of a program with one worker was written and handled, and nothing is going on. -/
theorem one_worker_quiet : ∃ e, EReach Eng.init e ∧ Quiescent e ∧ e.g.mode = .direct ∧ e.g.loads = 1 ∧
    e.g.maxQueue = 0 ∧ e.g.poolSize = 1 ∧ e.g.started = true ∧ e.g.engLock = none ∧ e.g.setLock = none ∧
    (∃ p, e.g.real 0 = .pool p ∧ p.cap = 0 ∧ p.queue = [] ∧ p.stop = .none ∧ p.size = 1) ∧ e.g.calls = [(0, 0)] ∧
    e.g.seq = [0] := by
  obtain ⟨e, h, hidle, hm, hl, hmq, hps, hst, hel, hsl, hp, hcalls, hseq⟩ := one_worker_begun
  have c4 := h.po 0 (by omega) hp (.take { Pool.init 1 0 with queue := [0] } 0 0 [] (by decide) rfl rfl) (by simp) (by simp)
  have c5 := c4.po 0 (by show 0 < e.g.loads; omega) rfl
    (.handled { Pool.init 1 0 with worker := setFn (Pool.init 1 0).worker 0 (.busy 0) } 0 0 (by decide)
      rfl) (by simp) (by simp)
  have hseq' : (e.g.seq ++ (PLabel.take 0 0).log?.toList) ++ (PLabel.handled 0 0).log?.toList = [0] := by
    rw [hseq]; rfl
  refine ⟨_, c5, quiescent_of_all_handled c5 hidle ?_, hm, hl, hmq, hps, hst, hel, hsl,
    ⟨{ Pool.init 1 0 with worker := setFn (setFn (Pool.init 1 0).worker 0 (.busy 0)) 0 .waiting }, rfl, rfl, rfl, rfl, rfl⟩,
    hcalls, hseq'⟩
  show ∀ x ∈ e.g.calls, x.2 ∈ (e.g.seq ++ (PLabel.take 0 0).log?.toList) ++ (PLabel.handled 0 0).log?.toList
  rw [hcalls, hseq']
  decide

/-- A log written in the child of such a program. -/
theorem log_in_the_child {e : Eng} (hm : e.g.mode = .direct) (hl : e.g.loads = 1) {p : Pool} (hp : e.g.real 0 = .pool p)
    (hcap : p.cap = 0) (hcalls : e.g.calls = [(0, 0)]) : ∃ c, EReach e.forked c ∧ (∀ t, c.pc t = .idle) ∧
    (5, 7) ∈ c.g.calls ∧ c.g.real 0 = .pool { p.forked with queue := p.queue ++ [7] } ∧ c.g.mode = e.g.mode ∧
    c.g.loads = e.g.loads ∧ c.g.maxQueue = e.g.maxQueue ∧ c.g.poolSize = e.g.poolSize ∧ c.g.started = e.g.started ∧
    c.g.engLock = e.g.engLock ∧ c.g.setLock = e.g.setLock := by
  have a1 := (EReach.init (e₀ := e.forked)).th 5 (.callDirect _ 7 (by
    intro x hx; rw [show e.forked.g.calls = [(0, 0)] from hcalls] at hx
    simp only [List.mem_cons, List.not_mem_nil, or_false] at hx; subst hx; decide) hm)
  have a2 := a1.th 5 (by dsimp only; rw [setFn_self]; exact .fetch _ _ 0 hl)
  have a3 := a2.th 5 (by
    dsimp only; rw [setFn_self]
    exact .handPool _ _ 0 p.forked _ (by show (e.g.real 0).forked = _; rw [hp]; rfl) (.put _ _ (.inl hcap)))
  refine ⟨_, a3, fun t => ?_, List.mem_append_right _ List.mem_cons_self, rfl,
    rfl, rfl, rfl, rfl, rfl, rfl, rfl⟩
  by_cases ht : t = 5
  · subst ht; rfl
  · dsimp only
    rw [setFn_ne _ _ ht, setFn_ne _ _ ht, setFn_ne _ _ ht]; rfl

/-- **C105 fails with workers**: there is a program that has handled all its logs and is doing nothing; in its child
a log call returns, and its log is never handled, whatever happens afterwards. -/
theorem C105_child_of_a_program_with_workers_fails : ∃ e, EReach Eng.init e ∧ Quiescent e ∧
    ∃ c l, EReach e.forked c ∧ Returned c l ∧ ¬ Written e l ∧ ∀ c', EReach c c' → timesHandled c' l = 0 := by
  obtain ⟨e, h, hq, hm, hl, hmq, hps, hst, hel, hsl, ⟨p, hp, hcap, hpq, hps', _⟩, hcalls, hseq⟩ := one_worker_quiet
  obtain ⟨c, hc, hidle, hcc, hr, _, hload, _⟩ := log_in_the_child hm hl hp hcap hcalls
  refine ⟨e, h, hq, c, 7, hc, ⟨⟨5, hcc⟩, ?_⟩, ?_, ?_⟩
  · intro t hin
    simp [InCall, hidle t] at hin
  · rintro ⟨t, ht⟩
    rw [hcalls] at ht
    simp at ht
  · intro c' hc'
    exact (C105_logs_for_the_old_pool_are_lost e h _ hc 0 (by omega) 7
      ⟨by omega, _, hr, List.mem_append_right _ List.mem_cons_self⟩ c' hc').2

/-- The thread waits in `stop()` for the queue of engine `k` to become empty. -/
def WaitsForQueue (c : Eng) (t k : Nat) : Prop :=
  (c.pc t = .cStopping k ∨ c.pc t = .xStopping k) ∧ ∃ p, c.g.real k = .pool p ∧ p.stop = .polling ∧ p.queue ≠ []

/-- **C105, changing `pool_size` in the child**: while logs are in the queue of a pool made before the fork,
`config.set(pool_size=...)`, `config.set(max_queue_size=...)` and the exit hook of the child wait for ever for the
queue to become empty. -/
theorem C105_stop_of_the_old_pool_hangs (e : Eng) (c : Eng) (hc : EReach e.forked c) (t k : Nat)
    (hk : k < e.g.loads) (hw : WaitsForQueue c t k) (c' : Eng) (hc' : EReach c c') :
    WaitsForQueue c' t k ∧ c'.pc t = c.pc t := by
  have hd := DeadBelow_reach (DeadBelow_forked e) hc
  have key : DeadBelow e.g.loads c' ∧ WaitsForQueue c' t k ∧ c'.pc t = c.pc t := by
    induction hc' with
    | init => exact ⟨hd, hw, rfl⟩
    | @step a b ha hs ih =>
      obtain ⟨hd, ⟨hpc, p, hp, hpoll, hne⟩, heq⟩ := ih
      have hpc' : b.pc t = a.pc t := by
        cases hs with
        | pool => rfl
        | thread s g' p' hst =>
          by_cases hst' : t = s
          · subst hst'
            exfalso
            rcases hpc with hpc | hpc
            · rw [hpc] at hst
              cases hst with
              | cStopped _ q hr hq => rw [hp] at hr; cases hr; rw [hpoll] at hq; cases hq
            · rw [hpc] at hst
              cases hst with
              | xStopped _ q hr hq => rw [hp] at hr; cases hr; rw [hpoll] at hq; cases hq
          · exact setFn_ne _ _ hst'
      refine ⟨DeadBelow_step hd hs, ⟨by rw [hpc']; exact hpc, ?_⟩, hpc'.trans heq⟩
      obtain ⟨h2, h3⟩ := hs.real
      rcases h3 k (Nat.lt_of_lt_of_le hk hd.1) with he | ⟨q, q', a, hq, hq', hst⟩
      · exact ⟨p, he.trans hp, hpoll, hne⟩
      · rw [hp] at hq; cases hq
        obtain ⟨_, ⟨more, hmore⟩, _, hst⟩ := hst.dead (hd.2 k hk p hp)
        exact ⟨q', hq', hst hpoll hne, by rw [hmore]; simp [hne]⟩
  exact key.2

/-- A thread begins to replace the pool. -/
theorem begins_to_stop {c : Eng} (hidle : ∀ t, c.pc t = .idle) (hm : c.g.mode = .direct) (hl : c.g.loads = 1)
    (hmq : c.g.maxQueue = 0) (hps : c.g.poolSize = 1) (hst : c.g.started = true) (hel : c.g.engLock = none)
    (hsl : c.g.setLock = none) {p : Pool} (hp : c.g.real 0 = .pool p) (hs : p.stop = .none) :
    ∃ c', EReach c c' ∧ c'.pc 5 = .cStopping 0 ∧ c'.g.real 0 = .pool { p with stop := .polling } := by
  obtain ⟨⟨setLock, engLock, started, poolSize, maxQueue, mode, loads, real, inits, hooks, calls, seq, late⟩, pc⟩ := c
  dsimp only at hidle hm hl hmq hps hst hel hsl hp
  obtain rfl : pc = fun _ => .idle := funext hidle
  subst hm hl hmq hps hst hel hsl
  have a0 := EReach.init (e₀ := (⟨⟨none, none, true, 1, 0, .direct, 1, real, inits, hooks, calls, seq, late⟩, fun _ => .idle⟩ : Eng))
  have b1 := a0.th 5 (.cCall _ (.poolSize 0))
  have b2 := b1.th 5 (.cAcquire _ _ rfl)
  have b3 := b2.th 5 (.cStore _ _ rfl rfl)
  have b4 := b3.th 5 (.cEngineEnter _ rfl)
  have b5 := b4.th 5 (.cEngineLeave _)
  have b6 := b5.th 5 (.cStarted _ rfl)
  have b7 := b6.th 5 (.cBlock _ rfl)
  have b8 := b7.th 5 (.cSwap _)
  have b9 := b8.th 5 (.cStopPool _ 0 p _ rfl hp (.stopCall _ hs))
  exact ⟨_, b9, by dsimp only; exact setFn_self _ _ _, by dsimp only; exact setFn_self _ _ _⟩

/-- **C105 fails for the settings**: in the child of a program with workers a call of `config.set(pool_size=0)` after
one log never returns. -/
theorem C105_config_set_in_the_child_fails : ∃ e, EReach Eng.init e ∧ Quiescent e ∧
    ∃ c t, EReach e.forked c ∧ Accepted c t ∧ ∀ c', EReach c c' → Accepted c' t := by
  obtain ⟨e, h, hq, hm, hl, hmq, hps, hst, hel, hsl, ⟨p, hp, hcap, hpq, hps', _⟩, hcalls, hseq⟩ := one_worker_quiet
  obtain ⟨c, hc, hidle, hcc, hr, h1, h2, h3, h4, h5, h6, h7⟩ := log_in_the_child hm hl hp hcap hcalls
  obtain ⟨c', hc', hpc, hr'⟩ := begins_to_stop hidle (h1.trans hm) (h2.trans hl) (h3.trans hmq) (h4.trans hps)
    (h5.trans hst) (h6.trans hel) (h7.trans hsl) hr (by simp [Pool.forked, hps'])
  have hacc : ∀ {x : Eng}, x.pc 5 = .cStopping 0 → Accepted x 5 := fun hx => by unfold Accepted; simp [hx]
  refine ⟨e, h, hq, c', 5, hc.trans hc', hacc hpc, fun c'' hc'' => hacc ?_⟩
  exact (C105_stop_of_the_old_pool_hangs e c' (hc.trans hc') 5 0 (by omega)
    ⟨.inl hpc, _, hr', rfl, by simp⟩ c'' hc'').2.trans hpc

/-! ### A fork while another thread is exchanging engines -/

/-- The places in which threads of the child can be while `Engine.lock` is held by a thread that does not exist. -/
def Barred : PC → Prop
  | .idle | .wFirst _ | .bLock _ | .cWait _ | .cLocked _ | .cEngine | .cDone | .xBlock => True
  | _ => False

/-- What is true of such a child. -/
structure Hung (e c : Eng) : Prop where
  lock : c.g.engLock ≠ none
  mode : c.g.mode ≠ .direct
  seq : c.g.seq = e.g.seq
  dead : DeadBelow e.g.loads c
  loads : c.g.loads = e.g.loads
  barred : ∀ t, Barred (c.pc t)
  calls : ∀ x ∈ c.g.calls, x ∈ e.g.calls ∨ ∃ t, c.pc t = .wFirst x.2 ∨ c.pc t = .bLock x.2

theorem Hung_step {e c c' : Eng} (hs : EStep c c') (h : Hung e c) : Hung e c' := by
  have hd := DeadBelow_step h.dead hs
  cases hs with
  | pool k p p' a hk hr hp hput hstop =>
    have := (hp.dead (h.dead.2 k (by have := h.loads; omega) p hr)).2.2.1
    exact ⟨h.lock, h.mode, by show c.g.seq ++ a.log?.toList = _; rw [this, h.seq]; simp, hd, h.loads, h.barred, h.calls⟩
  | thread t g' p' hst =>
    have ht := h.barred t
    have key : g'.engLock = c.g.engLock ∧ g'.mode = c.g.mode ∧ g'.seq = c.g.seq ∧ g'.loads = c.g.loads ∧ Barred p' ∧
        (∀ l, c.pc t ≠ .wFirst l ∧ c.pc t ≠ .bLock l) ∧
        ∀ x ∈ g'.calls, x ∈ c.g.calls ∨ p' = .wFirst x.2 ∨ p' = .bLock x.2 := by
      have h1 := h.lock
      have h2 := h.mode
      generalize c.pc t = pc at hst ht
      generalize c.g = g at hst h1 h2
      cases hst with
      | callDirect l fresh hm => exact absurd hm h2
      | wLock l hl => exact absurd hl h1
      | bAcquire l hl => exact absurd hl h1
      | cEngineEnter hl => exact absurd hl h1
      | xLock hl => exact absurd hl h1
      | cStore ch => cases ch <;> exact ⟨rfl, rfl, rfl, rfl, trivial, by simp, fun x hx => .inl hx⟩
      | callFirst l =>
        refine ⟨rfl, rfl, rfl, rfl, trivial, by simp, fun x hx => ?_⟩
        rcases List.mem_append.1 hx with hx | hx
        · exact .inl hx
        · rw [List.mem_singleton.1 hx]; exact .inr (.inl rfl)
      | callBlocked l =>
        refine ⟨rfl, rfl, rfl, rfl, trivial, by simp, fun x hx => ?_⟩
        rcases List.mem_append.1 hx with hx | hx
        · exact .inl hx
        · rw [List.mem_singleton.1 hx]; exact .inr (.inr rfl)
      | cCall => exact ⟨rfl, rfl, rfl, rfl, trivial, by simp, fun x hx => .inl hx⟩
      | cAcquire => exact ⟨rfl, rfl, rfl, rfl, trivial, by simp, fun x hx => .inl hx⟩
      | cReject => exact ⟨rfl, rfl, rfl, rfl, trivial, by simp, fun x hx => .inl hx⟩
      | cSame => exact ⟨rfl, rfl, rfl, rfl, trivial, by simp, fun x hx => .inl hx⟩
      | cDone => exact ⟨rfl, rfl, rfl, rfl, trivial, by simp, fun x hx => .inl hx⟩
      | xCall => exact ⟨rfl, rfl, rfl, rfl, trivial, by simp, fun x hx => .inl hx⟩
      | _ => exact absurd ht (by simp [Barred])
    obtain ⟨k1, k2, k3, k4, k5, k6, k7⟩ := key
    refine ⟨by rw [show _ = _ from k1]; exact h.lock, by rw [show _ = _ from k2]; exact h.mode, k3.trans h.seq, hd,
      k4.trans h.loads, fun s => ?_, fun x hx => ?_⟩
    · by_cases hst' : s = t
      · subst hst'; dsimp only; rw [setFn_self]; exact k5
      · dsimp only; rw [setFn_ne _ _ hst']; exact h.barred s
    · rcases k7 x hx with hx | hx
      · rcases h.calls x hx with hy | ⟨s, hy⟩
        · exact .inl hy
        · refine .inr ⟨s, ?_⟩
          have hst' : s ≠ t := by
            rintro rfl
            rcases hy with hy | hy
            · exact (k6 _).1 hy
            · exact (k6 _).2 hy
          dsimp only; rw [setFn_ne _ _ hst']; exact hy
      · exact .inr ⟨t, by dsimp only; rw [setFn_self]; exact hx⟩

/-- **C105, a fork in the middle of a change**: if another thread was writing the first log of the program, exchanging
engines or executing the exit hook when the program forked (it holds `Engine.lock` and the writes are not direct), the
child handles no log ever again, and no log call of it returns. -/
theorem C105_fork_during_a_change_hangs (e : Eng) (hlock : e.g.engLock ≠ none) (hm : e.g.mode ≠ .direct) (c : Eng)
    (hc : EReach e.forked c) : c.g.seq = e.g.seq ∧ ∀ l, ¬ Written e l → ¬ Returned c l := by
  have key : Hung e c := by
    induction hc with
    | init => exact ⟨hlock, hm, rfl, DeadBelow_forked e, rfl, fun t => trivial, fun x hx => .inl hx⟩
    | step _ hs ih => exact Hung_step hs ih
  refine ⟨key.seq, fun l hn hr => ?_⟩
  obtain ⟨⟨s, hs⟩, hin⟩ := hr
  rcases key.calls _ hs with hx | ⟨t, hx⟩
  · exact hn ⟨s, hx⟩
  · refine hin t ?_
    unfold InCall
    rcases hx with hx | hx <;> simp [hx]

/-- **C105 fails for a fork during the first log**: there is a program without workers, one of whose threads is inside
its first log call; in a child made at that moment a log call never returns. -/
theorem C105_fork_during_the_first_log_fails : ∃ e, EReach Eng.init e ∧ AllSync e ∧
    ∃ c t l, EReach e.forked c ∧ InCall c t l ∧ ∀ c', EReach c c' → ¬ Returned c' l ∧ timesHandled c' l = 0 := by
  obtain ⟨e, he, hloads, hcalls, hmode, hlock, hseq⟩ : ∃ e, EReach Eng.init e ∧ e.g.loads = 0 ∧ e.g.calls = [(0, 3)] ∧
      e.g.mode = .first ∧ e.g.engLock = some 0 ∧ e.g.seq = [] := by
    have a1 := (EReach.init (e₀ := Eng.init)).th 0 (.callFirst _ 3 (by intro x hx; exact nomatch hx) rfl)
    have a2 := a1.th 0 (.wLock _ _ rfl)
    exact ⟨_, a2, rfl, rfl, rfl, rfl, rfl⟩
  have b1 := (EReach.init (e₀ := e.forked)).th 5 (.callFirst _ 4 (by
    intro x hx
    rw [show e.forked.g.calls = [(0, 3)] from hcalls] at hx
    rw [List.mem_singleton.1 hx]
    decide) hmode)
  refine ⟨e, he, fun k hk => by omega, _, 5, 4, b1, .inl rfl, fun c' hc' => ?_⟩
  have := C105_fork_during_a_change_hangs e (by simp [hlock]) (by simp [hmode]) c' (b1.trans hc')
  refine ⟨this.2 4 ?_, ?_⟩
  · rintro ⟨t, ht⟩
    rw [hcalls] at ht
    cases List.mem_singleton.1 ht
  · unfold timesHandled; rw [this.1, hseq]; rfl

end Polog
