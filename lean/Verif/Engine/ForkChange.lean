import Verif.Engine.ForkProps
import Mathlib.Logic.Relation

/-! A child process that changes `pool_size` or `max_queue_size` (C105), and runs that meet the hypotheses of the theorems
about child processes. -/

namespace Polog
open EngineSpec

/-- Internal steps of a pool. -/
def PInternal : Pool → Pool → Prop := Relation.ReflTransGen fun p p' => PStep p .internal p'

theorem EReach.internal {e : Eng} {k : Nat} {p p' : Pool} (hk : k < e.g.loads) (hr : e.g.real k = .pool p)
    (h : PInternal p p') : EReach e ⟨{ e.g with real := setFn e.g.real k (.pool p') }, e.pc⟩ := by
  induction h with
  | refl =>
    have : setFn e.g.real k (.pool p) = e.g.real := by
      funext j
      by_cases hj : j = k
      · subst hj; rw [setFn_self, hr]
      · rw [setFn_ne _ _ hj]
    rw [this]
    exact .init
  | @tail q q' _ hs ih =>
    have := ih.po k hk (setFn_self _ _ _) hs (by simp) (by simp)
    have heq : setFn (setFn e.g.real k (.pool q)) k (.pool q') = setFn e.g.real k (.pool q') := by
      funext j
      by_cases hj : j = k
      · subst hj; rw [setFn_self, setFn_self]
      · rw [setFn_ne _ _ hj, setFn_ne _ _ hj, setFn_ne _ _ hj]
    simp only [PLabel.log?, Option.toList_none, List.append_nil, heq] at this
    exact this

theorem joins {p : Pool} (hd : ∀ i, p.worker i = .exited) : ∀ n j, p.size - j = n → j ≤ p.size →
    PInternal { p with stop := .joining j } { p with stop := .done }
  | 0, j, hn, hj => by
    obtain rfl : j = p.size := by omega
    exact .single (.stopped _ rfl)
  | n + 1, j, hn, hj =>
    .head (.join { p with stop := .joining j } j rfl (by show j < p.size; omega) (hd j))
      (joins hd n (j + 1) (by omega) (by omega))

theorem flags : ∀ n (p : Pool) j, p.size - j = n → j ≤ p.size → (∀ i, p.worker i = .exited) →
    ∃ f, PInternal { p with stop := .flagging j } { p with flag := f, stop := .done }
  | 0, p, j, hn, hj, hd => by
    obtain rfl : j = p.size := by omega
    exact ⟨p.flag, .head (.flagged { p with stop := .flagging p.size } rfl) (joins hd _ 0 rfl (Nat.zero_le _))⟩
  | n + 1, p, j, hn, hj, hd => by
    obtain ⟨f, hf⟩ := flags n { p with flag := setFn p.flag j true } (j + 1) (by show p.size - (j + 1) = n; omega)
      (by show j + 1 ≤ p.size; omega) hd
    exact ⟨f, .head (.setFlag { p with stop := .flagging j } j rfl (by show j < p.size; omega)) hf⟩

/-- `stop()` of a pool without workers and logs ends. -/
theorem stop_of_dead {p : Pool} (hd : ∀ i, p.worker i = .exited) (hq : p.queue = []) :
    ∃ f, PInternal { p with stop := .polling } { p with flag := f, stop := .done } := by
  obtain ⟨f, hf⟩ := flags p.size p 0 rfl (Nat.zero_le _) hd
  exact ⟨f, .head (.drained { p with stop := .polling } rfl hq) hf⟩

theorem dead_pool_reload {c : Eng} (t : Nat) (hidle : ∀ t, c.pc t = .idle) (hm : c.g.mode = .direct) {k : Nat}
    (hl : c.g.loads = k + 1) (hst : c.g.started = true) (hel : c.g.engLock = none) (hsl : c.g.setLock = none) {p : Pool}
    (hp : c.g.real k = .pool p) (hs : p.stop = .none) (hd : ∀ i, p.worker i = .exited) (hq : p.queue = []) (ch : Change)
    (ha : ch.allowed c.g = true) (hc : ch.changes c.g = true) :
    ∃ c', EReach c c' ∧ (∀ t, c'.pc t = .idle) ∧ c'.g.mode = .direct ∧ c'.g.loads = k + 2 ∧ c'.g.engLock = none ∧
      c'.g.setLock = none ∧ c'.g.started = true ∧ c'.g.poolSize = (ch.apply c.g).poolSize ∧
      c'.g.maxQueue = (ch.apply c.g).maxQueue ∧
      c'.g.real (k + 1) = fabric (ch.apply c.g).poolSize (ch.apply c.g).maxQueue ∧ c'.g.seq = c.g.seq ∧
      c'.g.calls = c.g.calls := by
  obtain ⟨⟨setLock, engLock, started, poolSize, maxQueue, mode, loads, real, inits, hooks, calls, seq, late⟩, pc⟩ := c
  dsimp only at hidle hm hl hst hel hsl hp
  obtain rfl : pc = fun _ => .idle := funext hidle
  subst hm hl hst hel hsl
  generalize hps : (ch.apply _).poolSize = n
  generalize hmq : (ch.apply _).maxQueue = m
  have hch : ch.apply ⟨some t, none, true, poolSize, maxQueue, .direct, k + 1, real, inits, hooks, calls, seq, late⟩ =
      ⟨some t, none, true, n, m, .direct, k + 1, real, inits, hooks, calls, seq, late⟩ := by
    cases ch <;> simp only [Change.apply] at hps hmq ⊢ <;> subst hps hmq <;> rfl
  have ha' : ch.allowed ⟨some t, none, true, poolSize, maxQueue, .direct, k + 1, real, inits, hooks, calls, seq, late⟩ = true := by
    cases ch <;> exact ha
  have hc' : ch.changes ⟨some t, none, true, poolSize, maxQueue, .direct, k + 1, real, inits, hooks, calls, seq, late⟩ = true := by
    cases ch <;> exact hc
  have a0 := EReach.init (e₀ := (⟨⟨none, none, true, poolSize, maxQueue, .direct, k + 1, real, inits, hooks, calls, seq, late⟩, fun _ => .idle⟩ : Eng))
  have b1 := a0.th t (.cCall _ ch)
  have b2 := b1.th t (by dsimp only; rw [setFn_self]; exact .cAcquire _ ch rfl)
  have b3 := b2.th t (by dsimp only; rw [setFn_self]; exact .cStore _ ch ha' hc')
  dsimp only at b3
  rw [hch] at b3
  have b4 := b3.th t (by dsimp only; rw [setFn_self]; exact .cEngineEnter _ rfl)
  have b5 := b4.th t (by dsimp only; rw [setFn_self]; exact .cEngineLeave _)
  have b6 := b5.th t (by dsimp only; rw [setFn_self]; exact .cStarted _ rfl)
  have b7 := b6.th t (by dsimp only; rw [setFn_self]; exact .cBlock _ rfl)
  have b8 := b7.th t (by dsimp only; rw [setFn_self]; exact .cSwap _)
  have b9 := b8.th t (by dsimp only; rw [setFn_self]; exact .cStopPool _ k p _ rfl hp (.stopCall _ hs))
  obtain ⟨f, hf⟩ := stop_of_dead hd hq
  have b10 := b9.trans (EReach.internal (k := k) (by show k < k + 1; omega) (setFn_self _ _ _) hf)
  have b11 := b10.th t (by dsimp only; rw [setFn_self]; exact .cStopped _ k { p with flag := f, stop := .done } (setFn_self _ _ _) rfl)
  have b12 := b11.th t (by dsimp only; rw [setFn_self]; exact .cLoad _)
  have b13 := b12.th t (by dsimp only; rw [setFn_self]; exact .cUnblock _)
  have b14 := b13.th t (by dsimp only; rw [setFn_self]; exact .cRelease _)
  have b15 := b14.th t (by dsimp only; rw [setFn_self]; exact .cDone _)
  refine ⟨_, b15, fun s => ?_, rfl, rfl, rfl, rfl, rfl, rfl, rfl, setFn_self _ _ _, rfl, rfl⟩
  by_cases hst' : s = t
  · subst hst'; exact setFn_self _ _ _
  · dsimp only; simp only [setFn_ne _ _ hst']

/-- The first log that a new pool handles. -/
theorem pool_handles {c : Eng} (t : Nat) (ht : c.pc t = .idle) (hm : c.g.mode = .direct) {k : Nat}
    (hk : c.g.loads = k + 1) {n m : Nat} (hn : n ≠ 0) (hr : c.g.real k = .pool (Pool.init n m)) (l : Log)
    (hl : ¬ Written c l) (h0 : timesHandled c l = 0) :
    ∃ c', EReach c c' ∧ c'.pc = c.pc ∧ Written c' l ∧ timesHandled c' l = 1 := by
  have a1 := (EReach.init (e₀ := c)).th t (by
    rw [ht]; exact .callDirect _ l (fun x hx hxl => hl ⟨x.1, by rw [← hxl]; exact hx⟩) hm)
  have a2 := a1.th t (by dsimp only; rw [setFn_self]; exact .fetch _ l k hk)
  have a3 := a2.th t (by
    dsimp only; rw [setFn_self]
    exact .handPool _ l k _ _ hr (.put _ _ (by show m = 0 ∨ 0 < m; omega)))
  have a4 := a3.po k (p := { Pool.init n m with queue := [l] }) (by show k < c.g.loads; omega) (setFn_self _ _ _)
    (.take _ 0 l [] (by show 0 < n; omega) rfl rfl) (by simp) (by simp)
  have a5 := a4.po k (p := { Pool.init n m with worker := setFn (Pool.init n m).worker 0 (.busy l) })
    (by show k < c.g.loads; omega) (setFn_self _ _ _) (.handled _ 0 l (by show 0 < n; omega) rfl) (by simp) (by simp)
  refine ⟨_, a5, ?_, ⟨t, List.mem_append_right _ List.mem_cons_self⟩, ?_⟩
  · funext s
    dsimp only
    by_cases hs : s = t
    · subst hs; rw [setFn_self, ht]
    · rw [setFn_ne _ _ hs, setFn_ne _ _ hs, setFn_ne _ _ hs]
  · show ((c.g.seq ++ []) ++ [l]).count l = 1
    have : c.g.seq.count l = 0 := h0
    simp [List.count_append, this]

/-- **C105, how a child gets workers**: if the program had nothing to do when it forked, a call of
`config.set(pool_size=...)` or `config.set(max_queue_size=...)` in the child that changes the value, made before
anything is logged there, goes through; afterwards the engine is as configured, and a log written in the child is
handled. -/
theorem C105_change_of_settings_in_the_child (e : Eng) (h : EReach Eng.init e) (hq : Quiescent e)
    (hst : e.g.started = true) (hps : e.g.poolSize ≠ 0) (ch : Change) (hacc : Acceptable e ch) (hne : ¬ HasValue e ch) :
    ∃ c, EReach e.forked c ∧ (∀ t, c.pc t = .idle) ∧ HasValue c ch ∧
      (∃ k, c.g.loads = k + 1 ∧ AsConfigured c.g.poolSize c.g.maxQueue (c.g.real k)) ∧
      ∀ l, ¬ Written e l → ∃ c', EReach c c' ∧ Returned c' l ∧ timesHandled c' l = 1 := by
  have hI := EInv_reach EInv_init h
  have hel : e.g.engLock = none := by
    cases hl : e.g.engLock with
    | none => rfl
    | some t => have := (hI.s.eng t).2 hl; rw [hq.1 t] at this; cases this
  have hsl : e.g.setLock = none := by
    cases hl : e.g.setLock with
    | none => rfl
    | some t => have := (hI.s.set t).2 hl; rw [hq.1 t] at this; cases this
  obtain ⟨⟨_, hload, hm, _⟩, hcur⟩ : Running e.g := by
    rcases hI.s.free hel with hn | hr
    · have := hn.1; rw [hst] at this; cases this
    · exact hr
  obtain ⟨k, hk⟩ : ∃ k, e.g.loads = k + 1 := ⟨e.g.loads - 1, by omega⟩
  obtain ⟨p, hp, hpsz, hpcap⟩ := (C66_engine_as_configured e h
    (fun t ha => by simp [Accepted, hq.1 t] at ha) k hk).2 hps
  have hstop : p.stop = .none := hcur p (by rw [hk]; exact hp)
  have hqueue : p.queue = [] := by
    cases hpq : p.queue with
    | nil => rfl
    | cons l q => exact absurd ⟨by omega, p, hp, by rw [hpq]; exact List.mem_cons_self⟩ ((hq.2 k hk.symm).1 l)
  have ha : ch.allowed e.g = true := by
    cases ch with
    | poolSize n =>
      simp only [Change.allowed, Acceptable] at hacc ⊢
      by_cases hn : n = 0
      · simp [hacc hn]
      · simp [hn]
    | maxQueue n => simp [Change.allowed, hps]
  have hc : ch.changes e.g = true := by
    cases ch <;> simp only [Change.changes, HasValue] at hne ⊢ <;> simp [Ne.symm hne]
  obtain ⟨c, hreach, hidle, hcm, hcl, _, _, _, hcp, hcq, hcr, hcs, hcc⟩ := dead_pool_reload (c := e.forked) (p := p.forked) 0
    (fun _ => rfl) hm hk hst hel hsl (by show (e.g.real k).forked = _; rw [hp]; rfl) (by simp [Pool.forked, hstop])
    (fun _ => rfl) hqueue ch (by cases ch <;> exact ha) (by cases ch <;> exact hc)
  refine ⟨c, hreach, hidle, ?_, ⟨k + 1, hcl, ?_⟩, fun l hl => ?_⟩
  · cases ch
    · exact hcp
    · exact hcq
  · rw [hcr, hcp, hcq]
    constructor
    · intro hz; exact if_pos hz
    · intro hz; exact ⟨Pool.init (ch.apply e.forked.g).poolSize (ch.apply e.forked.g).maxQueue, if_neg hz, rfl, rfl⟩
  · have hw : ¬ Written c l := fun ⟨t, ht⟩ => hl ⟨t, by rw [hcc] at ht; exact ht⟩
    have h0 : timesHandled c l = 0 := by
      obtain ⟨loc, hL⟩ := hI.l
      unfold timesHandled
      rw [hcs]
      have hun := (hL.born l).2 fun x hx hxl => hl ⟨x.1, by rw [← hxl]; exact hx⟩
      have := hL.done l
      rw [hun] at this
      exact this
    obtain ⟨c', hr', hpc', hw', ht'⟩ : ∃ c', EReach c c' ∧ c'.pc = c.pc ∧ Written c' l ∧ timesHandled c' l = 1 := by
      by_cases hz : (ch.apply e.forked.g).poolSize = 0
      · exact C105_synchronous_log_of_the_child c 0 (hidle 0) hcm (k + 1) hcl (hcr.trans (if_pos hz)) l hw h0
      · exact pool_handles 0 (hidle 0) hcm hcl hz (hcr.trans (if_neg hz)) l hw h0
    refine ⟨c', hr', ⟨hw', fun t hin => ?_⟩, ht'⟩
    simp [InCall, hpc', hidle t] at hin

/-- The hypotheses of the last theorem, and of those about programs with workers, can be met. -/
example : ∃ e, EReach Eng.init e ∧ Quiescent e ∧ e.g.started = true ∧ e.g.poolSize ≠ 0 ∧
    Acceptable e (.poolSize 2) ∧ ¬ HasValue e (.poolSize 2) ∧ 0 < e.g.loads ∧
    ∃ c, EReach e.forked c ∧ Queued c 0 7 := by
  obtain ⟨e, h, hq, hm, hl, hmq, hps, hst, hel, hsl, ⟨p, hp, hcap, hpq, hps', _⟩, hcalls, hseq⟩ := one_worker_quiet
  obtain ⟨c, hc, _, _, hr, _, hload, _⟩ := log_in_the_child hm hl hp hcap hcalls
  exact ⟨e, h, hq, hst, by omega, fun h => (nomatch h), by simp [HasValue, hps], by omega, c, hc,
    by omega, _, hr, by simp⟩

/-- The hypotheses of the theorem about logs stuck in `stop()`. -/
example : ∃ e, EReach Eng.init e ∧ ∃ c t k, EReach e.forked c ∧ k < e.g.loads ∧ WaitsForQueue c t k := by
  obtain ⟨e, h, hq, hm, hl, hmq, hps, hst, hel, hsl, ⟨p, hp, hcap, hpq, hps', _⟩, hcalls, hseq⟩ := one_worker_quiet
  obtain ⟨c, hc, hidle, hcc, hr, h1, h2, h3, h4, h5, h6, h7⟩ := log_in_the_child hm hl hp hcap hcalls
  obtain ⟨c', hc', hpc, hr'⟩ := begins_to_stop hidle (h1.trans hm) (h2.trans hl) (h3.trans hmq) (h4.trans hps)
    (h5.trans hst) (h6.trans hel) (h7.trans hsl) hr (by simp [Pool.forked, hps'])
  exact ⟨e, h, c', 5, 0, hc.trans hc', by omega, .inl hpc, _, hr', rfl, by simp⟩

/-- A calm program without workers that has written two logs; its child writes a third one. -/
example : ∃ e, EReach Eng.init e ∧ AllSync e ∧ (∀ t, e.pc t = .idle) ∧ e.g.seq = [5] ∧
    ∃ c, EReach e.forked c ∧ AllSync c ∧ Returned c 6 ∧ ¬ Written e 6 ∧ c.g.seq = [5, 6] := by
  obtain ⟨e, he, hs, hidle, hm, hl, hr, hcalls, hseq⟩ : ∃ e, EReach Eng.init e ∧ AllSync e ∧ (∀ t, e.pc t = .idle) ∧
      e.g.mode = .direct ∧ e.g.loads = 1 ∧ e.g.real 0 = .single ∧ e.g.calls = [(0, 5)] ∧ e.g.seq = [5] := by
    obtain ⟨e, he, hm, hl, hr, hcalls, hseq, hpc, hidle⟩ : ∃ e, EReach Eng.init e ∧ e.g.mode = .direct ∧
        e.g.loads = 1 ∧ e.g.real 0 = .single ∧ e.g.calls = [(0, 5)] ∧ e.g.seq = [] ∧ e.pc 0 = .wFetch 5 ∧
        ∀ t, t ≠ 0 → e.pc t = .idle := by
      have b1 := (EReach.init (e₀ := Eng.init)).th 0 (.callFirst _ 5 (by intro x hx; exact nomatch hx) rfl)
      have b2 := b1.th 0 (.wLock _ _ rfl)
      have b3 := b2.th 0 (.wNotYet _ _ rfl)
      have b4 := b3.th 0 (.wSetLock _ _ rfl)
      have b5 := b4.th 0 (.wSetStarted _ _)
      have b6 := b5.th 0 (.wLoadSingle _ _ rfl)
      have b9 := b6.th 0 (.wRegister _ _)
      have b10 := b9.th 0 (.wDone _ _)
      refine ⟨_, b10, rfl, rfl, rfl, rfl, rfl, rfl, fun t ht => ?_⟩
      simp only [setFn_ne _ _ ht]
      rfl
    have b11 := he.th 0 (by rw [hpc]; exact .fetch _ 5 0 hl)
    have b12 := b11.th 0 (by dsimp only; rw [setFn_self]; exact .handSingle _ 5 0 hr)
    refine ⟨_, b12, fun k hk => ?_, fun t => ?_, hm, hl, hr, hcalls, ?_⟩
    · have : k < e.g.loads := hk
      obtain rfl : k = 0 := by omega
      exact hr
    · dsimp only
      by_cases ht : t = 0
      · subst ht; rw [setFn_self]
      · rw [setFn_ne _ _ ht, setFn_ne _ _ ht, hidle t ht]
    · show e.g.seq ++ [5] = _
      rw [hseq]; rfl
  have hn : ¬ Written e 6 := fun ⟨t, ht⟩ => by rw [hcalls] at ht; cases List.mem_singleton.1 ht
  have hf := (C105_fork_of_a_calm_synchronous_program e he hidle hs).1
  have a1 := (EReach.init (e₀ := e.forked)).th 5 (.callDirect _ 6 (fun x hx hxl => hn ⟨x.1, by rw [← hxl]; exact hx⟩) hm)
  have a2 := a1.th 5 (by dsimp only; rw [setFn_self]; exact .fetch _ 6 0 hl)
  have a3 := a2.th 5 (by
    dsimp only; rw [setFn_self]; exact .handSingle _ 6 0 (by show (e.g.real 0).forked = _; rw [hr]; rfl))
  refine ⟨e, he, hs, hidle, hseq, _, a3, ?_, ⟨⟨5, List.mem_append_right _ List.mem_cons_self⟩, fun t hin => ?_⟩, hn, ?_⟩
  · intro k hk
    show (e.g.real k).forked = _
    rw [hs k hk]; rfl
  · have : ∀ t, (setFn (setFn (setFn e.forked.pc 5 (.wFetch 6)) 5 (.wHand 6 0)) 5 PC.idle) t = .idle := by
      intro t; simp only [setFn]; split <;> rfl
    simp [InCall, this t] at hin
  · show e.g.seq ++ [6] = _
    rw [hseq]; rfl

end Polog
