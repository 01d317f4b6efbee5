import Verif.Engine.Configured
import Verif.Engine.Witness
import Mathlib.Data.List.Perm.Subperm

/-!
C83: the program is killed (`SIGKILL`, `os._exit`, power failure) while the asynchronous engine works: what was in its queue and in the
hands of its workers is lost. How much that can be.
-/

namespace Polog
open EngineSpec

/-- The log of a worker. -/
def WPC.log? : WPC → Option Log
  | .busy l => some l
  | _ => none

theorem length_filterMap_range {α : Type} (f : Nat → Option α) (n : Nat) : ((List.range n).filterMap f).length ≤ n := by
  have := List.length_filterMap_le f (List.range n)
  rwa [List.length_range] at this

/-- Where the logs are that were not handled. -/
theorem unhandled_places {e : Eng} (h : EReach Eng.init e) {l : Log} (hw : Written e l) (h0 : timesHandled e l = 0)
    (hlate : l ∉ e.g.late) :
    (∃ t, InCall e t l) ∨
    ∃ k p, e.g.loads = k + 1 ∧ e.g.real k = .pool p ∧ (l ∈ p.queue ∨ ∃ i, i < p.size ∧ p.worker i = .busy l) := by
  have hI := EInv_reach EInv_init h
  obtain ⟨loc, hL⟩ := hI.l
  rcases C17_nothing_vanishes_or_duplicates e h l hw with h1 | ⟨_, ⟨t, _, ht⟩ | ⟨k, hk, p, hp, hl⟩ | ⟨k, i, hk, p, hp, hi, hl⟩⟩
  · omega
  · exact .inl ⟨t, ht⟩
  · by_cases hc : k + 1 = e.g.loads
    · exact .inr ⟨k, p, hc.symm, hp, .inl hl⟩
    · exact absurd ((held_by_old hI hL hk hp (hI.r.old k (by omega) p hp)).1 l hl) hlate
  · by_cases hc : k + 1 = e.g.loads
    · exact .inr ⟨k, p, hc.symm, hp, .inr ⟨i, hi, hl⟩⟩
    · exact absurd hl ((held_by_old hI hL hk hp (hI.r.old k (by omega) p hp)).2 i l hi)

theorem length_le_of_places {e : Eng} (h : EReach Eng.init e) (hq : ∀ t, ¬ Accepted e t) (hlim : e.g.maxQueue ≠ 0)
    (more L : List Log) (hnd : L.Nodup)
    (hL : ∀ l ∈ L, l ∈ more ∨ ∃ k p, e.g.loads = k + 1 ∧ e.g.real k = .pool p ∧ (l ∈ p.queue ∨ ∃ i, i < p.size ∧ p.worker i = .busy l)) :
    L.length ≤ more.length + (e.g.maxQueue + e.g.poolSize) := by
  by_cases hex : ∃ k p, e.g.loads = k + 1 ∧ e.g.real k = .pool p
  · obtain ⟨k, p, hk, hp⟩ := hex
    obtain ⟨p', hp', hs, hc⟩ := (C66_engine_as_configured e h hq k hk).2 (C66_limited_queue_has_workers e h hlim)
    rw [hp] at hp'
    cases hp'
    have hI := EInv_reach EInv_init h
    obtain ⟨s, c, tr, hrun⟩ := hI.r.runs k (by omega) p hp
    have inv := PInv_run hrun
    have hb : p.queue.length ≤ p.cap := by rw [inv.capEq]; exact inv.bound (by rw [← inv.capEq, hc]; exact hlim)
    have hsub : L ⊆ more ++ (p.queue ++ (List.range p.size).filterMap fun i => (p.worker i).log?) := by
      intro l hl
      rcases hL l hl with h1 | ⟨k', p', hk', hp', h1⟩
      · exact List.mem_append_left _ h1
      · have : k' = k := by omega
        subst this
        rw [hp] at hp'
        cases hp'
        refine List.mem_append_right _ ?_
        rcases h1 with h1 | ⟨i, hi, h1⟩
        · exact List.mem_append_left _ h1
        · exact List.mem_append_right _ (List.mem_filterMap.2 ⟨i, List.mem_range.2 hi, by rw [h1]; rfl⟩)
    have := (List.subperm_of_subset hnd hsub).length_le
    rw [List.length_append, List.length_append] at this
    have := length_filterMap_range (fun i => (p.worker i).log?) p.size
    omega
  · have hsub : L ⊆ more := by
      intro l hl
      rcases hL l hl with h1 | ⟨k, p, hk, hp, _⟩
      · exact h1
      · exact absurd ⟨k, p, hk, hp⟩ hex
    have := (List.subperm_of_subset hnd hsub).length_le
    omega

/-- **C83**: with a limit on the queue, at every moment of every execution at which no setting is being changed, at most `max_queue_size` plus
`pool_size` logs are handed over and not handled: so many are lost at most when the program is killed then. (Partial: the logs which C17
loses in an exchange of engines are not counted.) -/
theorem C83_kill_loses_a_limited_number_partial (e : Eng) (h : EReach Eng.init e) (hq : ∀ t, ¬ Accepted e t) (hlim : e.g.maxQueue ≠ 0)
    (L : List Log) (hnd : L.Nodup) (hL : ∀ l ∈ L, Outstanding e l ∧ l ∉ e.g.late) :
    L.length ≤ e.g.maxQueue + e.g.poolSize := by
  have := length_le_of_places h hq hlim [] L hnd fun l hl => by
    obtain ⟨⟨hw, h0, hin⟩, hlate⟩ := hL l hl
    rcases unhandled_places h hw h0 hlate with ⟨t, ht⟩ | hp
    · exact absurd ht (hin t)
    · exact .inr hp
  simpa using this

/-- **C83** in executions in which no engine is exchanged while a log is on its way to it: the number counts all logs. -/
theorem C83_kill_loses_a_limited_number_in_calm_executions_partial (e : Eng) (h : CalmReach Eng.init e) (hq : ∀ t, ¬ Accepted e t)
    (hlim : e.g.maxQueue ≠ 0) (L : List Log) (hnd : L.Nodup) (hL : ∀ l ∈ L, Outstanding e l) :
    L.length ≤ e.g.maxQueue + e.g.poolSize :=
  C83_kill_loses_a_limited_number_partial e h.reach hq hlim L hnd fun l hl =>
    ⟨hL l hl, by rw [(Calm_reach EInv_init ⟨rfl, by simp [Eng.init], by simp [Eng.init]⟩ h).late]; exact List.not_mem_nil⟩

/-- **C83**, the logs counted that are still in calls: with `n` threads at most `n` more. -/
theorem C83_kill_loses_with_those_in_calls_partial (e : Eng) (h : EReach Eng.init e) (hq : ∀ t, ¬ Accepted e t) (hlim : e.g.maxQueue ≠ 0)
    (n : Nat) (hn : ∀ t, n ≤ t → e.pc t = .idle) (L : List Log) (hnd : L.Nodup)
    (hL : ∀ l ∈ L, Written e l ∧ timesHandled e l = 0 ∧ l ∉ e.g.late) :
    L.length ≤ n + (e.g.maxQueue + e.g.poolSize) := by
  have := length_le_of_places h hq hlim ((List.range n).filterMap fun t => (e.pc t).log?) L hnd fun l hl => by
    obtain ⟨hw, h0, hlate⟩ := hL l hl
    rcases unhandled_places h hw h0 hlate with ⟨t, ht⟩ | hp
    · have hlog := (log?_iff_inCall e t l).2 ht
      refine .inl (List.mem_filterMap.2 ⟨t, List.mem_range.2 ?_, hlog⟩)
      apply Classical.byContradiction
      intro hge
      rw [hn t (by omega)] at hlog
      cases hlog
    · exact .inr hp
  have := length_filterMap_range (fun t => (e.pc t).log?) n
  omega

/-- **C83** with the synchronous engine: nothing that was handed over can be lost. -/
theorem C83_sync_loses_nothing (e : Eng) (h : EReach Eng.init e) (hs : AllSync e) (l : Log) : ¬ Outstanding e l := by
  rintro ⟨hw, h0, hin⟩
  rcases C17_sync_exactly_once e h hs l hw with h1 | ⟨_, t, _, ht⟩
  · omega
  · exact hin t ht

/-- After the first log of a program that has set `pool_size` to 1. -/
theorem one_worker_reached : ∃ e, EReach Eng.init e ∧ (∀ t, e.pc t = .idle) ∧ e.g.mode = .direct ∧ e.g.loads = 1 ∧
    e.g.maxQueue = 0 ∧ (∃ p, e.g.real 0 = .pool p ∧ p.cap = 0) ∧ e.g.calls = [(0, 0)] ∧ e.g.seq = [] := by
  have a1 := (EReach.init (e₀ := Eng.init)).th 1 (.cCall _ (.poolSize 1))
  have a2 := a1.th 1 (.cAcquire _ _ rfl)
  have a3 := a2.th 1 (.cStore _ _ rfl rfl)
  have a4 := a3.th 1 (.cEngineEnter _ rfl)
  have a5 := a4.th 1 (.cEngineLeave _)
  have a6 := a5.th 1 (.cNotStarted _ rfl)
  have a7 := a6.th 1 (.cDone _)
  have b1 := a7.th 0 (.callFirst _ 0 (by intro x hx; exact nomatch hx) rfl)
  have b2 := b1.th 0 (.wLock _ _ rfl)
  have b3 := b2.th 0 (.wNotYet _ _ rfl)
  have b4 := b3.th 0 (.wSetLock _ _ rfl)
  have b5 := b4.th 0 (.wSetStarted _ _)
  have b6 := b5.th 0 (.wLoadMulti _ _ (by decide))
  have b7 := b6.th 0 (.wLoadQueue _ _)
  have b8 := b7.th 0 (.wLoadWorkers _ _ _)
  have b9 := b8.th 0 (.wRegister _ _)
  have c1 := b9.th 0 (.wDone _ _)
  have c2 := c1.th 0 (.fetch _ _ 0 rfl)
  have c3 := c2.th 0 (.handPool _ _ 0 _ _ rfl (.put _ _ (.inl rfl)))
  refine ⟨_, c3, fun t => ?_, rfl, rfl, rfl, ⟨_, rfl, rfl⟩, rfl, rfl⟩
  simp only [setFn]
  split
  · rfl
  · split
    · rfl
    · rfl

/-- **C83 fails without a limit** (the default of `max_queue_size`): for every number `n` there is an execution, with one worker and nobody
changing a setting, in which more than `n` logs were handed over and are lost when the program is killed. -/
theorem C83_kill_loses_a_limited_number_fails (n : Nat) : ∃ e, EReach Eng.init e ∧ (∀ t, e.pc t = .idle) ∧ e.g.maxQueue = 0 ∧
    ∃ L : List Log, L.Nodup ∧ n < L.length ∧ ∀ l ∈ L, Outstanding e l := by
  have key : ∃ e, EReach Eng.init e ∧ (∀ t, e.pc t = .idle) ∧ e.g.mode = .direct ∧ e.g.loads = 1 ∧
      e.g.maxQueue = 0 ∧ (∃ p, e.g.real 0 = .pool p ∧ p.cap = 0) ∧ e.g.calls = (List.range (n + 1)).map (fun l => (0, l)) ∧
      e.g.seq = [] := by
    induction n with
    | zero => exact one_worker_reached
    | succ n ih =>
      obtain ⟨e, hr, hidle, hmode, hl, hq, ⟨p, hp, hc⟩, hcalls, hseq⟩ := ih
      have r1 := hr.th 0 (by
        rw [hidle 0]
        refine .callDirect _ (n + 1) ?_ hmode
        rw [hcalls]
        intro x hx
        obtain ⟨y, hy, rfl⟩ := List.mem_map.1 hx
        have := List.mem_range.1 hy
        exact Nat.ne_of_lt this)
      have r2 := r1.th 0 (.fetch _ (n + 1) 0 hl)
      have r3 := r2.th 0 (.handPool _ (n + 1) 0 _ _ hp (.put _ _ (.inl hc)))
      refine ⟨_, r3, fun t => ?_, hmode, hl, hq, ⟨{ p with queue := p.queue ++ [n + 1] }, by
        show setFn e.g.real 0 (.pool { p with queue := p.queue ++ [n + 1] }) 0 = _
        exact setFn_self .., hc⟩, ?_, hseq⟩
      · simp only [setFn]
        split
        · rfl
        · exact hidle t
      · show e.g.calls ++ [(0, n + 1)] = _
        rw [hcalls, List.range_succ (n := n + 1), List.map_append]
        rfl
  obtain ⟨e, hr, hidle, _, _, hq, _, hcalls, hseq⟩ := key
  refine ⟨e, hr, hidle, hq, List.range (n + 1), List.nodup_range, by simp, fun l hl => ⟨⟨0, ?_⟩, ?_, fun t ht => ?_⟩⟩
  · rw [hcalls]; exact List.mem_map.2 ⟨l, hl, rfl⟩
  · unfold timesHandled; rw [hseq]; rfl
  · have := (log?_iff_inCall e t l).2 ht
    rw [hidle t] at this
    cases this

/-- After `config.set(pool_size=1)` and `config.set(max_queue_size=1)`. -/
theorem limited_reached : EReach Eng.init ⟨{ Glob.init with poolSize := 1, maxQueue := 1 }, fun _ => .idle⟩ := by
  have back : ∀ {g : Glob} {pc : Nat → PC}, EReach Eng.init ⟨g, pc⟩ → pc = (fun _ => .idle) → EReach Eng.init ⟨g, fun _ => .idle⟩ := by
    rintro g pc h rfl; exact h
  have a1 := (EReach.init (e₀ := Eng.init)).th 1 (.cCall _ (.poolSize 1))
  have a2 := a1.th 1 (.cAcquire _ _ rfl)
  have a3 := a2.th 1 (.cStore _ _ rfl rfl)
  have a4 := a3.th 1 (.cEngineEnter _ rfl)
  have a5 := a4.th 1 (.cEngineLeave _)
  have a6 := a5.th 1 (.cNotStarted _ rfl)
  have a7 := a6.th 1 (.cDone _)
  have a8 : EReach Eng.init ⟨{ Glob.init with poolSize := 1 }, fun _ => .idle⟩ := by
    refine back a7 (funext fun t => ?_)
    simp only [setFn]
    by_cases h : t = 1 <;> simp [h, Eng.init]
  have d1 := a8.th 1 (.cCall _ (.maxQueue 1))
  have d2 := d1.th 1 (.cAcquire _ _ rfl)
  have d3 := d2.th 1 (.cStore _ _ rfl rfl)
  have d4 := d3.th 1 (.cEngineEnter _ rfl)
  have d5 := d4.th 1 (.cEngineLeave _)
  have d6 := d5.th 1 (.cNotStarted _ rfl)
  have d7 := d6.th 1 (.cDone _)
  refine back d7 (funext fun t => ?_)
  simp only [setFn]
  by_cases h : t = 1 <;> simp [h]

/-- The bound is reached: one worker, a queue of one place, two logs that would be lost. -/
example : ∃ e, EReach Eng.init e ∧ (∀ t, ¬ Accepted e t) ∧ e.g.maxQueue = 1 ∧ e.g.poolSize = 1 ∧ e.g.late = [] ∧
    Outstanding e 5 ∧ Outstanding e 6 := by
  have b1 := limited_reached.th 0 (.callFirst _ 5 (by intro x hx; exact nomatch hx) rfl)
  have b2 := b1.th 0 (.wLock _ _ rfl)
  have b3 := b2.th 0 (.wNotYet _ _ rfl)
  have b4 := b3.th 0 (.wSetLock _ _ rfl)
  have b5 := b4.th 0 (.wSetStarted _ _)
  have b6 := b5.th 0 (.wLoadMulti _ _ (by decide))
  have b7 := b6.th 0 (.wLoadQueue _ _)
  have b8 := b7.th 0 (.wLoadWorkers _ _ _)
  have b9 := b8.th 0 (.wRegister _ _)
  have c1 := b9.th 0 (.wDone _ _)
  have c2 := c1.th 0 (.fetch _ _ 0 rfl)
  have c3 := c2.th 0 (.handPool _ _ 0 _ _ rfl (.put _ _ (.inr (by decide))))
  have c4 := c3.po 0 (by decide) rfl (.take _ 0 5 [] (by decide) rfl rfl) (by simp) (by simp)
  have c5 := c4.th 0 (.callDirect _ 6 (by
    intro x hx
    have : x = (0, 5) := List.mem_singleton.1 hx
    subst this; decide) rfl)
  have c6 := c5.th 0 (.fetch _ _ 0 rfl)
  have c7 := c6.th 0 (.handPool _ _ 0 _ _ rfl (.put _ _ (.inr (by decide))))
  have key : ∀ e, EReach Eng.init e → (∀ t, e.pc t = .idle) → e.g.maxQueue = 1 → e.g.poolSize = 1 → e.g.late = [] →
      e.g.calls = [(0, 5), (0, 6)] → e.g.seq = [] →
      ∃ e, EReach Eng.init e ∧ (∀ t, ¬ Accepted e t) ∧ e.g.maxQueue = 1 ∧ e.g.poolSize = 1 ∧ e.g.late = [] ∧
        Outstanding e 5 ∧ Outstanding e 6 := by
    intro e hr hidle h1 h2 h3 hc hs
    have ho : ∀ l, (0, l) ∈ e.g.calls → Outstanding e l := fun l hl =>
      ⟨⟨0, hl⟩, by unfold timesHandled; rw [hs]; rfl, fun t ht => by
        have := (log?_iff_inCall e t l).2 ht
        rw [hidle t] at this
        cases this⟩
    exact ⟨e, hr, fun t => by unfold Accepted; rw [hidle t]; simp, h1, h2, h3, ho 5 (by rw [hc]; simp), ho 6 (by rw [hc]; simp)⟩
  refine key _ c7 (fun t => ?_) rfl rfl rfl rfl rfl
  simp only [setFn]
  split
  · rfl
  · rfl

end Polog
