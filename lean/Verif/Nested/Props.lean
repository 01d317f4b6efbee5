import Verif.Nested.Lemmas

/-!
C91: handlers that write logs themselves.

Every log, also one written by a handler while another log is handled, is handled at most once and never vanishes, with any
number of threads, workers and reloads. Without reloads and without a limit of the queue everything that is written is
handled: no schedule gets stuck. With a limit of the queue, during a change of `pool_size`, and at the end of the program,
one handler that writes one log is enough to stop the whole program for ever.
-/

namespace Polog

open NestedSpec Nst

/-- **C91** whatever threads write and whatever their handlers write, with changes of the settings at any moment and the
exit of the program: no log is handled more often than it was written; and when everything is quiet, each has been handled
exactly as often as it was written. -/
theorem C91_no_log_is_lost_or_doubled (clients size cap : Nat) (s : NState)
    (h : NReach true (.start clients size cap) s) :
    (∀ x, s.sh.handled.count x ≤ (due s).count x) ∧ (AllQuiet s → s.sh.handled.Perm (due s)) := by
  have hc := reach_conserved h (start_conserved clients size cap)
  refine ⟨fun x => ?_, fun hq => List.perm_iff_count.mpr (fun x => ?_)⟩
  · rw [hc x]; omega
  · rw [hc x, quiet_places hq]; simp

/-- **C91, without reloads and without a limit of the queue**: from every state that can be reached,
(1) getting on with the written logs cannot go on for ever, and
(2) wherever it ends, all calls have returned and every log, also those written by handlers, was handled exactly once.
Missing: `max_queue_size`, changes of `pool_size` and the exit of the program, see the theorems ending in `_fails`. -/
theorem C91_everything_is_handled_partial (clients size : Nat) (s : NState)
    (h : NReach false (.start clients size 0) s) :
    (¬ ∃ f : Nat → NState, f 0 = s ∧ ∀ n, GetsOn (f n) (f (n + 1))) ∧
    (∀ s', GoesOn s s' → (¬ ∃ s'', GetsOn s' s'') → AllQuiet s' ∧ s'.sh.handled.Perm (due s')) := by
  constructor
  · rintro ⟨f, _, hf⟩
    have key : ∀ n, weight (f n) + n ≤ weight (f 0) := by
      intro n
      induction n with
      | zero => exact Nat.le_refl _
      | succ n ih => have := getsOn_weight (hf n); omega
    have := key (weight (f 0) + 1)
    omega
  · intro s' hg hend
    have hr := goesOn_reach hg h
    have hq : AllQuiet s' := Classical.byContradiction (fun hn => hend (calm_moves (calm_reach hr) hn))
    have hc := reach_conserved hr (start_conserved clients size 0)
    exact ⟨hq, List.perm_iff_count.mpr (fun x => by rw [hc x, quiet_places hq]; simp)⟩

/-- So it is always possible to come to rest. -/
theorem C91_rest_is_reached_partial (clients size : Nat) (s : NState) (h : NReach false (.start clients size 0) s) :
    ∃ s', GoesOn s s' ∧ s'.sh.written = s.sh.written ∧ AllQuiet s' ∧ s'.sh.handled.Perm (due s) := by
  suffices key : ∀ n s, weight s ≤ n → NReach false (.start clients size 0) s →
      ∃ s', GoesOn s s' ∧ s'.sh.written = s.sh.written ∧ AllQuiet s' by
    obtain ⟨s', hg, hw, hq⟩ := key _ s (Nat.le_refl _) h
    have hc := reach_conserved (goesOn_reach hg h) (start_conserved clients size 0)
    refine ⟨s', hg, hw, hq, List.perm_iff_count.mpr (fun x => ?_)⟩
    have := hc x
    rw [quiet_places hq] at this
    simp only [due, hw] at this ⊢
    simp [this]
  intro n
  induction n with
  | zero =>
    intro s hn hr
    by_cases hq : AllQuiet s
    · exact ⟨s, .here s, rfl, hq⟩
    · obtain ⟨s', hs⟩ := calm_moves (calm_reach hr) hq
      have := getsOn_weight hs
      omega
  | succ n ih =>
    intro s hn hr
    by_cases hq : AllQuiet s
    · exact ⟨s, .here s, rfl, hq⟩
    · obtain ⟨s', hs⟩ := calm_moves (calm_reach hr) hq
      have := getsOn_weight hs
      obtain ⟨s'', h1, h2, h3⟩ := ih s' (by omega) (.step false hr hs.1 (by simp))
      exact ⟨s'', .step hs h1, by rw [h2, hs.2.1], h3⟩

/-! ### The order with the synchronous engine -/

/-- What a single thread with the synchronous engine still has to finish, in order. -/
def restOfThread (t : NThread) : List Nat :=
  (match t.pc with
    | .fetch l _ => insideFirst l
    | .hand l _ _ => insideFirst l
    | _ => []) ++ t.frames.flatMap (fun f => inside f.todo ++ [f.id])

theorem single_inv {s : NState} (h : NReach false (.start 1 0 0) s) :
    ∃ t, s.threads = [t] ∧ t.kind = .client ∧ s.sh.handled ++ restOfThread t = s.sh.written.flatMap insideFirst := by
  induction h with
  | init => exact ⟨_, rfl, rfl, rfl⟩
  | @step s s' b hr hs hb ih =>
    obtain ⟨t, ht, hk, hi⟩ := ih
    have hc := calm_reach hr
    cases hs with
    | admin => exact absurd (hb rfl) (by simp)
    | work pre post sh sh' a a' h =>
      have hpp : pre = [] ∧ a = t ∧ post = [] := by
        cases pre with
        | nil => simp at ht; exact ⟨rfl, ht.1, ht.2⟩
        | cons x pre => simp at ht
      obtain ⟨rfl, rfl, rfl⟩ := hpp
      have hkk := work_kind h
      refine ⟨a', rfl, by rw [hkk, hk], ?_⟩
      simp only at hi
      obtain ⟨hl, hbl, ⟨q, he, hq⟩, hth, _⟩ := hc
      simp only at hl hbl he
      have hq := hq rfl
      subst hq
      obtain ⟨_, hpc, _⟩ := hth a (by simp)
      cases h with
      | call l => simp only [restOfThread, nCall, hbl] at hi ⊢; simp at hi ⊢; rw [hi]
      | nested kd f i c r lk fs =>
        simp only [restOfThread, nCall, hbl] at hi ⊢
        simp [inside, insideFirst] at hi ⊢; exact hi
      | acquire kd fs l h => simp at hpc
      | fetch kd fs l lk k h => exact hi
      | handSingle kd fs l lk k e he hs => simp [restOfThread, insideFirst] at hi ⊢; exact hi
      | handPool kd fs l lk k e he' hs room =>
        simp at hpc
        obtain ⟨rfl, rfl⟩ := hpc
        simp [he] at he'
        subst he'
        exact absurd rfl hs
      | done kd f lk fs => simp [restOfThread, inside, nRelease] at hi ⊢; exact hi
      | take k e l q he hq => simp at hk
      | expire k e he hq => simp at hk
      | again k e he hf => simp at hk
      | exit k e he hf => simp at hk

/-- **C91, the synchronous engine and one thread**: whenever the thread is outside of Polog, everything is handled, the
logs in the order of the calls, and the logs that handlers write before the log that is handled. -/
theorem C91_synchronous_order (s : NState) (h : NReach false (.start 1 0 0) s) (hq : ∀ t ∈ s.threads, Idle t) :
    s.sh.handled = s.sh.written.flatMap insideFirst := by
  obtain ⟨t, ht, _, hi⟩ := single_inv h
  obtain ⟨hf, hp⟩ := hq t (by simp [ht])
  rw [← hi]
  rcases hp with hp | hp | hp <;> simp [restOfThread, hf, hp]

/-! ### A log whose handler writes another log -/

/-- Log 0, whose handler writes log 1. -/
def exOuter : NLog := ⟨0, .cons 1 .nil .nil⟩

/-- Concrete: with the synchronous engine, log 1 is finished before log 0. -/
example : ∃ s, NReach false (.start 1 0 0) s ∧ (∀ t ∈ s.threads, Idle t) ∧ s.sh.handled = [1, 0] := by
  have s1 := NReach.step false (.init : NReach false (.start 1 0 0) _)
    (.work [] [] _ _ _ _ (.call _ exOuter)) (by simp)
  have s2 := NReach.step false s1 (.work [] [] _ _ _ _ (.fetch _ _ _ _ _ 0 rfl)) (by simp)
  have s3 := NReach.step false s2 (.work [] [] _ _ _ _ (.handSingle _ _ _ _ _ _ _ rfl rfl)) (by simp)
  have s4 := NReach.step false s3 (.work [] [] _ _ _ _ (.nested _ _ _ _ _ _ _ _)) (by simp)
  have s5 := NReach.step false s4 (.work [] [] _ _ _ _ (.fetch _ _ _ _ _ 0 rfl)) (by simp)
  have s6 := NReach.step false s5 (.work [] [] _ _ _ _ (.handSingle _ _ _ _ _ _ _ rfl rfl)) (by simp)
  have s7 := NReach.step false s6 (.work [] [] _ _ _ _ (.done _ _ _ _ _)) (by simp)
  have s8 := NReach.step false s7 (.work [] [] _ _ _ _ (.done _ _ _ _ _)) (by simp)
  refine ⟨_, s8, ?_, rfl⟩
  intro t ht
  simp at ht
  subst ht
  exact ⟨rfl, .inl rfl⟩

/-- One client thread and one worker, the worker handling log 0: reached by writing that log. -/
theorem worker_in_handler (ad : Bool) (cap : Nat) :
    NReach ad (.start 1 1 cap)
      ⟨⟨false, false, [⟨1, cap, [], false⟩], [], [exOuter]⟩,
        [⟨.client, [], .rest⟩, ⟨.worker 0, [⟨0, .cons 1 .nil .nil, false⟩], .rest⟩]⟩ := by
  have s1 := NReach.step false (.init : NReach ad (.start 1 1 cap) _)
    (.work [] [⟨.worker 0, [], .rest⟩] _ _ _ _ (.call _ exOuter)) (by simp)
  have s2 := NReach.step false s1 (.work [] [⟨.worker 0, [], .rest⟩] _ _ _ _ (.fetch _ _ _ _ _ 0 rfl)) (by simp)
  have s3 := NReach.step false s2 (.work [] [⟨.worker 0, [], .rest⟩] _ _ _ _
    (.handPool _ _ _ _ _ _ ⟨1, cap, [], false⟩ rfl (by simp) (by simp; omega))) (by simp)
  exact NReach.step false s3 (.work [⟨.client, [], .rest⟩] [] _ _ _ _
    (.take _ 0 ⟨1, cap, [exOuter], false⟩ exOuter [] rfl rfl)) (by simp)

/-- The hypotheses of the theorem about finishing are met in the middle of a handler that writes a log, with a worker. -/
example : NReach false (.start 1 1 0)
      ⟨⟨false, false, [⟨1, 0, [], false⟩], [], [exOuter]⟩,
        [⟨.client, [], .rest⟩, ⟨.worker 0, [⟨0, .cons 1 .nil .nil, false⟩], .rest⟩]⟩ := worker_in_handler false 0

/-- Concrete, with a worker: the handler of log 0 writes log 1 into the queue, and log 0 is finished before log 1. -/
example : ∃ s, NReach true (.start 1 1 0) s ∧ AllQuiet s ∧ s.sh.handled = [0, 1] := by
  have s1 := NReach.step false (worker_in_handler true 0) (.work [_] [] _ _ _ _ (.nested _ _ _ _ _ _ _ _)) (by simp)
  have s2 := NReach.step false s1 (.work [_] [] _ _ _ _ (.fetch _ _ _ _ _ 0 rfl)) (by simp)
  have s3 := NReach.step false s2 (.work [_] [] _ _ _ _
    (.handPool _ _ _ _ _ _ ⟨1, 0, [], false⟩ rfl (by simp) (by simp))) (by simp)
  have s4 := NReach.step false s3 (.work [_] [] _ _ _ _ (.done _ _ _ _ _)) (by simp)
  have s5 := NReach.step false s4 (.work [_] [] _ _ _ _ (.take _ 0 ⟨1, 0, [⟨1, .nil⟩], false⟩ ⟨1, .nil⟩ [] rfl rfl)) (by simp)
  have s6 := NReach.step false s5 (.work [_] [] _ _ _ _ (.done _ _ _ _ _)) (by simp)
  refine ⟨_, s6, ⟨?_, ?_⟩, rfl⟩
  · intro t ht
    simp at ht
    rcases ht with rfl | rfl
    · exact ⟨rfl, .inl rfl⟩
    · exact ⟨rfl, .inl rfl⟩
  · intro e he
    simp [nRelease] at he
    rw [he]

/-- **C91 fails, a limited queue**: `pool_size=1`, `max_queue_size=1` and a handler that writes a log. Three calls in one
thread are enough that the worker waits for room in the queue that only it could make, the third call never returns, and
nothing happens in the program any more. No setting is changed. -/
theorem C91_limited_queue_fails : ∃ s, NReach false (.start 1 1 1) s ∧ Stuck s ∧ ¬ AllQuiet s ∧ s.sh.handled = [] ∧
    s.sh.written.length = 3 := by
  have w := worker_in_handler false 1
  -- the second call fills the queue
  have s1 := NReach.step false w (.work [] [_] _ _ _ _ (.call _ ⟨2, .nil⟩)) (by simp)
  have s2 := NReach.step false s1 (.work [] [_] _ _ _ _ (.fetch _ _ _ _ _ 0 rfl)) (by simp)
  have s3 := NReach.step false s2 (.work [] [_] _ _ _ _
    (.handPool _ _ _ _ _ _ ⟨1, 1, [], false⟩ rfl (by simp) (by simp))) (by simp)
  -- the handler writes its log
  have s4 := NReach.step false s3 (.work [_] [] _ _ _ _ (.nested _ _ _ _ _ _ _ _)) (by simp)
  have s5 := NReach.step false s4 (.work [_] [] _ _ _ _ (.fetch _ _ _ _ _ 0 rfl)) (by simp)
  -- the third call
  have s6 := NReach.step false s5 (.work [] [_] _ _ _ _ (.call _ ⟨3, .nil⟩)) (by simp)
  have s7 := NReach.step false s6 (.work [] [_] _ _ _ _ (.fetch _ _ _ _ _ 0 rfl)) (by simp)
  refine ⟨_, s7, ?_, ?_, rfl, rfl⟩
  · apply stuck_two
    · intro sh' a' h
      cases h with
      | handSingle kd fs l lk k e he hs => simp [nRelease] at he; subst he; simp at hs
      | handPool kd fs l lk k e he hs room => simp [nRelease] at he; subst he; simp at room
    · intro sh' a' h
      cases h with
      | handSingle kd fs l lk k e he hs => simp [nRelease] at he; subst he; simp at hs
      | handPool kd fs l lk k e he hs room => simp [nRelease] at he; subst he; simp at room
    · intro sh' a' new h; cases h
    · intro sh' a' new h; cases h
  · intro hq
    have := hq.1 _ (List.mem_cons_self)
    simp [Idle] at this

/-- A handler is about to write a log when `config.set(pool_size=…)` is called (or the program ends, if `exit`): the
thread holds the engine lock and waits for the worker, the worker waits for the engine lock. -/
theorem stop_during_handler (exit : Bool) : ∃ s, NReach true (.start 1 1 0) s ∧ Stuck s ∧ s.sh.handled = [] ∧
    (∃ t ∈ s.threads, t.pc = .rJoin exit 0) ∧ s.sh.written = [exOuter] := by
  have w := worker_in_handler true 0
  have s1 := NReach.step true w (.admin [] [_] [] _ _ _ _ (.start _ _ _ exit (by simp) (by simp))) (by simp)
  have s2 := NReach.step true s1 (.admin [] [_] [] _ _ _ _ (.lock _ _ _ exit rfl)) (by simp)
  have s3 := NReach.step true s2 (.admin [] [_] [] _ _ _ _ (.swap _ _ _ exit)) (by simp)
  have s4 := NReach.step true s3 (.admin [] [_] [] _ _ _ _
    (.stopPool _ _ _ exit 0 ⟨1, 0, [], false⟩ rfl rfl (by simp))) (by simp)
  have s5 := NReach.step true s4 (.admin [] [_] [] _ _ _ _ (.drained _ _ _ exit 0 ⟨1, 0, [], false⟩ rfl rfl)) (by simp)
  have s6 := NReach.step false s5 (.work [_] [] _ _ _ _ (.nested _ _ _ _ _ _ _ _)) (by simp)
  refine ⟨_, s6, ?_, rfl, ⟨⟨.client, [], .rJoin exit 0⟩, by simp, rfl⟩, rfl⟩
  apply stuck_two
  · intro sh' a' h; cases h
  · intro sh' a' h
    cases h with
    | acquire kd fs l h => simp at h
  · intro sh' a' new h
    cases h with
    | joined kd fs exit k h => simp [nCall] at h
  · intro sh' a' new h; cases h

/-- **C91 fails, a change of `pool_size`**: while a worker calls a handler that writes a log, `config.set(pool_size=…)`
never returns, the log is never written, and nothing happens in the program any more. -/
theorem C91_reload_fails : ∃ s, NReach true (.start 1 1 0) s ∧ Stuck s ∧ s.sh.handled = [] ∧
    (∃ t ∈ s.threads, t.pc = .rJoin false 0) ∧ s.sh.written = [exOuter] := stop_during_handler false

/-- **C91 fails, the end of the program**: the same at the exit: the program never ends (when `max_delay_before_exit` is
over, the waiting `join` is not interrupted, C52). -/
theorem C91_exit_fails : ∃ s, NReach true (.start 1 1 0) s ∧ Stuck s ∧ s.sh.handled = [] ∧
    (∃ t ∈ s.threads, t.pc = .rJoin true 0) ∧ s.sh.written = [exOuter] := stop_during_handler true

end Polog
