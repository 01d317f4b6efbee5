import Verif.Engine.PoolLemmas

/-! Theorems about the thread pool (C19, C20). -/

namespace Polog
open PoolSpec

/-- **C19.** When `stop()` has returned, the logs that were handled are exactly the logs that were
put into the queue, each as often as it was put – if nobody put logs after `stop()` saw the queue
empty.  Any number of workers, any limit, any schedule, any handlers. -/
theorem C19_all_handled_exactly_once_when_stopped (size cap : Nat) (tr : List PLabel) (p : Pool)
    (h : PRunCareful size cap tr p) (hstop : p.stop = .done) : (handled tr).Perm (puts tr) := by
  have inv := PInv_run h.run
  have hq := h.closed_empty (by simp [Pool.closed, hstop])
  have hb : busyLogs p.worker size = [] := busyLogs_eq_nil fun i hi l hl => by
    rw [inv.finished hstop i hi] at hl; cases hl
  rw [List.perm_iff_count]
  intro l
  have hc := inv.counts l
  rw [hb] at hc
  rw [← inv.fifo, hq, List.append_nil, hc]
  simp

/-- **C19.** At any moment of any execution (even with late puts) every log put into the pool is
in exactly one of three places: still in the queue, in the hands of a worker, or handled. -/
theorem C19_no_log_lost_or_duplicated (size cap : Nat) (tr : List PLabel) (p : Pool)
    (h : PRun size cap tr p) (l : Log) :
    (puts tr).count l = (handled tr).count l + (busyLogs p.worker size).count l + p.queue.count l := by
  have inv := PInv_run h
  rw [← inv.fifo, List.count_append, inv.counts l]

/-- **C19.** A log put once is never handled twice. -/
theorem C19_handled_at_most_once (size cap : Nat) (tr : List PLabel) (p : Pool)
    (h : PRun size cap tr p) (hn : (puts tr).Nodup) : (handled tr).Nodup := by
  rw [List.nodup_iff_count] at *
  intro l
  have := C19_no_log_lost_or_duplicated size cap tr p h l
  have := hn l
  omega

/-- **C19.** The queue never exceeds its limit. -/
theorem C19_queue_bounded (size cap : Nat) (tr : List PLabel) (p : Pool) (h : PRun size cap tr p)
    (hc : cap ≠ 0) : p.queue.length ≤ cap := (PInv_run h).bound hc

theorem PQuiet.trans {p q r : Pool} (h : PQuiet p q) (h' : PQuiet q r) : PQuiet p r := by
  induction h with
  | refl => exact h'
  | step hs hl _ ih => exact .step hs hl (ih h')

theorem PQuiet.run' {size cap : Nat} {p q : Pool} (h : PQuiet p q) :
    (∃ tr, PRun size cap tr p) → ∃ tr, PRun size cap tr q := by
  induction h with
  | refl => exact id
  | step hs hl _ ih => rintro ⟨tr, h⟩; exact ih ⟨_, .step h hs⟩

/-- How far the first worker is from emptying the queue. -/
def drainMeasure (p : Pool) : Nat :=
  p.queue.length * 3 + (match p.worker 0 with | .waiting => 0 | .expired => 1 | .busy _ => 2 | .exited => 0)

theorem drain {size cap : Nat} (hsize : 0 < size) : ∀ (m : Nat) (p : Pool), drainMeasure p ≤ m →
    (∃ tr, PRun size cap tr p) → p.stop = .polling →
    ∃ q, PQuiet p q ∧ q.stop = .flagging 0 := by
  intro m
  induction m with
  | zero =>
    intro p hm _ hs
    have : p.queue = [] := by
      cases hq : p.queue with
      | nil => rfl
      | cons x xs => simp [drainMeasure, hq] at hm
    exact ⟨_, .step (.drained p hs this) (by simp) (.refl _), rfl⟩
  | succ m ih =>
    intro p hm hrun hs
    obtain ⟨tr, hrun'⟩ := hrun
    have inv := PInv_run hrun'
    have h0 : 0 < p.size := by rw [inv.sizeEq]; exact hsize
    cases hq : p.queue with
    | nil => exact ⟨_, .step (.drained p hs hq) (by simp) (.refl _), rfl⟩
    | cons l q =>
      cases hw : p.worker 0 with
      | waiting =>
        have hst := PStep.take p 0 l q h0 hw hq
        obtain ⟨r, hr, he⟩ := ih _ (by
            simp only [drainMeasure, hq, hw, List.length_cons, setFn_self] at hm ⊢; omega)
          ⟨_, .step hrun' hst⟩ hs
        exact ⟨r, .step hst (by simp) hr, he⟩
      | busy l' =>
        have hst := PStep.handled p 0 l' h0 hw
        obtain ⟨r, hr, he⟩ := ih _ (by
            simp only [drainMeasure, hq, hw, List.length_cons, setFn_self] at hm ⊢; omega)
          ⟨_, .step hrun' hst⟩ hs
        exact ⟨r, .step hst (by simp) hr, he⟩
      | expired =>
        have hst := PStep.again p 0 h0 hw (inv.flags (by simp [Pool.closed, hs]) 0)
        obtain ⟨r, hr, he⟩ := ih _ (by
            simp only [drainMeasure, hq, hw, List.length_cons, setFn_self] at hm ⊢; omega)
          ⟨_, .step hrun' hst⟩ hs
        exact ⟨r, .step hst (by simp) hr, he⟩
      | exited =>
        have := inv.exits 0 hw
        rw [inv.flags (by simp [Pool.closed, hs]) 0] at this
        cases this

theorem flagAll {size cap : Nat} : ∀ (m j : Nat) (p : Pool), size - j ≤ m → j ≤ size →
    (∃ tr, PRun size cap tr p) → p.stop = .flagging j →
    ∃ q, PQuiet p q ∧ q.stop = .joining 0 := by
  intro m
  induction m with
  | zero =>
    intro j p hm hj hrun hs
    obtain ⟨tr, hrun'⟩ := hrun
    have inv := PInv_run hrun'
    have : j = p.size := by rw [inv.sizeEq]; omega
    subst this
    exact ⟨_, .step (.flagged p hs) (by simp) (.refl _), rfl⟩
  | succ m ih =>
    intro j p hm hj hrun hs
    obtain ⟨tr, hrun'⟩ := hrun
    have inv := PInv_run hrun'
    by_cases hjs : j = size
    · have : j = p.size := by rw [inv.sizeEq]; omega
      subst this
      exact ⟨_, .step (.flagged p hs) (by simp) (.refl _), rfl⟩
    · have hst := PStep.setFlag p j hs (by rw [inv.sizeEq]; omega)
      obtain ⟨r, hr, he⟩ := ih (j + 1) _ (by omega) (by omega) ⟨_, .step hrun' hst⟩ rfl
      exact ⟨r, .step hst (by simp) hr, he⟩

theorem exitOne {size cap : Nat} (j : Nat) (hj : j < size) : ∀ (p : Pool),
    (∃ tr, PRun size cap tr p) → p.stop = .joining j →
    ∃ q, PQuiet p q ∧ q.stop = .joining (j + 1) := by
  -- from `exited`, then `expired`, then `waiting`, then `busy`
  have hexited : ∀ (p : Pool), (∃ tr, PRun size cap tr p) → p.stop = .joining j →
      p.worker j = .exited → ∃ q, PQuiet p q ∧ q.stop = .joining (j + 1) := by
    intro p ⟨tr, h⟩ hs hw
    have inv := PInv_run h
    exact ⟨_, .step (.join p j hs (by rw [inv.sizeEq]; exact hj) hw) (by simp) (.refl _), rfl⟩
  have hexpired : ∀ (p : Pool), (∃ tr, PRun size cap tr p) → p.stop = .joining j →
      p.worker j = .expired → ∃ q, PQuiet p q ∧ q.stop = .joining (j + 1) := by
    intro p ⟨tr, h⟩ hs hw
    have inv := PInv_run h
    have hst := PStep.exit p j (by rw [inv.sizeEq]; exact hj) hw (inv.allFlagged j hs j hj)
    obtain ⟨q, hq, he⟩ := hexited _ ⟨_, .step h hst⟩ hs (setFn_self _ _ _)
    exact ⟨q, .step hst (by simp) hq, he⟩
  have hwaiting : ∀ (n : Nat) (p : Pool), p.queue.length = n → (∃ tr, PRun size cap tr p) →
      p.stop = .joining j → p.worker j = .waiting → ∃ q, PQuiet p q ∧ q.stop = .joining (j + 1) := by
    intro n
    induction n with
    | zero =>
      intro p hn ⟨tr, h⟩ hs hw
      have inv := PInv_run h
      have hst := PStep.expire p j (by rw [inv.sizeEq]; exact hj) hw (List.length_eq_zero_iff.1 hn)
      obtain ⟨q, hq, he⟩ := hexpired _ ⟨_, .step h hst⟩ hs (setFn_self _ _ _)
      exact ⟨q, .step hst (by simp) hq, he⟩
    | succ n ih =>
      intro p hn ⟨tr, h⟩ hs hw
      have inv := PInv_run h
      cases hq : p.queue with
      | nil => rw [hq] at hn; cases hn
      | cons l q =>
        have hst := PStep.take p j l q (by rw [inv.sizeEq]; exact hj) hw hq
        have h1 := PRun.step h hst
        have hst' := PStep.handled _ j l (by rw [(PInv_run h1).sizeEq]; exact hj) (setFn_self _ _ _)
        obtain ⟨r, hr, he⟩ := ih _ (by rw [hq] at hn; simpa using hn) ⟨_, .step h1 hst'⟩ hs
          (setFn_self _ _ _)
        exact ⟨r, .step hst (by simp) (.step hst' (by simp) hr), he⟩
  intro p ⟨tr, h⟩ hs
  have inv := PInv_run h
  cases hw : p.worker j with
  | exited => exact hexited p ⟨tr, h⟩ hs hw
  | expired => exact hexpired p ⟨tr, h⟩ hs hw
  | waiting => exact hwaiting _ p rfl ⟨tr, h⟩ hs hw
  | busy l =>
    have hst := PStep.handled p j l (by rw [inv.sizeEq]; exact hj) hw
    obtain ⟨q, hq, he⟩ := hwaiting _ _ rfl ⟨_, .step h hst⟩ hs (setFn_self _ _ _)
    exact ⟨q, .step hst (by simp) hq, he⟩

theorem joinAll {size cap : Nat} : ∀ (m j : Nat) (p : Pool), size - j ≤ m → j ≤ size →
    (∃ tr, PRun size cap tr p) → p.stop = .joining j → ∃ q, PQuiet p q ∧ q.stop = .done := by
  intro m
  induction m with
  | zero =>
    intro j p hm hj hrun hs
    obtain ⟨tr, hrun'⟩ := hrun
    have : j = p.size := by rw [(PInv_run hrun').sizeEq]; omega
    subst this
    exact ⟨_, .step (.stopped p hs) (by simp) (.refl _), rfl⟩
  | succ m ih =>
    intro j p hm hj hrun hs
    by_cases hjs : j = size
    · obtain ⟨tr, hrun'⟩ := hrun
      have : j = p.size := by rw [(PInv_run hrun').sizeEq]; omega
      subst this
      exact ⟨_, .step (.stopped p hs) (by simp) (.refl _), rfl⟩
    · obtain ⟨q, hq, he⟩ := exitOne (cap := cap) j (by omega) p hrun hs
      obtain ⟨r, hr, hd⟩ := ih (j + 1) q (by omega) (by omega) (hq.run' hrun) he
      exact ⟨r, hq.trans hr, hd⟩

/-- The flags are set one by one up to the last worker; never further. -/
theorem PRun.index_le {size cap : Nat} {tr : List PLabel} {p : Pool} (h : PRun size cap tr p) :
    (∀ j, p.stop = .flagging j → j ≤ size) ∧ (∀ j, p.stop = .joining j → j ≤ size) := by
  induction h with
  | init => simp [Pool.init]
  | step hr hs ih =>
    have inv := PInv_run hr
    cases hs with
    | setFlag j hst hj =>
      refine ⟨fun j' hj' => ?_, by simp⟩
      cases hj'; rw [← inv.sizeEq]; omega
    | join j hst hj hw =>
      refine ⟨by simp, fun j' hj' => ?_⟩
      cases hj'; rw [← inv.sizeEq]; omega
    | flagged => refine ⟨by simp, fun j' hj' => ?_⟩; cases hj'; omega
    | drained => refine ⟨fun j' hj' => ?_, by simp⟩; cases hj'; omega
    | stopCall => simp
    | stopped => simp
    | _ => exact ih

/-- **C19.** `stop()` can always complete: with at least one worker, from every state in which it
has been called, the workers and the stopping thread alone can reach the state in which it has
returned (no deadlock, no dead end), whatever happened before and even if logs were put too
late. -/
theorem C19_stop_can_always_complete (size cap : Nat) (hsize : 0 < size) (tr : List PLabel) (p : Pool)
    (h : PRun size cap tr p) (hs : p.stop ≠ .none) : ∃ q, PQuiet p q ∧ q.stop = .done := by
  have fromJoining : ∀ j (p : Pool), j ≤ size → (∃ tr, PRun size cap tr p) →
      p.stop = .joining j → ∃ q, PQuiet p q ∧ q.stop = .done :=
    fun j p hj hr hs => joinAll (size - j) j p (Nat.le_refl _) hj hr hs
  have fromFlagging : ∀ j (p : Pool), j ≤ size → (∃ tr, PRun size cap tr p) →
      p.stop = .flagging j → ∃ q, PQuiet p q ∧ q.stop = .done := by
    intro j p hj hr hs
    obtain ⟨q, hq, he⟩ := flagAll (size - j) j p (Nat.le_refl _) hj hr hs
    obtain ⟨r, hr', hd⟩ := fromJoining 0 q (Nat.zero_le _) (hq.run' hr) he
    exact ⟨r, hq.trans hr', hd⟩
  cases hst : p.stop with
  | none => exact absurd hst hs
  | polling =>
    obtain ⟨q, hq, he⟩ := drain hsize (drainMeasure p) p (Nat.le_refl _) ⟨tr, h⟩ hst
    obtain ⟨r, hr', hd⟩ := fromFlagging 0 q (Nat.zero_le _) (hq.run' ⟨tr, h⟩) he
    exact ⟨r, hq.trans hr', hd⟩
  | flagging j => exact fromFlagging j p (h.index_le.1 j hst) ⟨tr, h⟩ hst
  | joining j => exact fromJoining j p (h.index_le.2 j hst) ⟨tr, h⟩ hst
  | done => exact ⟨p, .refl p, hst⟩

/-- **C19.** The demand on the caller is necessary: a log put after `stop()` saw the queue empty can
stay in the queue when `stop()` has returned and all workers are gone. -/
theorem C19_late_put_is_lost : ∃ tr p, PRun 1 0 tr p ∧ p.stop = .done ∧ puts tr = [7] ∧ handled tr = [] ∧
    ∀ a q, PStep p a q → ∃ l, a = .put l := by
  let p0 := Pool.init 1 0
  let p1 : Pool := { p0 with stop := .polling }
  let p2 : Pool := { p1 with stop := .flagging 0 }
  let p3 : Pool := { p2 with worker := setFn p2.worker 0 .expired }
  let p4 : Pool := { p3 with stop := .flagging 1, flag := setFn p3.flag 0 true }
  let p5 : Pool := { p4 with queue := p4.queue ++ [7] }
  let p6 : Pool := { p5 with worker := setFn p5.worker 0 .exited }
  let p7 : Pool := { p6 with stop := .joining 0 }
  let p8 : Pool := { p7 with stop := .joining 1 }
  let p9 : Pool := { p8 with stop := .done }
  have r1 : PRun 1 0 _ p1 := .step .init (.stopCall p0 rfl)
  have r2 : PRun 1 0 _ p2 := .step r1 (.drained p1 rfl rfl)
  have r3 : PRun 1 0 _ p3 := .step r2 (.expire p2 0 (by decide) rfl rfl)
  have r4 : PRun 1 0 _ p4 := .step r3 (.setFlag p3 0 rfl (by decide))
  have r5 : PRun 1 0 _ p5 := .step r4 (.put p4 7 (.inl rfl))
  have r6 : PRun 1 0 _ p6 := .step r5 (.exit p5 0 (by decide) rfl rfl)
  have r7 : PRun 1 0 _ p7 := .step r6 (.flagged p6 rfl)
  have r8 : PRun 1 0 _ p8 := .step r7 (.join p7 0 rfl (by decide) rfl)
  have r9 : PRun 1 0 _ p9 := .step r8 (.stopped p8 rfl)
  refine ⟨_, _, r9, rfl, rfl, rfl, ?_⟩
  intro a q hs
  have hex : ∀ i, i < p9.size → p9.worker i = .exited := by
    intro i hi
    have : i = 0 := by simp [p9, p8, p7, p6, p5, p4, p3, p2, p1, p0, Pool.init] at hi; omega
    subst this; rfl
  cases hs with
  | put l => exact ⟨l, rfl⟩
  | take i l q hi hw => rw [hex i hi] at hw; cases hw
  | handled i l hi hw => rw [hex i hi] at hw; cases hw
  | expire i hi hw => rw [hex i hi] at hw; cases hw
  | again i hi hw => rw [hex i hi] at hw; cases hw
  | exit i hi hw => rw [hex i hi] at hw; cases hw
  | stopCall h => cases h
  | drained h => cases h
  | setFlag j h => cases h
  | flagged h => cases h
  | join j h => cases h
  | stopped h => cases h

/-- **C20.** Whatever the number of workers, logs are taken from the queue in the order in which
they were put into it. -/
theorem C20_taken_in_order (size cap : Nat) (tr : List PLabel) (p : Pool) (h : PRun size cap tr p) :
    takes tr ++ p.queue = puts tr := (PInv_run h).fifo

/-- **C20.** With one worker the handlers see the logs in the order in which they were put into the
queue: at every moment the handled logs, then the one being handled, then the queue are the logs in
the order they were put. -/
theorem C20_one_worker_keeps_order (cap : Nat) (tr : List PLabel) (p : Pool) (h : PRun 1 cap tr p) :
    handled tr ++ (match p.worker 0 with | .busy l => [l] | _ => []) ++ p.queue = puts tr := by
  have key : handled tr ++ (match p.worker 0 with | .busy l => [l] | _ => []) = takes tr := by
    induction h with
    | init => rfl
    | step hr hs ih =>
      have hsz := (PInv_run hr).sizeEq
      have zero : ∀ {p : Pool} {i : Nat}, p.size = 1 → i < p.size → i = 0 := by
        intro p i h1 h2; omega
      cases hs with
      | put => simpa using ih
      | take i l q hi hw hq =>
        have := zero hsz hi; subst this
        rw [hw] at ih
        simp only [takes_snoc, handled_snoc, setFn_self, ← ih]
      | handled i l hi hw =>
        have := zero hsz hi; subst this
        rw [hw] at ih
        simp only [takes_snoc, handled_snoc, setFn_self, ← ih]
      | expire i hi hw =>
        have := zero hsz hi; subst this
        rw [hw] at ih
        simp only [takes_snoc, handled_snoc, setFn_self, ← ih]
      | again i hi hw =>
        have := zero hsz hi; subst this
        rw [hw] at ih
        simp only [takes_snoc, handled_snoc, setFn_self, ← ih]
      | exit i hi hw =>
        have := zero hsz hi; subst this
        rw [hw] at ih
        simp only [takes_snoc, handled_snoc, setFn_self, ← ih]
      | stopCall => simpa using ih
      | drained => simpa using ih
      | setFlag => simpa using ih
      | flagged => simpa using ih
      | join => simpa using ih
      | stopped => simpa using ih
  rw [key]
  exact (PInv_run h).fifo

/-- A pool of two workers that has handled two logs in the other order and been stopped. -/
example : ∃ tr p, PRunCareful 2 2 tr p ∧ p.stop = .done ∧ puts tr = [1, 2] ∧ handled tr = [2, 1] := by
  have r0 : PRunCareful 2 2 [] (Pool.init 2 2) := .init
  have r1 := r0.step (.put _ 1 (by decide)) (by simp [Pool.closed, Pool.init])
  have r2 := r1.step (.put _ 2 (by decide)) (by simp [Pool.closed, Pool.init])
  have r3 := r2.step (.take _ 0 1 [2] (by decide) rfl rfl) (by simp)
  have r4 := r3.step (.take _ 1 2 [] (by decide) rfl rfl) (by simp)
  have r5 := r4.step (.handled _ 1 2 (by decide) rfl) (by simp)
  have r6 := r5.step (.handled _ 0 1 (by decide) rfl) (by simp)
  have r7 := r6.step (.stopCall _ rfl) (by simp)
  have r8 := r7.step (.drained _ rfl rfl) (by simp)
  have r9 := r8.step (.setFlag _ 0 rfl (by decide)) (by simp)
  have r10 := r9.step (.setFlag _ 1 rfl (by decide)) (by simp)
  have r11 := r10.step (.flagged _ rfl) (by simp)
  have r12 := r11.step (.expire _ 0 (by decide) rfl rfl) (by simp)
  have r13 := r12.step (.exit _ 0 (by decide) rfl rfl) (by simp)
  have r14 := r13.step (.expire _ 1 (by decide) rfl rfl) (by simp)
  have r15 := r14.step (.exit _ 1 (by decide) rfl rfl) (by simp)
  have r16 := r15.step (.join _ 0 rfl (by decide) rfl) (by simp)
  have r17 := r16.step (.join _ 1 rfl (by decide) rfl) (by simp)
  have r18 := r17.step (.stopped _ rfl) (by simp)
  exact ⟨_, _, r18, rfl, rfl, rfl⟩

end Polog
