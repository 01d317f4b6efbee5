import Verif.Engine.Start

/-! C18 after the first engine has been created, exactly: which calls can never return. -/

namespace Polog
open EngineSpec

/-- A full queue from which nobody takes any more: every worker has left its loop or is about to leave it. For statements;
pool.py:20-55, worker.py:16-38. -/
def Deserted (p : Pool) : Prop :=
  p.cap ≠ 0 ∧ p.cap ≤ p.queue.length ∧ ∀ i < p.size, p.worker i = .exited ∨ (p.worker i = .expired ∧ p.flag i = true)

/-- The thread is about to put its log into such a queue. For statements; engine.py:69. -/
def Abandoned (e : Eng) (t : Nat) : Prop := ∃ l k p, e.pc t = .wHand l k ∧ e.g.real k = .pool p ∧ Deserted p

theorem Deserted.step {p p' : Pool} {a : PLabel} (h : Deserted p) (hs : PStep p a p') : Deserted p' := by
  obtain ⟨h1, h2, h3⟩ := h
  cases hs with
  | put l room => rcases room with hr | hr <;> omega
  | take i l q hi hw hq => rcases h3 i hi with hx | ⟨hx, _⟩ <;> rw [hw] at hx <;> cases hx
  | handled i l hi hw => rcases h3 i hi with hx | ⟨hx, _⟩ <;> rw [hw] at hx <;> cases hx
  | expire i hi hw hq => rcases h3 i hi with hx | ⟨hx, _⟩ <;> rw [hw] at hx <;> cases hx
  | again i hi hw hf =>
    rcases h3 i hi with hx | ⟨_, hx⟩
    · rw [hw] at hx; cases hx
    · rw [hf] at hx; cases hx
  | exit i hi hw hf =>
    refine ⟨h1, h2, fun j hj => ?_⟩
    by_cases hji : j = i
    · subst hji; exact .inl (setFn_self _ _ _)
    · dsimp only; rw [setFn_ne _ _ hji]; exact h3 j hj
  | setFlag i hs hi =>
    refine ⟨h1, h2, fun j hj => (h3 j hj).imp id fun hx => ⟨hx.1, ?_⟩⟩
    by_cases hji : j = i
    · subst hji; exact setFn_self _ _ _
    · dsimp only; rw [setFn_ne _ _ hji]; exact hx.2
  | stopCall | drained | flagged | join | stopped => exact ⟨h1, h2, h3⟩

theorem deserted_keeps {e e' : Eng} (hs : EStep e e') {k : Nat} {p : Pool} (hk : k < e.g.loads) (hr : e.g.real k = .pool p) (hd : Deserted p) :
    k < e'.g.loads ∧ ∃ p', e'.g.real k = .pool p' ∧ Deserted p' := by
  have put : ∀ (j : Nat) (q q' : Pool) (a : PLabel), e.g.real j = .pool q → PStep q a q' →
      ∃ p', setFn e.g.real j (.pool q') k = .pool p' ∧ Deserted p' := by
    intro j q q' a hq hst
    by_cases hjk : k = j
    · subst hjk
      rw [hr] at hq
      cases hq
      exact ⟨q', setFn_self _ _ _, hd.step hst⟩
    · exact ⟨p, by rw [setFn_ne _ _ hjk]; exact hr, hd⟩
  have load : ∀ r, k < (e.g.load r).loads ∧ ∃ p', (e.g.load r).real k = .pool p' ∧ Deserted p' := fun r =>
    ⟨by simp only [Glob.load]; omega, p, by simp only [Glob.load]; rw [setFn_ne _ _ (Nat.ne_of_lt hk)]; exact hr, hd⟩
  cases hs with
  | pool j q q' a hj hq hst _ _ => exact ⟨hk, put j q q' a hq hst⟩
  | thread t g' p' hst =>
    generalize e.pc t = pc at hst
    cases hst with
    | handPool l j q q' hq hp => exact ⟨hk, put j q q' _ hq hp⟩
    | bHandPool l j q q' hq hp => exact ⟨hk, put j q q' _ hq hp⟩
    | cStopPool j q q' hj hq hp => exact ⟨hk, put j q q' _ hq hp⟩
    | xStopPool j q q' hj hq hp => exact ⟨hk, put j q q' _ hq hp⟩
    | wLoadSingle l h => exact load _
    | wLoadWorkers l c => exact load _
    | cLoad => exact load _
    | cStore c => cases c <;> exact ⟨hk, p, hr, hd⟩
    | _ => exact ⟨hk, p, hr, hd⟩

/-- An abandoned call never returns. -/
theorem abandoned_forever {e e' : Eng} (hI : SInv e) {t : Nat} (h : Abandoned e t) (hr : EReach e e') : Abandoned e' t := by
  obtain ⟨l, k, p, hpc, hreal, hd⟩ := h
  have hk : k < e.g.loads := by have := hI.loc t; rw [hpc] at this; exact this
  suffices e'.pc t = .wHand l k ∧ k < e'.g.loads ∧ ∃ p', e'.g.real k = .pool p' ∧ Deserted p' from
    let ⟨a, _, q, b, c⟩ := this
    ⟨l, k, q, a, b, c⟩
  induction hr with
  | init => exact ⟨hpc, hk, p, hreal, hd⟩
  | @step e1 e2 _ hs ih =>
    obtain ⟨a, b, q, c, d⟩ := ih
    refine ⟨?_, deserted_keeps hs b c d⟩
    cases hs with
    | pool => exact a
    | thread u g' p' hst =>
      by_cases hut : t = u
      · subst hut
        rw [a] at hst
        cases hst with
        | handSingle _ _ hx => rw [c] at hx; cases hx
        | handPool _ _ r r' hx hp =>
          rw [c] at hx
          cases hx
          cases hp with
          | put _ room =>
            exfalso
            have := d.1
            have := d.2.1
            rcases room with h | h <;> omega
      · dsimp only
        rw [setFn_ne _ _ hut]
        exact a

/-- A worker that has not left its loop makes room. -/
theorem room_by_worker {A : Nat → Prop} {e : Eng} (hw : WInv e) {k : Nat} {p : Pool} (hk : k < e.g.loads) (hr : e.g.real k = .pool p)
    (hd : ¬ Deserted p) :
    ∃ e' p', OnwardBy A e e' ∧ WInv e' ∧ e'.pc = e.pc ∧ e'.g.real k = .pool p' ∧ (p'.cap = 0 ∨ p'.queue.length < p'.cap) := by
  obtain ⟨s, c, tr, hrun⟩ := hw.inv.r.runs k hk p hr
  have inv := PInv_run hrun
  by_cases hroom : p.cap = 0 ∨ p.queue.length < p.cap
  · exact ⟨e, p, .refl e, hw, rfl, hr, hroom⟩
  · have hfull : p.cap ≠ 0 ∧ p.cap ≤ p.queue.length := by omega
    obtain ⟨i, hi, hgo⟩ : ∃ i, i < p.size ∧ ¬ (p.worker i = .exited ∨ (p.worker i = .expired ∧ p.flag i = true)) := by
      apply Classical.byContradiction
      intro hn
      exact hd ⟨hfull.1, hfull.2, fun i hi => Classical.byContradiction fun hx => hn ⟨i, hi, hx⟩⟩
    have hbound := inv.bound (by rw [← inv.capEq]; exact hfull.1)
    rw [← inv.capEq] at hbound
    cases hq : p.queue with
    | nil => rw [hq] at hfull; simp at hfull
    | cons l qs =>
      have fromWaiting : ∀ {e : Eng} {p : Pool}, WInv e → k < e.g.loads → e.g.real k = .pool p → i < p.size →
          p.worker i = .waiting → p.queue = l :: qs → p.queue.length ≤ p.cap →
          ∃ e' p', OnwardBy A e e' ∧ WInv e' ∧ e'.pc = e.pc ∧ e'.g.real k = .pool p' ∧
            (p'.cap = 0 ∨ p'.queue.length < p'.cap) := by
        intro e p hw hk hr h0 hw0 hq hb
        have hst := PStep.take p i l qs h0 hw0 hq
        refine ⟨_, _, .pool k p _ _ hk hr hst (by simp) (by simp) (.refl _),
          WInv_pool hw hk hr hst (by simp) (by simp), rfl, setFn_self _ _ _, .inr ?_⟩
        rw [hq] at hb
        simp only [List.length_cons] at hb
        exact hb
      cases hw0 : p.worker i with
      | waiting => exact fromWaiting hw hk hr hi hw0 hq hbound
      | busy l' =>
        have hst := PStep.handled p i l' hi hw0
        obtain ⟨e', p', ho, rest⟩ := fromWaiting (WInv_pool hw hk hr hst (by simp) (by simp)) hk
          (setFn_self _ _ _) hi (setFn_self p.worker i .waiting) hq hbound
        exact ⟨e', p', .pool k p _ _ hk hr hst (by simp) (by simp) ho, rest⟩
      | expired =>
        have hf : p.flag i = false := by
          cases hx : p.flag i with
          | false => rfl
          | true => exact absurd (.inr ⟨hw0, hx⟩) hgo
        have hst := PStep.again p i hi hw0 hf
        obtain ⟨e', p', ho, rest⟩ := fromWaiting (WInv_pool hw hk hr hst (by simp) (by simp)) hk
          (setFn_self _ _ _) hi (setFn_self p.worker i .waiting) hq hbound
        exact ⟨e', p', .pool k p _ _ hk hr hst (by simp) (by simp) ho, rest⟩
      | exited => exact absurd (.inl hw0) hgo

/-- **C18**, after the first engine has been created, exactly: a thread that is inside a log call or inside `config.set` can get out,
without any new call being made, if and only if it does not wait for room in a full queue whose workers have all left (the queue of an
engine that has been or is being replaced). (While no exit hook runs, and if every pool that was created has workers.) -/
theorem C18_after_the_first_engine_iff (e : Eng) (h : EReach Eng.init e) (hload : 0 < e.g.loads)
    (hsize : ∀ k, k < e.g.loads → ∀ p, e.g.real k = .pool p → 0 < p.size) (hexit : ∀ t, ¬ Exiting e t) (t : Nat) :
    (∃ e', Onward e e' ∧ e'.pc t = .idle) ↔ ¬ Abandoned e t := by
  have hI := EInv_reach EInv_init h
  have hw : WInv e := ⟨hI, hload, hsize, hexit⟩
  refine ⟨fun ⟨e', ho, hi⟩ ha => ?_, fun hn => ?_⟩
  · obtain ⟨l, k, p, hpc, _⟩ := abandoned_forever hI.s ha ho.reach
    rw [hi] at hpc
    cases hpc
  · by_cases hs : Stranded e t
    · obtain ⟨l, k, p, hpc, hr, _⟩ := hs
      have hk : k < e.g.loads := by have := hI.s.loc t; rw [hpc] at this; exact this
      obtain ⟨e1, p1, ho, _, hpc1, hr1, hroom⟩ := room_by_worker (A := fun _ => True) hw hk hr (fun hd => hn ⟨l, k, p, hpc, hr, hd⟩)
      obtain ⟨e2, ho2, h2⟩ := onward_step (Q := fun e' => e'.pc t = .idle) (by rw [hpc1]; exact hpc) (by simp)
        (.handPool e1.g l k p1 _ hr1 (.put p1 l hroom)) ⟨_, .refl _, setFn_self _ _ _⟩
      exact ⟨e2, ho.onward.trans' ho2, h2⟩
    · exact hw.finish t hs

theorem abandoned_of_done {e : Eng} (hI : EInv e) {t k : Nat} {p : Pool} {l : Log} (hpc : e.pc t = .wHand l k) (hr : e.g.real k = .pool p)
    (hd : p.stop = .done) (hc : p.cap ≠ 0) (hfull : p.cap ≤ p.queue.length) : Abandoned e t := by
  have hk : k < e.g.loads := by have := hI.s.loc t; rw [hpc] at this; exact this
  obtain ⟨s, c, tr, hrun⟩ := hI.r.runs k hk p hr
  have inv := PInv_run hrun
  exact ⟨l, k, p, hpc, hr, hc, hfull, fun i hi => .inl (inv.finished hd i (by rw [← inv.sizeEq]; exact hi))⟩

/-- An abandoned call, at the queue of an engine that was replaced; no other call is in progress. (States in which the calls can return:
the example beside `C18_every_call_can_return_partial`.) -/
example : ∃ e, EReach Eng.init e ∧ Abandoned e 2 ∧ ∀ t, t ≠ 2 → e.pc t = .idle := by
  have a1 := (EReach.init (e₀ := Eng.init)).th 1 (.cCall _ (.poolSize 1))
  have a2 := a1.th 1 (.cAcquire _ _ rfl)
  have a3 := a2.th 1 (.cStore _ _ rfl rfl)
  have a4 := a3.th 1 (.cEngineEnter _ rfl)
  have a5 := a4.th 1 (.cEngineLeave _)
  have a6 := a5.th 1 (.cNotStarted _ rfl)
  have a7 := a6.th 1 (.cDone _)
  have a8 := a7.th 1 (.cCall _ (.maxQueue 1))
  have a9 := a8.th 1 (.cAcquire _ _ rfl)
  have a10 := a9.th 1 (.cStore _ _ rfl rfl)
  have a11 := a10.th 1 (.cEngineEnter _ rfl)
  have a12 := a11.th 1 (.cEngineLeave _)
  have a13 := a12.th 1 (.cNotStarted _ rfl)
  have a14 := a13.th 1 (.cDone _)
  have b1 := a14.th 0 (.callFirst _ 5 (by simp [Eng.init, Glob.init, Change.apply]) rfl)
  have b2 := b1.th 0 (.wLock _ _ rfl)
  have b3 := b2.th 0 (.wNotYet _ _ rfl)
  have b4 := b3.th 0 (.wSetLock _ _ rfl)
  have b5 := b4.th 0 (.wSetStarted _ _)
  have b6 := b5.th 0 (.wLoadMulti _ _ (by decide))
  have b7 := b6.th 0 (.wLoadQueue _ _)
  have b8 := b7.th 0 (.wLoadWorkers _ _ _)
  have b9 := b8.th 0 (.wRegister _ _)
  have b10 := b9.th 0 (.wDone _ _)
  have b11 := b10.th 0 (.fetch _ _ 0 rfl)
  -- thread 2 begins to write log 6
  have c1 := b11.th 2 (.callDirect _ 6 (by
    intro x hx
    have : x = (0, 5) := List.mem_singleton.1 hx
    subst this; decide) rfl)
  have c2 := c1.th 2 (.fetch _ _ 0 rfl)
  -- thread 1: `config.set(pool_size=2)`
  have d1 := c2.th 1 (.cCall _ (.poolSize 2))
  have d2 := d1.th 1 (.cAcquire _ _ rfl)
  have d3 := d2.th 1 (.cStore _ _ rfl rfl)
  have d4 := d3.th 1 (.cEngineEnter _ rfl)
  have d5 := d4.th 1 (.cEngineLeave _)
  have d6 := d5.th 1 (.cStarted _ rfl)
  have d7 := d6.th 1 (.cBlock _ rfl)
  have d8 := d7.th 1 (.cSwap _)
  have d9 := d8.th 1 (.cStopPool _ 0 _ _ rfl rfl (.stopCall _ rfl))
  have d10 := d9.po 0 (by decide) rfl (.drained _ rfl rfl) (by simp) (by simp)
  have d11 := d10.po 0 (by decide) rfl (.setFlag _ 0 rfl (by decide)) (by simp) (by simp)
  have d12 := d11.po 0 (by decide) rfl (.flagged _ rfl) (by simp) (by simp)
  have d13 := d12.po 0 (by decide) rfl (.expire _ 0 (by decide) rfl rfl) (by simp) (by simp)
  have d14 := d13.po 0 (by decide) rfl (.exit _ 0 (by decide) rfl rfl) (by simp) (by simp)
  have d15 := d14.po 0 (by decide) rfl (.join _ 0 rfl (by decide) rfl) (by simp) (by simp)
  have d16 := d15.po 0 (by decide) rfl (.stopped _ rfl) (by simp) (by simp)
  have d17 := d16.th 1 (.cStopped _ 0 _ rfl rfl)
  have d18 := d17.th 1 (.cLoad _)
  have d19 := d18.th 1 (.cUnblock _)
  have d20 := d19.th 1 (.cRelease _)
  have d21 := d20.th 1 (.cDone _)
  -- thread 0 fills the queue of the old engine
  have f1 := d21.th 0 (.handPool _ _ 0 _ _ rfl (.put _ _ (.inr (by decide))))
  refine ⟨_, f1, abandoned_of_done (EInv_reach EInv_init f1) (t := 2) (k := 0) rfl rfl rfl (by decide) (by decide), ?_⟩
  intro t h2
  by_cases h0 : t = 0
  · subst h0; rfl
  · by_cases h1 : t = 1
    · subst h1; rfl
    · simp [setFn, h0, h1, h2, Eng.init]

end Polog
