import Verif.Engine.Logs2
import Verif.Engine.Spec

/-! Theorems about the engine: C17, C20 (synchronous part), C21, C55.  Executions that meet the hypotheses are in `Engine/Witness.lean`. -/

namespace Polog
open EngineSpec

theorem log?_iff_inCall (e : Eng) (t : Nat) (l : Log) : (e.pc t).log? = some l ↔ InCall e t l := by
  unfold InCall
  cases h : e.pc t <;> simp [PC.log?, eq_comm]

theorem EReach.trans {a b c : Eng} (h : EReach a b) (h' : EReach b c) : EReach a c := by
  induction h' with
  | init => exact h
  | step _ hs ih => exact .step ih hs

/-- A stopped pool keeps its queue for ever: nobody takes from it. -/
theorem stopped_keeps {e e' : Eng} {k : Nat} {p : Pool} (hI : EInv e) (h : EReach e e')
    (hk : k < e.g.loads) (hr : e.g.real k = .pool p) (hd : p.stop = .done) :
    EInv e' ∧ k < e'.g.loads ∧ ∃ p', e'.g.real k = .pool p' ∧ p'.stop = .done ∧ p'.cap = p.cap ∧
      p.queue <+: p'.queue := by
  induction h with
  | init => exact ⟨hI, hk, p, hr, hd, rfl, List.prefix_rfl⟩
  | @step e1 e2 h1 hs ih =>
    obtain ⟨hI1, hk1, q, hq, hqd, hqc, hql⟩ := ih
    refine ⟨EInv_step hI1 hs, ?_⟩
    -- what a step of the stopped pool can be
    have one : ∀ q' a, PStep q a q' → q'.stop = .done ∧ q'.cap = q.cap ∧ q.queue <+: q'.queue := by
      intro q' a hst
      obtain ⟨s, c, tr, hrun⟩ := hI1.r.runs k hk1 q hq
      have inv := PInv_run hrun
      have hex : ∀ i, i < q.size → q.worker i = .exited := fun i hi =>
        inv.finished hqd i (by rw [← inv.sizeEq]; exact hi)
      cases hst with
      | put l => exact ⟨hqd, rfl, List.prefix_append _ _⟩
      | take i l q hi hw => rw [hex i hi] at hw; cases hw
      | handled i l hi hw => rw [hex i hi] at hw; cases hw
      | expire i hi hw => rw [hex i hi] at hw; cases hw
      | again i hi hw => rw [hex i hi] at hw; cases hw
      | exit i hi hw => rw [hex i hi] at hw; cases hw
      | stopCall h => rw [hqd] at h; cases h
      | drained h => rw [hqd] at h; cases h
      | setFlag j h => rw [hqd] at h; cases h
      | flagged h => rw [hqd] at h; cases h
      | join j h => rw [hqd] at h; cases h
      | stopped h => rw [hqd] at h; cases h
    have upd : ∀ (g' : Glob) (j : Nat) (r r' : Pool) (a : PLabel), e1.g.real j = .pool r → PStep r a r' →
        g'.real = setFn e1.g.real j (.pool r') →
        ∃ p', g'.real k = .pool p' ∧ p'.stop = .done ∧ p'.cap = p.cap ∧ p.queue <+: p'.queue := by
      intro g' j r r' a hj hst hg
      by_cases hjk : k = j
      · subst hjk
        rw [hq] at hj; cases hj
        obtain ⟨h1, h2, h3⟩ := one _ _ hst
        exact ⟨r', by rw [hg, setFn_self], h1, by rw [h2, hqc], hql.trans h3⟩
      · exact ⟨q, by rw [hg, setFn_ne _ _ hjk]; exact hq, hqd, hqc, hql⟩
    have keep : ∀ (g' : Glob), g'.real k = e1.g.real k →
        ∃ p', g'.real k = .pool p' ∧ p'.stop = .done ∧ p'.cap = p.cap ∧ p.queue <+: p'.queue :=
      fun g' hg => ⟨q, by rw [hg]; exact hq, hqd, hqc, hql⟩
    have load : ∀ (g' : Glob) r, g'.real = setFn e1.g.real e1.g.loads r →
        ∃ p', g'.real k = .pool p' ∧ p'.stop = .done ∧ p'.cap = p.cap ∧ p.queue <+: p'.queue :=
      fun g' r hg => keep g' (by rw [hg, setFn_ne _ _ (by omega)])
    cases hs with
    | pool j r r' a hj hjr hst hput hstop => exact ⟨hk1, upd _ _ _ _ _ hjr hst rfl⟩
    | thread t g' pc' hst =>
      refine ⟨Nat.lt_of_lt_of_le hk1 hst.mono.1, ?_⟩
      generalize e1.pc t = pc at hst
      cases hst with
      | wLoadSingle l hz => exact load _ _ rfl
      | wLoadWorkers l cap => exact load _ _ rfl
      | cLoad => exact load _ _ rfl
      | handPool l j r r' hr hp => exact upd _ _ _ _ _ hr hp rfl
      | bHandPool l j r r' hr hp => exact upd _ _ _ _ _ hr hp rfl
      | cStopPool j r r' hl hr hp => exact upd _ _ _ _ _ hr hp rfl
      | xStopPool j r r' hl hr hp => exact upd _ _ _ _ _ hr hp rfl
      | cStore c => cases c <;> exact keep _ rfl
      | _ => exact keep _ rfl

/-- **C17.** At every moment of every execution, whatever the writers, the workers and the reloads
do, a written log has been handled at most once; if it has not been handled, it is in the hands of
the call that wrote it, in a queue, or in the hands of a worker. -/
theorem C17_nothing_vanishes_or_duplicates (e : Eng) (h : EReach Eng.init e) (l : Log)
    (hw : Written e l) :
    timesHandled e l = 1 ∨
    (timesHandled e l = 0 ∧
      ((∃ t, (t, l) ∈ e.g.calls ∧ InCall e t l) ∨ (∃ k, Queued e k l) ∨ (∃ k i, InWork e k i l))) := by
  obtain ⟨_, _, loc, hL⟩ := EInv_reach EInv_init h
  have hd := hL.done l
  unfold timesHandled
  cases hl : loc l with
  | unborn =>
    obtain ⟨t, ht⟩ := hw
    exact absurd rfl ((hL.born l).1 hl _ ht)
  | thread t =>
    rw [hl] at hd
    exact .inr ⟨by simpa using hd, .inl ⟨t, hL.owner t l hl, (log?_iff_inCall e t l).1 ((hL.thread t l).2 hl)⟩⟩
  | queue k =>
    rw [hl] at hd
    exact .inr ⟨by simpa using hd, .inr (.inl ⟨k, (hL.queue k l).1 hl⟩)⟩
  | worker k i =>
    rw [hl] at hd
    exact .inr ⟨by simpa using hd, .inr (.inr ⟨k, i, (hL.worker k i l).1 hl⟩)⟩
  | done => rw [hl] at hd; exact .inl (by simpa using hd)

/-- **C17.** Nothing is ever handled twice, and nothing is handled that was not written. -/
theorem C17_handled_at_most_once (e : Eng) (h : EReach Eng.init e) (l : Log) :
    timesHandled e l ≤ 1 ∧ (0 < timesHandled e l → Written e l) := by
  obtain ⟨_, _, loc, hL⟩ := EInv_reach EInv_init h
  have hd := hL.done l
  unfold timesHandled
  rw [hd]
  refine ⟨by split <;> omega, fun hpos => ?_⟩
  by_cases hl : loc l = .done
  · have hn : ¬ (∀ x ∈ e.g.calls, x.2 ≠ l) := fun hx => by
      have := (hL.born l).2 hx
      rw [hl] at this; cases this
    apply Classical.byContradiction
    intro hnw
    apply hn
    rintro ⟨t, l'⟩ hx rfl
    exact hnw ⟨t, hx⟩
  · rw [if_neg hl] at hpos; omega

/-- Old engines hold nothing but late logs. -/
theorem held_by_old {e : Eng} (hI : EInv e) {loc : Log → Loc} (hL : LInv e loc) {k : Nat} {p : Pool}
    (hk : k < e.g.loads) (hr : e.g.real k = .pool p) (hd : p.stop = .done) :
    (∀ l ∈ p.queue, l ∈ e.g.late) ∧ (∀ i l, i < p.size → p.worker i ≠ .busy l) := by
  refine ⟨fun l hl => hL.late k p hk hr (by simp [Pool.closed, hd]) l hl, ?_⟩
  intro i l hi hw
  obtain ⟨s, c, tr, hrun⟩ := hI.r.runs k hk p hr
  have inv := PInv_run hrun
  rw [inv.finished hd i (by rw [← inv.sizeEq]; exact hi)] at hw
  cases hw

/-- **C17** (partial: the README promises exactly once without exception).  When everything has come
to rest, every written log has been handled exactly once, except the logs that were put into the
queue of an engine after its `stop()` had seen that queue empty. -/
theorem C17_exactly_once_unless_late_partial (e : Eng) (h : EReach Eng.init e) (hq : Quiescent e)
    (l : Log) (hw : Written e l) : timesHandled e l = 1 ∨ l ∈ e.g.late := by
  have hI := EInv_reach EInv_init h
  obtain ⟨loc, hL⟩ := hI.l
  rcases C17_nothing_vanishes_or_duplicates e h l hw with h1 | ⟨_, h1⟩
  · exact .inl h1
  · right
    rcases h1 with ⟨t, _, ht⟩ | ⟨k, hk⟩ | ⟨k, i, hk⟩
    · have := (log?_iff_inCall e t l).2 ht
      rw [hq.1 t] at this; cases this
    · by_cases hc : k + 1 = e.g.loads
      · exact absurd hk ((hq.2 k hc).1 l)
      · obtain ⟨hk', p, hp, hl⟩ := hk
        exact (held_by_old hI hL hk' hp (hI.r.old k (by omega) p hp)).1 l hl
    · by_cases hc : k + 1 = e.g.loads
      · exact absurd hk ((hq.2 k hc).2 i l)
      · obtain ⟨hk', p, hp, hi, hl⟩ := hk
        exact absurd hl ((held_by_old hI hL hk' hp (hI.r.old k (by omega) p hp)).2 i l hi)

theorem EngineSpec.CalmReach.reach {e₀ e : Eng} (h : CalmReach e₀ e) : EReach e₀ e := by
  induction h with
  | init => exact .init
  | step _ hs _ ih => exact .step ih hs

/-- The calm invariant: nobody holds an engine that is being replaced. -/
structure Calm (e : Eng) : Prop where
  late : e.g.late = []
  hand : ∀ t l k, e.pc t = .wHand l k → k + 1 = e.g.loads ∧ e.g.mode ≠ .blocked
  fetch : ∀ t l, e.pc t = .wFetch l → e.g.mode ≠ .blocked

/-- What a thread step does to the place of a direct write. -/
theorem TStep.direct {t : Nat} {g g' : Glob} {p p' : PC} (h : TStep t g p g' p') :
    (∀ l, p' = .wFetch l → (p = .idle ∧ g.mode = .direct ∧ g'.mode = g.mode) ∨ (∃ l, p = .wCheck l ∧ g'.mode = g.mode) ∨
      (∃ l, p = .wSwap l)) ∧
    (∀ l k, p' = .wHand l k → (∃ l, p = .wFetch l) ∧ g' = g ∧ k + 1 = g.loads) := by
  cases h with
  | callDirect l fresh h => exact ⟨fun _ _ => .inl ⟨rfl, h, rfl⟩, (fun _ _ h => nomatch h)⟩
  | wAlready l h => exact ⟨fun _ _ => .inr (.inl ⟨l, rfl, rfl⟩), (fun _ _ h => nomatch h)⟩
  | wDone l => exact ⟨fun _ _ => .inr (.inr ⟨l, rfl⟩), (fun _ _ h => nomatch h)⟩
  | fetch l k h => exact ⟨(fun _ h => nomatch h), fun _ _ h' => by cases h'; exact ⟨⟨l, rfl⟩, rfl, h.symm⟩⟩
  | _ => exact ⟨(fun _ h => nomatch h), (fun _ _ h => nomatch h)⟩

/-- Steps that load a new engine or block the writes. -/
theorem TStep.modes {t : Nat} {g g' : Glob} {p p' : PC} (h : TStep t g p g' p') :
    (g'.loads = g.loads ∨ p = .cLoad ∨ g.loads = 0 ∨ p.holdsEng = true ∧ ∃ l, p = .wLoad l ∨ ∃ c, p = .wLoadSize l c) ∧
    (g'.mode = g.mode ∨ g'.mode = .blocked ∨ p = .cUnblock ∨ ∃ l, p = .wSwap l) := by
  cases h with
  | wLoadSingle l => exact ⟨.inr (.inr (.inr ⟨rfl, l, .inl rfl⟩)), .inl rfl⟩
  | wLoadWorkers l c => exact ⟨.inr (.inr (.inr ⟨rfl, l, .inr ⟨c, rfl⟩⟩)), .inl rfl⟩
  | cLoad => exact ⟨.inr (.inl rfl), .inl rfl⟩
  | cSwap => exact ⟨.inl rfl, .inr (.inl rfl)⟩
  | xSwap => exact ⟨.inl rfl, .inr (.inl rfl)⟩
  | cUnblock => exact ⟨.inl rfl, .inr (.inr (.inl rfl))⟩
  | wDone l => exact ⟨.inl rfl, .inr (.inr (.inr ⟨l, rfl⟩))⟩
  | cStore c => cases c <;> exact ⟨.inl rfl, .inl rfl⟩
  | _ => exact ⟨.inl rfl, .inl rfl⟩

theorem SInv.curIdle {e : Eng} (h : SInv e) (hm : e.g.mode ≠ .blocked) (hl : 0 < e.g.loads) :
    CurIdle e.g := by
  have hn : Normal e.g → CurIdle e.g := fun hn => by
    rcases hn with h | h
    · rw [h.2.1] at hl; omega
    · exact h.2
  cases hk : e.g.engLock with
  | none => exact hn (h.free hk)
  | some t =>
    have hp := h.held t hk
    cases hpc : e.pc t with
    | wCheck => rw [hpc] at hp; exact hn hp
    | cEngineIn => rw [hpc] at hp; exact hn hp
    | wStart => rw [hpc] at hp; exact hn (.inl hp)
    | wStarting => rw [hpc] at hp; exact hn (.inl hp)
    | wLoad | wLoadCap | wLoadSize => rw [hpc] at hp; have := hp.2.1; omega
    | wHook | wSwap => rw [hpc] at hp; exact hp.2.2.2.2.2
    | bFetch => rw [hpc] at hp; exact hp.2
    | bUnlock => rw [hpc] at hp; exact hp.2
    | cSwap => rw [hpc] at hp; exact hp.2
    | xSwap => rw [hpc] at hp; exact hp.2
    | cRelease => rw [hpc] at hp; exact hp.2
    | bHand => rw [hpc] at hp; exact hp.1.2
    | cStop => rw [hpc] at hp; exact absurd hp.1.2.2.1 hm
    | xStop => rw [hpc] at hp; exact absurd hp.1.2.2.1 hm
    | cUnblock => rw [hpc] at hp; exact absurd hp.1.2.2.1 hm
    | cStopping => rw [hpc] at hp; exact absurd hp.1.2.2.1 hm
    | xStopping => rw [hpc] at hp; exact absurd hp.1.2.2.1 hm
    | cLoad => rw [hpc] at hp; exact absurd hp.1.2.2.1 hm
    | xEnd => rw [hpc] at hp; exact absurd hp.1.2.2.1 hm
    | _ => rw [hpc] at hp; exact hp.elim

theorem closed_of_none {p : Pool} (h : p.stop = .none) : p.closed = false := by simp [Pool.closed, h]

theorem Calm_step {e e' : Eng} (hS : SInv e) (hC : Calm e) (hs : EStep e e')
    (hc : e.g.mode ≠ .blocked → e'.g.mode = .blocked → ¬ WriteInFlight e) : Calm e' := by
  cases hs with
  | pool k p p' a hk hr hp hput hstop => exact ⟨hC.late, hC.hand, hC.fetch⟩
  | thread t g' p' hst =>
    have hphase : (e.pc t).holdsEng = true → Phase e.g (e.pc t) := fun hx => hS.held t ((hS.eng t).1 hx)
    -- the writes in flight of other threads
    have others : ∀ t', t' ≠ t → (∀ l, e.pc t' = .wFetch l → g'.mode ≠ .blocked) ∧
        (∀ l k, e.pc t' = .wHand l k → k + 1 = g'.loads ∧ g'.mode ≠ .blocked) := by
      intro t' ht
      have blocked : (∃ l, e.pc t' = .wFetch l ∨ ∃ k, e.pc t' = .wHand l k) → g'.mode ≠ .blocked := by
        rintro ⟨l, hl⟩ hb
        have hne : e.g.mode ≠ .blocked := by
          rcases hl with hl | ⟨k, hl⟩
          · exact hC.fetch t' l hl
          · exact (hC.hand t' l k hl).2
        exact hc hne hb ⟨t', l, hl⟩
      refine ⟨fun l hl => blocked ⟨l, .inl hl⟩, fun l k hl => ⟨?_, blocked ⟨l, .inr ⟨k, hl⟩⟩⟩⟩
      have hk := hC.hand t' l k hl
      have hlt := hS.loc t'
      rw [hl] at hlt
      rcases hst.modes.1 with h1 | h1 | h1 | ⟨hh, l', h1⟩
      · rw [h1]; exact hk.1
      · have := hphase (by rw [h1]; rfl)
        rw [h1] at this
        exact absurd this.1.2.2.1 hk.2
      · exact absurd hlt (by unfold LocalOk; omega)
      · have := hphase hh
        have hz : e.g.loads = 0 := by
          rcases h1 with h1 | ⟨c, h1⟩ <;> rw [h1] at this <;> exact this.2.1
        exact absurd hlt (by unfold LocalOk; omega)
    refine ⟨?_, ?_, ?_⟩
    · -- nothing becomes late
      have hlate : ∀ k (q : Pool), e.g.real k = .pool q → k + 1 = e.g.loads → e.g.mode ≠ .blocked →
          q.closed = false := by
        intro k q hq hk hm
        have := hS.curIdle hm (by omega)
        exact closed_of_none (this q (by rw [← hk]; simpa using hq))
      cases hst.effect with
      | quiet hp hc hs hl hr => rw [hl]; exact hC.late
      | call l fresh hp hp' hc hs hl hload hr => rw [hl]; exact hC.late
      | single l hp hp' hc hs hl hload hr => rw [hl]; exact hC.late
      | put l k q q' hp hp' hc hs hl hload hk hq hstep hr =>
        have : q.closed = false := by
          rcases hk with hk | hk
          · have := hC.hand t l k hk
            exact hlate k q hq this.1 this.2
          · have := hphase (by rw [hk]; rfl)
            rw [hk] at this
            exact hlate k q hq this.2 (by rw [this.1.1.2.2.1]; simp)
        rw [hl, this]; exact hC.late
    · intro t' l k hl
      dsimp only at hl ⊢
      by_cases ht : t' = t
      · subst ht
        rw [setFn_self] at hl
        obtain ⟨⟨l', hf⟩, hg, hk⟩ := hst.direct.2 l k hl
        rw [hg]
        exact ⟨hk, hC.fetch t' l' hf⟩
      · rw [setFn_ne _ _ ht] at hl; exact (others t' ht).2 l k hl
    · intro t' l hl
      dsimp only at hl ⊢
      by_cases ht : t' = t
      · subst ht
        rw [setFn_self] at hl
        rcases hst.direct.1 l hl with ⟨_, hm, hm'⟩ | ⟨l', hp, hm⟩ | ⟨l', hp⟩
        · rw [hm', hm]; simp
        · have := hphase (by rw [hp]; rfl)
          rw [hp] at this
          rw [hm]
          rcases this with h | h
          · rw [h.2.2.1]; simp
          · rw [h.1.2.2.1]; simp
        · generalize hpc : e.pc t' = pc at hst
          rw [hpc] at hp
          subst hp
          cases hst
          simp
      · rw [setFn_ne _ _ ht] at hl; exact (others t' ht).1 l hl

theorem Calm_reach {e₀ e : Eng} (h₀ : EInv e₀) (hc : Calm e₀) (h : CalmReach e₀ e) : Calm e := by
  induction h with
  | init => exact hc
  | step hr hs hw ih => exact Calm_step (EInv_reach h₀ hr.reach).s ih hs hw

/-- **C17** (partial: only for the executions described by `CalmReach`).  If no reload begins while a
direct write is in flight, then when everything has come to rest every written log has been handled
exactly once, whatever the number of reloads, writers and workers. -/
theorem C17_exactly_once_in_calm_executions_partial (e : Eng) (h : CalmReach Eng.init e)
    (hq : Quiescent e) (l : Log) (hw : Written e l) : timesHandled e l = 1 := by
  rcases C17_exactly_once_unless_late_partial e h.reach hq l hw with h1 | h1
  · exact h1
  · rw [(Calm_reach EInv_init ⟨rfl, by simp [Eng.init], by simp [Eng.init]⟩ h).late] at h1
    cases h1

/-- **C17.** With the synchronous engine (however often it is reloaded) nothing is ever lost: every
written log has been handled exactly once, or the call that wrote it has not returned yet. -/
theorem C17_sync_exactly_once (e : Eng) (h : EReach Eng.init e) (hs : AllSync e) (l : Log)
    (hw : Written e l) :
    timesHandled e l = 1 ∨ (timesHandled e l = 0 ∧ ∃ t, (t, l) ∈ e.g.calls ∧ InCall e t l) := by
  rcases C17_nothing_vanishes_or_duplicates e h l hw with h1 | ⟨h0, h1 | ⟨k, hk, p, hp, _⟩ | ⟨k, i, hk, p, hp, _⟩⟩
  · exact .inl h1
  · exact .inr ⟨h0, h1⟩
  · rw [hs k hk] at hp; cases hp
  · rw [hs k hk] at hp; cases hp

end Polog
