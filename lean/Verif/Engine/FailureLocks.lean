import Verif.Engine.FailureProps

/-! C94, continued: the locks after failures, recovery, and the end of the program without an engine. -/

namespace Polog
open EngineSpec FailureSpec

/-- Each lock is held by the thread whose place says so. -/
structure LockInv (e : Eng) : Prop where
  eng : ∀ t, (e.pc t).holdsEng = true ↔ e.g.engLock = some t
  set : ∀ t, (e.pc t).holdsSet = true ↔ e.g.setLock = some t

theorem own_move {f : PC → Bool} {pc : Nat → PC} {t : Nat} {p' : PC} {o o' : Option Nat}
    (h : ∀ u, f (pc u) = true ↔ o = some u)
    (hm : (f p' = f (pc t) ∧ o' = o) ∨ (f p' = true ∧ o = none ∧ o' = some t) ∨
      (f (pc t) = true ∧ f p' = false ∧ o' = none)) (u : Nat) :
    f (setFn pc t p' u) = true ↔ o' = some u := by
  by_cases hu : u = t
  · subst hu
    rw [setFn_self]
    rcases hm with ⟨h1, rfl⟩ | ⟨h1, _, rfl⟩ | ⟨_, h2, rfl⟩
    · rw [h1]; exact h u
    · simp [h1]
    · simp [h2]
  · rw [setFn_ne _ _ hu]
    rcases hm with ⟨_, rfl⟩ | ⟨_, h2, rfl⟩ | ⟨h1, _, rfl⟩
    · exact h u
    · rw [h u, h2]; simp [Ne.symm hu]
    · rw [h u, (h t).1 h1]; simp [Ne.symm hu]

theorem LockInv_step {s s' : FEng} (h : LockInv s.e) (hs : FailStep s s') : LockInv s'.e := by
  cases hs with
  | run e' he =>
    cases he with
    | pool => exact ⟨h.eng, h.set⟩
    | thread t g' p' hst =>
      refine ⟨own_move h.eng ?_, own_move h.set ?_⟩
      · rcases hst.phases with ⟨h1, h2, h3, _⟩ | ⟨h1, h2, h3, h4, _⟩ | ⟨h1, h2, h3, _⟩ | ⟨h1, h2, h3, _⟩
        · exact .inl ⟨by rw [h1, h2], h3⟩
        · exact .inr (.inl ⟨h2, h3, h4⟩)
        · exact .inl ⟨by rw [h1, h2], h3⟩
        · exact .inr (.inr ⟨h1, h2, h3⟩)
      · rcases hst.setLock with ⟨h1, h2⟩ | ⟨h1, h2, h3, h4⟩ | ⟨h1, h2, h3⟩
        · exact .inl ⟨h1.symm, h2⟩
        · exact .inr (.inl ⟨h2, h3, h4⟩)
        · exact .inr (.inr ⟨h1, h2, h3⟩)
  | firstFails t l hp =>
    rcases hp with hp | hp | ⟨c, hp⟩ <;>
      exact ⟨own_move h.eng (.inl ⟨by rw [hp]; rfl, rfl⟩), own_move h.set (.inl ⟨by rw [hp]; rfl, rfl⟩)⟩
  | loadFails t hp | stopNone t hp | exitNone t hp | stopAgain t k p hp | exitAgain t k p hp | raise t l hp =>
    exact ⟨own_move h.eng (.inl ⟨by rw [hp]; rfl, rfl⟩), own_move h.set (.inl ⟨by rw [hp]; rfl, rfl⟩)⟩
  | blockedNone t l hp =>
    exact ⟨own_move h.eng (.inr (.inr ⟨by rw [hp]; rfl, rfl, rfl⟩)),
      own_move h.set (.inl ⟨by rw [hp]; rfl, rfl⟩)⟩

theorem LockInv_reach {s : FEng} (h : FailReach FEng.init s) : LockInv s.e := by
  induction h with
  | init => exact ⟨by simp [FEng.init, Eng.init, Glob.init, PC.holdsEng],
      by simp [FEng.init, Eng.init, Glob.init, PC.holdsSet]⟩
  | step _ hs ih => exact LockInv_step ih hs

/-- **C94** (the part about locks, proved in full).  However often the creation of an engine fails, a
lock is held only by a thread that is inside a call of polog (or by the ended exit hook): a call that
has ended, also one that raised, holds neither the lock of the engine nor the lock of the settings,
and a log call whose `AttributeError` is on its way out has released them already. -/
theorem C94_failed_calls_hold_no_lock (s : FEng) (h : FailReach FEng.init s) (t : Nat)
    (ht : s.e.pc t = .idle ∨ ∃ l, s.e.pc t = .wFailed l) :
    s.e.g.engLock ≠ some t ∧ s.e.g.setLock ≠ some t := by
  have hi := LockInv_reach h
  constructor <;> intro hl
  · have := (hi.eng t).2 hl
    rcases ht with ht | ⟨l, ht⟩ <;> rw [ht] at this <;> cases this
  · have := (hi.set t).2 hl
    rcases ht with ht | ⟨l, ht⟩ <;> rw [ht] at this <;> cases this

/-- Nothing before the first write leads to an error. -/
def Before (s : FEng) : Prop :=
  s.e.g.started = true ∨
  (s.e.g.mode = .first ∧ s.e.g.hooks = 0 ∧ s.raised = [] ∧ ∀ t,
    s.e.pc t = .idle ∨ (∃ l, s.e.pc t = .wFirst l) ∨ (∃ l, s.e.pc t = .wCheck l) ∨
    (∃ l, s.e.pc t = .wStart l) ∨ (∃ l, s.e.pc t = .wStarting l) ∨ (∃ c, s.e.pc t = .cWait c) ∨
    (∃ c, s.e.pc t = .cLocked c) ∨ s.e.pc t = .cEngine ∨ s.e.pc t = .cEngineIn ∨
    s.e.pc t = .cReload ∨ s.e.pc t = .cDone)

theorem Before_step {s s' : FEng} (h : Before s) (hs : FailStep s s') : Before s' := by
  rcases h with h | ⟨h1, h2, h3, h4⟩
  · left
    cases hs with
    | run e' he =>
      cases he with
      | pool => exact h
      | thread t g' p' hst => exact hst.mono.2 h
    | _ => exact h
  · have mv : ∀ (t : Nat) (p' : PC), (p' = .idle ∨ (∃ l, p' = .wFirst l) ∨ (∃ l, p' = .wCheck l) ∨
        (∃ l, p' = .wStart l) ∨ (∃ l, p' = .wStarting l) ∨ (∃ c, p' = .cWait c) ∨
        (∃ c, p' = .cLocked c) ∨ p' = .cEngine ∨ p' = .cEngineIn ∨ p' = .cReload ∨ p' = .cDone) → ∀ u,
        setFn s.e.pc t p' u = .idle ∨ (∃ l, setFn s.e.pc t p' u = .wFirst l) ∨
        (∃ l, setFn s.e.pc t p' u = .wCheck l) ∨ (∃ l, setFn s.e.pc t p' u = .wStart l) ∨
        (∃ l, setFn s.e.pc t p' u = .wStarting l) ∨ (∃ c, setFn s.e.pc t p' u = .cWait c) ∨
        (∃ c, setFn s.e.pc t p' u = .cLocked c) ∨ setFn s.e.pc t p' u = .cEngine ∨
        setFn s.e.pc t p' u = .cEngineIn ∨ setFn s.e.pc t p' u = .cReload ∨
        setFn s.e.pc t p' u = .cDone := by
      intro t p' hp' u
      by_cases hu : u = t
      · subst hu; rw [setFn_self]; exact hp'
      · rw [setFn_ne _ _ hu]; exact h4 u
    cases hs with
    | run e' he =>
      cases he with
      | pool => exact .inr ⟨h1, h2, h3, h4⟩
      | thread t g' p' hst =>
        have ht := h4 t
        unfold Before
        dsimp only
        generalize s.e.pc t = p at hst ht
        cases hst with
        | cStore c => cases c <;> exact .inr ⟨h1, h2, h3, mv _ _ (by simp)⟩
        | wSetStarted => exact .inl rfl
        | wAlready l hst => exact .inl hst
        | cStarted hst => exact .inl hst
        | callDirect l _ hm => rw [h1] at hm; cases hm
        | callBlocked l _ hm => rw [h1] at hm; cases hm
        | xCall hh => rw [h2] at hh; cases hh
        | callFirst | wLock | wNotYet | wSetLock | cCall | cAcquire | cReject | cSame | cEngineEnter
        | cEngineLeave | cNotStarted | cDone => exact .inr ⟨h1, h2, h3, mv _ _ (by simp)⟩
        | _ => exfalso; simp at ht
    | firstFails t l hp =>
      have ht := h4 t
      rcases hp with hp | hp | ⟨c, hp⟩ <;> rw [hp] at ht <;> simp at ht
    | loadFails t hp | stopNone t hp | exitNone t hp | stopAgain t k p hp | exitAgain t k p hp
    | raise t l hp | blockedNone t l hp =>
      have ht := h4 t; rw [hp] at ht; simp at ht

theorem Before_reach {s : FEng} (h : FailReach FEng.init s) : Before s := by
  induction h with
  | init => exact .inr ⟨rfl, rfl, rfl, fun _ => .inl rfl⟩
  | step _ hs ih => exact Before_step ih hs

theorem FailStep.loads {s s' : FEng} (hs : FailStep s s') : s.e.g.loads ≤ s'.e.g.loads := by
  cases hs with
  | run e' he =>
    cases he with
    | pool => exact Nat.le_refl _
    | thread t g' p' hst => exact hst.mono.1
  | _ => exact Nat.le_refl _

/-- **C94**: once there is an engine, no log call raises any more, whatever fails later (the calls
that have already met the error end with it; `hf` says that there are none). -/
theorem C94_with_an_engine_no_call_raises (s s' : FEng) (hr : FailReach s s') (hn : ¬ NoEngine s.e)
    (hf : ∀ t l, s.e.pc t ≠ .wFailed l) :
    s'.raised = s.raised ∧ (∀ t l, s'.e.pc t ≠ .wFailed l) ∧ ¬ NoEngine s'.e := by
  induction hr with
  | init => exact ⟨rfl, hf, hn⟩
  | @step s1 s2 _ hs ih =>
    obtain ⟨h1, h2, h3⟩ := ih
    unfold NoEngine at h3 ⊢
    have hl := hs.loads
    have mv : ∀ (t : Nat) (p' : PC), (∀ l, p' ≠ .wFailed l) → ∀ u l, setFn s1.e.pc t p' u ≠ .wFailed l := by
      intro t p' hp' u l
      by_cases hu : u = t
      · subst hu; rw [setFn_self]; exact hp' l
      · rw [setFn_ne _ _ hu]; exact h2 u l
    refine ⟨?_, ?_, by omega⟩
    · cases hs with
      | raise t l hp => exact absurd hp (h2 t l)
      | _ => exact h1
    · cases hs with
      | run e' he =>
        cases he with
        | pool => exact h2
        | thread t g' p' hst =>
          refine mv t p' fun l hp' => ?_
          subst hp'
          generalize s1.e.pc t = p at hst
          cases hst with
          | fetchFails l' h0 => exact h3 h0
      | blockedNone t l hp h0 => exact absurd h0 h3
      | raise t l hp => exact absurd hp (h2 t l)
      | _ => exact mv _ _ (by simp)

/-- **C94**: recovery.  When a log call has raised because there is no engine, nothing is going on, and
the program sets `pool_size` to a new allowed value, the call can run to its end; if the creation of
the engine succeeds this time there is then one engine, the one described by the settings; a log
written after that can be handled; and no log call raises any more, whatever fails later. -/
theorem C94_config_set_repairs_a_failed_start (s : FEng) (h : FailReach FEng.init s) (hn : NoEngine s.e)
    (hi : ∀ t, s.e.pc t = .idle) (hr : s.raised ≠ []) (n : Nat) (hc : n ≠ s.e.g.poolSize)
    (ha : n ≠ 0 ∨ s.e.g.maxQueue = 0) (t : Nat) :
    ∃ s', FailReach s s' ∧ (∀ u, s'.e.pc u = .idle) ∧ s'.raised = s.raised ∧ s'.e.g.poolSize = n ∧
      s'.e.g.loads = 1 ∧
      s'.e.g.real 0 = (if n = 0 then .single else .pool (Pool.init n s.e.g.maxQueue)) ∧
      (∀ s'', FailReach s' s'' → s''.raised = s.raised) ∧
      ∀ l, ¬ Written s'.e l → ∃ s'', FailReach s' s'' ∧ Written s''.e l ∧
        timesHandled s''.e l = timesHandled s'.e l + 1 := by
  have hst : s.e.g.started = true := by
    rcases Before_reach h with h | h
    · exact h
    · exact absurd h.2.2.1 hr
  have hlk := LockInv_reach h
  have he : s.e.g.engLock = none := by
    cases hl : s.e.g.engLock with
    | none => rfl
    | some u => have := (hlk.eng u).2 hl; rw [hi u] at this; cases this
  have hs : s.e.g.setLock = none := by
    cases hl : s.e.g.setLock with
    | none => rfl
    | some u => have := (hlk.set u).2 hl; rw [hi u] at this; cases this
  obtain ⟨⟨g, pc⟩, r⟩ := s
  obtain rfl : pc = fun _ => .idle := funext hi
  have hn0 : g.loads = 0 := hn
  dsimp only at *
  have a1 := (FailReach.init (s₀ := ⟨⟨g, fun _ => .idle⟩, r⟩)).th t (.cCall _ (.poolSize n))
  have a2 := a1.th t (by dsimp only; rw [setFn_self]; exact .cAcquire _ _ hs)
  have a3 := a2.th t (by
    dsimp only; rw [setFn_self]
    refine .cStore _ _ ?_ ?_
    · rcases ha with ha | ha <;> simp [Change.allowed, ha]
    · simpa [Change.changes] using hc)
  have a4 := a3.th t (by dsimp only; rw [setFn_self]; exact .cEngineEnter _ he)
  have a5 := a4.th t (by dsimp only; rw [setFn_self]; exact .cEngineLeave _)
  have a6 := a5.th t (by dsimp only; rw [setFn_self]; exact .cStarted _ hst)
  have a7 := a6.th t (by dsimp only; rw [setFn_self]; exact .cBlock _ rfl)
  have a8 := a7.th t (by dsimp only; rw [setFn_self]; exact .cSwap _)
  have a9 := a8.step (.stopNone _ t (setFn_self _ _ _) hn0)
  have a10 := a9.th t (by dsimp only; rw [setFn_self]; exact .cLoad _)
  have a11 := a10.th t (by dsimp only; rw [setFn_self]; exact .cUnblock _)
  have a12 := a11.th t (by dsimp only; rw [setFn_self]; exact .cRelease _)
  have a13 := a12.th t (by dsimp only; rw [setFn_self]; exact .cDone _)
  have idle : ∀ u, setFn (setFn (setFn (setFn (setFn (setFn (setFn (setFn (setFn (setFn (setFn (setFn (setFn
      (fun _ => PC.idle) t (.cWait (.poolSize n))) t (.cLocked (.poolSize n))) t .cEngine) t .cEngineIn) t .cReload)
      t .cBlock) t .cSwap) t .cStop) t .cLoad) t .cUnblock) t .cRelease) t .cDone) t .idle u = .idle := by
    intro u; simp only [setFn]; repeat' split
    all_goals rfl
  refine ⟨_, a13, idle, rfl, rfl, ?_, ?_, ?_, ?_⟩
  · simp [Glob.load, Change.apply, hn0]
  · simp [Glob.load, Change.apply, hn0, fabric, setFn]
  · intro s'' hr''
    refine (C94_with_an_engine_no_call_raises _ _ hr'' (by simp [NoEngine, Glob.load]) ?_).1
    intro u l
    have := idle u
    dsimp only
    rw [this]; simp
  · intro l hl
    have b1 := (FailReach.self a13).th t (by
      dsimp only; rw [setFn_self]
      refine .callDirect _ l ?_ rfl
      rintro ⟨u, l'⟩ hx rfl
      exact hl ⟨u, hx⟩)
    have b2 := b1.th t (by
      dsimp only; rw [setFn_self]
      exact .fetch _ _ 0 (by simp [Glob.load, Change.apply, hn0]))
    by_cases hz : n = 0
    · have b3 := b2.th t (by
        dsimp only; rw [setFn_self]
        exact .handSingle _ _ 0 (by simp [Glob.load, Change.apply, hn0, fabric, setFn, hz]))
      exact ⟨_, b3, ⟨t, by simp⟩, by simp [timesHandled]⟩
    · have hput : PStep (Pool.init n g.maxQueue) (.put l)
          { Pool.init n g.maxQueue with queue := [] ++ [l] } := .put _ l (by
        by_cases hq : g.maxQueue = 0
        · exact .inl hq
        · exact .inr (Nat.pos_of_ne_zero hq))
      have b3 := b2.th t (by
        dsimp only; rw [setFn_self]
        refine .handPool _ _ 0 (Pool.init n g.maxQueue) _ ?_ hput
        simp [Glob.load, Change.apply, hn0, fabric, setFn, hz])
      have b4 := b3.po 0 (by simp [Glob.load]) (by dsimp only; rw [setFn_self])
        (.take { Pool.init n g.maxQueue with queue := [] ++ [l] } 0 l [] (Nat.pos_of_ne_zero hz) rfl rfl) (by simp) (by simp)
      have b5 := b4.po 0 (by simp [Glob.load]) (by dsimp only; rw [setFn_self])
        (.handled { Pool.init n g.maxQueue with
            queue := [], worker := setFn (Pool.init n g.maxQueue).worker 0 (.busy l) } 0 l
          (Nat.pos_of_ne_zero hz) (by simp [setFn])) (by simp) (by simp)
      exact ⟨_, b5, ⟨t, by simp⟩, by simp [timesHandled, PLabel.log?]⟩

/-- The hypotheses can be met: `C94_failed_first_engine_fails` gives such a state, and `pool_size=2` is
a new allowed value there or `pool_size=1` is. -/
example : ∃ s n, FailReach FEng.init s ∧ NoEngine s.e ∧ (∀ t, s.e.pc t = .idle) ∧ s.raised ≠ [] ∧
    n ≠ s.e.g.poolSize ∧ (n ≠ 0 ∨ s.e.g.maxQueue = 0) := by
  obtain ⟨s, h, hn, hr, hi, -⟩ := C94_failed_first_engine_fails
  exact ⟨s, s.e.g.poolSize + 1, h, hn, hi, by simp [hr], by omega, .inl (by omega)⟩

/-- **C94**: the end of the program without an engine.  The exit hook, once registered, can run to its
end although there is nothing to stop, and it creates no engine. -/
theorem C94_exit_without_an_engine_ends (s : FEng) (h : FailReach FEng.init s) (hn : NoEngine s.e)
    (hi : ∀ t, s.e.pc t = .idle) (hk : 0 < s.e.g.hooks) (t : Nat) :
    ∃ s', FailReach s s' ∧ s'.e.pc t = .xEnd ∧ (∀ u, u ≠ t → s'.e.pc u = .idle) ∧ NoEngine s'.e ∧
      s'.raised = s.raised := by
  have hlk := LockInv_reach h
  have he : s.e.g.engLock = none := by
    cases hl : s.e.g.engLock with
    | none => rfl
    | some u => have := (hlk.eng u).2 hl; rw [hi u] at this; cases this
  have hn0 : s.e.g.loads = 0 := hn
  have a1 := (FailReach.init (s₀ := s)).th t (by rw [hi t]; exact .xCall _ hk)
  have a2 := a1.th t (by dsimp only; rw [setFn_self]; exact .xLock _ he)
  have a3 := a2.th t (by dsimp only; rw [setFn_self]; exact .xSwap _)
  have a4 := a3.step (.exitNone _ t (setFn_self _ _ _) hn0)
  refine ⟨_, a4, setFn_self _ _ _, fun u hu => ?_, hn0, rfl⟩
  simp [setFn, hu, hi u]

/-- The hypotheses of `C94_exit_without_an_engine_ends` can be met: the exit hook is registered although the first engine could not
be created. -/
example : ∃ s, FailReach FEng.init s ∧ NoEngine s.e ∧ (∀ t, s.e.pc t = .idle) ∧ 0 < s.e.g.hooks := by
  obtain ⟨s, h, hn, -, hi, hk⟩ := C94_failed_first_engine_fails
  exact ⟨s, h, hn, hi, by rw [hk]; exact Nat.one_pos⟩

/-- The hypotheses of `C94_with_an_engine_no_call_raises` can be met: `config.set` has repaired a failed start. -/
example : ∃ s, FailReach FEng.init s ∧ ¬ NoEngine s.e ∧ (∀ t l, s.e.pc t ≠ .wFailed l) ∧ s.raised = [5, 6] := by
  obtain ⟨s, h, hn, hr, hi, -⟩ := C94_failed_first_engine_fails
  obtain ⟨s', h', hi', hr', -, hl, -⟩ := C94_config_set_repairs_a_failed_start s h hn hi (by simp [hr]) (s.e.g.poolSize + 1)
    (by omega) (.inl (by omega)) 0
  have ht : FailReach FEng.init s' := by
    clear hi' hr' hl
    induction h' with
    | init => exact h
    | step _ hs ih => exact ih.step hs
  exact ⟨s', ht, fun h0 => by unfold NoEngine at h0; omega, fun t l => by rw [hi' t]; exact nofun, hr'.trans hr⟩

end Polog
