import Verif.Engine.Model
import Verif.Engine.PoolProps

namespace Polog

/-- The places where a thread holds `Engine.lock`. -/
def PC.holdsEng : PC → Bool
  | .wCheck _ | .wStart _ | .wStarting _ | .wLoad _ | .wLoadCap _ | .wLoadSize _ _ | .wHook _
  | .wSwap _ | .bFetch _ | .bHand _ _ | .bUnlock | .cEngineIn | .cSwap | .cStop | .cStopping _
  | .cLoad | .cUnblock | .cRelease | .xSwap | .xStop | .xStopping _ | .xEnd => true
  | _ => false

/-- The places where a thread holds the lock of the settings. -/
def PC.holdsSet : PC → Bool
  | .wStarting _ | .cLocked _ | .cEngine | .cEngineIn | .cReload | .cBlock | .cSwap | .cStop
  | .cStopping _ | .cLoad | .cUnblock | .cRelease | .cDone => true
  | _ => false

/-- The current real engine is not being stopped. -/
def CurIdle (g : Glob) : Prop := ∀ p, g.real (g.loads - 1) = .pool p → p.stop = .none

/-- The current real engine has been stopped. -/
def CurDone (g : Glob) : Prop := ∀ p, g.real (g.loads - 1) = .pool p → p.stop = .done

def NotStarted (g : Glob) : Prop :=
  g.started = false ∧ g.loads = 0 ∧ g.mode = .first ∧ g.inits = 0 ∧ g.hooks = 0

/-- Started, with the given mode. -/
def RunningIn (m : Mode) (g : Glob) : Prop :=
  g.started = true ∧ 1 ≤ g.loads ∧ g.mode = m ∧ g.inits = 1 ∧ g.hooks = 1

def Running (g : Glob) : Prop := RunningIn .direct g ∧ CurIdle g

/-- The shared state while nobody holds `Engine.lock`. -/
def Normal (g : Glob) : Prop := NotStarted g ∨ Running g

/-- The shared state while the holder of `Engine.lock` is at the given place. -/
def Phase (g : Glob) : PC → Prop
  | .wCheck _ | .cEngineIn => Normal g
  | .wStart _ | .wStarting _ => NotStarted g
  | .wLoad _ | .wLoadCap _ | .wLoadSize _ _ =>
    g.started = true ∧ g.loads = 0 ∧ g.mode = .first ∧ g.inits = 0 ∧ g.hooks = 0
  | .wHook _ => g.started = true ∧ g.loads = 1 ∧ g.mode = .first ∧ g.inits = 1 ∧ g.hooks = 0 ∧ CurIdle g
  | .wSwap _ => g.started = true ∧ g.loads = 1 ∧ g.mode = .first ∧ g.inits = 1 ∧ g.hooks = 1 ∧ CurIdle g
  | .bFetch _ | .bUnlock | .cSwap | .xSwap | .cRelease => Running g
  | .bHand _ k => Running g ∧ k + 1 = g.loads
  | .cStop | .xStop | .cUnblock => RunningIn .blocked g ∧ CurIdle g
  | .cStopping k | .xStopping k => RunningIn .blocked g ∧ k + 1 = g.loads ∧ ∃ p, g.real k = .pool p ∧ p.stop ≠ .none
  | .cLoad | .xEnd => RunningIn .blocked g ∧ CurDone g
  | _ => False

/-- What a thread that holds nothing knows. -/
def LocalOk (g : Glob) : PC → Prop
  | .wFetch _ => 1 ≤ g.loads
  | .wHand _ k => k < g.loads
  | .wFailed _ => False
  | .bLock _ | .cBlock | .xBlock => g.started = true
  | _ => True

/-- Everything the phases speak about is unchanged, but pools may go on stopping. -/
structure SamePhase (g g' : Glob) : Prop where
  started : g'.started = g.started
  loads : g'.loads = g.loads
  mode : g'.mode = g.mode
  inits : g'.inits = g.inits
  hooks : g'.hooks = g.hooks
  fwd : ∀ k p, g.real k = .pool p → ∃ p', g'.real k = .pool p' ∧
    (p.stop = .none ↔ p'.stop = .none) ∧ (p.stop = .done → p'.stop = .done)
  bwd : ∀ k p', g'.real k = .pool p' → ∃ p, g.real k = .pool p

theorem SamePhase.curIdle {g g' : Glob} (h : SamePhase g g') (hc : CurIdle g) : CurIdle g' := by
  intro p' hp'
  rw [h.loads] at hp'
  obtain ⟨p, hp⟩ := h.bwd _ _ hp'
  obtain ⟨q, hq, h1, _⟩ := h.fwd _ _ hp
  rw [hp'] at hq
  cases hq
  exact h1.1 (hc p hp)

theorem SamePhase.curDone {g g' : Glob} (h : SamePhase g g') (hc : CurDone g) : CurDone g' := by
  intro p' hp'
  rw [h.loads] at hp'
  obtain ⟨p, hp⟩ := h.bwd _ _ hp'
  obtain ⟨q, hq, _, h2⟩ := h.fwd _ _ hp
  rw [hp'] at hq
  cases hq
  exact h2 (hc p hp)

theorem SamePhase.runningIn {g g' : Glob} (h : SamePhase g g') {m : Mode} (hc : RunningIn m g) :
    RunningIn m g' := by
  unfold RunningIn at *
  rw [h.started, h.loads, h.mode, h.inits, h.hooks]; exact hc

theorem SamePhase.notStarted {g g' : Glob} (h : SamePhase g g') (hc : NotStarted g) : NotStarted g' := by
  unfold NotStarted at *
  rw [h.started, h.loads, h.mode, h.inits, h.hooks]; exact hc

theorem SamePhase.running {g g' : Glob} (h : SamePhase g g') (hc : Running g) : Running g' :=
  ⟨h.runningIn hc.1, h.curIdle hc.2⟩

theorem SamePhase.normal {g g' : Glob} (h : SamePhase g g') (hc : Normal g) : Normal g' :=
  hc.imp h.notStarted h.running

theorem SamePhase.phase {g g' : Glob} (h : SamePhase g g') {pc : PC} (hc : Phase g pc) : Phase g' pc := by
  have hstop : ∀ k, (∃ p, g.real k = .pool p ∧ p.stop ≠ .none) →
      ∃ p, g'.real k = .pool p ∧ p.stop ≠ .none := by
    rintro k ⟨p, hp, hn⟩
    obtain ⟨q, hq, h1, _⟩ := h.fwd _ _ hp
    exact ⟨q, hq, fun e => hn (h1.2 e)⟩
  cases pc with
  | wCheck => exact h.normal hc
  | cEngineIn => exact h.normal hc
  | wStart => exact h.notStarted hc
  | wStarting => exact h.notStarted hc
  | wLoad => unfold Phase at *; rw [h.started, h.loads, h.mode, h.inits, h.hooks]; exact hc
  | wLoadCap => unfold Phase at *; rw [h.started, h.loads, h.mode, h.inits, h.hooks]; exact hc
  | wLoadSize => unfold Phase at *; rw [h.started, h.loads, h.mode, h.inits, h.hooks]; exact hc
  | wHook =>
    unfold Phase at *
    rw [h.started, h.loads, h.mode, h.inits, h.hooks]
    exact ⟨hc.1, hc.2.1, hc.2.2.1, hc.2.2.2.1, hc.2.2.2.2.1, h.curIdle hc.2.2.2.2.2⟩
  | wSwap =>
    unfold Phase at *
    rw [h.started, h.loads, h.mode, h.inits, h.hooks]
    exact ⟨hc.1, hc.2.1, hc.2.2.1, hc.2.2.2.1, hc.2.2.2.2.1, h.curIdle hc.2.2.2.2.2⟩
  | bFetch => exact h.running hc
  | bUnlock => exact h.running hc
  | cSwap => exact h.running hc
  | xSwap => exact h.running hc
  | cRelease => exact h.running hc
  | bHand l k => exact ⟨h.running hc.1, by rw [h.loads]; exact hc.2⟩
  | cStop => exact ⟨h.runningIn hc.1, h.curIdle hc.2⟩
  | xStop => exact ⟨h.runningIn hc.1, h.curIdle hc.2⟩
  | cUnblock => exact ⟨h.runningIn hc.1, h.curIdle hc.2⟩
  | cStopping k => exact ⟨h.runningIn hc.1, by rw [h.loads]; exact hc.2.1, hstop k hc.2.2⟩
  | xStopping k => exact ⟨h.runningIn hc.1, by rw [h.loads]; exact hc.2.1, hstop k hc.2.2⟩
  | cLoad => exact ⟨h.runningIn hc.1, h.curDone hc.2⟩
  | xEnd => exact ⟨h.runningIn hc.1, h.curDone hc.2⟩
  | _ => exact hc

theorem SamePhase.same {g g' : Glob} (h1 : g'.started = g.started) (h2 : g'.loads = g.loads)
    (h3 : g'.mode = g.mode) (h4 : g'.inits = g.inits) (h5 : g'.hooks = g.hooks) (h6 : g'.real = g.real) :
    SamePhase g g' :=
  ⟨h1, h2, h3, h4, h5, fun k p hp => ⟨p, by rw [h6]; exact hp, Iff.rfl, id⟩,
    fun k p hp => ⟨p, by rw [h6] at hp; exact hp⟩⟩

/-- Steps of a pool other than the call of `stop` keep "not stopping" and "stopped". -/
theorem PStep.stop_mono {p p' : Pool} {a : PLabel} (h : PStep p a p') (ha : a ≠ .stop) :
    (p.stop = .none ↔ p'.stop = .none) ∧ (p.stop = .done → p'.stop = .done) := by
  cases h with
  | stopCall => exact absurd rfl ha
  | drained hs => simp [hs]
  | setFlag j hs => simp [hs]
  | flagged hs => simp [hs]
  | join j hs => simp [hs]
  | stopped hs => simp [hs]
  | _ => simp

theorem SamePhase.realStep {g g' : Glob} {k : Nat} {p p' : Pool} {a : PLabel} (hr : g.real k = .pool p)
    (hp : PStep p a p') (ha : a ≠ .stop) (h1 : g'.started = g.started) (h2 : g'.loads = g.loads)
    (h3 : g'.mode = g.mode) (h4 : g'.inits = g.inits) (h5 : g'.hooks = g.hooks)
    (h6 : g'.real = setFn g.real k (.pool p')) : SamePhase g g' := by
  refine ⟨h1, h2, h3, h4, h5, ?_, ?_⟩
  · intro j q hq
    rw [h6]
    by_cases hj : j = k
    · subst hj
      rw [hr] at hq
      cases hq
      exact ⟨p', setFn_self _ _ _, hp.stop_mono ha⟩
    · exact ⟨q, by rw [setFn_ne _ _ hj]; exact hq, Iff.rfl, id⟩
  · intro j q hq
    rw [h6] at hq
    by_cases hj : j = k
    · subst hj; exact ⟨p, hr⟩
    · rw [setFn_ne _ _ hj] at hq; exact ⟨q, hq⟩

/-- The four ways a thread step treats `Engine.lock`. -/
theorem TStep.phases {t : Nat} {g g' : Glob} {p p' : PC} (h : TStep t g p g' p') :
    (p.holdsEng = false ∧ p'.holdsEng = false ∧ g'.engLock = g.engLock ∧ SamePhase g g') ∨
    (p.holdsEng = false ∧ p'.holdsEng = true ∧ g.engLock = none ∧ g'.engLock = some t ∧
      (LocalOk g p → Normal g → Phase g' p')) ∨
    (p.holdsEng = true ∧ p'.holdsEng = true ∧ g'.engLock = g.engLock ∧ (Phase g p → Phase g' p')) ∨
    (p.holdsEng = true ∧ p'.holdsEng = false ∧ g'.engLock = none ∧ (Phase g p → Normal g')) := by
  have started_running : ∀ g : Glob, g.started = true → Normal g → Running g := by
    rintro g hs (h | h)
    · rw [h.1] at hs; cases hs
    · exact h
  cases h with
  | callFirst | callDirect | callBlocked => exact .inl ⟨rfl, rfl, rfl, .same rfl rfl rfl rfl rfl rfl⟩
  | wLock l h => exact .inr (.inl ⟨rfl, rfl, h, rfl, fun _ hn => hn⟩)
  | wAlready l h => exact .inr (.inr (.inr ⟨rfl, rfl, rfl, fun hp => hp⟩))
  | wNotYet l h =>
    refine .inr (.inr (.inl ⟨rfl, rfl, rfl, ?_⟩))
    rintro (hp | hp)
    · exact hp
    · rw [hp.1.1] at h; cases h
  | wSetLock l h => exact .inr (.inr (.inl ⟨rfl, rfl, rfl, fun hp => hp⟩))
  | wSetStarted l => exact .inr (.inr (.inl ⟨rfl, rfl, rfl, fun hp => ⟨rfl, hp.2⟩⟩))
  | wLoadSingle l h =>
    refine .inr (.inr (.inl ⟨rfl, rfl, rfl, fun hp => ?_⟩))
    obtain ⟨h1, h2, h3, h4, h5⟩ := hp
    refine ⟨h1, by simp [Glob.load, h2], h3, by simp [h4], h5, ?_⟩
    intro p hp
    simp [Glob.load, setFn] at hp
  | wLoadMulti l h => exact .inr (.inr (.inl ⟨rfl, rfl, rfl, fun hp => hp⟩))
  | wLoadQueue l => exact .inr (.inr (.inl ⟨rfl, rfl, rfl, fun hp => hp⟩))
  | wLoadWorkers l cap =>
    refine .inr (.inr (.inl ⟨rfl, rfl, rfl, fun hp => ?_⟩))
    obtain ⟨h1, h2, h3, h4, h5⟩ := hp
    refine ⟨h1, by simp [Glob.load, h2], h3, by simp [h4], h5, ?_⟩
    intro p hp
    simp [Glob.load, setFn] at hp
    subst hp; rfl
  | wRegister l =>
    refine .inr (.inr (.inl ⟨rfl, rfl, rfl, fun hp => ?_⟩))
    obtain ⟨h1, h2, h3, h4, h5, h6⟩ := hp
    exact ⟨h1, h2, h3, h4, by simp [h5], h6⟩
  | wDone l =>
    refine .inr (.inr (.inr ⟨rfl, rfl, rfl, fun hp => ?_⟩))
    obtain ⟨h1, h2, h3, h4, h5, h6⟩ := hp
    exact .inr ⟨⟨h1, by simp [h2], rfl, h4, h5⟩, h6⟩
  | fetch | fetchFails | cCall | xCall | cNotStarted | cStarted =>
    exact .inl ⟨rfl, rfl, rfl, .same rfl rfl rfl rfl rfl rfl⟩
  | handSingle l k h => exact .inl ⟨rfl, rfl, rfl, .same rfl rfl rfl rfl rfl rfl⟩
  | handPool l k q q' h hp =>
    exact .inl ⟨rfl, rfl, rfl, .realStep h hp (by simp) rfl rfl rfl rfl rfl rfl⟩
  | bAcquire l h =>
    exact .inr (.inl ⟨rfl, rfl, h, rfl, fun hl hn => started_running _ hl hn⟩)
  | bFetch l k h => exact .inr (.inr (.inl ⟨rfl, rfl, rfl, fun hp => ⟨hp, h.symm⟩⟩))
  | bHandSingle l k h =>
    exact .inr (.inr (.inl ⟨rfl, rfl, rfl, fun hp =>
      SamePhase.running (.same rfl rfl rfl rfl rfl rfl) hp.1⟩))
  | bHandPool l k q q' h hp =>
    exact .inr (.inr (.inl ⟨rfl, rfl, rfl, fun hph =>
      SamePhase.running (.realStep h hp (by simp) rfl rfl rfl rfl rfl rfl) hph.1⟩))
  | bRelease => exact .inr (.inr (.inr ⟨rfl, rfl, rfl, fun hp => .inr hp⟩))
  | cAcquire c h => exact .inl ⟨rfl, rfl, rfl, .same rfl rfl rfl rfl rfl rfl⟩
  | cReject c h => exact .inl ⟨rfl, rfl, rfl, .same rfl rfl rfl rfl rfl rfl⟩
  | cSame c h h' => exact .inl ⟨rfl, rfl, rfl, .same rfl rfl rfl rfl rfl rfl⟩
  | cStore c h h' =>
    cases c <;> exact .inl ⟨rfl, rfl, rfl, .same rfl rfl rfl rfl rfl rfl⟩
  | cEngineEnter h => exact .inr (.inl ⟨rfl, rfl, h, rfl, fun _ hn => hn⟩)
  | cEngineLeave => exact .inr (.inr (.inr ⟨rfl, rfl, rfl, fun hp => hp⟩))
  | cBlock h => exact .inr (.inl ⟨rfl, rfl, h, rfl, fun hl hn => started_running _ hl hn⟩)
  | cSwap =>
    exact .inr (.inr (.inl ⟨rfl, rfl, rfl, fun hp =>
      ⟨⟨hp.1.1, hp.1.2.1, rfl, hp.1.2.2.2⟩, hp.2⟩⟩))
  | cStopSingle k h hr =>
    refine .inr (.inr (.inl ⟨rfl, rfl, rfl, fun hp => ⟨hp.1, ?_⟩⟩))
    intro q hq
    rw [h] at hq
    simp only [Nat.add_sub_cancel] at hq
    rw [hr] at hq; cases hq
  | cStopPool k q q' h hr hp =>
    refine .inr (.inr (.inl ⟨rfl, rfl, rfl, fun hph => ⟨hph.1, h.symm, q', setFn_self _ _ _, ?_⟩⟩))
    cases hp; simp
  | cStopped k q hr hq =>
    refine .inr (.inr (.inl ⟨rfl, rfl, rfl, fun hp => ⟨hp.1, ?_⟩⟩))
    obtain ⟨_, hk, _⟩ := hp
    intro q' hq'
    rw [← hk] at hq'
    simp only [Nat.add_sub_cancel] at hq'
    rw [hr] at hq'; cases hq'; exact hq
  | cLoad =>
    refine .inr (.inr (.inl ⟨rfl, rfl, rfl, fun hp => ?_⟩))
    obtain ⟨⟨h1, h2, h3, h4⟩, h5⟩ := hp
    refine ⟨⟨h1, by simp [Glob.load], h3, h4⟩, ?_⟩
    intro q hq
    simp [Glob.load, setFn, fabric] at hq
    split at hq
    · cases hq
    · cases hq; rfl
  | cUnblock =>
    exact .inr (.inr (.inl ⟨rfl, rfl, rfl, fun hp =>
      ⟨⟨hp.1.1, hp.1.2.1, rfl, hp.1.2.2.2⟩, hp.2⟩⟩))
  | cRelease => exact .inr (.inr (.inr ⟨rfl, rfl, rfl, fun hp => .inr hp⟩))
  | cDone => exact .inl ⟨rfl, rfl, rfl, .same rfl rfl rfl rfl rfl rfl⟩
  | xLock h => exact .inr (.inl ⟨rfl, rfl, h, rfl, fun hl hn => started_running _ hl hn⟩)
  | xSwap =>
    exact .inr (.inr (.inl ⟨rfl, rfl, rfl, fun hp =>
      ⟨⟨hp.1.1, hp.1.2.1, rfl, hp.1.2.2.2⟩, hp.2⟩⟩))
  | xStopSingle k h hr =>
    refine .inr (.inr (.inl ⟨rfl, rfl, rfl, fun hp => ⟨hp.1, ?_⟩⟩))
    intro q hq
    rw [h] at hq
    simp only [Nat.add_sub_cancel] at hq
    rw [hr] at hq; cases hq
  | xStopPool k q q' h hr hp =>
    refine .inr (.inr (.inl ⟨rfl, rfl, rfl, fun hph => ⟨hph.1, h.symm, q', setFn_self _ _ _, ?_⟩⟩))
    cases hp; simp
  | xStopped k q hr hq =>
    refine .inr (.inr (.inl ⟨rfl, rfl, rfl, fun hp => ⟨hp.1, ?_⟩⟩))
    obtain ⟨_, hk, _⟩ := hp
    intro q' hq'
    rw [← hk] at hq'
    simp only [Nat.add_sub_cancel] at hq'
    rw [hr] at hq'; cases hq'; exact hq

/-- The four ways a thread step treats the lock of the settings. -/
theorem TStep.setLock {t : Nat} {g g' : Glob} {p p' : PC} (h : TStep t g p g' p') :
    (p.holdsSet = p'.holdsSet ∧ g'.setLock = g.setLock) ∨
    (p.holdsSet = false ∧ p'.holdsSet = true ∧ g.setLock = none ∧ g'.setLock = some t) ∨
    (p.holdsSet = true ∧ p'.holdsSet = false ∧ g'.setLock = none) := by
  cases h with
  | wSetLock l h => exact .inr (.inl ⟨rfl, rfl, h, rfl⟩)
  | cAcquire c h => exact .inr (.inl ⟨rfl, rfl, h, rfl⟩)
  | wSetStarted => exact .inr (.inr ⟨rfl, rfl, rfl⟩)
  | cReject => exact .inr (.inr ⟨rfl, rfl, rfl⟩)
  | cDone => exact .inr (.inr ⟨rfl, rfl, rfl⟩)
  | cStore c => cases c <;> exact .inl ⟨rfl, rfl⟩
  | _ => exact .inl ⟨rfl, rfl⟩

theorem TStep.mono {t : Nat} {g g' : Glob} {p p' : PC} (h : TStep t g p g' p') :
    g.loads ≤ g'.loads ∧ (g.started = true → g'.started = true) := by
  cases h with
  | cStore c => cases c <;> exact ⟨Nat.le_refl _, id⟩
  | wSetStarted => exact ⟨Nat.le_refl _, fun _ => rfl⟩
  | wLoadSingle => exact ⟨by simp [Glob.load], id⟩
  | wLoadWorkers => exact ⟨by simp [Glob.load], id⟩
  | cLoad => exact ⟨by simp [Glob.load], id⟩
  | _ => exact ⟨Nat.le_refl _, id⟩

theorem LocalOk.mono {g g' : Glob} (h1 : g.loads ≤ g'.loads)
    (h2 : g.started = true → g'.started = true) {p : PC} (h : LocalOk g p) : LocalOk g' p := by
  cases p with
  | wFetch => exact Nat.le_trans h h1
  | wHand => exact Nat.lt_of_lt_of_le h h1
  | bLock => exact h2 h
  | cBlock => exact h2 h
  | xBlock => exact h2 h
  | _ => exact h

/-- The structural invariant. -/
structure SInv (e : Eng) : Prop where
  eng : ∀ t, (e.pc t).holdsEng = true ↔ e.g.engLock = some t
  set : ∀ t, (e.pc t).holdsSet = true ↔ e.g.setLock = some t
  free : e.g.engLock = none → Normal e.g
  held : ∀ t, e.g.engLock = some t → Phase e.g (e.pc t)
  loc : ∀ t, LocalOk e.g (e.pc t)

/-- What is known in any phase. -/
def Overview (g : Glob) : Prop :=
  (g.mode ≠ .first → g.started = true ∧ 1 ≤ g.loads) ∧ (0 < g.hooks → g.started = true) ∧
  g.inits ≤ 1 ∧ g.hooks ≤ 1 ∧ (0 < g.loads → g.inits = 1)

theorem SInv.overview {e : Eng} (h : SInv e) : Overview e.g := by
  have hn : Normal e.g → Overview e.g := fun hn => by
    rcases hn with ⟨h1, h2, h3, h4, h5⟩ | ⟨⟨h1, h2, h3, h4, h5⟩, _⟩
    · exact ⟨fun hm => absurd h3 hm, fun hk => by omega, by omega, by omega, fun hk => by omega⟩
    · exact ⟨fun _ => ⟨h1, h2⟩, fun _ => h1, by omega, by omega, fun _ => h4⟩
  have hr : ∀ m, RunningIn m e.g → Overview e.g := fun m ⟨h1, h2, h3, h4, h5⟩ =>
    ⟨fun _ => ⟨h1, h2⟩, fun _ => h1, by omega, by omega, fun _ => h4⟩
  cases hl : e.g.engLock with
  | none => exact hn (h.free hl)
  | some t =>
    have hp := h.held t hl
    cases hpc : e.pc t with
    | wCheck => rw [hpc] at hp; exact hn hp
    | cEngineIn => rw [hpc] at hp; exact hn hp
    | wStart => rw [hpc] at hp; exact hn (.inl hp)
    | wStarting => rw [hpc] at hp; exact hn (.inl hp)
    | wLoad | wLoadCap | wLoadSize =>
      rw [hpc] at hp
      obtain ⟨h1, h2, h3, h4, h5⟩ := hp
      exact ⟨fun hm => absurd h3 hm, fun _ => h1, by omega, by omega, fun hk => by omega⟩
    | wHook | wSwap =>
      rw [hpc] at hp
      obtain ⟨h1, h2, h3, h4, h5, h6⟩ := hp
      exact ⟨fun hm => absurd h3 hm, fun _ => h1, by omega, by omega, fun _ => h4⟩
    | bFetch => rw [hpc] at hp; exact hn (.inr hp)
    | bUnlock => rw [hpc] at hp; exact hn (.inr hp)
    | cSwap => rw [hpc] at hp; exact hn (.inr hp)
    | xSwap => rw [hpc] at hp; exact hn (.inr hp)
    | cRelease => rw [hpc] at hp; exact hn (.inr hp)
    | bHand => rw [hpc] at hp; exact hn (.inr hp.1)
    | cStop => rw [hpc] at hp; exact hr _ hp.1
    | xStop => rw [hpc] at hp; exact hr _ hp.1
    | cUnblock => rw [hpc] at hp; exact hr _ hp.1
    | cStopping => rw [hpc] at hp; exact hr _ hp.1
    | xStopping => rw [hpc] at hp; exact hr _ hp.1
    | cLoad => rw [hpc] at hp; exact hr _ hp.1
    | xEnd => rw [hpc] at hp; exact hr _ hp.1
    | _ => rw [hpc] at hp; exact hp.elim

theorem SInv_init : SInv Eng.init := by
  refine ⟨fun t => ?_, fun t => ?_, fun _ => .inl ⟨rfl, rfl, rfl, rfl, rfl⟩, ?_, fun t => trivial⟩
  · simp [Eng.init, Glob.init, PC.holdsEng]
  · simp [Eng.init, Glob.init, PC.holdsSet]
  · intro t ht; simp [Eng.init, Glob.init] at ht

theorem SInv_warm (ps mq : Nat) : SInv (Eng.warm ps mq) := by
  refine ⟨fun t => ?_, fun t => ?_, fun _ => .inr ⟨⟨rfl, Nat.le_refl _, rfl, rfl, rfl⟩, ?_⟩, ?_,
    fun t => trivial⟩
  · simp [Eng.warm, Glob.init, PC.holdsEng]
  · simp [Eng.warm, Glob.init, PC.holdsSet]
  · intro p hp
    simp only [Eng.warm, fabric] at hp
    split at hp
    · cases hp
    · cases hp; rfl
  · intro t ht; simp [Eng.warm, Glob.init] at ht

/-- The moving thread's own knowledge after its step. -/
theorem TStep.local' {t : Nat} {g g' : Glob} {p p' : PC} (h : TStep t g p g' p') (hl : LocalOk g p)
    (hm : g.mode ≠ .first → g.started = true ∧ 1 ≤ g.loads) (hh : 0 < g.hooks → g.started = true)
    (hph : p.holdsEng = true → Phase g p) : LocalOk g' p' := by
  cases h with
  | callDirect l fresh h => exact (hm (by rw [h]; simp)).2
  | callBlocked l fresh h => exact (hm (by rw [h]; simp)).1
  | wAlready l h =>
    rcases hph rfl with hp | hp
    · rw [hp.1] at h; cases h
    · exact hp.1.2.1
  | wDone l => obtain ⟨_, h2, _⟩ := hph rfl; exact Nat.le_of_eq h2.symm
  | fetch l k h => simp only [LocalOk]; omega
  | fetchFails l h => simp only [LocalOk] at hl; omega
  | cStarted h => exact h
  | xCall h => exact hh h
  | _ => trivial

theorem SInv_step {e e' : Eng} (h : SInv e) (hs : EStep e e') : SInv e' := by
  obtain ⟨hm, hh, _⟩ := h.overview
  cases hs with
  | thread t g' p' hst =>
    have hmono := hst.mono
    have hloc : ∀ t', LocalOk g' (setFn e.pc t p' t') := by
      intro t'
      by_cases ht : t' = t
      · subst ht
        rw [setFn_self]
        exact hst.local' (h.loc t') hm hh (fun hx => h.held t' ((h.eng t').1 hx))
      · rw [setFn_ne _ _ ht]; exact (h.loc t').mono hmono.1 hmono.2
    refine ⟨?_, ?_, ?_, ?_, hloc⟩
    · intro t'
      rcases hst.phases with ⟨a, b, c, _⟩ | ⟨a, b, c, d, _⟩ | ⟨a, b, c, _⟩ | ⟨a, b, c, _⟩
      · by_cases ht : t' = t
        · subst ht
          simp only [setFn_self, b, c, Bool.false_eq_true, false_iff]
          intro hx; rw [(h.eng t').2 hx] at a; cases a
        · simp only [setFn_ne _ _ ht, c]; exact h.eng t'
      · by_cases ht : t' = t
        · subst ht; simp [setFn_self, b, d]
        · simp only [setFn_ne _ _ ht, d, Option.some.injEq]
          constructor
          · intro hx; rw [(h.eng t').1 hx] at c; cases c
          · intro hx; exact absurd hx.symm ht
      · by_cases ht : t' = t
        · subst ht
          simp only [setFn_self, b, c, true_iff]
          exact (h.eng t').1 a
        · simp only [setFn_ne _ _ ht, c]; exact h.eng t'
      · by_cases ht : t' = t
        · subst ht; simp [setFn_self, b, c]
        · simp only [setFn_ne _ _ ht, c, reduceCtorEq, iff_false, Bool.not_eq_true]
          cases hx : (e.pc t').holdsEng with
          | false => rfl
          | true =>
            have h1 := (h.eng t').1 hx
            rw [(h.eng t).1 a] at h1
            exact absurd (Option.some.inj h1).symm ht
    · intro t'
      rcases hst.setLock with ⟨a, c⟩ | ⟨a, b, c, d⟩ | ⟨a, b, c⟩
      · by_cases ht : t' = t
        · subst ht; simp only [setFn_self, c, ← a]; exact h.set t'
        · simp only [setFn_ne _ _ ht, c]; exact h.set t'
      · by_cases ht : t' = t
        · subst ht; simp [setFn_self, b, d]
        · simp only [setFn_ne _ _ ht, d, Option.some.injEq]
          constructor
          · intro hx; rw [(h.set t').1 hx] at c; cases c
          · intro hx; exact absurd hx.symm ht
      · by_cases ht : t' = t
        · subst ht; simp [setFn_self, b, c]
        · simp only [setFn_ne _ _ ht, c, reduceCtorEq, iff_false, Bool.not_eq_true]
          cases hx : (e.pc t').holdsSet with
          | false => rfl
          | true =>
            have h1 := (h.set t').1 hx
            rw [(h.set t).1 a] at h1
            exact absurd (Option.some.inj h1).symm ht
    · intro hl
      rcases hst.phases with ⟨a, b, c, d⟩ | ⟨a, b, c, d, _⟩ | ⟨a, b, c, _⟩ | ⟨a, b, c, d⟩
      · exact d.normal (h.free (by rw [← c]; exact hl))
      · simp only [d, reduceCtorEq] at hl
      · simp only [c, (h.eng t).1 a, reduceCtorEq] at hl
      · exact d (h.held t ((h.eng t).1 a))
    · intro t' hl
      rcases hst.phases with ⟨a, b, c, d⟩ | ⟨a, b, c, d, f⟩ | ⟨a, b, c, d⟩ | ⟨a, b, c, d⟩
      · simp only [c] at hl
        have ht : t' ≠ t := by
          rintro rfl
          rw [(h.eng t').2 hl] at a; cases a
        simp only [setFn_ne _ _ ht]
        exact d.phase (h.held t' hl)
      · simp only [d, Option.some.injEq] at hl
        subst hl
        simp only [setFn_self]
        exact f (h.loc t) (h.free c)
      · simp only [c] at hl
        have ht : t' = t := by
          rw [(h.eng t).1 a] at hl
          exact (Option.some.inj hl).symm
        subst ht
        simp only [setFn_self]
        exact d (h.held t' hl)
      · simp only [c, reduceCtorEq] at hl
  | pool k p p' a hk hr hp hput hstop =>
    have sp : SamePhase e.g { e.g with real := setFn e.g.real k (.pool p'), seq := e.g.seq ++ a.log?.toList } :=
      .realStep hr hp hstop rfl rfl rfl rfl rfl rfl
    exact ⟨h.eng, h.set, fun hl => sp.normal (h.free hl), fun t hl => sp.phase (h.held t hl),
      fun t => (h.loc t).mono (Nat.le_refl _) id⟩

theorem SInv_reach {e₀ e : Eng} (h₀ : SInv e₀) (h : EReach e₀ e) : SInv e := by
  induction h with
  | init => exact h₀
  | step _ hs ih => exact SInv_step ih hs

end Polog
