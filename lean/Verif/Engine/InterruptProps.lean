import Verif.Engine.Interrupt

/-! Theorems about interrupts. -/

namespace Polog
open EngineSpec

/-- What an interrupt at a place that is not an exchange of the engine does. -/
structure MildEffect (g : Glob) (p : PC) (g' : Glob) (p' : PC) : Prop where
  place : p' = .idle ∨ (p' = .cDone ∧ p.log? = none)
  engKeep : p.holdsEng = false → g'.engLock = g.engLock
  engFree : p.holdsEng = true → g'.engLock = none
  setKeep : p.holdsSet = false → g'.setLock = g.setLock ∧ p' = .idle
  setFree : p.holdsSet = true → (p' = .idle ∧ g'.setLock = none) ∨ (p' = .cDone ∧ g'.setLock = g.setLock)
  same : g'.started = g.started ∧ g'.loads = g.loads ∧ g'.mode = g.mode ∧ g'.inits = g.inits ∧
    g'.hooks = g.hooks ∧ g'.real = g.real ∧ g'.calls = g.calls ∧ g'.seq = g.seq ∧ g'.late = g.late
  normal : p.holdsEng = true → Phase g p → Normal g

theorem onInterrupt_mild (g : Glob) (p : PC) (h : p.exchanging = false) :
    MildEffect g p (onInterrupt g p).1 (onInterrupt g p).2.1 := by
  cases p <;> first
    | (simp [PC.exchanging] at h; done)
    | (constructor <;> simp [onInterrupt, PC.holdsEng, PC.holdsSet, PC.log?, Phase] <;>
        first
          | exact fun h => h
          | exact fun h => .inl h
          | exact fun h => .inr h
          | exact fun h _ => .inr h)

theorem Glob.forget_same (g : Glob) (o : Option Log) :
    (g.forget o).engLock = g.engLock ∧ (g.forget o).setLock = g.setLock ∧
    (g.forget o).started = g.started ∧ (g.forget o).loads = g.loads ∧ (g.forget o).mode = g.mode ∧
    (g.forget o).inits = g.inits ∧ (g.forget o).hooks = g.hooks ∧ (g.forget o).real = g.real ∧
    (g.forget o).seq = g.seq ∧ (g.forget o).late = g.late := by
  cases o <;> exact ⟨rfl, rfl, rfl, rfl, rfl, rfl, rfl, rfl, rfl, rfl⟩

theorem SInv_interrupt {s : IEng} (h : SInv s.e) (hx : (s.e.pc 0).exchanging = false) :
    SInv s.interrupt.e := by
  have hm := onInterrupt_mild s.e.g (s.e.pc 0) hx
  have hf := Glob.forget_same (onInterrupt s.e.g (s.e.pc 0)).1 (cutLog s.e 0)
  unfold IEng.interrupt
  generalize (onInterrupt s.e.g (s.e.pc 0)).1.forget (cutLog s.e 0) = g'' at hf ⊢
  generalize (onInterrupt s.e.g (s.e.pc 0)).1 = g' at hm hf
  generalize (onInterrupt s.e.g (s.e.pc 0)).2.1 = p' at hm ⊢
  obtain ⟨f1, f2, f3, f4, f5, f6, f7, f8, f9, f10⟩ := hf
  obtain ⟨m3, m4, m5, m6, m7, m8, m9, m10, m11⟩ := hm.same
  have sp : SamePhase s.e.g g'' := by
    refine ⟨f3.trans m3, f4.trans m4, f5.trans m5, f6.trans m6, f7.trans m7, ?_, ?_⟩
    · intro k p hp; exact ⟨p, by rw [f8, m8]; exact hp, Iff.rfl, id⟩
    · intro k p hp; exact ⟨p, by rw [← m8, ← f8]; exact hp⟩
  have hp'e : p'.holdsEng = false := by rcases hm.place with h | ⟨h, _⟩ <;> rw [h] <;> rfl
  have hloc' : ∀ g, LocalOk g p' := by
    intro g; rcases hm.place with h | ⟨h, _⟩ <;> rw [h] <;> trivial
  refine ⟨?_, ?_, ?_, ?_, ?_⟩ <;> dsimp only
  · intro t
    by_cases ht : t = 0
    · subst ht
      rw [setFn_self, hp'e, f1]
      simp only [Bool.false_eq_true, false_iff]
      intro hl
      cases he : (s.e.pc 0).holdsEng with
      | true => rw [hm.engFree he] at hl; cases hl
      | false => rw [hm.engKeep he, ← h.eng 0, he] at hl; cases hl
    · rw [setFn_ne _ _ ht, f1]
      cases he : (s.e.pc 0).holdsEng with
      | true =>
        rw [hm.engFree he, h.eng t, (h.eng 0).1 he]
        simp [Ne.symm ht]
      | false => rw [hm.engKeep he]; exact h.eng t
  · intro t
    by_cases ht : t = 0
    · subst ht
      rw [setFn_self, f2]
      cases he : (s.e.pc 0).holdsSet with
      | true =>
        rcases hm.setFree he with ⟨a, b⟩ | ⟨a, b⟩
        · rw [a, b]; simp [PC.holdsSet]
        · rw [a, b, (h.set 0).1 he]; simp [PC.holdsSet]
      | false =>
        obtain ⟨a, b⟩ := hm.setKeep he
        rw [a, b, ← h.set 0, he]; simp [PC.holdsSet]
    · rw [setFn_ne _ _ ht, f2]
      cases he : (s.e.pc 0).holdsSet with
      | true =>
        rcases hm.setFree he with ⟨a, b⟩ | ⟨a, b⟩
        · rw [b, h.set t, (h.set 0).1 he]; simp [Ne.symm ht]
        · rw [b]; exact h.set t
      | false => rw [(hm.setKeep he).1]; exact h.set t
  · intro hl
    rw [f1] at hl
    cases he : (s.e.pc 0).holdsEng with
    | true => exact sp.normal (hm.normal he (h.held 0 ((h.eng 0).1 he)))
    | false => rw [hm.engKeep he] at hl; exact sp.normal (h.free hl)
  · intro t hl
    rw [f1] at hl
    cases he : (s.e.pc 0).holdsEng with
    | true => rw [hm.engFree he] at hl; cases hl
    | false =>
      rw [hm.engKeep he] at hl
      have ht : t ≠ 0 := by rintro rfl; rw [← h.eng 0, he] at hl; cases hl
      rw [setFn_ne _ _ ht]
      exact sp.phase (h.held t hl)
  · intro t
    by_cases ht : t = 0
    · subst ht; rw [setFn_self]; exact hloc' _
    · rw [setFn_ne _ _ ht]
      exact (h.loc t).mono (by rw [f4, m4]; exact Nat.le_refl _) (by rw [f3, m3]; exact id)

/-- A call that is interrupted takes its log with it. -/
theorem LInv_forget {e : Eng} {loc : Log → Loc} (h : LInv e loc) {t : Nat} {g' : Glob} {p' : PC} {l : Log}
    (hp : (e.pc t).log? = some l) (hp' : p'.log? = none)
    (hc : g'.calls = e.g.calls.filter fun x => x.2 ≠ l) (hs : g'.seq = e.g.seq) (hl : g'.late = e.g.late)
    (hload : g'.loads = e.g.loads) (hr : g'.real = e.g.real) :
    LInv ⟨g', setFn e.pc t p'⟩ (moveTo loc l .unborn) := by
  have hth := (h.thread t l).1 hp
  constructor <;> dsimp only
  · intro l'
    rw [hc]
    by_cases hl' : l' = l
    · subst hl'
      rw [moveTo_self]
      simp
    · rw [moveTo_ne _ _ hl', h.born l']
      constructor
      · intro hb x hx; exact hb x (List.mem_filter.1 hx).1
      · intro hb x hx he
        exact hb x (List.mem_filter.2 ⟨hx, by simpa [he] using hl'⟩) he
  · exact h.thread_gives hp hp' (by simp)
  · intro k l'
    rw [hload, hr]
    by_cases hl' : l' = l
    · subst hl'
      rw [moveTo_self, ← h.queue k l', hth]; simp
    · rw [moveTo_ne _ _ hl']; exact h.queue k l'
  · intro k p hk; rw [hload] at hk; rw [hr]; exact h.nodup k p hk
  · intro k i l'
    rw [hload, hr]
    by_cases hl' : l' = l
    · subst hl'
      rw [moveTo_self, ← h.worker k i l', hth]; simp
    · rw [moveTo_ne _ _ hl']; exact h.worker k i l'
  · intro l'
    rw [hs, h.done l']
    by_cases hl' : l' = l
    · subst hl'
      rw [moveTo_self, hth]; simp
    · rw [moveTo_ne _ _ hl']
  · intro k p hk hpk; rw [hload] at hk; rw [hr] at hpk; rw [hl]; exact h.late k p hk hpk
  · intro t' l' hx
    rw [hc]
    by_cases hl' : l' = l
    · subst hl'
      rw [moveTo_self] at hx; cases hx
    · rw [moveTo_ne _ _ hl'] at hx
      exact List.mem_filter.2 ⟨h.owner t' l' hx, by simpa using hl'⟩

theorem EInv_interrupt {s : IEng} (h : EInv s.e) (hx : (s.e.pc 0).exchanging = false) :
    EInv s.interrupt.e := by
  have hm := onInterrupt_mild s.e.g (s.e.pc 0) hx
  have hf := Glob.forget_same (onInterrupt s.e.g (s.e.pc 0)).1 (cutLog s.e 0)
  obtain ⟨f1, f2, f3, f4, f5, f6, f7, f8, f9, f10⟩ := hf
  obtain ⟨m3, m4, m5, m6, m7, m8, m9, m10, m11⟩ := hm.same
  refine ⟨SInv_interrupt h.s hx, h.r.same (f4.trans m4) (f8.trans m8), ?_⟩
  obtain ⟨loc, hL⟩ := h.l
  have quiet : (onInterrupt s.e.g (s.e.pc 0)).2.1.log? = none := by
    rcases hm.place with h | ⟨h, _⟩ <;> rw [h] <;> rfl
  cases hc : cutLog s.e 0 with
  | none =>
    have hp : (s.e.pc 0).log? = none := by
      unfold cutLog at hc
      rcases hm.place with h | ⟨_, h⟩
      · rwa [if_pos h] at hc
      · exact h
    exact ⟨loc, LInv_quiet hL (quiet.trans hp.symm) (by rw [hc]; exact m9) (f9.trans m10) (f10.trans m11)
      (.same (f4.trans m4) (f8.trans m8))⟩
  | some l =>
    have hp : (s.e.pc 0).log? = some l := by
      unfold cutLog at hc
      split at hc
      · exact hc
      · cases hc
    exact ⟨_, LInv_forget hL hp quiet (by rw [hc]; simp only [Glob.forget]; rw [m9]) (f9.trans m10)
      (f10.trans m11) (f4.trans m4) (f8.trans m8)⟩

/-- The invariants with interrupts. -/
structure IInv (s : IEng) : Prop where
  inv : EInv s.e
  cut : ∀ l ∈ s.cut, ∀ x ∈ s.e.g.calls, x.2 ≠ l

theorem IReachMild.inv {s : IEng} (h : IReachMild IEng.init s) : IInv s := by
  induction h with
  | init => exact ⟨EInv_init, fun _ h => nomatch h⟩
  | run e' _ hs hf ih => exact ⟨EInv_step ih.inv hs, hf⟩
  | @interrupt s hr hx ih =>
    refine ⟨EInv_interrupt ih.inv hx, ?_⟩
    have hm := (onInterrupt_mild s.e.g (s.e.pc 0) hx).same
    intro l hl x hx' he
    rcases List.mem_append.1 hl with hl | hl
    · have : x ∈ s.e.g.calls := by
        unfold IEng.interrupt at hx'
        cases hc : cutLog s.e 0 with
        | none => rw [hc] at hx'; simp only [Glob.forget] at hx'; rwa [hm.2.2.2.2.2.2.1] at hx'
        | some l' =>
          rw [hc] at hx'; simp only [Glob.forget] at hx'
          rw [hm.2.2.2.2.2.2.1] at hx'
          exact (List.mem_filter.1 hx').1
      exact ih.cut l hl x this he
    · have hc : cutLog s.e 0 = some l := by simpa using hl
      unfold IEng.interrupt at hx'
      rw [hc] at hx'; simp only [Glob.forget] at hx'
      have := (List.mem_filter.1 hx').2
      simp [he] at this

theorem EStep.calls_grow {e e' : Eng} (hs : EStep e e') : ∀ x ∈ e.g.calls, x ∈ e'.g.calls := by
  cases hs with
  | pool => exact fun x h => h
  | thread t g' p' hst =>
    intro x hx
    dsimp only
    cases hst.effect with
    | quiet _ hc => rw [hc]; exact hx
    | call l _ _ _ hc => rw [hc]; exact List.mem_append_left _ hx
    | single l _ _ hc => rw [hc]; exact hx
    | put l k q q' _ _ hc => rw [hc]; exact hx

theorem onInterrupt_calls (g : Glob) (p : PC) : (onInterrupt g p).1.calls = g.calls := by
  cases p <;> rfl

/-- **C82.** The bookkeeping of this model forgets no call: a log call that was made is still counted as
written, or as interrupted, whatever happens later. -/
theorem C82_every_call_is_accounted_for (s s' : IEng) (h : IReach s s') (l : Log)
    (hw : Written s.e l ∨ l ∈ s.cut) : Written s'.e l ∨ l ∈ s'.cut := by
  induction h with
  | init => exact hw
  | @step s1 s2 _ hs ih =>
    cases hs with
    | run e' he _ =>
      rcases ih with ⟨t, ht⟩ | hc
      · exact .inl ⟨t, he.calls_grow _ ht⟩
      · exact .inr hc
    | interrupt =>
      rcases ih with ⟨t, ht⟩ | hc
      · cases hl : cutLog s1.e 0 with
        | none =>
          refine .inl ⟨t, ?_⟩
          unfold IEng.interrupt
          rw [hl]; simp only [Glob.forget, onInterrupt_calls]; exact ht
        | some l' =>
          by_cases he : l = l'
          · refine .inr ?_
            unfold IEng.interrupt
            rw [hl]; simp [he]
          · refine .inl ⟨t, ?_⟩
            unfold IEng.interrupt
            rw [hl]; simp only [Glob.forget, onInterrupt_calls]
            exact List.mem_filter.2 ⟨ht, by simpa using he⟩
      · exact .inr (List.mem_append_left _ hc)

/-- **C82.** If a log is lost by an interrupt, the program gets the interrupt: the call that was to
write the log raises `KeyboardInterrupt`. -/
theorem C82_a_cut_call_raises (e : Eng) (l : Log) (h : cutLog e 0 = some l) :
    InCall e 0 l ∧ (onInterrupt e.g (e.pc 0)).2.2 = true := by
  unfold cutLog at h
  split at h
  · next hi =>
    refine ⟨(log?_iff_inCall e 0 l).1 h, ?_⟩
    cases hp : e.pc 0 <;> rw [hp] at hi h <;> simp_all [onInterrupt, PC.log?]
  · cases h

/-- The thread loads the first engine, inside `load`. -/
def LoadingFirst : PC → Prop
  | .wLoad _ | .wLoadCap _ | .wLoadSize _ _ => True
  | _ => False

/-- The thread executes the callback of a setting: it looks at the engine or replaces it. -/
def InCallback : PC → Prop
  | .cEngine | .cEngineIn | .cReload | .cBlock | .cSwap | .cStop | .cStopping _ | .cLoad | .cUnblock
  | .cRelease => True
  | _ => False

/-- The thread executes the exit hook. -/
def InExitHook : PC → Prop
  | .xBlock | .xSwap | .xStop | .xStopping _ | .xEnd => True
  | _ => False

/-- **C82.** Which interrupts the program gets: all, except those that come inside the loading of the
first engine, inside the callback of a setting or inside the exit hook, which are swallowed. -/
theorem C82_which_interrupts_the_program_gets (e : Eng) :
    (onInterrupt e.g (e.pc 0)).2.2 = true ↔
      ¬ (LoadingFirst (e.pc 0) ∨ InCallback (e.pc 0) ∨ InExitHook (e.pc 0)) := by
  cases e.pc 0 <;> simp [onInterrupt, LoadingFirst, InCallback, InExitHook]

/-- **C82.** Wherever the interrupt comes, if the program gets it, the thread is outside polog
afterwards and holds none of its locks; if it is swallowed, the operation goes on: the log call with
the rest of the first call, the change of the setting with its end or with the rest of the exchange
of the engine, the exit hook with its end. -/
theorem C82_after_an_interrupt (s : IEng) (h : IReachMild IEng.init s) :
    ((onInterrupt s.e.g (s.e.pc 0)).2.2 = true → s.interrupt.e.pc 0 = .idle ∧
      s.interrupt.e.g.engLock ≠ some 0 ∧ s.interrupt.e.g.setLock ≠ some 0) ∧
    (LoadingFirst (s.e.pc 0) → ∃ l, InCall s.e 0 l ∧ s.interrupt.e.pc 0 = .wHook l) ∧
    (InCallback (s.e.pc 0) → InCallback (s.interrupt.e.pc 0) ∨ s.interrupt.e.pc 0 = .cDone) ∧
    (InExitHook (s.e.pc 0) → s.interrupt.e.pc 0 = .xEnd ∨ s.interrupt.e.pc 0 = .idle) := by
  have hs := h.inv.inv.s
  have h1 := hs.eng 0
  have h2 := hs.set 0
  have hf : ∀ (g : Glob) o, (g.forget o).engLock = g.engLock ∧ (g.forget o).setLock = g.setLock := by
    intro g o; cases o <;> exact ⟨rfl, rfl⟩
  have hc := fun l => (log?_iff_inCall s.e 0 l)
  unfold IEng.interrupt
  simp only [(hf _ _).1, (hf _ _).2, setFn, if_pos]
  generalize hp : s.e.pc 0 = p at *
  cases p <;>
    simp_all [onInterrupt, LoadingFirst, InCallback, InExitHook, PC.holdsEng, PC.holdsSet, PC.log?]
  all_goals first | exact ⟨_, (hc _).1 rfl⟩ | grind

/-- **C82** (partial: the interrupts come while the main thread is not loading, replacing or shutting
down the engine; the other moments are the `…_fails` theorems).  However often the main thread is
interrupted: a log whose call was not interrupted is handled once, or is on its way (never lost,
never doubled), and a log whose call was interrupted is not handled at all. -/
theorem C82_interrupts_lose_only_the_interrupted_calls_partial (s : IEng) (h : IReachMild IEng.init s)
    (l : Log) :
    (Written s.e l → timesHandled s.e l = 1 ∨
      (timesHandled s.e l = 0 ∧ ((∃ t, (t, l) ∈ s.e.g.calls ∧ InCall s.e t l) ∨
        (∃ k, Queued s.e k l) ∨ (∃ k i, InWork s.e k i l)))) ∧
    (l ∈ s.cut → timesHandled s.e l = 0 ∧ (∀ t, ¬ InCall s.e t l) ∧ (∀ k, ¬ Queued s.e k l) ∧
      (∀ k i, ¬ InWork s.e k i l)) := by
  have hI := h.inv
  obtain ⟨loc, hL⟩ := hI.inv.l
  have hd := hL.done l
  unfold timesHandled
  constructor
  · intro hw
    cases hl : loc l with
    | unborn =>
      obtain ⟨t, ht⟩ := hw
      exact absurd rfl ((hL.born l).1 hl _ ht)
    | thread t =>
      rw [hl] at hd
      exact .inr ⟨by simpa using hd, .inl ⟨t, hL.owner t l hl,
        (log?_iff_inCall s.e t l).1 ((hL.thread t l).2 hl)⟩⟩
    | queue k => rw [hl] at hd; exact .inr ⟨by simpa using hd, .inr (.inl ⟨k, (hL.queue k l).1 hl⟩)⟩
    | worker k i =>
      rw [hl] at hd; exact .inr ⟨by simpa using hd, .inr (.inr ⟨k, i, (hL.worker k i l).1 hl⟩)⟩
    | done => rw [hl] at hd; exact .inl (by simpa using hd)
  · intro hc
    have hl := (hL.born l).2 (hI.cut l hc)
    refine ⟨by rw [hd, hl]; simp, fun t ht => ?_, fun k hk => ?_, fun k i hk => ?_⟩
    · have := (hL.thread t l).1 ((log?_iff_inCall s.e t l).2 ht)
      rw [hl] at this; cases this
    · have := (hL.queue k l).2 hk
      rw [hl] at this; cases this
    · have := (hL.worker k i l).2 hk
      rw [hl] at this; cases this

/-- **C82** (partial: as above, and with the exceptions of C18).  After any number of such interrupts
every log call and every `config.set` of every thread can still return. -/
theorem C82_calls_can_return_after_interrupts_partial (s : IEng) (h : IReachMild IEng.init s)
    (hload : 0 < s.e.g.loads) (hsize : ∀ k, k < s.e.g.loads → ∀ p, s.e.g.real k = .pool p → 0 < p.size)
    (hexit : ∀ t, ¬ Exiting s.e t) (t : Nat) (hns : ¬ Stranded s.e t) :
    ∃ e', Onward s.e e' ∧ e'.pc t = .idle :=
  WInv.finish ⟨h.inv.inv, hload, hsize, hexit⟩ t hns

/-! Reachable states, step by step. -/

theorem IReach.th {s₀ s : IEng} (h : IReach s₀ s) (t : Nat) {g' : Glob} {p' : PC}
    (hs : TStep t s.e.g (s.e.pc t) g' p') (hf : ∀ l ∈ s.cut, ∀ x ∈ g'.calls, x.2 ≠ l) :
    IReach s₀ ⟨⟨g', setFn s.e.pc t p'⟩, s.cut⟩ := .step h (.run s _ (.thread s.e t g' p' hs) hf)

theorem IReach.int {s₀ s : IEng} (h : IReach s₀ s) : IReach s₀ s.interrupt := .step h (.interrupt s)

theorem EReach.withInterrupts {e : Eng} (h : EReach Eng.init e) : IReach IEng.init ⟨e, []⟩ := by
  induction h with
  | init => exact .init
  | step _ hs ih => exact .step ih (.run _ _ hs (fun _ h => nomatch h))

theorem IReachMild.th {s₀ s : IEng} (h : IReachMild s₀ s) (t : Nat) {g' : Glob} {p' : PC}
    (hs : TStep t s.e.g (s.e.pc t) g' p') (hf : ∀ l ∈ s.cut, ∀ x ∈ g'.calls, x.2 ≠ l) :
    IReachMild s₀ ⟨⟨g', setFn s.e.pc t p'⟩, s.cut⟩ := .run _ h (.thread s.e t g' p' hs) hf

/-- Reachable states of the three kinds of `C82_after_an_interrupt`: the main thread loads the first
engine, and executes the callback of a setting. -/
example : (∃ s, IReachMild IEng.init s ∧ LoadingFirst (s.e.pc 0)) ∧
    (∃ s, IReachMild IEng.init s ∧ InCallback (s.e.pc 0)) ∧
    (∃ s, IReachMild IEng.init s ∧ ¬ (LoadingFirst (s.e.pc 0) ∨ InCallback (s.e.pc 0) ∨
      InExitHook (s.e.pc 0)) ∧ s.e.g.engLock = some 0 ∧ s.e.g.setLock = some 0) := by
  have none' : ∀ {P : Log → Prop}, ∀ l ∈ ([] : List Log), P l := fun _ h => nomatch h
  have b1 := (IReachMild.init (s₀ := IEng.init)).th 0 (.callFirst _ 5 (by simp [IEng.init, Eng.init, Glob.init]) rfl) none'
  have b2 := b1.th 0 (.wLock _ _ rfl) none'
  have b3 := b2.th 0 (.wNotYet _ _ rfl) none'
  have b4 := b3.th 0 (.wSetLock _ _ rfl) none'
  have b5 := b4.th 0 (.wSetStarted _ _) none'
  have d1 := (IReachMild.init (s₀ := IEng.init)).th 0 (.cCall _ (.poolSize 7)) none'
  have d2 := d1.th 0 (.cAcquire _ _ rfl) none'
  have d3 := d2.th 0 (.cStore _ _ rfl rfl) none'
  exact ⟨⟨_, b5, trivial⟩, ⟨_, d3, trivial⟩, ⟨_, b4, by simp [setFn, LoadingFirst, InCallback, InExitHook], rfl, rfl⟩⟩

/-- The main thread wrote log 5, was interrupted while it wrote log 6, and another thread is writing
log 7. -/
example : ∃ s, IReachMild IEng.init s ∧ s.cut = [6] ∧ s.e.g.seq = [5] ∧ s.e.pc 0 = .idle ∧
    s.e.pc 1 = .wHand 7 0 ∧ Written s.e 5 ∧ Written s.e 7 ∧ 0 < s.e.g.loads ∧
    (∀ k, k < s.e.g.loads → ∀ p, s.e.g.real k = .pool p → 0 < p.size) ∧ (∀ t, ¬ Exiting s.e t) ∧
    ¬ Stranded s.e 1 := by
  have none' : ∀ {P : Log → Prop}, ∀ l ∈ ([] : List Log), P l := fun _ h => nomatch h
  have b1 := (IReachMild.init (s₀ := IEng.init)).th 0 (.callFirst _ 5 (by simp [IEng.init, Eng.init, Glob.init]) rfl) none'
  have b2 := b1.th 0 (.wLock _ _ rfl) none'
  have b3 := b2.th 0 (.wNotYet _ _ rfl) none'
  have b4 := b3.th 0 (.wSetLock _ _ rfl) none'
  have b5 := b4.th 0 (.wSetStarted _ _) none'
  have b6 := b5.th 0 (.wLoadSingle _ _ rfl) none'
  have b7 := b6.th 0 (.wRegister _ _) none'
  have b8 := b7.th 0 (.wDone _ _) none'
  have b9 := b8.th 0 (.fetch _ _ 0 rfl) none'
  have b10 := b9.th 0 (.handSingle _ _ 0 rfl) none'
  have b11 := b10.th 0 (.callDirect _ 6 (by
    intro x hx
    have : x = (0, 5) := List.mem_singleton.1 hx
    subst this; decide) rfl) none'
  have b12 := b11.th 0 (.fetch _ _ 0 rfl) none'
  have c1 := IReachMild.interrupt b12 rfl
  have c2 := c1.th 1 (.callDirect _ 7 (by
    intro x hx
    have : x = (0, 5) := List.mem_singleton.1 hx
    subst this; decide) rfl) (by
    intro l hl x hx
    have : l = 6 := List.mem_singleton.1 hl
    subst this
    have : x = (0, 5) ∨ x = (1, 7) := by
      rcases List.mem_cons.1 hx with h | h
      · exact .inl h
      · exact .inr (List.mem_singleton.1 h)
    rcases this with rfl | rfl <;> decide)
  have c3 := c2.th 1 (.fetch _ _ 0 rfl) (by
    intro l hl x hx
    have : l = 6 := List.mem_singleton.1 hl
    subst this
    have : x = (0, 5) ∨ x = (1, 7) := by
      rcases List.mem_cons.1 hx with h | h
      · exact .inl h
      · exact .inr (List.mem_singleton.1 h)
    rcases this with rfl | rfl <;> decide)
  refine ⟨_, c3, rfl, rfl, rfl, rfl, ⟨0, List.mem_cons_self⟩, ⟨1, List.mem_cons_of_mem _ List.mem_cons_self⟩,
    Nat.zero_lt_one, ?_, ?_, ?_⟩
  · intro k hk p hp
    have : k = 0 := Nat.lt_one_iff.1 hk
    subst this
    exact nomatch hp
  · intro t hx
    by_cases h0 : t = 0
    · subst h0; rcases hx with h | h | h | ⟨_, h⟩ | h <;> exact nomatch h
    · by_cases h1 : t = 1
      · subst h1; rcases hx with h | h | h | ⟨_, h⟩ | h <;> exact nomatch h
      · simp [Exiting, setFn, h0, h1, Eng.init, IEng.init, IEng.interrupt] at hx
  · rintro ⟨l, k, p, h, hr, _⟩
    cases h
    exact nomatch hr

/-- Logging has come to a halt: the engine lock is held for ever by nobody. -/
structure Halted (e : Eng) : Prop where
  lock : e.g.engLock = some 0
  mode : e.g.mode = .blocked
  loads : e.g.loads = 1
  real : e.g.real 0 = .single
  seq : e.g.seq = [5]
  pcs : ∀ t, e.pc t = .idle ∨ (∃ l, e.pc t = .bLock l) ∨ (∃ c, e.pc t = .cWait c) ∨
    (∃ c, e.pc t = .cLocked c) ∨ e.pc t = .cEngine ∨ e.pc t = .cDone ∨ e.pc t = .xBlock

theorem Halted.put {e : Eng} (h : Halted e) {t : Nat} {g' : Glob} {p' : PC}
    (h1 : g'.engLock = e.g.engLock) (h2 : g'.mode = e.g.mode) (h3 : g'.loads = e.g.loads)
    (h4 : g'.real = e.g.real) (h5 : g'.seq = e.g.seq)
    (hp : p' = .idle ∨ (∃ l, p' = .bLock l) ∨ (∃ c, p' = .cWait c) ∨
      (∃ c, p' = .cLocked c) ∨ p' = .cEngine ∨ p' = .cDone ∨ p' = .xBlock) :
    Halted ⟨g', setFn e.pc t p'⟩ := by
  refine ⟨h1.trans h.lock, h2.trans h.mode, h3.trans h.loads, by rw [h4]; exact h.real, h5.trans h.seq, ?_⟩
  intro u
  by_cases hu : u = t
  · subst hu; dsimp only; rw [setFn_self]; exact hp
  · dsimp only; rw [setFn_ne _ _ hu]; exact h.pcs u

theorem Halted.step {s s' : IEng} (h : Halted s.e) (hs : IStep s s') : Halted s'.e := by
  cases hs with
  | run e' he hf =>
    cases he with
    | pool k p p' a hk hr hp hput hstop =>
      have : k = 0 := by have := h.loads; omega
      subst this
      rw [h.real] at hr; cases hr
    | thread t g' p' hst =>
      have hpc := h.pcs t
      generalize s.e.pc t = p at hst hpc
      generalize hg : s.e.g = g at hst
      cases hst with
      | callFirst l _ hm => rw [← hg, h.mode] at hm; cases hm
      | callDirect l _ hm => rw [← hg, h.mode] at hm; cases hm
      | callBlocked l _ hm =>
        exact h.put (by rw [hg]) (by rw [hg]) (by rw [hg]) (by rw [hg]) (by rw [hg]) (.inr (.inl ⟨l, rfl⟩))
      | bAcquire l hl => rw [← hg, h.lock] at hl; cases hl
      | cCall c =>
        exact h.put (by rw [hg]) (by rw [hg]) (by rw [hg]) (by rw [hg]) (by rw [hg])
          (.inr (.inr (.inl ⟨c, rfl⟩)))
      | cAcquire c hl =>
        exact h.put (by rw [hg]) (by rw [hg]) (by rw [hg]) (by rw [hg]) (by rw [hg])
          (.inr (.inr (.inr (.inl ⟨c, rfl⟩))))
      | cReject c => exact h.put (by rw [hg]) (by rw [hg]) (by rw [hg]) (by rw [hg]) (by rw [hg]) (.inl rfl)
      | cSame c =>
        exact h.put (by rw [hg]) (by rw [hg]) (by rw [hg]) (by rw [hg]) (by rw [hg])
          (.inr (.inr (.inr (.inr (.inr (.inl rfl))))))
      | cStore c =>
        cases c <;> exact h.put (by rw [hg]; rfl) (by rw [hg]; rfl) (by rw [hg]; rfl) (by rw [hg]; rfl)
          (by rw [hg]; rfl) (.inr (.inr (.inr (.inr (.inl rfl)))))
      | cEngineEnter hl => rw [← hg, h.lock] at hl; cases hl
      | cDone => exact h.put (by rw [hg]) (by rw [hg]) (by rw [hg]) (by rw [hg]) (by rw [hg]) (.inl rfl)
      | xCall hh =>
        exact h.put (by rw [hg]) (by rw [hg]) (by rw [hg]) (by rw [hg]) (by rw [hg])
          (.inr (.inr (.inr (.inr (.inr (.inr rfl))))))
      | xLock hl => rw [← hg, h.lock] at hl; cases hl
      | _ => simp at hpc
  | interrupt =>
    have hf := Glob.forget_same (onInterrupt s.e.g (s.e.pc 0)).1 (cutLog s.e 0)
    obtain ⟨f1, _, _, f4, f5, _, _, f8, f9, _⟩ := hf
    have key : ∀ p, s.e.pc 0 = p → (onInterrupt s.e.g p).1.engLock = s.e.g.engLock →
        (onInterrupt s.e.g p).1.mode = s.e.g.mode → (onInterrupt s.e.g p).1.loads = s.e.g.loads →
        (onInterrupt s.e.g p).1.real = s.e.g.real → (onInterrupt s.e.g p).1.seq = s.e.g.seq →
        ((onInterrupt s.e.g p).2.1 = .idle ∨ (onInterrupt s.e.g p).2.1 = .cDone) →
        Halted s.interrupt.e := by
      rintro p rfl a b c d f hp
      refine h.put (f1.trans a) (f5.trans b) (f4.trans c) (f8.trans d) (f9.trans f) ?_
      rcases hp with hp | hp
      · exact .inl hp
      · exact .inr (.inr (.inr (.inr (.inr (.inl hp)))))
    rcases h.pcs 0 with hp | ⟨l, hp⟩ | ⟨c, hp⟩ | ⟨c, hp⟩ | hp | hp | hp
    · exact key _ hp rfl rfl rfl rfl rfl (.inl rfl)
    · exact key _ hp rfl rfl rfl rfl rfl (.inl rfl)
    · exact key _ hp rfl rfl rfl rfl rfl (.inl rfl)
    · exact key _ hp rfl rfl rfl rfl rfl (.inl rfl)
    · exact key _ hp rfl rfl rfl rfl rfl (.inr rfl)
    · exact key _ hp rfl rfl rfl rfl rfl (.inl rfl)
    · exact key _ hp rfl rfl rfl rfl rfl (.inl rfl)

/-- **C82 fails.** The main thread writes a log (synchronous engine), then calls
`config.set(pool_size=1)`, and Ctrl-C comes just after the engine was blocked.  The callback of the
setting swallows the interrupt, `config.set` returns as if it had succeeded, and the lock of the
engine stays taken: no log is ever handled again, in no thread, whatever happens afterwards. -/
theorem C82_interrupted_change_halts_logging_fails : ∃ s, IReach IEng.init s ∧ (∀ t, s.e.pc t = .idle) ∧
    s.e.g.poolSize = 1 ∧ s.cut = [] ∧ ∀ s', IReach s s' → s'.e.g.seq = [5] := by
  have b1 := (EReach.init (e₀ := Eng.init)).th 0 (.callFirst _ 5 (by simp [Eng.init, Glob.init]) rfl)
  have b2 := b1.th 0 (.wLock _ _ rfl)
  have b3 := b2.th 0 (.wNotYet _ _ rfl)
  have b4 := b3.th 0 (.wSetLock _ _ rfl)
  have b5 := b4.th 0 (.wSetStarted _ _)
  have b6 := b5.th 0 (.wLoadSingle _ _ rfl)
  have b7 := b6.th 0 (.wRegister _ _)
  have b8 := b7.th 0 (.wDone _ _)
  have b9 := b8.th 0 (.fetch _ _ 0 rfl)
  have b10 := b9.th 0 (.handSingle _ _ 0 rfl)
  have c1 := b10.th 0 (.cCall _ (.poolSize 1))
  have c2 := c1.th 0 (.cAcquire _ _ rfl)
  have c3 := c2.th 0 (.cStore _ _ rfl rfl)
  have c4 := c3.th 0 (.cEngineEnter _ rfl)
  have c5 := c4.th 0 (.cEngineLeave _)
  have c6 := c5.th 0 (.cStarted _ rfl)
  have c7 := c6.th 0 (.cBlock _ rfl)
  have c8 := c7.th 0 (.cSwap _)
  have d1 := c8.withInterrupts.int
  have d2 := d1.th 0 (.cDone _) (fun _ h => nomatch h)
  have key : ∀ s, IReach IEng.init s → (∀ t, s.e.pc t = .idle) → s.e.g.engLock = some 0 →
      s.e.g.mode = .blocked → s.e.g.loads = 1 → s.e.g.real 0 = .single → s.e.g.seq = [5] →
      s.e.g.poolSize = 1 → s.cut = [] → ∃ s, IReach IEng.init s ∧ (∀ t, s.e.pc t = .idle) ∧
        s.e.g.poolSize = 1 ∧ s.cut = [] ∧ ∀ s', IReach s s' → s'.e.g.seq = [5] := by
    intro s hs idle h1 h2 h3 h4 h5 h6 h7
    refine ⟨s, hs, idle, h6, h7, fun s' hs' => Halted.seq (e := s'.e) ?_⟩
    induction hs' with
    | init => exact ⟨h1, h2, h3, h4, h5, fun t => .inl (idle t)⟩
    | step _ hs ih => exact ih.step hs
  refine key _ d2 ?_ rfl rfl rfl rfl rfl rfl rfl
  intro t
  by_cases ht : t = 0
  · subst ht; rfl
  · simp [setFn, ht, Eng.init, IEng.interrupt]

/-- **C82 fails**, a second way: Ctrl-C while the first log is being written, in the moment the engine
is loaded.  The interrupt is swallowed, there is no engine, and from then on the log calls raise
`AttributeError` – here the interrupted one and a later one of another thread. -/
theorem C82_interrupted_first_log_breaks_logging_fails : ∃ s, IReach IEng.init s ∧ s.cut = [] ∧
    s.e.pc 0 = .wFailed 5 ∧ s.e.pc 1 = .wFailed 6 := by
  have b1 := (EReach.init (e₀ := Eng.init)).th 0 (.callFirst _ 5 (by simp [Eng.init, Glob.init]) rfl)
  have b2 := b1.th 0 (.wLock _ _ rfl)
  have b3 := b2.th 0 (.wNotYet _ _ rfl)
  have b4 := b3.th 0 (.wSetLock _ _ rfl)
  have b5 := b4.th 0 (.wSetStarted _ _)
  have d1 := b5.withInterrupts.int
  have d2 := d1.th 0 (.wRegister _ _) (fun _ h => nomatch h)
  have d3 := d2.th 0 (.wDone _ _) (fun _ h => nomatch h)
  have d4 := d3.th 0 (.fetchFails _ _ rfl) (fun _ h => nomatch h)
  have d5 := d4.th 1 (.callDirect _ 6 (by
    intro x hx
    have : x = (0, 5) := List.mem_singleton.1 hx
    subst this; decide) rfl) (fun _ h => nomatch h)
  have d6 := d5.th 1 (.fetchFails _ _ rfl) (fun _ h => nomatch h)
  exact ⟨_, d6, rfl, rfl, rfl⟩

/-- **C82 fails**, a third way: Ctrl-C while `config.set(pool_size=1)` waits for the engine.  The
interrupt is swallowed, `config.set` returns, the setting has the new value, but the engine is the
old one – against C66, and without any sign of it. -/
theorem C82_interrupted_change_takes_no_effect_fails : ∃ s, IReach IEng.init s ∧
    (∀ t, s.e.pc t = .idle) ∧ s.e.g.poolSize = 1 ∧ s.e.g.loads = 1 ∧ s.e.g.real 0 = .single := by
  have b1 := (EReach.init (e₀ := Eng.init)).th 0 (.callFirst _ 5 (by simp [Eng.init, Glob.init]) rfl)
  have b2 := b1.th 0 (.wLock _ _ rfl)
  have b3 := b2.th 0 (.wNotYet _ _ rfl)
  have b4 := b3.th 0 (.wSetLock _ _ rfl)
  have b5 := b4.th 0 (.wSetStarted _ _)
  have b6 := b5.th 0 (.wLoadSingle _ _ rfl)
  have b7 := b6.th 0 (.wRegister _ _)
  have b8 := b7.th 0 (.wDone _ _)
  have b9 := b8.th 0 (.fetch _ _ 0 rfl)
  have b10 := b9.th 0 (.handSingle _ _ 0 rfl)
  have c1 := b10.th 0 (.cCall _ (.poolSize 1))
  have c2 := c1.th 0 (.cAcquire _ _ rfl)
  have c3 := c2.th 0 (.cStore _ _ rfl rfl)
  have d1 := c3.withInterrupts.int
  have d2 := d1.th 0 (.cDone _) (fun _ h => nomatch h)
  refine ⟨_, d2, ?_, rfl, rfl, rfl⟩
  intro t
  by_cases ht : t = 0
  · subst ht; rfl
  · simp [setFn, ht, Eng.init, IEng.interrupt]

/-- **C82 fails**, a fourth way: Ctrl-C while `config.set(pool_size=0)` waits for the queue of the old
engine to become empty.  The old engine is replaced without being emptied; the exit hook stops the
new one only, and ends while a log whose call returned long ago is still in the old queue. -/
theorem C82_interrupted_change_loses_logs_at_exit_fails : ∃ s, IReach IEng.init s ∧ s.cut = [] ∧
    s.e.pc 1 = .xEnd ∧ (∀ t, t ≠ 1 → s.e.pc t = .idle) ∧ Written s.e 5 ∧ Queued s.e 0 5 ∧
    timesHandled s.e 5 = 0 ∧ s.e.g.late = [] := by
  have a1 := (EReach.init (e₀ := Eng.init)).th 0 (.cCall _ (.poolSize 1))
  have a2 := a1.th 0 (.cAcquire _ _ rfl)
  have a3 := a2.th 0 (.cStore _ _ rfl rfl)
  have a4 := a3.th 0 (.cEngineEnter _ rfl)
  have a5 := a4.th 0 (.cEngineLeave _)
  have a6 := a5.th 0 (.cNotStarted _ rfl)
  have a7 := a6.th 0 (.cDone _)
  have b1 := a7.th 0 (.callFirst _ 5 (by simp [Eng.init, Glob.init, Change.apply]) rfl)
  have b2 := b1.th 0 (.wLock _ _ rfl)
  have b3 := b2.th 0 (.wNotYet _ _ rfl)
  have b4 := b3.th 0 (.wSetLock _ _ rfl)
  have b5 := b4.th 0 (.wSetStarted _ _)
  have b6 := b5.th 0 (.wLoadMulti _ _ (by decide))
  have b7 := b6.th 0 (.wLoadQueue _ _)
  have b8 := b7.th 0 (.wLoadWorkers _ _ _)
  have b9 := b8.th 0 (.wRegister _ _)
  have b10 := b9.th 0 (.wDone _ _)
  have b11 := b10.th 0 (.fetch _ _ 0 rfl)
  have b12 := b11.th 0 (.handPool _ _ 0 _ _ rfl (.put _ _ (.inl rfl)))
  have c1 := b12.th 0 (.cCall _ (.poolSize 0))
  have c2 := c1.th 0 (.cAcquire _ _ rfl)
  have c3 := c2.th 0 (.cStore _ _ rfl rfl)
  have c4 := c3.th 0 (.cEngineEnter _ rfl)
  have c5 := c4.th 0 (.cEngineLeave _)
  have c6 := c5.th 0 (.cStarted _ rfl)
  have c7 := c6.th 0 (.cBlock _ rfl)
  have c8 := c7.th 0 (.cSwap _)
  have c9 := c8.th 0 (.cStopPool _ 0 _ _ rfl rfl (.stopCall _ rfl))
  have d1 := c9.withInterrupts.int
  have d2 := d1.th 0 (.cLoad _) (fun _ h => nomatch h)
  have d3 := d2.th 0 (.cUnblock _) (fun _ h => nomatch h)
  have d4 := d3.th 0 (.cRelease _) (fun _ h => nomatch h)
  have d5 := d4.th 0 (.cDone _) (fun _ h => nomatch h)
  have x1 := d5.th 1 (.xCall _ (by decide)) (fun _ h => nomatch h)
  have x2 := x1.th 1 (.xLock _ rfl) (fun _ h => nomatch h)
  have x3 := x2.th 1 (.xSwap _) (fun _ h => nomatch h)
  have x4 := x3.th 1 (.xStopSingle _ 1 rfl rfl) (fun _ h => nomatch h)
  refine ⟨_, x4, rfl, rfl, ?_, ⟨0, List.mem_singleton.2 rfl⟩, ⟨by decide, _, rfl, List.mem_singleton.2 rfl⟩,
    rfl, rfl⟩
  intro t ht
  by_cases h0 : t = 0
  · subst h0; rfl
  · simp [setFn, ht, h0, Eng.init, IEng.interrupt]

end Polog
