import Verif.Engine.CollectSpec

/-! Logs written by destructors (C101). -/

namespace Polog
open EngineSpec

theorem frameNo_inj {t d t' d' : Nat} (h : frameNo t d = frameNo t' d') : t = t' ∧ d = d' := by
  unfold frameNo at h
  exact Nat.pair_eq_pair.mp h

theorem frameNo_surj (f : Nat) : ∃ t d, f = frameNo t d := ⟨f.unpair.1, f.unpair.2, (Nat.pair_unpair f).symm⟩

theorem GcReach.trans {a b c : GcEng} (h : GcReach a b) (h' : GcReach b c) : GcReach a c := by
  induction h' with
  | init => exact h
  | step _ hs ih => exact .step ih hs

theorem GcReach.eng {s₀ s : GcEng} (h : GcReach s₀ s) : EReach s₀.e s.e := by
  induction h with
  | init => exact .init
  | step _ hs ih =>
    cases hs with
    | thread t g' p' h _ => exact .step ih (.thread _ _ g' p' h)
    | pool k p p' a hk hr hp h1 h2 _ => exact .step ih (.pool _ k p p' a hk hr hp h1 h2)
    | collect t => exact ih
    | collectInPut t k p _ _ _ _ => exact ih
    | finished t d _ _ => exact ih

/-- **C101.** Destructors may run at any moment: a log is handled at most once, and only if it was written; it is never lost except in the ways
in which it can be lost without destructors (it is still in its call, in a queue, or in work). -/
theorem C101_nothing_vanishes_or_duplicates (s : GcEng) (h : GcReach GcEng.init s) (l : Log) :
    timesHandled s.e l ≤ 1 ∧ (0 < timesHandled s.e l → Written s.e l) ∧
    (Written s.e l → timesHandled s.e l = 1 ∨
      (timesHandled s.e l = 0 ∧
        ((∃ f, (f, l) ∈ s.e.g.calls ∧ InCall s.e f l) ∨ (∃ k, Queued s.e k l) ∨ (∃ k i, InWork s.e k i l)))) :=
  ⟨(C17_handled_at_most_once s.e h.eng l).1, (C17_handled_at_most_once s.e h.eng l).2,
   C17_nothing_vanishes_or_duplicates s.e h.eng l⟩

/-- Above the topmost call there is nothing. -/
theorem above_is_idle {s : GcEng} (h : GcReach GcEng.init s) : ∀ t d, s.depth t < d → s.e.pc (frameNo t d) = .idle := by
  induction h with
  | init => intro t d _; rfl
  | step _ hs ih =>
    intro t d hd
    cases hs with
    | thread u g' p' _ _ =>
      dsimp only at hd ⊢
      rw [setFn_ne]
      · exact ih t d hd
      · intro he
        obtain ⟨rfl, rfl⟩ := frameNo_inj he
        omega
    | pool => exact ih t d hd
    | collect u =>
      dsimp only [setFn] at hd
      split at hd
      · rename_i htu; subst htu; exact ih t d (by omega)
      · exact ih t d hd
    | collectInPut u k p _ _ _ _ =>
      dsimp only [setFn] at hd
      split at hd
      · rename_i htu; subst htu; exact ih t d (by omega)
      · exact ih t d hd
    | finished u d' hd' hi =>
      dsimp only [setFn] at hd
      split at hd
      · rename_i htu
        subst htu
        by_cases he : d = d' + 1
        · subst he
          unfold GcEng.top at hi
          rw [hd'] at hi
          exact hi
        · exact ih t d (by omega)
      · exact ih t d hd

/-- Steps of topmost calls and of workers, when no mutex is held. -/
theorem gcOnward_of {A : Nat → Prop} {e e' : Eng} (h : OnwardBy A e e') : ∀ s : GcEng, s.e = e →
    (∀ f, A f → ∃ t, f = s.top t) → (∀ k, s.mutex k = none) →
    ∃ s', GcOnward s s' ∧ s'.e = e' ∧ s'.depth = s.depth := by
  induction h with
  | refl e => intro s hs _ _; exact ⟨s, .refl s, hs, rfl⟩
  | thread f hf g' p' hb hst _ ih =>
    intro s hs hA hm
    subst hs
    obtain ⟨t, rfl⟩ := hA f hf
    obtain ⟨s', ho, he, hd⟩ := ih
      ⟨⟨g', setFn s.e.pc (s.top t) p'⟩, s.depth, fun k => if s.mutex k = some (s.top t) then none else s.mutex k⟩ rfl hA
      (fun k => by simp [hm k])
    exact ⟨s', .thread t hb g' p' hst (fun k _ => .inl (hm k)) ho, he, hd⟩
  | pool k p p' a hk hr hp h1 h2 _ ih =>
    intro s hs hA hm
    subst hs
    obtain ⟨s', ho, he, hd⟩ := ih { s with e := ⟨{ s.e.g with real := setFn s.e.g.real k (.pool p'), seq := s.e.g.seq ++ a.log?.toList }, s.e.pc⟩ }
      rfl hA hm
    exact ⟨s', .pool k p p' a hk hr hp h1 h2 (.inl (hm k)) ho, he, hd⟩

theorem _root_.Polog.EngineSpec.GcOnward.reach {s s' : GcEng} (h : GcOnward s s') : GcReach s s' := by
  induction h with
  | refl s => exact .init
  | thread t _ g' p' hst free _ ih => exact (GcReach.step .init (.thread _ t g' p' hst free)).trans ih
  | pool k p p' a hk hr hp h1 h2 free _ ih => exact (GcReach.step .init (.pool _ k p p' a hk hr hp h1 h2 free)).trans ih

/-- **C101** (partial: only if no interrupted call holds a lock or a mutex, and under the conditions of C18). The log calls and `config.set` of
destructors can return, and so can all the calls that are not interrupted, whatever the numbers of threads, destructors in destructors,
workers and logs. -/
theorem C101_every_call_can_return_partial (s : GcEng) (h : GcReach GcEng.init s) (hheld : NothingHeld s) (hload : 0 < s.e.g.loads)
    (hsize : ∀ k, k < s.e.g.loads → ∀ p, s.e.g.real k = .pool p → 0 < p.size) (hexit : ∀ f, ¬ Exiting s.e f) (t : Nat)
    (hns : ¬ Stranded s.e (s.top t)) :
    ∃ s', GcOnward s s' ∧ GcReach s s' ∧ s'.depth = s.depth ∧ s'.e.pc (s.top t) = .idle := by
  have hw : WInv s.e := ⟨EInv_reach EInv_init h.eng, hload, hsize, hexit⟩
  have holder : ∀ f, (s.e.g.engLock = some f ∨ s.e.g.setLock = some f) → ∃ u, f = s.top u := by
    intro f hf
    obtain ⟨u, d, rfl⟩ := frameNo_surj f
    have hbusy : s.e.pc (frameNo u d) ≠ .idle := by
      intro hi
      rcases hf with hf | hf
      · have := (hw.inv.s.eng _).2 hf; rw [hi] at this; cases this
      · have := (hw.inv.s.set _).2 hf; rw [hi] at this; cases this
    have h1 : ¬ s.depth u < d := fun hlt => hbusy (above_is_idle h u d hlt)
    have h2 : ¬ d < s.depth u := fun hlt => by
      have := hheld.1 (frameNo u d) ⟨u, d, hlt, rfl⟩
      rcases hf with hf | hf
      · exact this.1 hf
      · exact this.2 hf
    have : d = s.depth u := by omega
    exact ⟨u, by rw [this]; rfl⟩
  obtain ⟨e', ho, hq⟩ := hw.finish_by (s.top t) hns
  obtain ⟨s', ho', he, hd⟩ := gcOnward_of ho s rfl
    (fun f hf => by
      rcases hf with hf | hf | hf
      · exact ⟨t, hf⟩
      · exact holder f (.inl hf)
      · exact holder f (.inr hf)) hheld.2
  exact ⟨s', ho', ho'.reach, hd, by rw [he]; exact hq⟩

/-- What happens to the two lowest calls of a stack when the second cannot go on: nothing. -/
theorem GcStep.frozen {s s' : GcEng} (hs : GcStep s s') {t : Nat} (hd : 0 < s.depth t) (h1 : s.e.pc (frameNo t 1) ≠ .idle)
    (hb : s.depth t = 1 → ∀ g' p', TStep (frameNo t 1) s.e.g (s.e.pc (frameNo t 1)) g' p' →
      (∀ k, (s.e.pc (frameNo t 1)).putsInto = some k → s.mutex k = none ∨ s.mutex k = some (frameNo t 1)) → False) :
    0 < s'.depth t ∧ s'.e.pc (frameNo t 0) = s.e.pc (frameNo t 0) ∧ s'.e.pc (frameNo t 1) = s.e.pc (frameNo t 1) := by
  cases hs with
  | thread u g' p' h free =>
    refine ⟨hd, setFn_ne _ _ fun he => ?_, setFn_ne _ _ fun he => ?_⟩
    · obtain ⟨rfl, h0⟩ := frameNo_inj he
      omega
    · obtain ⟨rfl, h0⟩ := frameNo_inj he
      have ht : s.top t = frameNo t 1 := by unfold GcEng.top; rw [← h0]
      rw [ht] at h free
      exact hb h0.symm g' p' h free
  | pool => exact ⟨hd, rfl, rfl⟩
  | collect u =>
    refine ⟨?_, rfl, rfl⟩
    dsimp only [setFn]
    split <;> omega
  | collectInPut u k p _ _ _ _ =>
    refine ⟨?_, rfl, rfl⟩
    dsimp only [setFn]
    split <;> omega
  | finished u d hd' hi =>
    refine ⟨?_, rfl, rfl⟩
    dsimp only [setFn]
    split
    · rename_i htu
      subst htu
      cases d with
      | zero =>
        unfold GcEng.top at hi
        rw [hd'] at hi
        exact absurd hi h1
      | succ d => omega
    · exact hd

theorem never_handled_of_inCall {s : GcEng} (h : GcReach GcEng.init s) {f : Nat} {l : Log} (hpc : (s.e.pc f).log? = some l) :
    timesHandled s.e l = 0 := by
  obtain ⟨loc, hL⟩ := (EInv_reach EInv_init h.eng).l
  have hl := (hL.thread f l).1 hpc
  have := hL.done l
  rw [hl] at this
  simpa [timesHandled] using this

theorem GcReach.th {s₀ s : GcEng} (h : GcReach s₀ s) (t : Nat) {g' : Glob} {p' : PC}
    (hs : TStep (s.top t) s.e.g (s.e.pc (s.top t)) g' p')
    (free : ∀ k, (s.e.pc (s.top t)).putsInto = some k → s.mutex k = none ∨ s.mutex k = some (s.top t)) :
    GcReach s₀ { s with
        e := ⟨g', setFn s.e.pc (s.top t) p'⟩
        mutex := fun k => if s.mutex k = some (s.top t) then none else s.mutex k } := .step h (.thread s t g' p' hs free)

/-- A step while no mutex is held. -/
theorem GcReach.th0 {s₀ : GcEng} {e : Eng} {depth : Nat → Nat} (h : GcReach s₀ ⟨e, depth, fun _ => none⟩) (t : Nat) {g' : Glob} {p' : PC}
    (hs : TStep (frameNo t (depth t)) e.g (e.pc (frameNo t (depth t))) g' p') :
    GcReach s₀ ⟨⟨g', setFn e.pc (frameNo t (depth t)) p'⟩, depth, fun _ => none⟩ := by
  have := h.th t hs (fun _ _ => .inl rfl)
  simpa [GcEng.top] using this

/-- A destructor that logs while its thread is replacing the engine waits for a lock of its own thread. -/
theorem reload_frozen {s s' : GcEng} (h0 : GcReach GcEng.init s) (h : GcReach s s') {t : Nat} {l : Log} (hd : 0 < s.depth t)
    (hpc0 : (s.e.pc (frameNo t 0)).holdsEng = true) (hpc1 : s.e.pc (frameNo t 1) = .bLock l) :
    0 < s'.depth t ∧ s'.e.pc (frameNo t 0) = s.e.pc (frameNo t 0) ∧ s'.e.pc (frameNo t 1) = .bLock l := by
  induction h with
  | init => exact ⟨hd, rfl, hpc1⟩
  | @step s1 s2 hr hs ih =>
    obtain ⟨i1, i2, i3⟩ := ih
    have hI := (EInv_reach EInv_init (h0.trans hr).eng).s
    have heng := (hI.eng (frameNo t 0)).1 (by rw [i2]; exact hpc0)
    obtain ⟨j1, j2, j3⟩ := hs.frozen i1 (by rw [i3]; simp) (fun _ g' p' hst _ => by
      rw [i3] at hst
      cases hst with
      | bAcquire l hf => rw [hf] at heng; cases heng)
    exact ⟨j1, by rw [j2, i2], by rw [j3, i3]⟩

/-- **C101 fails.** After the first log the program calls `config.set(pool_size=1)`. While the engine is being replaced the garbage collector finds an
object whose destructor logs: the destructor waits for the lock that its own thread holds. Neither it nor `config.set` ever ends, and its log is
never handled. -/
theorem C101_collected_while_the_engine_is_replaced_fails : ∃ s, GcReach GcEng.init s ∧ Written s.e 8 ∧ NeverEnds s 0 ∧ NeverHandled s 8 := by
  have a1 := (GcReach.init (s₀ := GcEng.init)).th 0 (.callFirst _ 7 (by simp [GcEng.init, Eng.init, Glob.init]) rfl) (by simp [GcEng.init])
  have a2 := a1.th 0 (.wLock _ 7 rfl) (nofun)
  have a3 := a2.th 0 (.wNotYet _ 7 rfl) (nofun)
  have a4 := a3.th 0 (.wSetLock _ 7 rfl) (nofun)
  have a5 := a4.th 0 (.wSetStarted _ 7) (nofun)
  have a6 := a5.th 0 (.wLoadSingle _ 7 rfl) (nofun)
  have a7 := a6.th 0 (.wRegister _ 7) (nofun)
  have a8 := a7.th 0 (.wDone _ 7) (nofun)
  have a9 := a8.th 0 (.fetch _ 7 0 rfl) (nofun)
  have a10 := a9.th 0 (.handSingle _ 7 0 rfl) (fun _ _ => .inl rfl)
  have b1 := a10.th 0 (.cCall _ (.poolSize 1)) (nofun)
  have b2 := b1.th 0 (.cAcquire _ _ rfl) (nofun)
  have b3 := b2.th 0 (.cStore _ _ rfl rfl) (nofun)
  have b4 := b3.th 0 (.cEngineEnter _ rfl) (nofun)
  have b5 := b4.th 0 (.cEngineLeave _) (nofun)
  have b6 := b5.th 0 (.cStarted _ rfl) (nofun)
  have b7 := b6.th 0 (.cBlock _ rfl) (nofun)
  have b8 := b7.th 0 (.cSwap _) (nofun)
  have b9 := GcReach.step b8 (.collect _ 0)
  have r := b9.th 0 (.callBlocked _ 8 (by simp [GcEng.init, Eng.init, Glob.init, Glob.load, Change.apply]) rfl) (nofun)
  refine ⟨_, r, ⟨_, .tail _ (.head _)⟩, fun s' h => ?_, fun s' h => ?_⟩
  · obtain ⟨h1, h2, h3⟩ := reload_frozen r h (t := 0) (l := 8) (by decide) rfl rfl
    exact ⟨h1, by rw [h2]; exact nofun, by rw [h3]; exact nofun⟩
  · obtain ⟨_, _, h3⟩ := reload_frozen r h (t := 0) (l := 8) (by decide) rfl rfl
    exact never_handled_of_inCall (r.trans h) (f := frameNo 0 1) (by rw [h3]; rfl)

/-- The first log of the program, written by a destructor while its thread changes a setting. -/
theorem first_frozen {s s' : GcEng} (h0 : GcReach GcEng.init s) (h : GcReach s s') {t : Nat} {l : Log} (hd : 0 < s.depth t)
    (hpc0 : (s.e.pc (frameNo t 0)).holdsSet = true) (hpc1 : s.e.pc (frameNo t 1) = .wStart l) :
    0 < s'.depth t ∧ s'.e.pc (frameNo t 0) = s.e.pc (frameNo t 0) ∧ s'.e.pc (frameNo t 1) = .wStart l := by
  induction h with
  | init => exact ⟨hd, rfl, hpc1⟩
  | @step s1 s2 hr hs ih =>
    obtain ⟨i1, i2, i3⟩ := ih
    have hI := (EInv_reach EInv_init (h0.trans hr).eng).s
    have hset := (hI.set (frameNo t 0)).1 (by rw [i2]; exact hpc0)
    obtain ⟨j1, j2, j3⟩ := hs.frozen i1 (by rw [i3]; simp) (fun _ g' p' hst _ => by
      rw [i3] at hst
      cases hst with
      | wSetLock l hf => rw [hf] at hset; cases hset)
    exact ⟨j1, by rw [j2, i2], by rw [j3, i3]⟩

/-- Before the first engine is loaded nothing has been handled. -/
theorem seq_nil_of_unloaded {e : Eng} (h : EReach Eng.init e) (hl : e.g.loads = 0) : e.g.seq = [] := by
  induction h with
  | init => rfl
  | @step e1 e2 hr hs ih =>
    have hE := EInv_reach EInv_init hr
    cases hs with
    | pool k p p' a hk _ _ _ _ =>
      have : e1.g.loads = 0 := hl
      omega
    | thread t g' p' hst =>
      have hm := hst.mono.1
      have h1 : e1.g.loads = 0 := by have : g'.loads = 0 := hl; omega
      have ih := ih h1
      have hloc := hE.s.loc t
      have hphase : (e1.pc t).holdsEng = true → Phase e1.g (e1.pc t) := fun hx => hE.s.held t ((hE.s.eng t).1 hx)
      show g'.seq = []
      generalize e1.pc t = pc at hst hloc hphase
      cases hst with
      | handSingle l k _ => have : k < e1.g.loads := hloc; omega
      | bHandSingle l k _ => have : k + 1 = e1.g.loads := by have := (hphase rfl).2; omega
                             omega
      | cStore c => cases c <;> exact ih
      | _ => exact ih

/-- **C101 fails.** The program calls `config.set(pool_size=1)` before its first log, and the garbage collector finds an object whose destructor writes the
first log: neither the destructor nor `config.set` ever ends, and no log call of another thread that begins now ever hands over its log. -/
theorem C101_first_log_collected_fails : ∃ s, GcReach GcEng.init s ∧ Written s.e 8 ∧ NeverEnds s 0 ∧ NeverHandled s 8 ∧
    ∀ s', GcReach s s' → ∀ l, timesHandled s'.e l = 0 := by
  have a1 := (GcReach.init (s₀ := GcEng.init)).th 0 (.cCall _ (.poolSize 1)) (by simp [GcEng.init])
  have a2 := a1.th 0 (.cAcquire _ _ rfl) (nofun)
  have a3 := GcReach.step a2 (.collect _ 0)
  have a4 := a3.th 0 (.callFirst _ 8 (by simp [GcEng.init, Eng.init, Glob.init]) rfl) (nofun)
  have a5 := a4.th 0 (.wLock _ 8 rfl) (nofun)
  have r := a5.th 0 (.wNotYet _ 8 rfl) (nofun)
  have none_handled : ∀ s', GcReach _ s' → ∀ l, timesHandled s'.e l = 0 := fun s' h l => by
    obtain ⟨_, _, h3⟩ := first_frozen r h (t := 0) (l := 8) (by decide) rfl rfl
    have hE := EInv_reach EInv_init (r.trans h).eng
    have hp := hE.s.held _ ((hE.s.eng (frameNo 0 1)).1 (by rw [h3]; rfl))
    rw [h3] at hp
    have hload : s'.e.g.loads = 0 := hp.2.1
    simp [timesHandled, seq_nil_of_unloaded (r.trans h).eng hload]
  refine ⟨_, r, ⟨_, .head _⟩, fun s' h => ?_, fun s' h => none_handled s' h 8, none_handled⟩
  obtain ⟨h1, h2, h3⟩ := first_frozen r h (t := 0) (l := 8) (by decide) rfl rfl
  exact ⟨h1, by rw [h2]; exact nofun, by rw [h3]; exact nofun⟩

/-- Only putting and what takes the mutex changes what is in a queue. -/
theorem GcStep.queue_same {s s' : GcEng} (hs : GcStep s s') {k f : Nat} {p : Pool} (hm : s.mutex k = some f) (hk : k < s.e.g.loads)
    (hr : s.e.g.real k = .pool p) (hf : ∀ t, s.top t = f → False) :
    s'.mutex k = some f ∧ k < s'.e.g.loads ∧ ∃ p', s'.e.g.real k = .pool p' ∧ p'.queue = p.queue := by
  cases hs with
  | thread t g' p' h free =>
    have hne : s.top t ≠ f := fun he => hf t he
    refine ⟨?_, Nat.lt_of_lt_of_le hk h.mono.1, ?_⟩
    · dsimp only
      rw [hm, if_neg]
      intro he
      exact hne (Option.some.inj he).symm
    · have noPut : (s.e.pc (s.top t)).putsInto ≠ some k := by
        intro hp
        rcases free k hp with h1 | h1
        · rw [hm] at h1; cases h1
        · rw [hm] at h1; exact hne (Option.some.inj h1).symm
      show ∃ p', g'.real k = .pool p' ∧ p'.queue = p.queue
      generalize s.e.pc (s.top t) = pc at h noPut
      have upd : ∀ (j : Nat) (q q' : Pool) (a : PLabel), s.e.g.real j = .pool q → PStep q a q' → (j ≠ k ∨ a = .stop) →
          ∃ p', setFn s.e.g.real j (.pool q') k = .pool p' ∧ p'.queue = p.queue := by
        intro j q q' a hj hst hcase
        by_cases hjk : k = j
        · subst hjk
          rcases hcase with hc | rfl
          · exact absurd rfl hc
          · rw [hr] at hj
            cases hj
            refine ⟨q', setFn_self _ _ _, ?_⟩
            cases hst
            rfl
        · exact ⟨p, by rw [setFn_ne _ _ hjk]; exact hr, rfl⟩
      have loaded : ∀ r : Real, ∃ p', setFn s.e.g.real s.e.g.loads r k = .pool p' ∧ p'.queue = p.queue := fun r =>
        ⟨p, by rw [setFn_ne _ _ (by omega)]; exact hr, rfl⟩
      cases h with
      | handPool l j q q' hq hst => exact upd j q q' _ hq hst (.inl fun he => noPut (by rw [← he]; rfl))
      | bHandPool l j q q' hq hst => exact upd j q q' _ hq hst (.inl fun he => noPut (by rw [← he]; rfl))
      | cStopPool j q q' _ hq hst => exact upd j q q' _ hq hst (.inr rfl)
      | xStopPool j q q' _ hq hst => exact upd j q q' _ hq hst (.inr rfl)
      | wLoadSingle l _ => exact loaded _
      | wLoadWorkers l _ => exact loaded _
      | cLoad => exact loaded _
      | cStore c => cases c <;> exact ⟨p, hr, rfl⟩
      | _ => exact ⟨p, hr, rfl⟩
  | pool j q q' a hj hq hst _ _ free =>
    refine ⟨hm, hk, ?_⟩
    dsimp only
    by_cases hjk : k = j
    · subst hjk
      rw [hr] at hq
      cases hq
      refine ⟨q', setFn_self _ _ _, ?_⟩
      rcases free with h1 | h1
      · rw [hm] at h1; cases h1
      · exact Classical.byContradiction fun hn => h1 (.inl hn)
    · exact ⟨p, by rw [setFn_ne _ _ hjk]; exact hr, rfl⟩
  | collect t => exact ⟨hm, hk, p, hr, rfl⟩
  | collectInPut t j q _ _ _ free =>
    refine ⟨?_, hk, p, hr, rfl⟩
    dsimp only
    rw [setFn_ne]
    · exact hm
    · rintro rfl
      rw [hm] at free
      cases free
  | finished t d _ _ => exact ⟨hm, hk, p, hr, rfl⟩

/-- A destructor that logs while its thread is inside `queue.put`. -/
theorem put_frozen {s s' : GcEng} (h : GcReach s s') {t k : Nat} {l l' : Log} {p : Pool} (hd : 0 < s.depth t)
    (hpc0 : s.e.pc (frameNo t 0) = .wHand l k) (hpc1 : s.e.pc (frameNo t 1) = .wHand l' k)
    (hm : s.mutex k = some (frameNo t 0)) (hk : k < s.e.g.loads) (hr : s.e.g.real k = .pool p) :
    0 < s'.depth t ∧ s'.e.pc (frameNo t 0) = .wHand l k ∧ s'.e.pc (frameNo t 1) = .wHand l' k ∧ s'.mutex k = some (frameNo t 0) ∧
      k < s'.e.g.loads ∧ ∃ p', s'.e.g.real k = .pool p' ∧ p'.queue = p.queue := by
  induction h with
  | init => exact ⟨hd, hpc0, hpc1, hm, hk, p, hr, rfl⟩
  | @step s1 s2 _ hs ih =>
    obtain ⟨i1, i2, i3, i4, i5, p1, i6, i7⟩ := ih
    obtain ⟨j1, j2, j3⟩ := hs.frozen i1 (by rw [i3]; simp) (fun _ g' p' hst free => by
      rcases free k (by rw [i3]; rfl) with h1 | h1
      · rw [i4] at h1; cases h1
      · rw [i4] at h1
        have := (frameNo_inj (Option.some.inj h1)).2
        cases this)
    obtain ⟨j4, j5, p2, j6, j7⟩ := hs.queue_same i4 i5 i6 (fun u hu => by
      obtain ⟨rfl, h0⟩ := frameNo_inj hu
      omega)
    exact ⟨j1, by rw [j2, i2], by rw [j3, i3], j4, j5, p2, j6, by rw [j7, i7]⟩

theorem put_forever {s : GcEng} (r : GcReach GcEng.init s) {t k : Nat} {l l' : Log} {p : Pool} (hd : 0 < s.depth t)
    (hpc0 : s.e.pc (frameNo t 0) = .wHand l k) (hpc1 : s.e.pc (frameNo t 1) = .wHand l' k)
    (hm : s.mutex k = some (frameNo t 0)) (hk : k < s.e.g.loads) (hr : s.e.g.real k = .pool p) :
    NeverEnds s t ∧ NeverHandled s l ∧ NeverHandled s l' ∧ ∀ x ∈ p.queue, NeverHandled s x := by
  refine ⟨fun s' h => ?_, fun s' h => ?_, fun s' h => ?_, fun x hx s' h => ?_⟩
  · obtain ⟨h1, h2, h3, _⟩ := put_frozen h hd hpc0 hpc1 hm hk hr
    exact ⟨h1, by rw [h2]; exact nofun, by rw [h3]; exact nofun⟩
  · obtain ⟨_, h2, _⟩ := put_frozen h hd hpc0 hpc1 hm hk hr
    exact never_handled_of_inCall (r.trans h) (f := frameNo t 0) (by rw [h2]; rfl)
  · obtain ⟨_, _, h3, _⟩ := put_frozen h hd hpc0 hpc1 hm hk hr
    exact never_handled_of_inCall (r.trans h) (f := frameNo t 1) (by rw [h3]; rfl)
  · obtain ⟨_, _, _, _, hk, p', hr, hq⟩ := put_frozen h hd hpc0 hpc1 hm hk hr
    obtain ⟨loc, hL⟩ := (EInv_reach EInv_init (r.trans h).eng).l
    have hl := (hL.queue k x).2 ⟨hk, p', hr, by rw [hq]; exact hx⟩
    have := hL.done x
    rw [hl] at this
    simpa [timesHandled] using this

/-- **C101 fails.** With a worker (`pool_size=1`) it is enough to log: the garbage collector runs inside `queue.put` of the log 8 and finds an object whose
destructor writes the log 9. The mutex of the queue is not reentrant: neither call ever ends, and the worker cannot take the log 7, which is in the
queue, either. -/
theorem C101_collected_inside_put_fails : ∃ s, GcReach GcEng.init s ∧ Queued s.e 0 7 ∧ Written s.e 8 ∧ Written s.e 9 ∧
    NeverEnds s 0 ∧ NeverHandled s 7 ∧ NeverHandled s 8 ∧ NeverHandled s 9 := by
  have a1 := (GcReach.init (s₀ := GcEng.init)).th0 0 (.cCall _ (.poolSize 1))
  have a2 := a1.th0 0 (.cAcquire _ _ rfl)
  have a3 := a2.th0 0 (.cStore _ _ rfl rfl)
  have a4 := a3.th0 0 (.cEngineEnter _ rfl)
  have a5 := a4.th0 0 (.cEngineLeave _)
  have a6 := a5.th0 0 (.cNotStarted _ rfl)
  have a7 := a6.th0 0 (.cDone _)
  have b1 := a7.th0 0 (.callFirst _ 7 (by simp [Eng.init, Glob.init, Change.apply]) rfl)
  have b2 := b1.th0 0 (.wLock _ 7 rfl)
  have b3 := b2.th0 0 (.wNotYet _ 7 rfl)
  have b4 := b3.th0 0 (.wSetLock _ 7 rfl)
  have b5 := b4.th0 0 (.wSetStarted _ 7)
  have b6 := b5.th0 0 (.wLoadMulti _ 7 (by simp [Eng.init, Glob.init, Change.apply]))
  have b7 := b6.th0 0 (.wLoadQueue _ 7)
  have b8 := b7.th0 0 (.wLoadWorkers _ 7 _)
  have b9 := b8.th0 0 (.wRegister _ 7)
  have b10 := b9.th0 0 (.wDone _ 7)
  have b11 := b10.th0 0 (.fetch _ 7 0 rfl)
  have b12 := b11.th0 0 (.handPool _ 7 0 _ _ rfl (.put _ 7 (.inl rfl)))
  have c1 := b12.th0 0 (.callDirect _ 8 (by simp [Eng.init, Glob.init, Glob.load, Change.apply]) rfl)
  have c2 := c1.th0 0 (.fetch _ 8 0 rfl)
  have c3 := GcReach.step c2 (.collectInPut _ 0 0 _ rfl rfl (.inl rfl) rfl)
  have d1 := c3.th 0 (.callDirect _ 9 (by simp [Eng.init, Glob.init, Glob.load, Change.apply]) rfl) (nofun)
  have r := d1.th 0 (.fetch _ 9 0 rfl) (nofun)
  obtain ⟨h1, h2, h3, h4⟩ := put_forever r (t := 0) (k := 0) (l := 8) (l' := 9) (by decide) rfl rfl rfl Nat.one_pos rfl
  exact ⟨_, r, ⟨Nat.one_pos, _, rfl, .head _⟩, ⟨_, .tail _ (.head _)⟩, ⟨_, .tail _ (.tail _ (.head _))⟩, h1, h4 7 (.head _), h2, h3⟩

/-- Only pools have a mutex. -/
theorem mutex_of_pool {s : GcEng} (h : GcReach GcEng.init s) : ∀ k f, s.mutex k = some f → k < s.e.g.loads ∧ ∃ p, s.e.g.real k = .pool p := by
  induction h with
  | init => intro k f h; cases h
  | @step s1 s2 hr hs ih =>
    have hE := EInv_reach EInv_init hr.eng
    have keep : ∀ (g' : Glob) (p' : PC) (t : Nat), TStep t s1.e.g (s1.e.pc t) g' p' → ∀ k, k < s1.e.g.loads →
        (∃ p, s1.e.g.real k = .pool p) → ∃ p, g'.real k = .pool p := by
      intro g' p' t hst k hk hp
      have set : ∀ j r, (j = k → ∃ p, r = .pool p) → ∃ p, setFn s1.e.g.real j r k = .pool p := by
        intro j r hj
        by_cases hjk : k = j
        · subst hjk
          rw [setFn_self]
          exact hj rfl
        · rw [setFn_ne _ _ hjk]; exact hp
      generalize s1.e.pc t = pc at hst
      cases hst with
      | handPool l j q q' _ _ => exact set j _ fun _ => ⟨q', rfl⟩
      | bHandPool l j q q' _ _ => exact set j _ fun _ => ⟨q', rfl⟩
      | cStopPool j q q' _ _ _ => exact set j _ fun _ => ⟨q', rfl⟩
      | xStopPool j q q' _ _ _ => exact set j _ fun _ => ⟨q', rfl⟩
      | wLoadSingle l _ => exact set _ _ fun he => by omega
      | wLoadWorkers l _ => exact set _ _ fun he => by omega
      | cLoad => exact set _ _ fun he => by omega
      | cStore c => cases c <;> exact hp
      | _ => exact hp
    intro k f hm
    cases hs with
    | thread t g' p' hst _ =>
      dsimp only at hm
      split at hm
      · cases hm
      · obtain ⟨h1, h2⟩ := ih k f hm
        exact ⟨Nat.lt_of_lt_of_le h1 hst.mono.1, keep g' p' _ hst k h1 h2⟩
    | pool j q q' a _ _ _ _ _ _ =>
      obtain ⟨h1, p, h2⟩ := ih k f hm
      refine ⟨h1, ?_⟩
      dsimp only
      by_cases hjk : k = j
      · subst hjk; exact ⟨q', setFn_self _ _ _⟩
      · exact ⟨p, by rw [setFn_ne _ _ hjk]; exact h2⟩
    | collect t => exact ih k f hm
    | collectInPut t j q hp hq _ _ =>
      dsimp only [setFn] at hm
      split at hm
      · rename_i hkj
        subst hkj
        refine ⟨?_, q, hq⟩
        have hloc := hE.s.loc (s1.top t)
        have hphase : (s1.e.pc (s1.top t)).holdsEng = true → Phase s1.e.g (s1.e.pc (s1.top t)) :=
          fun hx => hE.s.held _ ((hE.s.eng _).1 hx)
        generalize s1.e.pc (s1.top t) = pc at hp hloc hphase
        cases pc <;> cases hp
        · exact hloc
        · have := (hphase rfl).2
          show k < s1.e.g.loads
          omega
      · exact ih k f hm
    | finished t d _ _ => exact ih k f hm

/-- **C101.** With the synchronous engine, once the first log has been written and while the engine is not being replaced, a destructor can log at
any moment, whatever its thread was doing: its log is handled within the call, by steps of this call only, and no lock is needed. -/
theorem C101_synchronous_engine_needs_no_lock (s : GcEng) (h : GcReach GcEng.init s) (hs : AllSync s.e) (hm : s.e.g.mode = .direct) (t : Nat)
    (hidle : s.e.pc (s.top t) = .idle) (l : Log) (fresh : ¬ Written s.e l) :
    ∃ s', GcReach s s' ∧ s'.depth = s.depth ∧ (∀ f, f ≠ s.top t → s'.e.pc f = s.e.pc f) ∧ s'.e.pc (s.top t) = .idle ∧
      s'.e.g.engLock = s.e.g.engLock ∧ s'.e.g.setLock = s.e.g.setLock ∧ s'.e.g.seq = s.e.g.seq ++ [l] := by
  obtain ⟨k, hk⟩ : ∃ k, s.e.g.loads = k + 1 :=
    ⟨s.e.g.loads - 1, by have := ((EInv_reach EInv_init h.eng).s.overview.1 (by rw [hm]; simp)).2; omega⟩
  have hnone : ∀ j f, s.mutex j = some f → False := fun j f hj => by
    obtain ⟨h1, p, h2⟩ := mutex_of_pool h j f hj
    rw [hs j h1] at h2
    cases h2
  have hmn : s.mutex = fun _ => none := funext fun j => by
    cases hj : s.mutex j with
    | none => rfl
    | some f => exact (hnone j f hj).elim
  obtain ⟨e, depth, mutex⟩ := s
  dsimp only at hmn
  subst hmn
  have hk : e.g.loads = k + 1 := hk
  have r1 := (GcReach.init (s₀ := ⟨e, depth, fun _ => none⟩)).th0 t
    (by rw [show e.pc (frameNo t (depth t)) = .idle from hidle]; exact .callDirect _ l (fun x hx he => fresh ⟨x.1, he ▸ hx⟩) hm)
  have r2 := r1.th0 t (by dsimp only; rw [setFn_self]; exact .fetch _ l k hk)
  have r3 := r2.th0 t (by dsimp only; rw [setFn_self]; exact .handSingle _ l k (hs k (by dsimp only; omega)))
  refine ⟨_, r3, rfl, fun f hf => ?_, setFn_self _ _ _, rfl, rfl, rfl⟩
  have hf : f ≠ frameNo t (depth t) := hf
  dsimp only
  rw [setFn_ne _ _ hf, setFn_ne _ _ hf, setFn_ne _ _ hf]

/-- A further step of the same call, while no mutex is held. -/
theorem GcReach.go {s₀ : GcEng} {g : Glob} {pc : Nat → PC} {depth : Nat → Nat} {f : Nat} {p : PC}
    (h : GcReach s₀ ⟨⟨g, setFn pc f p⟩, depth, fun _ => none⟩) (t : Nat) (hf : frameNo t (depth t) = f) {g' : Glob} {p' : PC}
    (hs : TStep f g p g' p') : GcReach s₀ ⟨⟨g', setFn pc f p'⟩, depth, fun _ => none⟩ := by
  have := h.th0 t (g' := g') (p' := p') (by rw [hf]; dsimp only; rw [setFn_self]; exact hs)
  rw [hf] at this
  dsimp only at this
  have he : setFn (setFn pc f p) f p' = setFn pc f p' := by
    funext x
    by_cases hx : x = f
    · rw [hx, setFn_self, setFn_self]
    · rw [setFn_ne _ _ hx, setFn_ne _ _ hx, setFn_ne _ _ hx]
  rwa [he] at this

/-- A destructor has begun while its thread was handing over the first log, with the synchronous engine. -/
example : ∃ s, GcReach GcEng.init s ∧ AllSync s.e ∧ s.e.g.mode = .direct ∧ s.depth 0 = 1 ∧ s.e.pc (frameNo 0 0) = .wHand 7 0 ∧
    s.e.pc (s.top 0) = .idle ∧ ¬ Written s.e 8 := by
  have a1 := (GcReach.init (s₀ := GcEng.init)).th0 0 (.callFirst _ 7 (by simp [Eng.init, Glob.init]) rfl)
  have a2 := a1.go 0 rfl (.wLock _ 7 rfl)
  have a3 := a2.go 0 rfl (.wNotYet _ 7 rfl)
  have a4 := a3.go 0 rfl (.wSetLock _ 7 rfl)
  have a5 := a4.go 0 rfl (.wSetStarted _ 7)
  have a6 := a5.go 0 rfl (.wLoadSingle _ 7 rfl)
  have a7 := a6.go 0 rfl (.wRegister _ 7)
  have a8 := a7.go 0 rfl (.wDone _ 7)
  have a9 := a8.go 0 rfl (.fetch _ 7 0 rfl)
  refine ⟨_, GcReach.step a9 (.collect _ 0), ?_, rfl, rfl, rfl, rfl, ?_⟩
  · intro k hk
    have hk : k < 1 := hk
    match k, hk with
    | 0, _ => rfl
  · rintro ⟨t, ht⟩
    simp [Eng.init, Glob.init, Glob.load] at ht

theorem not_exiting_of_two {g : Glob} {a b : Nat} {l l' : Log} {k : Nat} (f : Nat) :
    ¬ Exiting ⟨g, setFn (setFn (fun _ => .idle) a (.wHand l k)) b (.wFetch l')⟩ f := by
  intro hx
  unfold Exiting setFn at hx
  dsimp only at hx
  split at hx
  · simp at hx
  · split at hx <;> simp at hx

/-- A destructor logs while its thread is about to put a log into the queue. -/
example : ∃ s, GcReach GcEng.init s ∧ NothingHeld s ∧ 0 < s.e.g.loads ∧
    (∀ k, k < s.e.g.loads → ∀ p, s.e.g.real k = .pool p → 0 < p.size) ∧ (∀ f, ¬ Exiting s.e f) ∧ ¬ Stranded s.e (s.top 0) ∧
    s.depth 0 = 1 ∧ s.e.pc (frameNo 0 0) = .wHand 7 0 ∧ s.e.pc (s.top 0) = .wFetch 8 := by
  have a1 := (GcReach.init (s₀ := GcEng.init)).th0 0 (.cCall _ (.poolSize 1))
  have a2 := a1.go 0 rfl (.cAcquire _ _ rfl)
  have a3 := a2.go 0 rfl (.cStore _ _ rfl rfl)
  have a4 := a3.go 0 rfl (.cEngineEnter _ rfl)
  have a5 := a4.go 0 rfl (.cEngineLeave _)
  have a6 := a5.go 0 rfl (.cNotStarted _ rfl)
  have a7 := a6.go 0 rfl (.cDone _)
  have b1 := a7.go 0 rfl (.callFirst _ 7 (by simp [Eng.init, Glob.init, Change.apply]) rfl)
  have b2 := b1.go 0 rfl (.wLock _ 7 rfl)
  have b3 := b2.go 0 rfl (.wNotYet _ 7 rfl)
  have b4 := b3.go 0 rfl (.wSetLock _ 7 rfl)
  have b5 := b4.go 0 rfl (.wSetStarted _ 7)
  have b6 := b5.go 0 rfl (.wLoadMulti _ 7 (by simp [Eng.init, Glob.init, Change.apply]))
  have b7 := b6.go 0 rfl (.wLoadQueue _ 7)
  have b8 := b7.go 0 rfl (.wLoadWorkers _ 7 _)
  have b9 := b8.go 0 rfl (.wRegister _ 7)
  have b10 := b9.go 0 rfl (.wDone _ 7)
  have b11 := b10.go 0 rfl (.fetch _ 7 0 rfl)
  have b12 := GcReach.step b11 (.collect _ 0)
  have r := b12.th0 0 (.callDirect _ 8 (by simp [Eng.init, Glob.init, Glob.load, Change.apply]) rfl)
  have r' : GcReach GcEng.init
      ⟨⟨⟨none, none, true, 1, 0, .direct, 1, setFn (fun _ => .single) 0 (.pool (Pool.init 1 0)), 1, 1, [(frameNo 0 0, 7), (frameNo 0 1, 8)], [], []⟩,
        setFn (setFn (fun _ => .idle) (frameNo 0 0) (.wHand 7 0)) (frameNo 0 1) (.wFetch 8)⟩, setFn (fun _ => 0) 0 1, fun _ => none⟩ := r
  refine ⟨_, r', ⟨fun f _ => ⟨nofun, nofun⟩, fun _ => rfl⟩, Nat.one_pos, ?_, fun f => not_exiting_of_two f, ?_, rfl, rfl, rfl⟩
  · intro k hk p hp
    have hk : k < 1 := hk
    match k, hk, hp with
    | 0, _, hp =>
      have hp : Real.pool (Pool.init 1 0) = .pool p := hp
      cases hp
      exact Nat.one_pos
  · rintro ⟨l, k, p, hpc, _⟩
    have hpc : PC.wFetch 8 = .wHand l k := hpc
    cases hpc

end Polog
