import Verif.Engine.FailureSpec

/-! C94: failures to create an engine. -/

namespace Polog
open EngineSpec FailureSpec

/-! ### The gentle case -/

/-- The executions of `GentleReach` are executions of the model with failures. -/
theorem FailureSpec.GentleReach.reach {e : Eng} (h : GentleReach e) : FailReach FEng.init ⟨e, []⟩ := by
  induction h with
  | init => exact .init
  | run _ hs ih => exact .step ih (.run _ _ hs)
  | loadFails t _ hp _ ih => exact .step ih (.loadFails _ t hp)

theorem SInv_loadFails {e : Eng} (h : SInv e) {t : Nat} (hp : e.pc t = .cLoad) (hs : SyncInUse e) :
    SInv ⟨e.g, setFn e.pc t .cUnblock⟩ := by
  obtain ⟨k, hk, hr⟩ := hs
  have heng := (h.eng t).1 (by rw [hp]; rfl)
  refine ⟨?_, ?_, h.free, ?_, ?_⟩ <;> dsimp only
  · intro u
    by_cases hu : u = t
    · subst hu; rw [setFn_self]; simp [PC.holdsEng, heng]
    · rw [setFn_ne _ _ hu]; exact h.eng u
  · intro u
    by_cases hu : u = t
    · subst hu; rw [setFn_self, (h.set u).1 (by rw [hp]; rfl)]; simp [PC.holdsSet]
    · rw [setFn_ne _ _ hu]; exact h.set u
  · intro u hu
    have : u = t := by rw [heng] at hu; cases hu; rfl
    subst this
    rw [setFn_self]
    have hph := h.held u hu
    rw [hp] at hph
    refine ⟨hph.1, fun p hpp => ?_⟩
    rw [hk, Nat.add_sub_cancel, hr] at hpp
    cases hpp
  · intro u
    by_cases hu : u = t
    · subst hu; rw [setFn_self]; trivial
    · rw [setFn_ne _ _ hu]; exact h.loc u

theorem EInv_loadFails {e : Eng} (h : EInv e) {t : Nat} (hp : e.pc t = .cLoad) (hs : SyncInUse e) :
    EInv ⟨e.g, setFn e.pc t .cUnblock⟩ := by
  obtain ⟨loc, hL⟩ := h.l
  exact ⟨SInv_loadFails h.s hp hs, h.r.same rfl rfl, loc,
    LInv_quiet hL (by rw [hp]; rfl) rfl rfl rfl (.same rfl rfl)⟩

theorem FailureSpec.GentleReach.inv {e : Eng} (h : GentleReach e) : EInv e := by
  induction h with
  | init => exact EInv_init
  | run _ hs ih => exact EInv_step ih hs
  | loadFails t _ hp hy ih => exact EInv_loadFails ih hp hy

/-- **C94** (partial: the failing engine was to replace the synchronous one; the other cases are the
`…_fails` theorems).  However often the creation of an engine fails: a written log has been handled
once, or it is on its way — in the hands of the call that wrote it, in a queue, or in the hands of a
worker — and has not been handled; no log call raises. -/
theorem C94_failures_lose_nothing_partial (e : Eng) (h : GentleReach e) (l : Log) (hw : Written e l) :
    (timesHandled e l = 1 ∨
      (timesHandled e l = 0 ∧
        ((∃ t, (t, l) ∈ e.g.calls ∧ InCall e t l) ∨ (∃ k, Queued e k l) ∨ (∃ k i, InWork e k i l)))) ∧
    ∀ t l', e.pc t ≠ .wFailed l' := by
  obtain ⟨hS, _, loc, hL⟩ := h.inv
  refine ⟨?_, fun t l' ht => ?_⟩
  · have hd := hL.done l
    unfold timesHandled
    cases hl : loc l with
    | unborn =>
      obtain ⟨t, ht⟩ := hw
      exact absurd rfl ((hL.born l).1 hl _ ht)
    | thread t =>
      rw [hl] at hd
      exact .inr ⟨by simpa using hd, .inl ⟨t, hL.owner t l hl, (log?_iff_inCall e t l).1 ((hL.thread t l).2 hl)⟩⟩
    | queue k =>
      rw [hl] at hd
      exact .inr ⟨by simpa using hd, .inr (.inl ⟨k, (hL.queue k l).1 hl⟩)⟩
    | worker k i =>
      rw [hl] at hd
      exact .inr ⟨by simpa using hd, .inr (.inr ⟨k, i, (hL.worker k i l).1 hl⟩)⟩
    | done => rw [hl] at hd; exact .inl (by simpa using hd)
  · have := hS.loc t
    rw [ht] at this
    exact this

/-- **C94** (partial: as above, and with the exceptions of C18).  After any number of such failures
every log call and every `config.set` of every thread can still return. -/
theorem C94_calls_can_return_after_failures_partial (e : Eng) (h : GentleReach e) (hload : 0 < e.g.loads)
    (hsize : ∀ k, k < e.g.loads → ∀ p, e.g.real k = .pool p → 0 < p.size)
    (hexit : ∀ t, ¬ Exiting e t) (t : Nat) (hns : ¬ Stranded e t) :
    ∃ e', Onward e e' ∧ e'.pc t = .idle :=
  WInv.finish ⟨h.inv, hload, hsize, hexit⟩ t hns

/-! ### Without an engine -/

structure NoEngInv (s : FEng) : Prop where
  seq : s.e.g.seq = []
  hand : ∀ t l k, s.e.pc t ≠ .wHand l k ∧ s.e.pc t ≠ .bHand l k
  calls : ∀ x ∈ s.e.g.calls, (s.e.pc x.1).log? = some x.2 ∨ x.2 ∈ s.raised

theorem FailStep.loads_mono {s s' : FEng} (h : FailStep s s') : s.e.g.loads ≤ s'.e.g.loads := by
  cases h with
  | run e' h =>
    cases h with
    | thread t g' p' h => exact h.mono.1
    | pool => exact Nat.le_refl _
  | _ => exact Nat.le_refl _

/-- A thread moves and keeps its log. -/
theorem NoEngInv.move {s : FEng} (h : NoEngInv s) {t : Nat} {g' : Glob} {p' : PC}
    (hp : p'.log? = (s.e.pc t).log?) (hh : ∀ l k, p' ≠ .wHand l k ∧ p' ≠ .bHand l k)
    (hc : g'.calls = s.e.g.calls) (hs : g'.seq = s.e.g.seq) :
    NoEngInv ⟨⟨g', setFn s.e.pc t p'⟩, s.raised⟩ := by
  refine ⟨hs.trans h.seq, fun u l k => ?_, fun x hx => ?_⟩ <;> dsimp only at *
  · by_cases hu : u = t
    · subst hu; rw [setFn_self]; exact hh l k
    · rw [setFn_ne _ _ hu]; exact h.hand u l k
  · rw [hc] at hx
    by_cases hu : x.1 = t
    · subst hu; rw [setFn_self, hp]; exact h.calls x hx
    · rw [setFn_ne _ _ hu]; exact h.calls x hx

/-- A thread calls a logger. -/
theorem NoEngInv.call {s : FEng} (h : NoEngInv s) {t : Nat} {g' : Glob} {p' : PC} {l : Log}
    (hi : (s.e.pc t).log? = none) (hp : p'.log? = some l) (hh : ∀ l k, p' ≠ .wHand l k ∧ p' ≠ .bHand l k)
    (hc : g'.calls = s.e.g.calls ++ [(t, l)]) (hs : g'.seq = s.e.g.seq) :
    NoEngInv ⟨⟨g', setFn s.e.pc t p'⟩, s.raised⟩ := by
  refine ⟨hs.trans h.seq, fun u l k => ?_, fun x hx => ?_⟩ <;> dsimp only at *
  · by_cases hu : u = t
    · subst hu; rw [setFn_self]; exact hh l k
    · rw [setFn_ne _ _ hu]; exact h.hand u l k
  · rw [hc] at hx
    rcases List.mem_append.1 hx with hx | hx
    · by_cases hu : x.1 = t
      · rcases h.calls x hx with h1 | h1
        · rw [hu, hi] at h1; cases h1
        · exact .inr h1
      · rw [setFn_ne _ _ hu]; exact h.calls x hx
    · rw [List.mem_singleton.1 hx]; dsimp only; rw [setFn_self]; exact .inl hp

theorem NoEngInv_reach {s : FEng} (h : FailReach FEng.init s) (h0 : NoEngine s.e) : NoEngInv s := by
  induction h with
  | init =>
    exact ⟨rfl, fun t l k => ⟨by simp [FEng.init, Eng.init], by simp [FEng.init, Eng.init]⟩,
      fun x hx => by cases hx⟩
  | @step s1 s2 _ hs ih =>
    have hl := hs.loads_mono
    unfold NoEngine at h0 ih
    have hz : s1.e.g.loads = 0 := by omega
    have ih := ih hz
    cases hs with
    | run e' he =>
      cases he with
      | pool k p p' a hk => omega
      | thread t g' p' hst =>
        generalize hpc : s1.e.pc t = pc at hst
        have hd := ih.hand t
        have hlog : ∀ q, s1.e.pc t = q → (s1.e.pc t).log? = q.log? := fun q hq => by rw [hq]
        cases hst with
        | callFirst l => exact ih.call (by rw [hpc]; rfl) rfl (by simp) rfl rfl
        | callDirect l => exact ih.call (by rw [hpc]; rfl) rfl (by simp) rfl rfl
        | callBlocked l => exact ih.call (by rw [hpc]; rfl) rfl (by simp) rfl rfl
        | fetch l k hk => omega
        | bFetch l k hk => omega
        | handSingle l k => exact absurd hpc (hd l k).1
        | handPool l k => exact absurd hpc (hd l k).1
        | bHandSingle l k => exact absurd hpc (hd l k).2
        | bHandPool l k => exact absurd hpc (hd l k).2
        | wLoadSingle l => simp [Glob.load] at h0
        | wLoadWorkers l => simp [Glob.load] at h0
        | cLoad => simp [Glob.load] at h0
        | cStore c => cases c <;> exact ih.move (by rw [hpc]; rfl) (by simp) rfl rfl
        | _ => exact ih.move (by rw [hpc]; rfl) (by simp) rfl rfl
    | firstFails t l hp =>
      refine ih.move ?_ (by simp) rfl rfl
      rcases hp with hp | hp | ⟨c, hp⟩ <;> rw [hp] <;> rfl
    | loadFails t hp => exact ih.move (by rw [hp]; rfl) (by simp) rfl rfl
    | stopNone t hp => exact ih.move (by rw [hp]; rfl) (by simp) rfl rfl
    | exitNone t hp => exact ih.move (by rw [hp]; rfl) (by simp) rfl rfl
    | stopAgain t k p hp hk => omega
    | exitAgain t k p hp hk => omega
    | blockedNone t l hp => exact ih.move (by rw [hp]; rfl) (by simp) rfl rfl
    | raise t l hp =>
      refine ⟨ih.seq, fun u l' k => ?_, fun x hx => ?_⟩ <;> dsimp only at *
      · by_cases hu : u = t
        · subst hu; rw [setFn_self]; simp
        · rw [setFn_ne _ _ hu]; exact ih.hand u l' k
      · by_cases hu : x.1 = t
        · rcases ih.calls x hx with h1 | h1
          · rw [hu, hp] at h1
            cases h1
            exact .inr (List.mem_append_right _ (List.mem_singleton.2 rfl))
          · exact .inr (List.mem_append_left _ h1)
        · rw [setFn_ne _ _ hu]
          exact (ih.calls x hx).imp id (List.mem_append_left _)

/-- **C94.** As long as no engine could be created, no log is handled and no log call returns
normally: every call that was made is still running or has raised an exception. -/
theorem C94_without_an_engine_every_call_raises (s : FEng) (h : FailReach FEng.init s)
    (h0 : NoEngine s.e) (l : Log) (hw : Written s.e l) :
    timesHandled s.e l = 0 ∧ ((∃ t, InCall s.e t l) ∨ l ∈ s.raised) := by
  have inv := NoEngInv_reach h h0
  obtain ⟨t, ht⟩ := hw
  refine ⟨by rw [timesHandled, inv.seq]; rfl, ?_⟩
  rcases inv.calls _ ht with h1 | h1
  · exact .inl ⟨t, (log?_iff_inCall s.e t l).1 h1⟩
  · exact .inr h1

/-! ### A stopped engine stays in use -/

/-- Log `l` lies in the queue of the pool number `k`, whose workers have all exited. -/
structure DeadIn (s : FEng) (k : Nat) (l : Log) (more : Pool → Prop) : Prop where
  called : ∃ x ∈ s.e.g.calls, x.2 = l
  nobody : ∀ t, (s.e.pc t).log? ≠ some l
  unseen : l ∉ s.e.g.seq
  here : ∃ p, s.e.g.real k = .pool p ∧ l ∈ p.queue ∧ (∀ i, i < p.size → p.worker i = .exited) ∧ more p
  loaded : k < s.e.g.loads
  others : ∀ j p, j ≠ k → s.e.g.real j = .pool p → l ∉ p.queue ∧ ∀ i, i < p.size → p.worker i ≠ .busy l

/-- What one step of a pool does to a dead pool that holds `l`. -/
theorem dead_step {p p' : Pool} {a : PLabel} {l : Log} (hq : l ∈ p.queue)
    (hd : ∀ i, i < p.size → p.worker i = .exited) (h : PStep p a p') :
    l ∈ p'.queue ∧ (∀ i, i < p'.size → p'.worker i = .exited) ∧ a.log? = none ∧
      (p.stop = .polling → p'.stop = .polling) := by
  cases h with
  | put l' room => exact ⟨List.mem_append_left _ hq, hd, rfl, id⟩
  | take i l' q hi hw => rw [hd i hi] at hw; cases hw
  | handled i l' hi hw => rw [hd i hi] at hw; cases hw
  | expire i hi hw => rw [hd i hi] at hw; cases hw
  | again i hi hw => rw [hd i hi] at hw; cases hw
  | exit i hi hw => rw [hd i hi] at hw; cases hw
  | stopCall hs => exact ⟨hq, hd, rfl, fun _ => rfl⟩
  | drained hs he => rw [he] at hq; cases hq
  | setFlag j hs => exact ⟨hq, hd, rfl, fun h => by rw [hs] at h; cases h⟩
  | flagged hs => exact ⟨hq, hd, rfl, fun h => by rw [hs] at h; cases h⟩
  | join j hs => exact ⟨hq, hd, rfl, fun h => by rw [hs] at h; cases h⟩
  | stopped hs => exact ⟨hq, hd, rfl, fun h => by rw [hs] at h; cases h⟩

/-- What one step does to a pool that does not hold `l`. -/
theorem other_step {p p' : Pool} {a : PLabel} {l : Log} (hq : l ∉ p.queue)
    (hd : ∀ i, i < p.size → p.worker i ≠ .busy l) (h : PStep p a p') (ha : a ≠ .put l) :
    (l ∉ p'.queue ∧ ∀ i, i < p'.size → p'.worker i ≠ .busy l) ∧ a.log? ≠ some l := by
  have upd : ∀ (i : Nat) (w : WPC), w ≠ .busy l → ∀ j, j < p.size → setFn p.worker i w j ≠ .busy l := by
    intro i w hw j hj
    by_cases hji : j = i
    · subst hji; rw [setFn_self]; exact hw
    · rw [setFn_ne _ _ hji]; exact hd j hj
  cases h with
  | put l' =>
    refine ⟨⟨?_, hd⟩, by simp [PLabel.log?]⟩
    intro hm
    rcases List.mem_append.1 hm with hm | hm
    · exact hq hm
    · exact ha (by rw [List.mem_singleton.1 hm])
  | take i l' q hi hw he =>
    rw [he] at hq
    exact ⟨⟨fun hm => hq (List.mem_cons_of_mem _ hm), upd _ _ (by rintro h; cases h; exact hq (List.mem_cons_self))⟩,
      by simp [PLabel.log?]⟩
  | handled i l' hi hw =>
    refine ⟨⟨hq, upd _ _ (by simp)⟩, ?_⟩
    simp only [PLabel.log?, ne_eq, Option.some.injEq]
    rintro rfl
    exact hd i hi hw
  | expire i => exact ⟨⟨hq, upd _ _ (by simp)⟩, by simp [PLabel.log?]⟩
  | again i => exact ⟨⟨hq, upd _ _ (by simp)⟩, by simp [PLabel.log?]⟩
  | exit i => exact ⟨⟨hq, upd _ _ (by simp)⟩, by simp [PLabel.log?]⟩
  | _ => exact ⟨⟨hq, hd⟩, by simp [PLabel.log?]⟩

/-- One pool makes a step. -/
theorem DeadIn.poolStep {s : FEng} {k : Nat} {l : Log} {more : Pool → Prop} (h : DeadIn s k l more)
    (hmore : ∀ p p' a, more p → l ∈ p.queue → (∀ i, i < p.size → p.worker i = .exited) → PStep p a p' → more p')
    {j : Nat} {p p' : Pool} {a : PLabel} (hr : s.e.g.real j = .pool p) (hp : PStep p a p') (ha : a ≠ .put l)
    {g' : Glob} {pc' : Nat → PC} {rs : List Log} (hreal : g'.real = setFn s.e.g.real j (.pool p'))
    (hl : g'.loads = s.e.g.loads) (hc : g'.calls = s.e.g.calls)
    (hs : g'.seq = s.e.g.seq ++ a.log?.toList) (hpc : ∀ t, (pc' t).log? ≠ some l) :
    DeadIn ⟨⟨g', pc'⟩, rs⟩ k l more := by
  have hlog : a.log? ≠ some l := by
    by_cases hjk : j = k
    · subst hjk
      obtain ⟨q, hq, h1, h2, _⟩ := h.here
      rw [hr] at hq; cases hq
      rw [(dead_step h1 h2 hp).2.2.1]; simp
    · obtain ⟨h1, h2⟩ := h.others j p hjk hr
      exact (other_step h1 h2 hp ha).2
  refine ⟨by rw [hc]; exact h.called, hpc, ?_, ?_, by rw [hl]; exact h.loaded, ?_⟩ <;> dsimp only
  · rw [hs]
    intro hm
    rcases List.mem_append.1 hm with hm | hm
    · exact h.unseen hm
    · exact hlog (by simpa using hm)
  · obtain ⟨q, hq, h1, h2, h3⟩ := h.here
    by_cases hjk : j = k
    · subst hjk
      rw [hr] at hq; cases hq
      obtain ⟨d1, d2, _, _⟩ := dead_step h1 h2 hp
      exact ⟨p', by rw [hreal, setFn_self], d1, d2, hmore _ _ _ h3 h1 h2 hp⟩
    · exact ⟨q, by rw [hreal, setFn_ne _ _ (Ne.symm hjk)]; exact hq, h1, h2, h3⟩
  · intro i q hi hq
    rw [hreal] at hq
    by_cases hij : i = j
    · subst hij
      rw [setFn_self] at hq
      cases hq
      obtain ⟨h1, h2⟩ := h.others i p hi hr
      exact (other_step h1 h2 hp ha).1
    · rw [setFn_ne _ _ hij] at hq; exact h.others i q hi hq

/-- A step that leaves the pools alone. -/
theorem DeadIn.same {s : FEng} {k : Nat} {l : Log} {more : Pool → Prop} (h : DeadIn s k l more)
    {g' : Glob} {pc' : Nat → PC} {rs : List Log} (hreal : g'.real = s.e.g.real)
    (hl : g'.loads = s.e.g.loads) (hc : ∀ x ∈ s.e.g.calls, x ∈ g'.calls)
    (hs : l ∉ g'.seq) (hpc : ∀ t, (pc' t).log? ≠ some l) : DeadIn ⟨⟨g', pc'⟩, rs⟩ k l more := by
  obtain ⟨x, hx, hxl⟩ := h.called
  exact ⟨⟨x, hc x hx, hxl⟩, hpc, hs, by dsimp only; rw [hreal]; exact h.here, by dsimp only; rw [hl]; exact h.loaded,
    by dsimp only; rw [hreal]; exact h.others⟩

theorem DeadIn.load {s : FEng} {k : Nat} {l : Log} {more : Pool → Prop} (h : DeadIn s k l more)
    {g' : Glob} {pc' : Nat → PC} {rs : List Log} {r : Real} (hr : r = .single ∨ ∃ n c, r = .pool (Pool.init n c))
    (hreal : g'.real = setFn s.e.g.real s.e.g.loads r)
    (hl : g'.loads = s.e.g.loads + 1) (hc : g'.calls = s.e.g.calls)
    (hs : g'.seq = s.e.g.seq) (hpc : ∀ t, (pc' t).log? ≠ some l) : DeadIn ⟨⟨g', pc'⟩, rs⟩ k l more := by
  have hk := h.loaded
  refine ⟨by rw [hc]; exact h.called, hpc, by rw [hs]; exact h.unseen, ?_, by dsimp only; omega, ?_⟩ <;> dsimp only
  · obtain ⟨q, hq, h1⟩ := h.here
    exact ⟨q, by rw [hreal, setFn_ne _ _ (by omega)]; exact hq, h1⟩
  · intro j q hj hq
    rw [hreal] at hq
    by_cases hjl : j = s.e.g.loads
    · subst hjl
      rw [setFn_self] at hq
      rcases hr with rfl | ⟨n, c, rfl⟩
      · cases hq
      · cases hq; exact ⟨by simp [Pool.init], fun i _ => by simp [Pool.init]⟩
    · rw [setFn_ne _ _ hjl] at hq; exact h.others j q hj hq

theorem DeadIn_step {s s' : FEng} {k : Nat} {l : Log} {more : Pool → Prop} (h : DeadIn s k l more)
    (hmore : ∀ p p' a, more p → l ∈ p.queue → (∀ i, i < p.size → p.worker i = .exited) → PStep p a p' → more p')
    (hagain : ∀ p, more p → p.stop = .done → more { p with stop := .polling })
    (hs : FailStep s s') : DeadIn s' k l more := by
  have mv : ∀ (t : Nat) (p' : PC), p'.log? ≠ some l → ∀ u, (setFn s.e.pc t p' u).log? ≠ some l := by
    intro t p' hp u
    by_cases hu : u = t
    · subst hu; rw [setFn_self]; exact hp
    · rw [setFn_ne _ _ hu]; exact h.nobody u
  have again : ∀ (j : Nat) (p : Pool) (pc' : Nat → PC), s.e.g.real j = .pool p → p.stop = .done →
      (∀ t, (pc' t).log? ≠ some l) →
      DeadIn ⟨⟨{ s.e.g with real := setFn s.e.g.real j (.pool { p with stop := .polling }) }, pc'⟩, s.raised⟩ k l more := by
    intro j p pc' hr hd hpc
    refine ⟨h.called, hpc, h.unseen, ?_, h.loaded, ?_⟩ <;> dsimp only
    · obtain ⟨q, hq, h1, h2, h3⟩ := h.here
      by_cases hjk : j = k
      · subst hjk
        rw [hr] at hq; cases hq
        exact ⟨{ p with stop := .polling }, by rw [setFn_self], h1, h2, hagain _ h3 hd⟩
      · exact ⟨q, by rw [setFn_ne _ _ (Ne.symm hjk)]; exact hq, h1, h2, h3⟩
    · intro i q hi hq
      by_cases hij : i = j
      · subst hij
        rw [setFn_self] at hq; cases hq
        exact h.others i p hi hr
      · rw [setFn_ne _ _ hij] at hq; exact h.others i q hi hq
  have nb : ∀ t, (s.e.pc t).log? ≠ some l := h.nobody
  cases hs with
  | run e' he =>
    cases he with
    | pool j p p' a hj hr hp hput hstop => exact h.poolStep hmore hr hp (hput l) rfl rfl rfl rfl h.nobody
    | thread t g' p' hst =>
      have hnt := h.nobody t
      have hfresh : ∀ l', (∀ x ∈ s.e.g.calls, x.2 ≠ l') → some l' ≠ some l := by
        intro l' hf he
        obtain ⟨x, hx, hxl⟩ := h.called
        cases he
        exact hf x hx hxl
      generalize hpc : s.e.pc t = pc at hst hnt
      have quiet := hst.effect
      cases hst with
      | callFirst l' hf =>
        exact h.same rfl rfl (fun x hx => List.mem_append_left _ hx) h.unseen (mv _ _ (hfresh l' hf))
      | callDirect l' hf =>
        exact h.same rfl rfl (fun x hx => List.mem_append_left _ hx) h.unseen (mv _ _ (hfresh l' hf))
      | callBlocked l' hf =>
        exact h.same rfl rfl (fun x hx => List.mem_append_left _ hx) h.unseen (mv _ _ (hfresh l' hf))
      | handSingle l' j hr =>
        refine h.same rfl rfl (fun x hx => hx) ?_ (mv _ _ (by simp [PC.log?]))
        intro hm
        rcases List.mem_append.1 hm with hm | hm
        · exact h.unseen hm
        · exact hnt (by rw [List.mem_singleton.1 hm]; rfl)
      | bHandSingle l' j hr =>
        refine h.same rfl rfl (fun x hx => hx) ?_ (mv _ _ (by simp [PC.log?]))
        intro hm
        rcases List.mem_append.1 hm with hm | hm
        · exact h.unseen hm
        · exact hnt (by rw [List.mem_singleton.1 hm]; rfl)
      | handPool l' j q q' hr hp =>
        exact h.poolStep hmore hr hp (by rintro he; cases he; exact hnt rfl) rfl rfl rfl (by simp [PLabel.log?]) (mv _ _ (by simp [PC.log?]))
      | bHandPool l' j q q' hr hp =>
        exact h.poolStep hmore hr hp (by rintro he; cases he; exact hnt rfl) rfl rfl rfl (by simp [PLabel.log?]) (mv _ _ (by simp [PC.log?]))
      | cStopPool j q q' hl hr hp =>
        exact h.poolStep hmore hr hp (by simp) rfl rfl rfl (by simp [PLabel.log?]) (mv _ _ (by simp [PC.log?]))
      | xStopPool j q q' hl hr hp =>
        exact h.poolStep hmore hr hp (by simp) rfl rfl rfl (by simp [PLabel.log?]) (mv _ _ (by simp [PC.log?]))
      | wLoadSingle l' => exact h.load (.inl rfl) rfl rfl rfl rfl (mv _ _ hnt)
      | wLoadWorkers l' => exact h.load (.inr ⟨_, _, rfl⟩) rfl rfl rfl rfl (mv _ _ hnt)
      | cLoad =>
        refine h.load (r := fabric s.e.g.poolSize s.e.g.maxQueue) ?_ rfl rfl rfl rfl (mv _ _ hnt)
        unfold fabric
        split
        · exact .inl rfl
        · exact .inr ⟨_, _, rfl⟩
      | cStore c => cases c <;> exact h.same rfl rfl (fun x hx => hx) h.unseen (mv _ _ hnt)
      | _ => exact h.same rfl rfl (fun x hx => hx) h.unseen (mv _ _ hnt)
  | firstFails t l' hp =>
    refine h.same rfl rfl (fun x hx => hx) h.unseen (mv _ _ ?_)
    have := nb t
    rcases hp with hp | hp | ⟨c, hp⟩ <;> rw [hp] at this <;> exact this
  | loadFails t hp => exact h.same rfl rfl (fun x hx => hx) h.unseen (mv _ _ (by simp [PC.log?]))
  | stopNone t hp => exact h.same rfl rfl (fun x hx => hx) h.unseen (mv _ _ (by simp [PC.log?]))
  | exitNone t hp => exact h.same rfl rfl (fun x hx => hx) h.unseen (mv _ _ (by simp [PC.log?]))
  | stopAgain t j p hp hl hr hd => exact again j p _ hr hd (mv _ _ (by simp [PC.log?]))
  | exitAgain t j p hp hl hr hd => exact again j p _ hr hd (mv _ _ (by simp [PC.log?]))
  | blockedNone t l' hp =>
    have := nb t
    rw [hp] at this
    exact h.same rfl rfl (fun x hx => hx) h.unseen (mv _ _ this)
  | raise t l' hp => exact h.same rfl rfl (fun x hx => hx) h.unseen (mv _ _ (by simp [PC.log?]))

theorem DeadIn_forever {s s' : FEng} {k : Nat} {l : Log} (h : DeadIn s k l fun _ => True)
    (hr : FailReach s s') : DeadIn s' k l fun _ => True := by
  induction hr with
  | init => exact h
  | step _ hs ih => exact DeadIn_step ih (fun _ _ _ _ _ _ _ => trivial) (fun _ _ _ => trivial) hs

/-- `stop` of a dead pool with a log in its queue never returns. -/
theorem hung_forever {s s' : FEng} {k t : Nat} {l : Log} (h : DeadIn s k l fun p => p.stop = .polling)
    (ht : s.e.pc t = .cStopping k) (hr : FailReach s s') :
    DeadIn s' k l (fun p => p.stop = .polling) ∧ s'.e.pc t = .cStopping k := by
  induction hr with
  | init => exact ⟨h, ht⟩
  | @step s1 s2 _ hs ih =>
    obtain ⟨hd, hpc⟩ := ih
    refine ⟨DeadIn_step hd (fun p p' a h1 h2 h3 h4 => (dead_step h2 h3 h4).2.2.2 h1) (fun _ _ _ => rfl) hs, ?_⟩
    have keep : ∀ (u : Nat) (p' : PC), s1.e.pc u ≠ .cStopping k → setFn s1.e.pc u p' t = .cStopping k := by
      intro u p' hu
      rw [setFn_ne _ _ (by rintro rfl; exact hu hpc)]; exact hpc
    cases hs with
    | run e' he =>
      cases he with
      | pool => exact hpc
      | thread u g' p' hst =>
        dsimp only
        by_cases hu : u = t
        · subst hu
          rw [hpc] at hst
          cases hst with
          | cStopped _ q hq hqd =>
            obtain ⟨p, hp, _, _, h4⟩ := hd.here
            rw [hp] at hq; cases hq
            rw [h4] at hqd; cases hqd
        · rw [setFn_ne _ _ (Ne.symm hu)]; exact hpc
    | firstFails u l' hp => refine keep u _ ?_; rcases hp with hp | hp | ⟨c, hp⟩ <;> rw [hp] <;> simp
    | loadFails u hp => exact keep u _ (by rw [hp]; simp)
    | stopNone u hp => exact keep u _ (by rw [hp]; simp)
    | exitNone u hp => exact keep u _ (by rw [hp]; simp)
    | stopAgain u j p hp => exact keep u _ (by rw [hp]; simp)
    | exitAgain u j p hp => exact keep u _ (by rw [hp]; simp)
    | blockedNone u l' hp => exact keep u _ (by rw [hp]; simp)
    | raise u l' hp => exact keep u _ (by rw [hp]; simp)

/-! ### Witnesses -/

theorem FailReach.th {s₀ s : FEng} (h : FailReach s₀ s) (t : Nat) {g' : Glob} {p' : PC}
    (hs : TStep t s.e.g (s.e.pc t) g' p') : FailReach s₀ ⟨⟨g', setFn s.e.pc t p'⟩, s.raised⟩ :=
  .step h (.run s _ (.thread s.e t g' p' hs))

theorem FailReach.po {s₀ s : FEng} (h : FailReach s₀ s) (k : Nat) {p p' : Pool} {a : PLabel}
    (hk : k < s.e.g.loads) (hr : s.e.g.real k = .pool p) (hp : PStep p a p') (hput : ∀ l, a ≠ .put l)
    (hstop : a ≠ .stop) :
    FailReach s₀ ⟨⟨{ s.e.g with real := setFn s.e.g.real k (.pool p'), seq := s.e.g.seq ++ a.log?.toList },
      s.e.pc⟩, s.raised⟩ :=
  .step h (.run s _ (.pool s.e k p p' a hk hr hp hput hstop))

theorem FailReach.self {s₀ s : FEng} (_ : FailReach s₀ s) : FailReach s s := .init

theorem mem_one {a b : Nat} {l : Log} (h : b ≠ l) : ∀ x ∈ [(a, b)], x.2 ≠ l := by
  intro x hx; rw [List.mem_singleton.1 hx]; exact h

/-- **C94 fails**, with the first engine: if its creation fails, the log calls raise `AttributeError`
(the first one and those after it, by `C94_without_an_engine_every_call_raises`), although the failure
itself was swallowed. -/
theorem C94_failed_first_engine_fails : ∃ s, FailReach FEng.init s ∧ NoEngine s.e ∧ s.raised = [5, 6] ∧
    (∀ t, s.e.pc t = .idle) ∧ s.e.g.hooks = 1 := by
  have b1 := (FailReach.init (s₀ := FEng.init)).th 0
    (.callFirst _ 5 (by simp [FEng.init, Eng.init, Glob.init]) rfl)
  have b2 := b1.th 0 (.wLock _ _ rfl)
  have b3 := b2.th 0 (.wNotYet _ _ rfl)
  have b4 := b3.th 0 (.wSetLock _ _ rfl)
  have b5 := b4.th 0 (.wSetStarted _ _)
  have b6 := b5.step (.firstFails _ 0 5 (.inl rfl))
  have b7 := b6.th 0 (.wRegister _ _)
  have b8 := b7.th 0 (.wDone _ _)
  have b9 := b8.th 0 (.fetchFails _ _ rfl)
  have b10 := b9.step (.raise _ 0 5 rfl)
  have c1 := b10.th 1 (.callDirect _ 6 (mem_one (a := 0) (b := 5) (by decide)) rfl)
  have c2 := c1.th 1 (.fetchFails _ _ rfl)
  have c3 := c2.step (.raise _ 1 6 rfl)
  refine ⟨_, c3, rfl, rfl, fun t => ?_, rfl⟩
  by_cases h0 : t = 0
  · subst h0; rfl
  · by_cases h1 : t = 1
    · subst h1; rfl
    · simp [setFn, h0, h1, FEng.init, Eng.init]

/-- **C94 fails**, with a pool: thread 0 writes logs with one worker, then calls `config.set(pool_size=2)`;
the old pool is stopped, the creation of the new one fails, and the stopped pool stays in use.  The
call of `config.set` returns without an error, the setting says 2, and every thread is outside polog.
Log 6, written after that, is never handled, although its call returned without an error.  And the
next change of the setting (here by thread 1) never returns. -/
theorem C94_failed_replacement_of_a_pool_fails : ∃ s, FailReach FEng.init s ∧ (∀ t, s.e.pc t = .idle) ∧
    s.raised = [] ∧ s.e.g.poolSize = 2 ∧ Written s.e 6 ∧ s.e.g.late = [6] ∧
    (∀ s', FailReach s s' → timesHandled s'.e 6 = 0) ∧
    ∃ s1, FailReach s s1 ∧ (∀ t, t ≠ 1 → s1.e.pc t = .idle) ∧ s1.e.g.poolSize = 3 ∧
      ∀ s', FailReach s1 s' → s'.e.pc 1 ≠ .idle := by
  have a1 := (FailReach.init (s₀ := FEng.init)).th 0 (.cCall _ (.poolSize 1))
  have a2 := a1.th 0 (.cAcquire _ _ rfl)
  have a3 := a2.th 0 (.cStore _ _ rfl rfl)
  have a4 := a3.th 0 (.cEngineEnter _ rfl)
  have a5 := a4.th 0 (.cEngineLeave _)
  have a6 := a5.th 0 (.cNotStarted _ rfl)
  have a7 := a6.th 0 (.cDone _)
  have b1 := a7.th 0 (.callFirst _ 5 (by simp [FEng.init, Eng.init, Glob.init, Change.apply]) rfl)
  have b2 := b1.th 0 (.wLock _ _ rfl)
  have b3 := b2.th 0 (.wNotYet _ _ rfl)
  have b4 := b3.th 0 (.wSetLock _ _ rfl)
  have b5 := b4.th 0 (.wSetStarted _ _)
  have b6 := b5.th 0 (.wLoadMulti _ _ (by decide))
  have b7 := b6.th 0 (.wLoadQueue _ _)
  have b8 := b7.th 0 (.wLoadWorkers _ _ _)
  have b9 := b8.th 0 (.wRegister _ _)
  have b10 := b9.th 0 (.wDone _ _)
  have b11 := b10.th 0 (.fetch _ _ 0 rfl)
  have b12 := b11.th 0 (.handPool _ _ 0 _ _ rfl (.put _ _ (.inl rfl)))
  have b13 := b12.po 0 (by decide) rfl (.take _ 0 5 [] (by decide) rfl rfl) (by simp) (by simp)
  have b14 := b13.po 0 (by decide) rfl (.handled _ 0 5 (by decide) rfl) (by simp) (by simp)
  have d1 := b14.th 0 (.cCall _ (.poolSize 2))
  have d2 := d1.th 0 (.cAcquire _ _ rfl)
  have d3 := d2.th 0 (.cStore _ _ rfl rfl)
  have d4 := d3.th 0 (.cEngineEnter _ rfl)
  have d5 := d4.th 0 (.cEngineLeave _)
  have d6 := d5.th 0 (.cStarted _ rfl)
  have d7 := d6.th 0 (.cBlock _ rfl)
  have d8 := d7.th 0 (.cSwap _)
  have d9 := d8.th 0 (.cStopPool _ 0 _ _ rfl rfl (.stopCall _ rfl))
  have d10 := d9.po 0 (by decide) rfl (.drained _ rfl rfl) (by simp) (by simp)
  have d11 := d10.po 0 (by decide) rfl (.setFlag _ 0 rfl (by decide)) (by simp) (by simp)
  have d12 := d11.po 0 (by decide) rfl (.flagged _ rfl) (by simp) (by simp)
  have d13 := d12.po 0 (by decide) rfl (.expire _ 0 (by decide) rfl rfl) (by simp) (by simp)
  have d14 := d13.po 0 (by decide) rfl (.exit _ 0 (by decide) rfl rfl) (by simp) (by simp)
  have d15 := d14.po 0 (by decide) rfl (.join _ 0 rfl (by decide) rfl) (by simp) (by simp)
  have d16 := d15.po 0 (by decide) rfl (.stopped _ rfl) (by simp) (by simp)
  have d17 := d16.th 0 (.cStopped _ 0 _ rfl rfl)
  have d18 := d17.step (.loadFails _ 0 rfl)
  have d19 := d18.th 0 (.cUnblock _)
  have d20 := d19.th 0 (.cRelease _)
  have d21 := d20.th 0 (.cDone _)
  have f1 := d21.th 0 (.callDirect _ 6 (mem_one (a := 0) (b := 5) (by decide)) rfl)
  have f2 := f1.th 0 (.fetch _ _ 0 rfl)
  have f3 := f2.th 0 (.handPool _ _ 0 _ _ rfl (.put _ _ (.inl rfl)))
  refine ⟨_, f3, fun t => ?_, rfl, rfl, ⟨0, List.mem_cons_of_mem _ (List.mem_singleton.2 rfl)⟩, rfl, ?_, ?_⟩
  · by_cases h : t = 0
    · subst h; rfl
    · simp [setFn, h, FEng.init, Eng.init]
  · intro s' hs'
    refine List.count_eq_zero.2 (DeadIn_forever (k := 0) (l := 6) ⟨?_, ?_, ?_, ?_, Nat.zero_lt_one, ?_⟩ hs').unseen
    · exact ⟨(0, 6), List.mem_cons_of_mem _ (List.mem_singleton.2 rfl), rfl⟩
    · intro t
      by_cases h : t = 0
      · subst h; simp [setFn, PC.log?]
      · simp [setFn, h, FEng.init, Eng.init, PC.log?]
    · exact of_decide_eq_true rfl
    · refine ⟨_, rfl, List.mem_singleton.2 rfl, fun i hi => ?_, trivial⟩
      have : i = 0 := Nat.lt_one_iff.1 hi
      subst this; rfl
    · intro j q hj hq
      simp [setFn, hj, FEng.init, Eng.init, Glob.init, Glob.load, Change.apply] at hq
  · have e1 := f3.self.th 1 (.cCall _ (.poolSize 3))
    have e2 := e1.th 1 (.cAcquire _ _ rfl)
    have e3 := e2.th 1 (.cStore _ _ rfl rfl)
    have e4 := e3.th 1 (.cEngineEnter _ rfl)
    have e5 := e4.th 1 (.cEngineLeave _)
    have e6 := e5.th 1 (.cStarted _ rfl)
    have e7 := e6.th 1 (.cBlock _ rfl)
    have e8 := e7.th 1 (.cSwap _)
    have e9 := e8.step (.stopAgain _ 1 0 _ rfl rfl rfl rfl)
    refine ⟨_, e9, fun t ht => ?_, rfl, ?_⟩
    · by_cases h : t = 0
      · subst h; rfl
      · simp [setFn, h, ht, FEng.init, Eng.init]
    · intro s' hs'
      rw [(hung_forever (k := 0) (l := 6) (t := 1) ⟨?_, ?_, ?_, ?_, Nat.zero_lt_one, ?_⟩ rfl hs').2]
      · simp
      · exact ⟨(0, 6), List.mem_cons_of_mem _ (List.mem_singleton.2 rfl), rfl⟩
      · intro t
        by_cases h : t = 0
        · subst h; simp [setFn, PC.log?]
        · by_cases h1 : t = 1
          · subst h1; simp [setFn, PC.log?]
          · simp [setFn, h, h1, FEng.init, Eng.init, PC.log?]
      · exact of_decide_eq_true rfl
      · refine ⟨_, rfl, List.mem_singleton.2 rfl, fun i hi => ?_, rfl⟩
        have : i = 0 := Nat.lt_one_iff.1 hi
        subst this; rfl
      · intro j q hj hq
        simp [setFn, hj, FEng.init, Eng.init, Glob.init, Glob.load, Change.apply] at hq

/-- **C94 fails** also for the description of the engine by the settings: after a failure in
`config.set(pool_size=2)` the setting says 2, the call returned without an error, and the engine in use
is the synchronous one (compare C66).  The logs go on being handled: the hypotheses of
`C94_failures_lose_nothing_partial` and `C94_calls_can_return_after_failures_partial` are met here. -/
theorem C94_settings_describe_the_engine_fails : ∃ e, GentleReach e ∧ (∀ t, e.pc t = .idle) ∧
    e.g.poolSize = 2 ∧ SyncInUse e ∧ Written e 5 ∧ Written e 6 ∧ timesHandled e 6 = 1 := by
  have th : ∀ {e : Eng} (_ : GentleReach e) (t : Nat) {g' : Glob} {p' : PC}
      (_ : TStep t e.g (e.pc t) g' p'), GentleReach ⟨g', setFn e.pc t p'⟩ :=
    fun h t _ _ hs => .run h (.thread _ t _ _ hs)
  have b1 := th .init 0 (.callFirst _ 5 (by simp [Eng.init, Glob.init]) rfl)
  have b2 := th b1 0 (.wLock _ _ rfl)
  have b3 := th b2 0 (.wNotYet _ _ rfl)
  have b4 := th b3 0 (.wSetLock _ _ rfl)
  have b5 := th b4 0 (.wSetStarted _ _)
  have b6 := th b5 0 (.wLoadSingle _ _ rfl)
  have b7 := th b6 0 (.wRegister _ _)
  have b8 := th b7 0 (.wDone _ _)
  have b9 := th b8 0 (.fetch _ _ 0 rfl)
  have b10 := th b9 0 (.handSingle _ _ 0 rfl)
  have d1 := th b10 0 (.cCall _ (.poolSize 2))
  have d2 := th d1 0 (.cAcquire _ _ rfl)
  have d3 := th d2 0 (.cStore _ _ rfl rfl)
  have d4 := th d3 0 (.cEngineEnter _ rfl)
  have d5 := th d4 0 (.cEngineLeave _)
  have d6 := th d5 0 (.cStarted _ rfl)
  have d7 := th d6 0 (.cBlock _ rfl)
  have d8 := th d7 0 (.cSwap _)
  have d9 := th d8 0 (.cStopSingle _ 0 rfl rfl)
  have d10 := GentleReach.loadFails 0 d9 rfl ⟨0, rfl, rfl⟩
  have d11 := th d10 0 (.cUnblock _)
  have d12 := th d11 0 (.cRelease _)
  have d13 := th d12 0 (.cDone _)
  have f1 := th d13 0 (.callDirect _ 6 (mem_one (a := 0) (b := 5) (by decide)) rfl)
  have f2 := th f1 0 (.fetch _ _ 0 rfl)
  have f3 := th f2 0 (.handSingle _ _ 0 rfl)
  refine ⟨_, f3, fun t => ?_, rfl, ⟨0, rfl, rfl⟩, ⟨0, .head _⟩, ⟨0, .tail _ (.head _)⟩, rfl⟩
  by_cases h : t = 0
  · subst h; rfl
  · simp [setFn, h, Eng.init]

/-- The hypotheses of `C94_calls_can_return_after_failures_partial` for a thread inside `config.set`: its
new engine has just failed to be created, and another thread waits to write. -/
example : ∃ e, GentleReach e ∧ 0 < e.g.loads ∧
    (∀ k, k < e.g.loads → ∀ p, e.g.real k = .pool p → 0 < p.size) ∧ (∀ t, ¬ Exiting e t) ∧
    ¬ Stranded e 1 ∧ e.pc 0 = .cUnblock ∧ e.pc 1 = .bLock 6 := by
  have th : ∀ {e : Eng} (_ : GentleReach e) (t : Nat) {g' : Glob} {p' : PC}
      (_ : TStep t e.g (e.pc t) g' p'), GentleReach ⟨g', setFn e.pc t p'⟩ :=
    fun h t _ _ hs => .run h (.thread _ t _ _ hs)
  have b1 := th .init 0 (.callFirst _ 5 (by simp [Eng.init, Glob.init]) rfl)
  have b2 := th b1 0 (.wLock _ _ rfl)
  have b3 := th b2 0 (.wNotYet _ _ rfl)
  have b4 := th b3 0 (.wSetLock _ _ rfl)
  have b5 := th b4 0 (.wSetStarted _ _)
  have b6 := th b5 0 (.wLoadSingle _ _ rfl)
  have b7 := th b6 0 (.wRegister _ _)
  have b8 := th b7 0 (.wDone _ _)
  have b9 := th b8 0 (.fetch _ _ 0 rfl)
  have b10 := th b9 0 (.handSingle _ _ 0 rfl)
  have d1 := th b10 0 (.cCall _ (.poolSize 2))
  have d2 := th d1 0 (.cAcquire _ _ rfl)
  have d3 := th d2 0 (.cStore _ _ rfl rfl)
  have d4 := th d3 0 (.cEngineEnter _ rfl)
  have d5 := th d4 0 (.cEngineLeave _)
  have d6 := th d5 0 (.cStarted _ rfl)
  have d7 := th d6 0 (.cBlock _ rfl)
  have d8 := th d7 0 (.cSwap _)
  have d9 := th d8 1 (.callBlocked _ 6 (mem_one (a := 0) (b := 5) (by decide)) rfl)
  have d10 := th d9 0 (.cStopSingle _ 0 rfl rfl)
  have d11 := GentleReach.loadFails 0 d10 rfl ⟨0, rfl, rfl⟩
  have hpc : ∀ t, t ≠ 0 → t ≠ 1 → Eng.init.pc t = .idle := fun _ _ _ => rfl
  refine ⟨_, d11, Nat.zero_lt_one, ?_, ?_, ?_, rfl, rfl⟩
  · intro k hk p hp
    have : k = 0 := Nat.lt_one_iff.1 hk
    subst this
    cases hp
  · intro t
    by_cases h : t = 0
    · subst h; simp [Exiting, setFn]
    · by_cases h1 : t = 1
      · subst h1; simp [Exiting, setFn]
      · simp [Exiting, setFn, h, h1, Eng.init]
  · rintro ⟨l, k, p, hp, _⟩
    simp [setFn] at hp

end Polog
